import Verif.Model.Mumps
import Mathlib.Order.Lattice

/-! # Lemmas about the direct solver -/

namespace Verif.Mumps

open Verif Verif.LinAlg

variable {R : Type}

/-- A symmetric matrix is factorised as it is, whatever the mode. -/
theorem seen_eq (lower : Bool) (t : MatType) (a : Blk R) (N : Nat)
    (h : t = .unsymmetric ∨ ∀ r c, r < N → c < N → a.val r c = a.val c r) :
    (seen lower t a).h = a.h ∧ (seen lower t a).w = a.w ∧
      ∀ r c, r < N → c < N → (seen lower t a).val r c = a.val r c := by
  have key : ∀ r c, (∀ r c, r < N → c < N → a.val r c = a.val c r) → r < N → c < N →
      (if lower then a.val (max r c) (min r c) else a.val (min r c) (max r c)) = a.val r c := by
    intro r c h hr hc
    rcases Nat.le_total r c with hh | hh
    · rw [max_eq_right hh, min_eq_left hh, h c r hc hr, ite_self]
    · rw [max_eq_left hh, min_eq_right hh, h c r hc hr, ite_self]
  cases t with
  | unsymmetric => exact ⟨rfl, rfl, fun _ _ _ _ => rfl⟩
  | symmetricPositiveDefinite =>
    exact ⟨rfl, rfl, fun r c hr hc => key r c (h.resolve_left (by simp)) hr hc⟩
  | symmetricIndefinite =>
    exact ⟨rfl, rfl, fun r c hr hc => key r c (h.resolve_left (by simp)) hr hc⟩

end Verif.Mumps
