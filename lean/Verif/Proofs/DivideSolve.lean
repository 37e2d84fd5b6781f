import Verif.Props.DivideElast
import Verif.Props.DivideFlow
import Verif.Props.FomSolve
import Verif.Spec.DivideSolve
import Mathlib.LinearAlgebra.FiniteDimensional.Lemmas
import Mathlib.LinearAlgebra.Matrix.ToLin

/-!
# Lemmas for C118
-/

namespace Verif.Divide

open Verif Verif.LinAlg Verif.LinAlg.Spec Verif.SubMesh Verif.SubMesh.Spec Finset Spec
open Verif.InterfaceForm (Space Integ MatArr)
open Verif.InterfaceForm.Spec (sizeIn mget MatsOk)
open Verif.Boundary (BC)
open Verif.Blocks (BlockVector)
open Verif.Blocks.Spec (HasSizes IsOffsets)
open Verif.Unsteady (first_bound)
open Verif.Unsteady.Spec (first Direct)
open Verif.FomSolve (Ext Opts)
open Verif.FomSolve.Spec (lhs)
open Verif.Mumps (Physics)
open Verif.SteadyNS (Sol)

variable {R δ F : Type}

/-- Equations with only the solution zero for the right-hand side zero have a solution for every right-hand
side. -/
theorem Nonsingular.solvable [Field R] {m : Nat} {n : Nat → Nat} {A : Nat → Nat → Nat → Nat → R}
    (h : Nonsingular m n A) (y : Nat → Nat → R) : ∃ ξ : Nat → Nat → R, ∀ e a, e < m → a < n e →
      ∑ e' ∈ range m, ∑ b ∈ range (n e'), A e a e' b * ξ e' b = y e a := by
  classical
  let ι := Σ e : Fin m, Fin (n e)
  let T : (ι → R) →ₗ[R] (ι → R) := Matrix.mulVecLin (Matrix.of fun i j : ι => A i.1 i.2 j.1 j.2)
  let ext : (ι → R) → Nat → Nat → R := fun x e a => if h1 : e < m then
    (if h2 : a < n e then x ⟨⟨e, h1⟩, ⟨a, h2⟩⟩ else 0) else 0
  have hext : ∀ (x : ι → R) (i : ι), ext x i.1 i.2 = x i := by
    rintro x ⟨⟨e, h1⟩, ⟨a, h2⟩⟩
    show (if h1 : e < m then (if h2 : a < n e then x ⟨⟨e, h1⟩, ⟨a, h2⟩⟩ else 0) else 0) = _
    rw [dif_pos h1, dif_pos h2]
  have hT : ∀ (x : ι → R) (i : ι), T x i =
      ∑ e' ∈ range m, ∑ b ∈ range (n e'), A i.1 i.2 e' b * ext x e' b := by
    intro x i
    show ∑ j : ι, A i.1 i.2 j.1 j.2 * x j = _
    rw [Fintype.sum_sigma, Finset.sum_range]
    refine sum_congr rfl fun e _ => ?_
    rw [Finset.sum_range]
    exact sum_congr rfl fun b _ => by rw [← hext x ⟨e, b⟩]
  have hinj : Function.Injective T := by
    rw [injective_iff_map_eq_zero]
    intro x hx
    have := h (ext x) (fun e a he ha => by rw [← hT x ⟨⟨e, he⟩, ⟨a, ha⟩⟩, hx]; rfl)
    funext i
    rw [← hext x i]
    exact this _ _ i.1.2 i.2.2
  obtain ⟨x, hx⟩ := LinearMap.injective_iff_surjective.1 hinj fun i => y i.1 i.2
  refine ⟨ext x, fun e a he ha => ?_⟩
  have := congrFun hx ⟨⟨e, he⟩, ⟨a, ha⟩⟩
  rw [hT] at this
  exact this

section
variable [CommRing R] {pm : Parent} {subs : List Sub} {φ : Nat → Nat → Nat} {g : Int} {bc : BC F} {W : Whole R}
variable {spaces : List Space} {M : MatArr R} {n : Nat → Nat}

theorem sizes_eq (h : spaces.length = subs.length) :
    spaces.map (·.vsize) = (List.range subs.length).map (sizeIn spaces) := by
  rw [sizes_tab, h]; rfl

theorem offsetsOf_ok (h : spaces.length = subs.length) :
    IsOffsets (offsetsOf spaces) ((List.range subs.length).map (sizeIn spaces)) := by
  unfold offsetsOf
  rw [sizes_eq h]
  exact Blocks.isOffsets_partialSum _

theorem lhs_eq {w : Nat → Nat} {x : List R} {k r : Nat} :
    lhs subs.length w M (ve x) k r = rowMult M subs.length w (part w x) k r := rfl

/-- The array of matrices of a symmetric form is symmetric. -/
theorem symmetric_of (hcov : Covers pm subs) (hn : W.ns = W.nt) (hM : Entries W pm bc subs spaces spaces M)
    (hsp : Spaces subs W.nt spaces) (hs : SymmetricForm pm.elemEdges.length W.nt (entry W pm bc)) :
    FomSolve.Spec.Symmetric subs.length (sizeIn spaces) M := by
  have := (all_entries hcov hsp (P := fun k r => ∀ k' r', k' < subs.length → r' < sizeIn spaces k' →
      mget M k k' r r' = mget M k' k r' r) (Q := fun e a => ∀ e' b, e' < pm.elemEdges.length → b < W.nt e' →
      entry W pm bc e a e' b = entry W pm bc e' b e a) (by
    intro k i e a sm s hk hs hi ha
    refine all_entries hcov hsp ?_
    intro k' i' e' b sm' s' hk' hs' hi' hb
    rw [hM k i e k' i' e' a b sm s sm' s' hk hs hi hk' hs' hi' ha (by rw [hn]; exact hb),
      hM k' i' e' k i e b a sm' s' sm s hk' hs' hi' hk hs hi hb (by rw [hn]; exact ha)])).2
    (fun e a he ha e' b he' hb => hs e a e' b he ha he' hb)
  exact fun m m' k l hm hm' hk hl => this m k hm hk m' l hm' hl

/-- The blocks of a right-hand side, stored one after the other. -/
theorem flatten_ok {f : List (List R)} (hf : f.length = subs.length) {w : Nat → Nat}
    (lf : ∀ (k : Nat) y, f[k]? = some y → y.length = w k) :
    f.flatten.length = first w subs.length ∧
      ∀ k r, k < subs.length → r < w k → part w f.flatten k r = ve (f[k]?.getD []) r := by
  have hz : f.map List.length = tab subs.length w := by
    apply List.ext_getElem?
    intro i
    rw [List.getElem?_map, getElem?_tab]
    by_cases hi : i < subs.length
    · have e := List.getElem?_eq_getElem (show i < f.length by omega)
      rw [if_pos hi, e, ← lf i _ e]; rfl
    · rw [if_neg hi, List.getElem?_eq_none (by omega)]; rfl
  refine ⟨by rw [List.length_flatten, hz, EqpRom.tab_sum]; rfl, ?_⟩
  intro k r hk hr
  have e := List.getElem?_eq_getElem (show k < f.length by omega)
  have := flatten_at f e (k := r) (by rw [lf k _ e]; exact hr)
  rw [hz, EqpRom.tab_take_sum _ _ (by omega)] at this
  unfold part ve
  rw [show first w k = ∑ i ∈ range k, w i from rfl, this, e]; rfl

end

section
variable [Field R] {pm : Parent} {subs : List Sub} {φ : Nat → Nat → Nat} {g : Int} {bc : BC F} {W : Whole R}
variable {spaces : List Space} {M : MatArr R}

/-- One variable: the direct solver on an assembled division. -/
theorem direct_run (ph : Physics) (D : Division pm subs φ g) (hcov : Covers pm subs) (hn : W.ns = W.nt)
    (hMs : MatsOk M subs.length (sizeIn spaces) (sizeIn spaces)) (hM : Entries W pm bc subs spaces spaces M)
    (hsp : Spaces subs W.nt spaces) (hs : SymmetricForm pm.elemEdges.length W.nt (entry W pm bc))
    (hns : Nonsingular pm.elemEdges.length W.nt (entry W pm bc)) {y : Nat → Nat → R} {f : List (List R)}
    (hf : f.length = subs.length) (lf : ∀ (k : Nat) y, f[k]? = some y → y.length = sizeIn spaces k)
    (hfy : ∀ (k i e a : Nat) sm s, subs[k]? = some sm → spaces[k]? = some s → sm.elemMap[i]? = some e →
      a < W.nt e → ve (f[k]?.getD []) (pos s i a) = y e a)
    {x : Ext R} (hd : Direct x.direct) {o : Opts} (hdir : o.direct = true) (gen : Bool) {st : Sol R}
    (hU : HasSizes st.U (spaces.map (·.vsize))) :
    ∃ st' ξ, FomSolve.run ph x o subs.length (offsetsOf spaces) M ⟨f.flatten, offsetsOf spaces⟩ gen st =
        .ok (true, st') ∧
      HasSizes st'.U (spaces.map (·.vsize)) ∧ Represents subs spaces W.nt (part (sizeIn spaces) st'.U.data) ξ ∧
      (∀ e a, e < pm.elemEdges.length → a < W.nt e → applied W pm bc ξ e a = y e a) ∧
      st'.saved = if gen then st.saved ++ [st'.U] else st.saved := by
  obtain ⟨f1, f2⟩ := flatten_ok hf lf
  have ho := offsetsOf_ok (spaces := spaces) (subs := subs) hsp.1
  rw [sizes_eq hsp.1] at hU ⊢
  have hiff : ∀ (z : Nat → R) (ξ : Nat → Nat → R),
      Represents subs spaces W.nt (fun k r => z (first (sizeIn spaces) k + r)) ξ →
      (FomSolve.Spec.Solves subs.length (sizeIn spaces) M (ve f.flatten) z ↔
        ∀ e a, e < pm.elemEdges.length → a < W.nt e → applied W pm bc ξ e a = y e a) := by
    intro z ξ hz
    refine all_entries (P := fun k r => FomSolve.Spec.lhs subs.length (sizeIn spaces) M z k r =
      ve f.flatten (first (sizeIn spaces) k + r)) hcov hsp ?_
    intro k i e a sm s hk hs hi ha
    have h1 := row_eq D hcov hM (by rw [hn]; exact hsp) (by rw [hn]; exact hz) hk hs hi ha
    have h2 := f2 k _ (List.getElem?_eq_some_iff.1 hk).1 (dof_lt hsp hk hs hi ha)
    rw [show FomSolve.Spec.lhs subs.length (sizeIn spaces) M z k (pos s i a) = _ from h1,
      show ve f.flatten (first (sizeIn spaces) k + pos s i a) = _ from h2, hfy k i e a sm s hk hs hi ha]
  obtain ⟨ξ₀, hξ₀⟩ := Nonsingular.solvable hns y
  obtain ⟨x₀, hx₀⟩ := represented hsp ξ₀
  obtain ⟨z, hz⟩ := flat_vec subs.length (sizeIn spaces) x₀
  have hsol : FomSolve.Spec.Solves subs.length (sizeIn spaces) M (ve f.flatten) z := by
    refine (hiff z ξ₀ ?_).2 ?_
    · intro k sm s i e b hk hs hi hb
      rw [← hx₀ k sm s i e b hk hs hi hb]
      exact hz k _ (List.getElem?_eq_some_iff.1 hk).1 (dof_lt hsp hk hs hi hb)
    · intro e a he ha
      rw [← hξ₀ e a he ha]
      unfold applied
      rw [hn]
  obtain ⟨st', r1, r2, r3, r4⟩ := FomSolve.direct_solve_partial ph hd hdir ho hMs
    (.inr (symmetric_of hcov hn hM hsp hs)) (rhs := ⟨f.flatten, offsetsOf spaces⟩)
    ⟨ho, by rw [f1]; exact (EqpRom.tab_sum _ _).symm⟩ gen hU ⟨z, hsol⟩
  obtain ⟨ξ, hξ⟩ := represents_of (n := W.nt) (spaces := spaces) D (part (sizeIn spaces) st'.U.data)
  exact ⟨st', ξ, r1, r2, hξ, (hiff _ ξ hξ).1 r3, r4⟩

end

end Verif.Divide
