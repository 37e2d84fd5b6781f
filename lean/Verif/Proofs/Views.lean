import Verif.Proofs.LinAlg
import Verif.Proofs.Blocks
import Verif.Model.Views

/-! # Lemmas about views -/

namespace Verif.LinAlg

open Verif Verif.LinAlg.Spec Finset

variable {R : Type} [CommRing R]

theorem getSeg_eq {y : List R} {off len : Nat} (h : off + len ≤ y.length) :
    getSeg y off len = .ok (tab len (fun k => ve y (off + k))) := by
  unfold getSeg
  rw [if_pos h]
  congr 1
  apply List.ext_getElem?
  intro k
  rw [List.getElem?_take, getElem?_tab, List.getElem?_drop]
  by_cases hk : k < len
  · simp [hk, ve, show off + k < y.length by omega]
  · simp [hk]

theorem setSeg_eq {y l : List R} {off : Nat} (h : off + l.length ≤ y.length) :
    ∃ y', setSeg y off l = .ok y' ∧ y'.length = y.length ∧
      ∀ t, ve y' t = if off ≤ t ∧ t < off + l.length then ve l (t - off) else ve y t := by
  refine ⟨_, if_pos h, by simp; omega, ?_⟩
  intro t
  unfold ve
  rw [List.append_assoc, List.getElem?_append, List.getElem?_append]
  rw [List.length_take, Nat.min_eq_left (by omega)]
  by_cases h1 : t < off
  · rw [if_pos h1, if_neg (by omega), List.getElem?_take, if_pos h1]
  · rw [if_neg h1]
    by_cases h2 : t < off + l.length
    · rw [if_pos (by omega), if_pos ⟨by omega, h2⟩]
    · rw [if_neg (by omega), if_neg (by omega), List.getElem?_drop,
        show off + l.length + (t - off - l.length) = t by omega]

theorem Sp.addMult_eq {s : Sp R} {x y : List R} {a : R} (hx : x.length = s.w) (hy : y.length = s.h) :
    s.addMult x y a = .ok (tab s.h (fun r => ve y r + a * ∑ c ∈ range s.w, s.get r c * ve x c)) := by
  unfold Sp.addMult
  rw [if_pos ⟨hx, hy⟩]
  rfl

theorem Mat.mult_eq {m : Mat R} {x : List R} (hx : x.length = m.w) :
    m.mult x = .ok (tab m.h (fun r => ∑ c ∈ range m.w, ent m r c * ve x c)) := by
  unfold Mat.mult
  rw [if_pos hx]
  rfl

theorem Sp.toDense_ent {s : Sp R} {r c : Nat} (hr : r < s.h) (hc : c < s.w) :
    ent s.toDense r c = s.get r c := by
  unfold ent Sp.toDense
  have := idx_lt (w := s.w) hr hc
  show ve (tab _ _) _ = _
  rw [ve_tab this]
  rw [Nat.add_mul_mod_self_right, Nat.mod_eq_of_lt hr, Nat.add_mul_div_right _ _ (by omega),
    Nat.div_eq_of_lt hr, Nat.zero_add]

theorem zipWith_tab {n : Nat} {f g : Nat → R} :
    (tab n f).zipWith (· + ·) (tab n g) = tab n (fun k => f k + g k) := by
  apply List.ext_getElem?
  intro k
  rw [List.getElem?_zipWith, getElem?_tab, getElem?_tab, getElem?_tab]
  by_cases h : k < n <;> simp [h]

/-- Blocks of a vector do not overlap. -/
theorem block_disjoint (sizes : List Nat) {i j c s t : Nat} (hi : sizes[i]? = some s)
    (hj : sizes[j]? = some t) (hc : c < t) (hij : i ≠ j) :
    ¬ ((sizes.take i).sum ≤ (sizes.take j).sum + c ∧
      (sizes.take j).sum + c < (sizes.take i).sum + s) := by
  have h1 := Blocks.take_sum_succ sizes hi
  have h2 := Blocks.take_sum_succ sizes hj
  rcases Nat.lt_or_ge i j with h | h
  · have := Blocks.take_sum_mono sizes (show i + 1 ≤ j by omega); omega
  · have := Blocks.take_sum_mono sizes (show j + 1 ≤ i by omega); omega

theorem block_bound (sizes : List Nat) {i s : Nat} (hi : sizes[i]? = some s) :
    (sizes.take i).sum + s ≤ sizes.sum := by
  rw [← Blocks.take_sum_succ sizes hi]
  have := Blocks.take_sum_mono sizes (show i + 1 ≤ max (i + 1) sizes.length by omega)
  rwa [List.take_of_length_le (show sizes.length ≤ max (i + 1) sizes.length by omega)] at this

end Verif.LinAlg
