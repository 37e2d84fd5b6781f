import Verif.Spec.RomHandler
import Verif.Proofs.Views
import Verif.Props.Blocks
import Verif.Props.BlockMat

/-! # Lemmas about the ROM handler -/

namespace Verif.RomHandler

open Verif Verif.LinAlg Verif.LinAlg.Spec Verif.Blocks Verif.Blocks.Spec Verif.RomHandler.Spec Finset

variable {R : Type} [CommRing R]

theorem multTranspose_eq {m : Mat R} {x : List R} (hx : x.length = m.h) :
    multTranspose m x = .ok (tab m.w (fun c => ∑ r ∈ range m.h, ent m r c * ve x r)) := by
  unfold multTranspose
  rw [if_pos hx]
  rfl

theorem bent_eq {b : BlockVector R} {z : List Nat} (h : HasSizes b z) {i s k : Nat}
    (hs : z[i]? = some s) (hk : k < s) : bent b i k = ve b.data ((z.take i).sum + k) := by
  unfold bent ve
  rw [blockOf_getElem? h hs, if_pos hk]

theorem readBlock_eq {b : BlockVector R} {z : List Nat} (h : HasSizes b z) {i s : Nat}
    (hs : z[i]? = some s) : readBlock b i = .ok (tab s (fun k => bent b i k)) := by
  have hi := (List.getElem?_eq_some_iff.1 hs).1
  unfold readBlock
  rw [rd_eq_ok.2 (h.1.value (i := i) (by omega)), ok_bind, h.blockSize hs, ok_bind,
    getSeg_eq (by rw [h.2]; exact block_bound z hs)]
  exact congrArg _ (tab_congr fun k hk => (bent_eq h hs hk).symm)

theorem writeBlock_spec {b : BlockVector R} {z : List Nat} (h : HasSizes b z) {i : Nat} {l : List R}
    (hs : z[i]? = some l.length) :
    ∃ b', writeBlock b i l = .ok b' ∧ HasSizes b' z ∧ (∀ k, k < l.length → bent b' i k = ve l k) ∧
      ∀ j s k, j ≠ i → z[j]? = some s → k < s → bent b' j k = bent b j k := by
  have hi := (List.getElem?_eq_some_iff.1 hs).1
  obtain ⟨d, e1, e2, e3⟩ := setSeg_eq (y := b.data) (l := l) (off := (z.take i).sum)
    (by rw [h.2]; exact block_bound z hs)
  have hz : HasSizes ({ b with data := d } : BlockVector R) z := ⟨h.1, by rw [← h.2]; exact e2⟩
  refine ⟨{ b with data := d }, ?_, hz, ?_, ?_⟩
  · unfold writeBlock
    rw [rd_eq_ok.2 (h.1.value (i := i) (by omega)), ok_bind, e1]; rfl
  · intro k hk
    rw [bent_eq hz hs hk, e3, if_pos ⟨by omega, by omega⟩, Nat.add_sub_cancel_left]
  · intro j s k hj hsj hk
    rw [bent_eq hz hsj hk, bent_eq h hsj hk, e3, if_neg]
    exact block_disjoint z hs hsj hk (Ne.symm hj)

/-- Two block vectors with the same entries are equal. -/
theorem bent_ext {a b : BlockVector R} {z : List Nat} (ha : HasSizes a z) (hb : HasSizes b z)
    (h : ∀ i s k, z[i]? = some s → k < s → bent a i k = bent b i k) : a = b := by
  refine blocks_ext ha hb fun i hi => ?_
  have hs : z[i]? = some z[i] := by simp [hi]
  have la := length_blockOf ha hs
  have lb := length_blockOf hb hs
  apply List.ext_getElem?
  intro k
  by_cases hk : k < z[i]
  · have := h i _ k hs hk
    unfold bent ve at this
    rw [List.getElem?_eq_getElem (by omega), List.getElem?_eq_getElem (by omega)] at this ⊢
    exact congrArg some this
  · rw [List.getElem?_eq_none (by omega), List.getElem?_eq_none (by omega)]

omit [CommRing R] in
theorem numBlocks_eq [CommRing R] (h : Handler R) : h.numBlocks = h.numSub * vars h := by
  unfold Handler.numBlocks vars
  split <;> simp

theorem romBlock_lt (h : Handler R) {m v : Nat} (hm : m < h.numSub) (hv : v < vars h) :
    romBlock h m v < h.numBlocks := by
  rw [numBlocks_eq]
  unfold romBlock vars at *
  cases h.ord with
  | domain => have := pair_lt hm hv; rw [Nat.mul_comm] at this; rwa [Nat.mul_comm h.numSub]
  | «variable» =>
    dsimp only
    split
    · next hs => rw [if_pos hs] at hv; have := pair_lt hv hm; rw [Nat.mul_comm]; exact this
    · omega

theorem fomBlock_lt (h : Handler R) {m v : Nat} (hm : m < h.numSub) (hv : v < vars h) :
    fomBlock h m v < h.numBlocks := by
  rw [numBlocks_eq]
  have := pair_lt hm hv; unfold fomBlock; rw [Nat.mul_comm m, Nat.mul_comm h.numSub]; exact this

theorem fomBlock_inj (h : Handler R) {m v m' v' : Nat} (hv : v < vars h) (hv' : v' < vars h)
    (e : fomBlock h m v = fomBlock h m' v') : m = m' ∧ v = v' := by
  unfold fomBlock at e
  rw [Nat.mul_comm m, Nat.mul_comm m'] at e
  exact pair_inj hv hv' e

theorem romBlock_inj (h : Handler R) {m v m' v' : Nat} (hm : m < h.numSub) (hm' : m' < h.numSub)
    (hv : v < vars h) (hv' : v' < vars h) (e : romBlock h m v = romBlock h m' v') :
    m = m' ∧ v = v' := by
  unfold romBlock at e
  cases ho : h.ord with
  | domain => rw [ho] at e; exact fomBlock_inj h hv hv' e
  | «variable» =>
    rw [ho] at e
    dsimp only at e
    split at e
    · next hs =>
      rw [Nat.mul_comm v, Nat.mul_comm v'] at e
      have := pair_inj hm hm' e; omega
    · next hs => unfold vars at hv hv'; rw [if_neg hs] at hv hv'; omega

/-- Every block index is that of a pair. -/
theorem fomBlock_surj (h : Handler R) {i : Nat} (hi : i < h.numBlocks) :
    ∃ m v, m < h.numSub ∧ v < vars h ∧ fomBlock h m v = i := by
  rw [numBlocks_eq] at hi
  have hn : 0 < vars h := Nat.pos_of_mul_pos_left (by omega : 0 < h.numSub * vars h)
  exact ⟨i / vars h, i % vars h, Nat.div_lt_of_lt_mul (by rw [Nat.mul_comm]; exact hi),
    Nat.mod_lt _ hn, by unfold fomBlock; rw [Nat.mul_comm]; exact Nat.div_add_mod _ _⟩

theorem romBlock_surj (h : Handler R) {i : Nat} (hi : i < h.numBlocks) :
    ∃ m v, m < h.numSub ∧ v < vars h ∧ romBlock h m v = i := by
  cases ho : h.ord with
  | domain =>
    obtain ⟨m, v, a, b, c⟩ := fomBlock_surj h hi
    exact ⟨m, v, a, b, by unfold romBlock; rw [ho]; exact c⟩
  | «variable» =>
    unfold Handler.numBlocks at hi
    by_cases hs : h.separate = true
    · rw [if_pos hs] at hi
      have hn : 0 < h.numSub := Nat.pos_of_mul_pos_right (by omega : 0 < h.numSub * h.numVar)
      refine ⟨i % h.numSub, i / h.numSub, Nat.mod_lt _ hn, ?_, ?_⟩
      · unfold vars; rw [if_pos hs]; exact Nat.div_lt_of_lt_mul hi
      · unfold romBlock; rw [ho]; dsimp only; rw [if_pos hs, Nat.mul_comm]
        exact Nat.div_add_mod _ _
    · rw [if_neg hs] at hi
      exact ⟨i, 0, hi, by unfold vars; rw [if_neg hs]; omega, by
        unfold romBlock; rw [ho]; dsimp only; rw [if_neg hs]⟩

/-- What `GetDomainAndVariableIndex` returns at the block of a pair. -/
theorem decode (h : Handler R) {m v : Nat} (hm : m < h.numSub) (hv : v < vars h) :
    getDomainAndVariableIndex h.separate h.ord h.numSub h.numVar (romBlock h m v) =
      .ok ((m : Int), if h.separate then (v : Int) else -1) := by
  by_cases hs : h.separate = true
  · have hv' : v < h.numVar := by unfold vars at hv; rwa [if_pos hs] at hv
    obtain ⟨b, e1, _, _, e2⟩ := blockIndex_decode h.ord h.numSub h.numVar m v (by omega) (by omega)
      (by omega) (by omega)
    rw [hs, if_pos rfl, ← e2]
    congr 1
    cases ho : h.ord with
    | domain =>
      rw [ho] at e1
      simp only [getBlockIndex, show ¬ (v : Int) < 0 by omega, if_false, Bool.not_true,
        Bool.false_eq_true, pure, Except.pure] at e1
      rw [← Except.ok.inj e1]
      unfold romBlock vars; rw [ho, hs]; push_cast; simp; ring
    | «variable» =>
      rw [ho] at e1
      simp only [getBlockIndex, show ¬ (v : Int) < 0 by omega, if_false, Bool.not_true,
        Bool.false_eq_true, pure, Except.pure] at e1
      rw [← Except.ok.inj e1]
      unfold romBlock; rw [ho, hs]; push_cast; simp; ring
  · have hs' : h.separate = false := by simpa using hs
    have hv' : v = 0 := by unfold vars at hv; rw [if_neg hs] at hv; omega
    have : romBlock h m v = m := by
      unfold romBlock vars
      cases h.ord <;> simp [hs', hv']
    rw [this, hs']
    rfl

theorem fomIndex_eq (h : Handler R) {m v : Nat} (hm : m < h.numSub) (hv : v < vars h) :
    h.fomIndex (romBlock h m v) = .ok (fomBlock h m v) := by
  unfold Handler.fomIndex
  rw [decode h hm hv, ok_bind]
  simp only [pure, Except.pure]
  by_cases hs : h.separate = true
  · have : vars h = h.numVar := by unfold vars; rw [if_pos hs]
    simp only [hs, if_true]
    congr 1
    unfold fomBlock; rw [this]
    have : (v : Int) + (m : Int) * (h.numVar : Int) = ((m * h.numVar + v : Nat) : Int) := by
      push_cast; ring
    rw [this, Int.toNat_natCast]
  · have hv' : v = 0 := by unfold vars at hv; rw [if_neg hs] at hv; omega
    simp only [hs]
    unfold fomBlock vars; rw [if_neg hs, hv']; simp

end Verif.RomHandler
