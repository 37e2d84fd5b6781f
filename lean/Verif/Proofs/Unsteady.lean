import Verif.Proofs.EqpRom
import Verif.Proofs.RomHandler
import Verif.Props.BlockMat
import Verif.Props.Blocks
import Verif.Props.RomHandler
import Verif.Spec.Unsteady
import Mathlib.Tactic.Ring
import Mathlib.Tactic.FieldSimp

/-! # Lemmas about the time step -/

namespace Verif.Unsteady

open Verif Verif.LinAlg Verif.LinAlg.Spec Verif.Unsteady.Spec Finset
open Verif.Blocks (BlockVector)
open Verif.Blocks.Spec (IsOffsets HasSizes blockOf)
open Verif.EqpRom (tab_take_sum tab_sum exists_block addFrom_ok)

variable {R : Type}

theorem sum_tab [AddCommMonoid R] (n : Nat) (f : Nat → R) : (tab n f).sum = ∑ r ∈ range n, f r := by
  unfold tab
  induction n with
  | zero => rfl
  | succ n ih => rw [List.range_succ, List.map_append, List.sum_append, ih, sum_range_succ]; simp

theorem first_succ (w : Nat → Nat) (m : Nat) : first w (m + 1) = first w m + w m := sum_range_succ _ _

theorem first_mono (w : Nat → Nat) {a b : Nat} (h : a ≤ b) : first w a ≤ first w b :=
  sum_le_sum_of_subset (range_subset_range.2 h)

theorem first_bound (w : Nat → Nat) {n m : Nat} (h : m < n) : first w m + w m ≤ first w n := by
  rw [← first_succ]; exact first_mono w h

theorem offs_first {offs : List Nat} {n : Nat} {w : Nat → Nat} (h : IsOffsets offs (tab n w)) {m : Nat}
    (hm : m ≤ n) : rd offs m = .ok (first w m) := by
  rw [rd_eq_ok, h.value (by simpa using hm), tab_take_sum _ _ hm]; rfl

theorem locate (n : Nat) (w : Nat → Nat) {t : Nat} (h : t < first w n) :
    ∃ m k, m < n ∧ k < w m ∧ t = first w m + k := by
  obtain ⟨m, hm, h1, h2⟩ := exists_block n w h
  exact ⟨m, t - first w m, hm, by unfold first; omega, by unfold first; omega⟩

/-- Positions of different subdomains differ. -/
theorem first_disjoint (w : Nat → Nat) {a b k : Nat} (h : a ≠ b) (hk : k < w b) :
    ¬ (first w a ≤ first w b + k ∧ first w b + k < first w a + w a) := by
  rcases Nat.lt_or_ge a b with h' | h'
  · have := first_mono w (show a + 1 ≤ b by omega); rw [first_succ] at this; omega
  · have := first_mono w (show b + 1 ≤ a by omega); rw [first_succ] at this; omega

section
variable [CommRing R]

theorem blkAddMult_ok {m : Blk R} {x y : List R} (a : R) (hx : x.length = m.w) (hy : y.length = m.h) :
    blkAddMult m x y a = .ok (tab m.h fun r => ve y r + a * ∑ c ∈ range m.w, m.val r c * ve x c) :=
  if_pos ⟨hx, hy⟩

/-- Contribution of block `(i, j)` to the monolithic matrix. -/
def term (b : BlockMat R) (i j r c : Nat) : R :=
  match b.blk i j with
  | none => 0
  | some m =>
    if (b.roffs[i]?.getD 0 ≤ r ∧ r < b.roffs[i]?.getD 0 + m.h) ∧
        b.coffs[j]?.getD 0 ≤ c ∧ c < b.coffs[j]?.getD 0 + m.w then
      m.val (r - b.roffs[i]?.getD 0) (c - b.coffs[j]?.getD 0) else 0

theorem mono_val (b : BlockMat R) (r c : Nat) : (mono b).val r c =
    ∑ i ∈ range (b.roffs.length - 1), ∑ j ∈ range (b.coffs.length - 1), term b i j r c := rfl

/-- Every block has the shape given by the offsets. -/
def Shapes (b : BlockMat R) (zr zc : List Nat) : Prop :=
  ∀ i j m, b.blk i j = some m → zr[i]? = some m.h ∧ zc[j]? = some m.w

theorem sum_shift (f : Nat → R) (o w N : Nat) (h : o + w ≤ N) :
    (∑ c ∈ range N, if o ≤ c ∧ c < o + w then f c else 0) = ∑ l ∈ range w, f (o + l) := by
  rw [← sum_filter]
  refine sum_nbij' (fun c => c - o) (fun l => o + l) ?_ ?_ ?_ ?_ ?_
  · intro c hc; simp only [mem_filter, mem_range] at *; omega
  · intro l hl; simp only [mem_filter, mem_range] at *; omega
  · intro c hc; simp only [mem_filter, mem_range] at *; omega
  · intro l hl; simp
  · intro c hc; simp only [mem_filter, mem_range] at *; congr 1; omega

theorem addMultBlock_ok {b : BlockMat R} {zr zc : List Nat} (hr : IsOffsets b.roffs zr)
    (hc : IsOffsets b.coffs zc) (hs : Shapes b zr zc) {x y : List R} (a : R) (hx : x.length = zc.sum)
    (hy : y.length = zr.sum) (i j : Nat) :
    ∃ y', addMultBlock b x a i j y = .ok y' ∧ y'.length = zr.sum ∧
      ve y' = ve y + fun t => a * ∑ c ∈ range zc.sum, term b i j t c * ve x c := by
  unfold addMultBlock term
  cases hb : b.blk i j with
  | none => exact ⟨y, rfl, hy, funext fun t => by simp⟩
  | some m =>
    obtain ⟨h1, h2⟩ := hs i j m hb
    have li := (List.getElem?_eq_some_iff.1 h1).1
    have lj := (List.getElem?_eq_some_iff.1 h2).1
    have b1 := block_bound zr h1
    have b2 := block_bound zc h2
    dsimp only
    rw [rd_eq_ok.2 (hr.value (show i ≤ zr.length by omega)), ok_bind,
      rd_eq_ok.2 (hr.value (show i + 1 ≤ zr.length by omega)), ok_bind,
      rd_eq_ok.2 (hc.value (show j ≤ zc.length by omega)), ok_bind,
      rd_eq_ok.2 (hc.value (show j + 1 ≤ zc.length by omega)), ok_bind,
      Blocks.take_sum_succ zr h1, Blocks.take_sum_succ zc h2, Nat.add_sub_cancel_left,
      Nat.add_sub_cancel_left, getSeg_eq (by omega), ok_bind, getSeg_eq (by omega), ok_bind,
      blkAddMult_ok a (by simp) (by simp), ok_bind,
      hr.value (show i ≤ zr.length by omega), hc.value (show j ≤ zc.length by omega)]
    simp only [Option.getD_some]
    obtain ⟨y', e, l, hv⟩ := setSeg_eq (y := y) (off := (zr.take i).sum)
      (l := tab m.h fun r => ve (tab m.h fun k => ve y ((zr.take i).sum + k)) r +
        a * ∑ c ∈ range m.w, m.val r c * ve (tab m.w fun k => ve x ((zc.take j).sum + k)) c)
      (by rw [length_tab]; omega)
    refine ⟨y', e, l.trans hy, funext fun t => ?_⟩
    rw [Pi.add_apply, hv t, length_tab]
    by_cases ht : (zr.take i).sum ≤ t ∧ t < (zr.take i).sum + m.h
    · rw [if_pos ht, ve_tab (by omega), ve_tab (by omega), show (zr.take i).sum + (t - (zr.take i).sum) = t by omega]
      simp only [ht, true_and, ite_mul, zero_mul]
      rw [sum_shift _ _ _ _ b2]
      refine congrArg (fun v => ve y t + a * v) (sum_congr rfl fun c hc => ?_)
      rw [ve_tab (mem_range.1 hc), Nat.add_sub_cancel_left]
    · rw [if_neg ht]
      simp [ht]

theorem addMult_ok {b : BlockMat R} {zr zc : List Nat} (hr : IsOffsets b.roffs zr)
    (hc : IsOffsets b.coffs zc) (hs : Shapes b zr zc) {x y : List R} (a : R) (hx : x.length = zc.sum)
    (hy : y.length = zr.sum) :
    ∃ y', addMult b x y a = .ok y' ∧ y'.length = zr.sum ∧
      ∀ t, ve y' t = ve y t + a * ∑ c ∈ range zc.sum, (mono b).val t c * ve x c := by
  unfold addMult
  obtain ⟨y', e, l, hv⟩ := loop_acc (n := b.roffs.length - 1) (body := fun i y =>
      loop (b.coffs.length - 1) (fun j y => addMultBlock b x a i j y) y)
    (fun y => y.length = zr.sum) ve
    (fun i => ∑ j ∈ range (b.coffs.length - 1), fun t => a * ∑ c ∈ range zc.sum, term b i j t c * ve x c) hy
    (fun i y _ hy => by
      obtain ⟨y', e, l, hv⟩ := loop_acc (n := b.coffs.length - 1) (body := fun j y => addMultBlock b x a i j y)
        (fun y => y.length = zr.sum) ve (fun j t => a * ∑ c ∈ range zc.sum, term b i j t c * ve x c) hy
        (fun j y _ hy => addMultBlock_ok hr hc hs a hx hy i j)
      exact ⟨y', e, l, hv⟩)
  refine ⟨y', e, l, fun t => ?_⟩
  rw [hv, Pi.add_apply, Finset.sum_apply]
  congr 1
  simp only [Finset.sum_apply, ← mul_sum, mono_val, sum_mul]
  congr 1
  rw [sum_comm (s := range zc.sum)]
  refine sum_congr rfl fun i _ => ?_
  rw [sum_comm (s := range zc.sum)]

/-- Row of a monolithic matrix in a row block of its own. -/
theorem mono_row {b : BlockMat R} {zr zc : List Nat} (hr : IsOffsets b.roffs zr)
    (hs : Shapes b zr zc) {i k s : Nat} (hi : zr[i]? = some s) (hk : k < s) (c : Nat) :
    (mono b).val ((zr.take i).sum + k) c =
      ∑ j ∈ range (b.coffs.length - 1), term b i j ((zr.take i).sum + k) c := by
  have li := (List.getElem?_eq_some_iff.1 hi).1
  rw [mono_val, sum_eq_single i]
  · intro i' _ hne
    refine sum_eq_zero fun j _ => ?_
    unfold term
    cases hb : b.blk i' j with
    | none => rfl
    | some m =>
      obtain ⟨h1, h2⟩ := hs i' j m hb
      dsimp only
      rw [if_neg]
      intro hh
      rw [hr.value (by have := (List.getElem?_eq_some_iff.1 h1).1; omega)] at hh
      exact block_disjoint zr h1 hi hk hne hh.1
  · intro h
    exact absurd (mem_range.2 (by rw [hr.1]; omega)) h

theorem addScaled_ok {y v : List R} {o n : Nat} (a : R) (h1 : o + n ≤ y.length) (h2 : n ≤ v.length) :
    ∃ y', addScaled y o n a v = .ok y' ∧ y'.length = y.length ∧
      ∀ t, ve y' t = ve y t + if o ≤ t ∧ t < o + n then a * ve v (t - o) else 0 := by
  unfold addScaled
  obtain ⟨y', e, l, hv⟩ := loop_acc (n := n) (body := fun i y => (do
      let s ← rd y (o + i)
      let t ← rd v i
      wr y (o + i) (s + a * t)))
    (fun y' => y'.length = y.length) ve (fun i t => if o + i = t then a * ve v i else 0) rfl
    (fun i u hi hl => by
      have e1 : rd u (o + i) = .ok (ve u (o + i)) := rd_ve (by omega)
      have e2 : rd v i = .ok (ve v i) := rd_ve (by omega)
      rw [e1, ok_bind, e2, ok_bind, wr_of_lt (by omega)]
      refine ⟨_, rfl, by simpa using hl, funext fun t => ?_⟩
      rw [Pi.add_apply]
      unfold ve
      rw [List.getElem?_set]
      by_cases ht : o + i = t
      · subst ht; simp [show o + i < u.length by omega]
      · simp [ht])
  refine ⟨y', e, l, fun t => ?_⟩
  rw [hv, Pi.add_apply, Finset.sum_apply]
  congr 1
  by_cases ht : o ≤ t ∧ t < o + n
  · rw [if_pos ht, sum_eq_single (t - o)]
    · rw [if_pos (by omega)]
    · intro b _ hb; rw [if_neg (by omega)]
    · intro hb; exact absurd (mem_range.2 (by omega)) hb
  · rw [if_neg ht]
    exact sum_eq_zero fun i hi => by have := mem_range.1 hi; rw [if_neg (by omega)]

theorem ve_vecOf (n : Nat) (x : Nat → R) {t : Nat} (h : t < n) : ve (vecOf n x) t = x t := ve_tab h

omit [CommRing R] in
theorem vecOf_eq (n : Nat) (x : Nat → R) : vecOf n x = tab n x := rfl

theorem convect_ok {c : Conv R} {n : Nat} {w : Nat → Nat} {F : R → Nat → List R → Nat → R}
    {I : R → List R → Nat → Nat → R} (hc : ConvOk c n w F I) {offs : List Nat}
    (ho : IsOffsets offs (tab n w)) (t : R) {x : List R} (hx : x.length = first w n) :
    ∃ y, convect offs n c t x = .ok y ∧ y.length = first w n ∧
      ∀ m k, m < n → k < w m → ve y (first w m + k) = F t m (part w (ve x) m) k + I t x m k := by
  unfold convect
  obtain ⟨y, e, l, hv⟩ := loop_acc (n := n) (body := fun m y => hopBlock offs c t x m y)
    (fun y => y.length = first w n) ve
    (fun m s => if first w m ≤ s ∧ s < first w m + w m then F t m (part w (ve x) m) (s - first w m) else 0)
    (s := List.replicate x.length 0) (by simpa using hx)
    (fun m u hm hl => by
      have hb := first_bound w hm
      unfold hopBlock
      rw [offs_first ho (by omega), ok_bind, offs_first ho (by omega), ok_bind, first_succ,
        Nat.add_sub_cancel_left, getSeg_eq (by omega), ok_bind]
      obtain ⟨z, e1, l1, h1⟩ := hc.dom t m (part w (ve x) m) hm (length_tab _ _)
      rw [show (tab (w m) fun k => ve x (first w m + k)) = part w (ve x) m from rfl, e1, ok_bind]
      obtain ⟨y', e2, l2, h2⟩ := addFrom_ok (y := u) (v := z) (o := first w m) (n := w m) (p := 0)
        (by omega) (by omega)
      refine ⟨y', e2, l2.trans hl, funext fun s => ?_⟩
      rw [Pi.add_apply, h2 s]
      congr 1
      by_cases hs : first w m ≤ s ∧ s < first w m + w m
      · rw [if_pos hs, if_pos hs, Nat.zero_add, h1 _ (by omega)]
      · rw [if_neg hs, if_neg hs])
  rw [e, ok_bind]
  obtain ⟨y', e1, l1, h1⟩ := hc.itf t x y hx l
  refine ⟨y', e1, l1, fun m k hm hk => ?_⟩
  rw [h1 m k hm hk, hv, Pi.add_apply, Finset.sum_apply]
  congr 1
  have hz : ve (List.replicate x.length (0 : R)) (first w m + k) = 0 := by
    unfold ve
    rw [List.getElem?_replicate]
    split <;> rfl
  rw [hz, zero_add, sum_eq_single m]
  · rw [if_pos (by omega), Nat.add_sub_cancel_left]
  · intro m' _ hne
    rw [if_neg (first_disjoint w hne hk)]
  · intro h; exact absurd (mem_range.2 hm) h

theorem term_eq {b : BlockMat R} {zr zc : List Nat} (hr : IsOffsets b.roffs zr)
    (hc : IsOffsets b.coffs zc) (hs : Shapes b zr zc) {i j s s' : Nat} (hi : zr[i]? = some s)
    (hj : zc[j]? = some s') (r c : Nat) : term b i j r c =
      if ((zr.take i).sum ≤ r ∧ r < (zr.take i).sum + s) ∧ (zc.take j).sum ≤ c ∧ c < (zc.take j).sum + s' then
        bval b i j (r - (zr.take i).sum) (c - (zc.take j).sum) else 0 := by
  have li := (List.getElem?_eq_some_iff.1 hi).1
  have lj := (List.getElem?_eq_some_iff.1 hj).1
  unfold term bval
  cases hb : b.blk i j with
  | none => simp
  | some m =>
    obtain ⟨h1, h2⟩ := hs i j m hb
    rw [hi] at h1
    rw [hj] at h2
    dsimp only
    rw [hr.value (show i ≤ zr.length by omega), hc.value (show j ≤ zc.length by omega), Option.getD_some,
      Option.getD_some, ← Option.some.inj h1, ← Option.some.inj h2]

/-- A block-diagonal matrix applied to a vector. -/
theorem diag_row {b : BlockMat R} {n : Nat} {w : Nat → Nat} (hr : IsOffsets b.roffs (tab n w))
    (hc : IsOffsets b.coffs (tab n w)) (hs : Shapes b (tab n w) (tab n w)) {M : Nat → Nat → Nat → R}
    (hv : ∀ i j p q, i < n → j < n → p < w i → q < w j → bval b i j p q = if i = j then M i p q else 0)
    {m k : Nat} (hm : m < n) (hk : k < w m) (x : Nat → R) :
    ∑ c ∈ range (first w n), (mono b).val (first w m + k) c * x c =
      ∑ l ∈ range (w m), M m k l * x (first w m + l) := by
  have hz : ∀ i, i < n → (tab n w)[i]? = some (w i) := fun i hi => by rw [getElem?_tab, if_pos hi]
  have hst : ∀ i, i ≤ n → ((tab n w).take i).sum = first w i := fun i hi => tab_take_sum n w hi
  have e := sum_shift (fun c => M m k (c - first w m) * x c) (first w m) (w m) _ (first_bound w hm)
  simp only [Nat.add_sub_cancel_left] at e
  rw [← e]
  refine sum_congr rfl fun c hcr => ?_
  have hrow := mono_row hr hs (hz m hm) hk c
  rw [hst m (by omega)] at hrow
  rw [hrow, hc.1, length_tab, Nat.add_sub_cancel]
  obtain ⟨j, l, hj, hl, rfl⟩ := locate n w (mem_range.1 hcr)
  rw [sum_eq_single j]
  · rw [term_eq hr hc hs (hz m hm) (hz j hj), hst m (by omega), hst j (by omega),
      if_pos (by omega), Nat.add_sub_cancel_left, Nat.add_sub_cancel_left, hv m j k l hm hj hk hl]
    by_cases h : m = j
    · subst h
      rw [if_pos rfl, if_pos (by omega), Nat.add_sub_cancel_left]
    · rw [if_neg h, if_neg (first_disjoint w h hl), zero_mul]
  · intro j' hj' hne
    rw [term_eq hr hc hs (hz m hm) (hz j' (mem_range.1 hj')), hst m (by omega),
      hst j' (by have := mem_range.1 hj'; omega), if_neg]
    exact fun h => first_disjoint w hne hl h.2
  · intro h; exact absurd (mem_range.2 hj) h

end

/-! ### Layouts -/

/-- Sizes of the blocks ordered by subdomain. -/
def bySub (n : Nat) (a b : Nat → Nat) : List Nat := (List.range n).flatMap fun m => [a m, b m]

theorem bySub_length (n : Nat) (a b : Nat → Nat) : (bySub n a b).length = 2 * n := by
  unfold bySub
  rw [Blocks.length_flatMap_const _ _ 2 (fun _ => rfl), List.length_range, Nat.mul_comm]

theorem bySub_get {n : Nat} {a b : Nat → Nat} {m : Nat} (hm : m < n) :
    (bySub n a b)[2 * m]? = some (a m) ∧ (bySub n a b)[2 * m + 1]? = some (b m) := by
  unfold bySub
  have hx : (List.range n)[m]? = some m := by simp [hm]
  have h0 := Blocks.getElem?_flatMap_const (List.range n) (fun m => [a m, b m]) 2 (fun _ => rfl) hx
    (show 0 < 2 by omega)
  have h1 := Blocks.getElem?_flatMap_const (List.range n) (fun m => [a m, b m]) 2 (fun _ => rfl) hx
    (show 1 < 2 by omega)
  exact ⟨h0, h1⟩

theorem bySub_take {n : Nat} {a b : Nat → Nat} {m : Nat} (hm : m ≤ n) :
    ((bySub n a b).take (2 * m)).sum = first a m + first b m := by
  induction m with
  | zero => simp [first]
  | succ m ih =>
    obtain ⟨h0, h1⟩ := bySub_get (a := a) (b := b) (show m < n by omega)
    rw [show 2 * (m + 1) = 2 * m + 1 + 1 by ring, Blocks.take_sum_succ _ h1, Blocks.take_sum_succ _ h0,
      ih (by omega), first_succ, first_succ]
    omega

theorem bySub_take_odd {n : Nat} {a b : Nat → Nat} {m : Nat} (hm : m < n) :
    ((bySub n a b).take (2 * m + 1)).sum = first a (m + 1) + first b m := by
  obtain ⟨h0, _⟩ := bySub_get (a := a) (b := b) hm
  rw [Blocks.take_sum_succ _ h0, bySub_take (by omega), first_succ]
  omega

theorem byVar_get {n : Nat} {a b : Nat → Nat} {m : Nat} (hm : m < n) :
    (tab n a ++ tab n b)[m]? = some (a m) ∧ (tab n a ++ tab n b)[n + m]? = some (b m) := by
  constructor
  · rw [List.getElem?_append_left (by simpa using hm), getElem?_tab, if_pos hm]
  · rw [List.getElem?_append_right (by simp), length_tab, Nat.add_sub_cancel_left, getElem?_tab, if_pos hm]

theorem byVar_take {n : Nat} {a b : Nat → Nat} {m : Nat} (hm : m ≤ n) :
    ((tab n a ++ tab n b).take m).sum = first a m ∧
      ((tab n a ++ tab n b).take (n + m)).sum = first a n + first b m := by
  constructor
  · rw [List.take_append_of_le_length (by simpa using hm), tab_take_sum _ _ hm]; rfl
  · rw [List.take_append, length_tab, Nat.add_sub_cancel_left, List.take_of_length_le (by simp), List.sum_append,
      tab_sum, tab_take_sum _ _ hm]; rfl

theorem byVar_sum (n : Nat) (a b : Nat → Nat) : (tab n a ++ tab n b).sum = first a n + first b n := by
  rw [List.sum_append, tab_sum, tab_sum]; rfl

/-- The offsets ordered by variable. -/
theorem byVar_ok {n : Nat} {a b : Nat → Nat} {u p : List Nat} (hu : IsOffsets u (tab n a))
    (hp : IsOffsets p (tab n b)) :
    ∃ o, Blocks.stokesOffsetsByVar n u p = .ok o ∧ IsOffsets o (tab n a ++ tab n b) := by
  unfold Blocks.stokesOffsetsByVar
  obtain ⟨r, hr, h1, h2, h3, h4⟩ := loop_total (n := n)
    (body := fun k offs => (do
      let a ← rd u (k + 1)
      let offs ← wr offs (k + 1) a
      let b ← rd p (k + 1)
      let lu ← rd u n
      wr offs (k + 1 + n) (b + lu) : Outcome (List Nat)))
    (fun k r => r.length = 2 * n + 1 ∧ r[0]? = some 0 ∧
      (∀ t, t < k → r[t + 1]? = some (first a (t + 1))) ∧
      (∀ t, t < k → r[t + 1 + n]? = some (first b (t + 1) + first a n)))
    (s := List.replicate (2 * n + 1) 0)
    ⟨by simp, by simp, by intro t ht; omega, by intro t ht; omega⟩ (by
      rintro k v hk ⟨i1, i2, i3, i4⟩
      refine ⟨(v.set (k + 1) (first a (k + 1))).set (k + 1 + n) (first b (k + 1) + first a n), ?_, by simp [i1],
        ?_, ?_, ?_⟩
      · rw [offs_first hu (by omega), ok_bind, wr_of_lt (by omega), ok_bind, offs_first hp (by omega), ok_bind,
          offs_first hu (by omega), ok_bind, wr_of_lt (by rw [List.length_set]; omega)]
      · simp [i2]
      · intro t ht
        rw [List.getElem?_set, if_neg (by omega), List.getElem?_set]
        by_cases htk : t = k
        · subst htk; rw [if_pos rfl, if_pos (by omega)]
        · rw [if_neg (by omega), i3 t (by omega)]
      · intro t ht
        rw [List.getElem?_set]
        by_cases htk : t = k
        · subst htk; rw [if_pos rfl, if_pos (by rw [List.length_set]; omega)]
        · rw [if_neg (by omega), List.getElem?_set, if_neg (by omega), i4 t (by omega)])
  refine ⟨r, hr, Blocks.isOffsets_of_value (by simp; omega) ?_⟩
  intro t ht
  rw [List.length_append, length_tab, length_tab] at ht
  rcases t with _ | t
  · simpa using h2
  · by_cases htn : t < n
    · rw [h3 t htn, (byVar_take (by omega)).1]
    · have := h4 (t - n) (by omega)
      rw [show t - n + 1 + n = t + 1 by omega] at this
      rw [this, show t + 1 = n + (t - n + 1) by omega, (byVar_take (by omega)).2, Nat.add_comm]

section
variable [CommRing R]

theorem sort_ok {n : Nat} {a b : Nat → Nat} {rhs : BlockVector R} (h : HasSizes rhs (bySub n a b))
    {offs : List Nat} (ho : IsOffsets offs (tab n a ++ tab n b)) {old : List R}
    (hl : old.length = first a n + first b n) :
    ∃ r, Blocks.sortByVariables n 2 rhs ⟨old, offs⟩ = .ok r ∧ r.data.length = first a n + first b n ∧
      (∀ m k, m < n → k < a m → ve r.data (first a m + k) = ve rhs.data (first a m + first b m + k)) ∧
      ∀ m k, m < n → k < b m →
        ve r.data (first a n + (first b m + k)) = ve rhs.data (first a (m + 1) + first b m + k) := by
  have hz : ∀ m v : Nat, m < n → v < 2 →
      (bySub n a b)[2 * m + v]? = (tab n a ++ tab n b)[n * v + m]? := by
    intro m v hm hv
    obtain ⟨b0, b1⟩ := bySub_get (a := a) (b := b) hm
    obtain ⟨c0, c1⟩ := byVar_get (a := a) (b := b) hm
    rcases v with _ | _ | v
    · simpa [c0] using b0
    · rw [Nat.zero_add, b1, Nat.mul_one, c1]
    · omega
  obtain ⟨r, e, hs, hb⟩ := Blocks.sortByVariables_spec n 2 rhs ⟨old, offs⟩ (bySub n a b) (tab n a ++ tab n b) h
    ⟨ho, by rw [byVar_sum]; exact hl⟩ (bySub_length n a b) (by simp; omega) hz
  refine ⟨r, e, by rw [hs.2, byVar_sum], fun m k hm hk => ?_, fun m k hm hk => ?_⟩
  · have := congrArg (fun l => l[k]?) (hb m 0 hm (by omega))
    simp only [Nat.mul_zero, Nat.zero_add, Nat.add_zero] at this
    rw [Blocks.blockOf_getElem? hs (byVar_get hm).1, Blocks.blockOf_getElem? h (bySub_get hm).1, if_pos hk,
      if_pos hk, (byVar_take (by omega)).1, bySub_take (by omega)] at this
    unfold ve; rw [this]
  · have := congrArg (fun l => l[k]?) (hb m 1 hm (by omega))
    simp only [Nat.mul_one] at this
    rw [Blocks.blockOf_getElem? hs (byVar_get hm).2, Blocks.blockOf_getElem? h (bySub_get hm).2, if_pos hk,
      if_pos hk, (byVar_take (by omega)).2, bySub_take_odd hm] at this
    unfold ve; rw [← Nat.add_assoc, this]

omit [CommRing R] in
theorem setBlock_ok {b : BlockMat R} {zr zc : List Nat} (hr : IsOffsets b.roffs zr)
    (hc : IsOffsets b.coffs zc) {i j : Nat} {m : Blk R} (hi : zr[i]? = some m.h) (hj : zc[j]? = some m.w) :
    setBlock b i j m =
      .ok { b with blk := fun i' j' => if i' = i ∧ j' = j then some m else b.blk i' j' } := by
  have li := (List.getElem?_eq_some_iff.1 hi).1
  have lj := (List.getElem?_eq_some_iff.1 hj).1
  unfold setBlock
  rw [rd_eq_ok.2 (hr.value (show i ≤ zr.length by omega)), ok_bind,
    rd_eq_ok.2 (hr.value (show i + 1 ≤ zr.length by omega)), ok_bind,
    rd_eq_ok.2 (hc.value (show j ≤ zc.length by omega)), ok_bind,
    rd_eq_ok.2 (hc.value (show j + 1 ≤ zc.length by omega)), ok_bind,
    Blocks.take_sum_succ zr hi, Blocks.take_sum_succ zc hj, Nat.add_sub_cancel_left, Nat.add_sub_cancel_left,
    beq_self_eq_true, beq_self_eq_true, require_true, ok_bind, ok_bind]
  rfl

omit [CommRing R] in
theorem Shapes.setBlock {b : BlockMat R} {zr zc : List Nat} (hs : Shapes b zr zc) {i j : Nat} {m : Blk R}
    (hi : zr[i]? = some m.h) (hj : zc[j]? = some m.w) :
    Shapes { b with blk := fun i' j' => if i' = i ∧ j' = j then some m else b.blk i' j' } zr zc := by
  intro i' j' m' h
  dsimp only at h
  split at h
  · rename_i hij
    obtain ⟨rfl, rfl⟩ := hij
    cases h
    exact ⟨hi, hj⟩
  · exact hs _ _ _ h

/-- Entry of a monolithic matrix. -/
theorem mono_entry {b : BlockMat R} {zr zc : List Nat} (hr : IsOffsets b.roffs zr)
    (hc : IsOffsets b.coffs zc) (hs : Shapes b zr zc) {i j k l s s' : Nat} (hi : zr[i]? = some s)
    (hj : zc[j]? = some s') (hk : k < s) (hl : l < s') :
    (mono b).val ((zr.take i).sum + k) ((zc.take j).sum + l) = bval b i j k l := by
  have lj := (List.getElem?_eq_some_iff.1 hj).1
  rw [mono_row hr hs hi hk, sum_eq_single j]
  · rw [term_eq hr hc hs hi hj, if_pos (by omega), Nat.add_sub_cancel_left, Nat.add_sub_cancel_left]
  · intro j' hj' hne
    have lj' : j' < zc.length := by have := mem_range.1 hj'; rw [hc.1] at this; omega
    have hz : zc[j']? = some zc[j'] := by simp [lj']
    rw [term_eq hr hc hs hi hz, if_neg]
    exact fun h => block_disjoint zc hz hj hl hne h.2
  · intro h; exact absurd (mem_range.2 (by rw [hc.1]; omega)) h

theorem mono_dims {b : BlockMat R} {zr zc : List Nat} (hr : IsOffsets b.roffs zr)
    (hc : IsOffsets b.coffs zc) : (mono b).h = zr.sum ∧ (mono b).w = zc.sum := by
  have key : ∀ o z : List Nat, IsOffsets o z → (o.getLast?).getD 0 = z.sum := by
    intro o z h
    rw [List.getLast?_eq_getElem?, h.1, Nat.add_sub_cancel, h.value le_rfl, List.take_of_length_le le_rfl]; rfl
  exact ⟨key _ _ hr, key _ _ hc⟩

/-- A block-diagonal matrix with the given diagonal blocks. -/
structure Diag (b : BlockMat R) (n : Nat) (w : Nat → Nat) (M : Nat → Nat → Nat → R) : Prop where
  roffs : IsOffsets b.roffs (tab n w)
  coffs : IsOffsets b.coffs (tab n w)
  shapes : Shapes b (tab n w) (tab n w)
  val : ∀ i j p q, i < n → j < n → p < w i → q < w j → bval b i j p q = if i = j then M i p q else 0

theorem Diag.row {b : BlockMat R} {n : Nat} {w : Nat → Nat} {M : Nat → Nat → Nat → R} (h : Diag b n w M)
    {m k : Nat} (hm : m < n) (hk : k < w m) (x : Nat → R) :
    ∑ c ∈ range (first w n), (mono b).val (first w m + k) c * x c =
      ∑ l ∈ range (w m), M m k l * x (first w m + l) := diag_row h.roffs h.coffs h.shapes h.val hm hk x

end

section
variable [Field R]

theorem addMass_ok {b : BlockMat R} {n : Nat} {w : Nat → Nat} {M : Nat → Nat → Nat → R} (h : Diag b n w M)
    {u y : List R} (hu : u.length = first w n) {N : Nat} (hy : y.length = first w n + N) (a : R) :
    ∃ y', addMass b u (first w n) a y = .ok y' ∧ y'.length = first w n + N ∧
      (∀ m k, m < n → k < w m → ve y' (first w m + k) = ve y (first w m + k) +
        a * ∑ l ∈ range (w m), M m k l * ve u (first w m + l)) ∧
      ∀ t, ve y' (first w n + t) = ve y (first w n + t) := by
  have hz : (tab n w).sum = first w n := tab_sum n w
  unfold addMass
  rw [getSeg_eq (by omega), ok_bind]
  obtain ⟨v, e, l, hv⟩ := addMult_ok h.roffs h.coffs h.shapes (x := u)
    (y := tab (first w n) fun k => ve y (0 + k)) a (by rw [hz]; exact hu) (by rw [hz, length_tab])
  rw [hz] at l hv
  rw [e, ok_bind]
  obtain ⟨y', e', l', hv'⟩ := setSeg_eq (y := y) (l := v) (off := 0) (by omega)
  refine ⟨y', e', by omega, fun m k hm hk => ?_, fun t => ?_⟩
  · have := first_bound w hm
    rw [hv', if_pos (by omega), Nat.sub_zero, hv, ve_tab (by omega), Nat.zero_add, h.row hm hk]
  · rw [hv', if_neg (by omega)]

theorem massMat_ok {s : Fom R} {n : Nat} {w : Nat → Nat} {M : Nat → Nat → Nat → R} (hn : s.n = n)
    (hu : IsOffsets s.u (tab n w)) (hm : ∀ m, m < n → s.mass[m]? = some ⟨w m, w m, M m⟩) :
    ∃ b, massMat s = .ok b ∧ Diag b n w M := by
  unfold massMat
  rw [hn]
  obtain ⟨b, e, h1, h2, h3, h4⟩ := loop_total (n := n) (body := fun i b => (do
      let m ← rd s.mass i
      setBlock b i i m)) (fun k b => b.roffs = s.u ∧ b.coffs = s.u ∧ Shapes b (tab n w) (tab n w) ∧
      ∀ i j p q, bval b i j p q = if i = j ∧ i < k then M i p q else 0)
    (s := ⟨s.u, s.u, false, fun _ _ => none⟩)
    ⟨rfl, rfl, (fun i j m h => by cases h), fun i j p q => by rw [if_neg (by omega)]; rfl⟩ (by
      rintro k b hk ⟨h1, h2, h3, h4⟩
      have hz : (tab n w)[k]? = some (w k) := by rw [getElem?_tab, if_pos hk]
      rw [rd_eq_ok.2 (hm k hk), ok_bind, setBlock_ok (by rw [h1]; exact hu) (by rw [h2]; exact hu) hz hz]
      refine ⟨_, rfl, h1, h2, h3.setBlock hz hz, fun i j p q => ?_⟩
      unfold bval
      dsimp only
      by_cases hij : i = k ∧ j = k
      · obtain ⟨rfl, rfl⟩ := hij
        rw [if_pos ⟨rfl, rfl⟩, if_pos (by omega)]
      · rw [if_neg hij]
        have := h4 i j p q
        unfold bval at this
        rw [this]
        by_cases hc : i = j ∧ i < k
        · rw [if_pos hc, if_pos (by omega)]
        · rw [if_neg hc, if_neg (by omega)])
  refine ⟨b, e, by rw [h1]; exact hu, by rw [h2]; exact hu, h3, fun i j p q hi hj _ _ => ?_⟩
  rw [h4]
  by_cases h : i = j
  · rw [if_pos h, if_pos ⟨h, hi⟩]
  · rw [if_neg h, if_neg (by omega)]

variable [LinearOrder R]

/-- What is known after the setup. -/
structure InitOk (P : Problem R) (i : Init R) : Prop where
  vblock : i.vblock = [0, P.NU, P.NU + P.NP]
  byVar : IsOffsets i.byVar (tab P.n P.nu ++ tab P.n P.np)
  mass : Diag i.mass P.n P.nu P.mass
  h : (mono i.sys).h = P.NU + P.NP
  w : (mono i.sys).w = P.NU + P.NP
  uu : ∀ r c, r < P.NU → c < P.NU → (mono i.sys).val r c = (mono i.mass).val r c * (1 / P.dt) + P.K r c
  ub : ∀ r c, r < P.NU → c < P.NP → (mono i.sys).val r (P.NU + c) = P.Bt r c
  bu : ∀ r c, r < P.NP → c < P.NU → (mono i.sys).val (P.NU + r) c = P.B r c
  bb : ∀ r c, r < P.NP → c < P.NP → (mono i.sys).val (P.NU + r) (P.NU + c) = 0

theorem initTime_ok {P : Problem R} {s : Fom R} (h : P.Ok s) :
    ∃ i, initTime s = .ok i ∧ InitOk P i := by
  unfold initTime
  obtain ⟨mass, e1, hd⟩ := massMat_ok h.n h.u h.mass
  obtain ⟨o, e2, ho⟩ := byVar_ok h.u h.p
  have hpos : decide (0 < s.dt) = true := by rw [h.dt]; exact decide_eq_true h.pos
  obtain ⟨d1, d2⟩ := mono_dims hd.roffs hd.coffs
  rw [tab_sum] at d1 d2
  have huu : uuMat P.NU mass s.M s.dt = .ok ⟨P.NU, P.NU, fun r c =>
      (mono mass).val r c * (bd0 / P.dt) + P.K r c⟩ := by
    unfold uuMat
    dsimp only
    rw [h.M, h.dt]
    exact if_pos ⟨d1, d2, rfl, rfl⟩
  have hz : IsOffsets [0, P.NU, P.NU + P.NP] [P.NU, P.NP] := by
    refine ⟨rfl, rfl, fun i s h => ?_⟩
    match i with
    | 0 => cases h; exact ⟨0, rfl, by simp⟩
    | 1 => cases h; exact ⟨P.NU, rfl, rfl⟩
  rw [hpos, require_true, ok_bind, h.n, offs_first h.u le_rfl, ok_bind, offs_first h.p le_rfl, ok_bind, e1, ok_bind]
  rw [show first P.nu P.n = P.NU from rfl, show first P.np P.n = P.NP from rfl, huu, ok_bind]
  dsimp only
  rw [setBlock_ok hz hz rfl rfl, ok_bind, setBlock_ok hz hz (by rw [h.Bt]; rfl) (by rw [h.Bt]; rfl), ok_bind,
    setBlock_ok hz hz (by rw [h.B]; rfl) (by rw [h.B]; rfl), ok_bind, e2, ok_bind]
  have hs : Shapes (⟨[0, P.NU, P.NU + P.NP], [0, P.NU, P.NU + P.NP], false, fun i' j' =>
      if i' = 1 ∧ j' = 0 then some s.B else if i' = 0 ∧ j' = 1 then some s.Bt else
        if i' = 0 ∧ j' = 0 then some ⟨P.NU, P.NU, fun r c => (mono mass).val r c * (bd0 / P.dt) + P.K r c⟩
        else none⟩ : BlockMat R) [P.NU, P.NP] [P.NU, P.NP] := by
    intro i j m hm
    dsimp only at hm
    split at hm
    · cases hm; rename_i hh; obtain ⟨rfl, rfl⟩ := hh; rw [h.B]; exact ⟨rfl, rfl⟩
    split at hm
    · cases hm; rename_i hh; obtain ⟨rfl, rfl⟩ := hh; rw [h.Bt]; exact ⟨rfl, rfl⟩
    split at hm
    · cases hm; rename_i hh; obtain ⟨rfl, rfl⟩ := hh; exact ⟨rfl, rfl⟩
    · cases hm
  refine ⟨_, rfl, rfl, ho, hd, rfl, rfl, fun r c hr hc => ?_, fun r c hr hc => ?_, fun r c hr hc => ?_, fun r c hr hc => ?_⟩
  · have := mono_entry hz hz hs (i := 0) (j := 0) (s := P.NU) (s' := P.NU) rfl rfl hr hc
    simp only [List.take_zero, List.sum_nil, Nat.zero_add] at this
    rw [this]; rfl
  · have := mono_entry hz hz hs (i := 0) (j := 1) (s := P.NU) (s' := P.NP) rfl rfl hr hc
    simp only [List.take_zero, List.sum_nil, Nat.zero_add, List.take_succ_cons, List.sum_cons, Nat.add_zero] at this
    rw [this]
    show s.Bt.val r c = _
    rw [h.Bt]
  · have := mono_entry hz hz hs (i := 1) (j := 0) (s := P.NP) (s' := P.NU) rfl rfl hr hc
    simp only [List.take_zero, List.sum_nil, Nat.zero_add, List.take_succ_cons, List.sum_cons, Nat.add_zero] at this
    rw [this]
    show s.B.val r c = _
    rw [h.B]
  · have := mono_entry hz hz hs (i := 1) (j := 1) (s := P.NP) (s' := P.NP) rfl rfl hr hc
    simp only [List.take_zero, List.sum_nil, List.take_succ_cons, List.sum_cons, Nat.add_zero] at this
    rw [this]
    rfl

end

end Verif.Unsteady
