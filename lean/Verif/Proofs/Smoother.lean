import Verif.Proofs.Views
import Verif.Spec.Smoother
import Mathlib.Algebra.BigOperators.Intervals

/-! # One relaxation step -/

namespace Verif.Smoother

open Verif Verif.LinAlg Verif.LinAlg.Spec Verif.Smoother.Spec Verif.Blocks.Spec Finset

variable {R : Type} [CommRing R]

theorem size_eq {sizes : List Nat} {i : Nat} (h : i < sizes.length) :
    sizes[i]? = some (size sizes i) := by simp [size, h]

theorem span_eq {offs sizes : List Nat} (h : IsOffsets offs sizes) {i : Nat} (hi : i < sizes.length) :
    span offs i = .ok ((sizes.take i).sum, size sizes i) := by
  unfold span
  rw [rd_eq_ok.2 (h.value (i := i + 1) hi), rd_eq_ok.2 (h.value (i := i) (by omega))]
  simp only [ok_bind]
  rw [Blocks.take_sum_succ sizes (size_eq hi)]
  congr 2; omega

/-- The inverse of diagonal block `i` used by the smoother. -/
structure Good (s : BlockSmoother R) (a : BlockMat R) (sizes : List Nat) : Prop where
  oper : s.oper = some a
  nrow : s.nrow = sizes.length
  ncol : s.ncol = sizes.length
  roffs : IsOffsets s.roffs sizes
  coffs : IsOffsets s.coffs sizes
  inv : ∀ i, i < sizes.length → ∃ m, s.diagInv[i]? = some m ∧ m.h = size sizes i ∧
    m.w = size sizes i ∧ ∀ p q, p < size sizes i → q < size sizes i →
      (∑ k ∈ range (size sizes i), ent m p k * entry a i i k q = if p = q then 1 else 0) ∧
      (∑ k ∈ range (size sizes i), entry a i i p k * ent m k q = if p = q then 1 else 0)

theorem construct_good {invert : Mat R → Outcome (Mat R)} (hinv : Inverts invert) {a : BlockMat R}
    {sizes : List Nat} (ha : Shape a sizes) {type : Int} {it : Nat} {s : BlockSmoother R}
    (h : construct invert a type it = .ok s) :
    Good s a sizes ∧ s.type = type ∧ s.iterations = it ∧ s.iterative = false := by
  unfold construct at h
  dsimp only at h
  obtain ⟨_, _, h⟩ := bind_eq_ok.mp h
  obtain ⟨l, hl, h⟩ := bind_eq_ok.mp h
  have h := Except.ok.inj h
  have hr : a.roffs.length - 1 = sizes.length := by rw [ha.roffs.1]; rfl
  have hc : a.coffs.length - 1 = sizes.length := by rw [ha.coffs.1]; rfl
  rw [hr] at hl
  have key := loop_inv (fun n (l : List (Mat R)) => l.length = n ∧ ∀ i, i < n →
    ∃ m, l[i]? = some m ∧ m.h = size sizes i ∧
    m.w = size sizes i ∧ ∀ p q, p < size sizes i → q < size sizes i →
      (∑ k ∈ range (size sizes i), ent m p k * entry a i i k q = if p = q then 1 else 0) ∧
      (∑ k ∈ range (size sizes i), entry a i i p k * ent m k q = if p = q then 1 else 0))
    ⟨rfl, by intro i hi; omega⟩ (by
      intro j u v hj hu hv
      cases hb : a.blk j j with
      | none => rw [hb] at hv; cases hv
      | some s =>
        rw [hb] at hv
        obtain ⟨m, hm, hv⟩ := bind_eq_ok.mp hv
        have hv := Except.ok.inj hv
        subst hv
        obtain ⟨h1, h2⟩ := ha.blk j j s hb
        obtain ⟨g1, g2, g3⟩ := hinv s.toDense m (by simp [Sp.toDense, h1, h2]) hm
        refine ⟨by simp [hu.1], ?_⟩
        intro i hi
        by_cases hij : i < j
        · obtain ⟨m', hm', r⟩ := hu.2 i hij
          refine ⟨m', ?_, r⟩
          rw [List.getElem?_append_left (by omega)]; exact hm'
        · have : i = j := by omega
          subst this
          refine ⟨m, ?_, ?_, ?_, ?_⟩
          · rw [List.getElem?_append_right (by omega), hu.1]; simp
          · rw [g1]; exact h1
          · rw [g2]; exact h2
          · intro p q hp hq
            have e : s.toDense.h = size sizes i := h1
            have g := g3 p q (by omega) (by omega)
            rw [e] at g
            refine ⟨Eq.trans (sum_congr rfl ?_) g.1, Eq.trans (sum_congr rfl ?_) g.2⟩
            · intro k hk
              have hk := mem_range.mp hk
              rw [Sp.toDense_ent (by omega) (by omega)]
              simp [entry, hb]
            · intro k hk
              have hk := mem_range.mp hk
              rw [Sp.toDense_ent (by omega) (by omega)]
              simp [entry, hb]) hl
  subst h
  refine ⟨⟨rfl, by simp [hr], by simp [hc], ha.roffs, ha.coffs, key.2⟩, rfl, rfl, rfl⟩

theorem size_sum_le {sizes : List Nat} {i : Nat} (hi : i < sizes.length) {y : List R}
    (hy : Fits sizes y) : (sizes.take i).sum + size sizes i ≤ y.length := by
  rw [hy]; exact block_bound sizes (size_eq hi)

/-- One relaxation step replaces block `i` by `inv_i (x_i - sum_{j ≠ i} A_ij y_j)`. -/
theorem relax_eq {s : BlockSmoother R} {a : BlockMat R} {sizes : List Nat} (ha : Shape a sizes)
    (hs : Good s a sizes) {x y : List R} (hx : Fits sizes x) (hy : Fits sizes y)
    (cols : Nat → Nat) (hcols : ∀ f : Nat → R, ∑ k ∈ range sizes.length, f (cols k) =
      ∑ k ∈ range sizes.length, f k) (hlt : ∀ k, k < sizes.length → cols k < sizes.length)
    {i : Nat} (hi : i < sizes.length) :
    ∃ y' m, relax s x cols i y = .ok y' ∧ Fits sizes y' ∧ s.diagInv[i]? = some m ∧
      (∀ j c, j < sizes.length → c < size sizes j → j ≠ i → comp sizes y' j c = comp sizes y j c) ∧
      ∀ r, r < size sizes i → comp sizes y' i r = ∑ k ∈ range (size sizes i), ent m r k *
        (comp sizes x i k - ∑ j ∈ (range sizes.length).erase i, part a sizes y i j k) := by
  obtain ⟨m, hm, m1, m2, -⟩ := hs.inv i hi
  unfold relax
  rw [hs.oper, deref, ok_bind, span_eq hs.roffs hi, ok_bind]
  dsimp only
  have hloop : loop s.ncol.toNat (fun k tmp => offDiag a s.coffs y i (cols k) tmp) (List.replicate (size sizes i) 0) =
      .ok (tab (size sizes i) (fun r => - ∑ k ∈ range sizes.length,
        if i = cols k then 0 else part a sizes y i (cols k) r)) := by
    rw [hs.ncol, Int.toNat_natCast]
    refine loop_spec (fun n => tab (size sizes i) (fun r => - ∑ k ∈ range n,
        if i = cols k then 0 else part a sizes y i (cols k) r)) ?_ ?_
    · rw [list_eq_tab' (n := size sizes i) (b := List.replicate (size sizes i) 0) (by simp)]
      apply tab_congr
      intro r hr
      simp [ve, hr]
    · intro k hk
      unfold offDiag
      have hj := hlt k hk
      by_cases hij : i = cols k
      · rw [if_pos hij]
        congr 1
        apply tab_congr
        intro r hr
        rw [sum_range_succ, if_pos hij, add_zero]
      · rw [if_neg hij]
        cases hb : a.blk i (cols k) with
        | none =>
          dsimp only
          congr 1
          apply tab_congr
          intro r hr
          rw [sum_range_succ, if_neg hij]
          simp [part, entry, hb]
        | some b =>
          dsimp only
          obtain ⟨b1, b2⟩ := ha.blk _ _ b hb
          rw [span_eq hs.coffs hj, ok_bind]
          dsimp only
          rw [getSeg_eq (size_sum_le hj hy), ok_bind,
            Sp.addMult_eq (by simp [b2]) (by simp [b1])]
          rw [b1, b2]
          congr 1
          apply tab_congr
          intro r hr
          rw [ve_tab hr, sum_range_succ, if_neg hij]
          rw [neg_add, neg_one_mul]
          congr 2
          unfold part
          apply sum_congr rfl
          intro c hc
          rw [ve_tab (mem_range.mp hc)]
          simp [entry, hb, comp]
  rw [hloop, ok_bind, getSeg_eq (size_sum_le hi hx), ok_bind, zipWith_tab,
    rd_eq_ok.2 hm, ok_bind, Mat.mult_eq (by simp [m2]), ok_bind]
  obtain ⟨y', h1, h2, h3⟩ := setSeg_eq (R := R) (y := y) (off := (sizes.take i).sum)
    (l := tab m.h (fun r => ∑ c ∈ range m.w, ent m r c * ve (tab (size sizes i) (fun k =>
      (- ∑ k' ∈ range sizes.length, if i = cols k' then 0 else part a sizes y i (cols k') k) +
        ve x ((sizes.take i).sum + k))) c)) (by rw [length_tab, m1]; exact size_sum_le hi hy)
  rw [length_tab, m1] at h3
  refine ⟨y', m, h1, by rw [Fits, h2]; exact hy, hm, ?_, ?_⟩
  · intro j c hj hc hji
    unfold comp
    rw [h3, if_neg (block_disjoint sizes (size_eq hi) (size_eq hj) hc (Ne.symm hji))]
  · intro r hr
    unfold comp
    rw [h3, if_pos (by omega), Nat.add_sub_cancel_left, ve_tab (by omega), m2]
    apply sum_congr rfl
    intro k hk
    rw [ve_tab (mem_range.mp hk)]
    congr 1
    rw [hcols (fun j => if i = j then 0 else part a sizes y i j k), neg_add_eq_sub]
    congr 1
    rw [← sum_erase_add (range sizes.length) _ (mem_range.mpr hi), if_pos rfl, add_zero]
    apply sum_congr rfl
    intro j hj
    rw [if_neg (fun e => (mem_erase.mp hj).1 e.symm)]

theorem part_congr {a : BlockMat R} {sizes : List Nat} {y y' : List R} {i j r : Nat}
    (h : ∀ c, c < size sizes j → comp sizes y j c = comp sizes y' j c) :
    part a sizes y i j r = part a sizes y' i j r := by
  unfold part
  exact sum_congr rfl (fun c hc => by rw [h c (mem_range.mp hc)])

/-- After relaxing block `i`, its row of the system holds. -/
theorem relax_row {s : BlockSmoother R} {a : BlockMat R} {sizes : List Nat} (ha : Shape a sizes)
    (hs : Good s a sizes) {x y : List R} (hx : Fits sizes x) (hy : Fits sizes y)
    (cols : Nat → Nat) (hcols : ∀ f : Nat → R, ∑ k ∈ range sizes.length, f (cols k) =
      ∑ k ∈ range sizes.length, f k) (hlt : ∀ k, k < sizes.length → cols k < sizes.length)
    {i : Nat} (hi : i < sizes.length) :
    ∃ y', relax s x cols i y = .ok y' ∧ Fits sizes y' ∧
      (∀ j c, j < sizes.length → c < size sizes j → j ≠ i → comp sizes y' j c = comp sizes y j c) ∧
      ∀ r, r < size sizes i → ∑ j ∈ range sizes.length, part a sizes y' i j r = comp sizes x i r := by
  obtain ⟨y', m, h1, h2, h3, h4, h5⟩ := relax_eq ha hs hx hy cols hcols hlt hi
  refine ⟨y', h1, h2, h4, ?_⟩
  intro r hr
  obtain ⟨m', hm', -, -, hinv⟩ := hs.inv i hi
  rw [h3] at hm'
  cases hm'
  rw [← sum_erase_add (range sizes.length) _ (mem_range.mpr hi)]
  have e : part a sizes y' i i r = comp sizes x i r -
      ∑ j ∈ (range sizes.length).erase i, part a sizes y i j r := by
    show ∑ c ∈ range (size sizes i), entry a i i r c * comp sizes y' i c = _
    rw [sum_congr rfl (fun c hc => by rw [h5 c (mem_range.mp hc), mul_sum])]
    rw [sum_comm]
    have : ∀ k ∈ range (size sizes i), ∑ c ∈ range (size sizes i), entry a i i r c *
        (ent m c k * (comp sizes x i k - ∑ j ∈ (range sizes.length).erase i, part a sizes y i j k)) =
        if r = k then (comp sizes x i k - ∑ j ∈ (range sizes.length).erase i, part a sizes y i j k)
          else 0 := by
      intro k hk
      simp only [← mul_assoc]
      rw [← sum_mul, (hinv r k hr (mem_range.mp hk)).2]
      split <;> simp
    rw [sum_congr rfl this, sum_ite_eq, if_pos (mem_range.mpr hr)]
  rw [e, sum_congr rfl (fun j hj => part_congr (y' := y) (fun c hc =>
    h4 j c (mem_range.mp (mem_erase.mp hj).2) hc (mem_erase.mp hj).1))]
  ring

theorem ext_comp {sizes : List Nat} {y y' : List R} (hy : Fits sizes y) (hy' : Fits sizes y')
    (h : ∀ i r, i < sizes.length → r < size sizes i → comp sizes y i r = comp sizes y' i r) :
    y = y' := by
  have a := Blocks.isOffsets_partialSum sizes
  have h1 : HasSizes (⟨y, Sampling.partialSum (0 :: sizes)⟩ : Blocks.BlockVector R) sizes := ⟨a, hy⟩
  have h2 : HasSizes (⟨y', Sampling.partialSum (0 :: sizes)⟩ : Blocks.BlockVector R) sizes := ⟨a, hy'⟩
  have := Blocks.blocks_ext h1 h2 (by
    intro i hi
    apply List.ext_getElem?
    intro k
    rw [Blocks.blockOf_getElem? h1 (size_eq hi), Blocks.blockOf_getElem? h2 (size_eq hi)]
    by_cases hk : k < size sizes i
    · rw [if_pos hk, if_pos hk]
      have hb := block_bound sizes (size_eq hi)
      have e := h i k hi hk
      unfold comp ve at e
      have b1 : (sizes.take i).sum + k < y.length := by rw [hy]; omega
      have b2 : (sizes.take i).sum + k < y'.length := by rw [hy']; omega
      simp only [b1, b2, List.getElem?_eq_getElem, Option.getD_some] at e ⊢
      rw [e]
    · rw [if_neg hk, if_neg hk])
  injection this

/-- Relaxation keeps solutions. -/
theorem relax_fix {s : BlockSmoother R} {a : BlockMat R} {sizes : List Nat} (ha : Shape a sizes)
    (hs : Good s a sizes) {x y : List R} (hx : Fits sizes x) (hy : Fits sizes y)
    (cols : Nat → Nat) (hcols : ∀ f : Nat → R, ∑ k ∈ range sizes.length, f (cols k) =
      ∑ k ∈ range sizes.length, f k) (hlt : ∀ k, k < sizes.length → cols k < sizes.length)
    {i : Nat} (hi : i < sizes.length) (hsol : Solves a sizes y x) :
    relax s x cols i y = .ok y := by
  obtain ⟨y', m, h1, h2, h3, h4, h5⟩ := relax_eq ha hs hx hy cols hcols hlt hi
  obtain ⟨m', hm', -, -, hinv⟩ := hs.inv i hi
  rw [h3] at hm'
  cases hm'
  rw [h1]
  congr 1
  apply ext_comp h2 hy
  intro j r hj hr
  by_cases hji : j = i
  · subst hji
    rw [h5 r hr]
    have : ∀ k ∈ range (size sizes j), ent m r k * (comp sizes x j k -
        ∑ j' ∈ (range sizes.length).erase j, part a sizes y j j' k) =
        ∑ c ∈ range (size sizes j), ent m r k * entry a j j k c * comp sizes y j c := by
      intro k hk
      rw [← hsol j k hj (mem_range.mp hk), ← sum_erase_add (range sizes.length) _ (mem_range.mpr hj),
        add_sub_cancel_left]
      unfold part
      rw [mul_sum]
      exact sum_congr rfl (fun c _ => by ring)
    rw [sum_congr rfl this, sum_comm]
    have : ∀ c ∈ range (size sizes j), ∑ k ∈ range (size sizes j),
        ent m r k * entry a j j k c * comp sizes y j c = if r = c then comp sizes y j c else 0 := by
      intro c hc
      rw [← sum_mul, (hinv r c hr (mem_range.mp hc)).1]
      split <;> simp
    rw [sum_congr rfl this, sum_ite_eq, if_pos (mem_range.mpr hr)]
  · exact h4 j r hj hr hji

/-- A forward sweep solves with the lower part, using old values in the upper part. -/
theorem forw_eq {s : BlockSmoother R} {a : BlockMat R} {sizes : List Nat} (ha : Shape a sizes)
    (hs : Good s a sizes) {x y : List R} (hx : Fits sizes x) (hy : Fits sizes y) :
    ∃ y', forw s x y = .ok y' ∧ Fits sizes y' ∧ ∀ i r, i < sizes.length → r < size sizes i →
      ∑ j ∈ range sizes.length, part a sizes (if j ≤ i then y' else y) i j r = comp sizes x i r := by
  unfold forw
  rw [hs.nrow, Int.toNat_natCast]
  obtain ⟨y', h1, h2, h3, h4⟩ := loop_total
    (body := fun i y => relax s x (fun k => k) i y) (n := sizes.length)
    (fun n z => Fits sizes z ∧
      (∀ j c, n ≤ j → j < sizes.length → c < size sizes j → comp sizes z j c = comp sizes y j c) ∧
      ∀ i r, i < n → r < size sizes i →
        ∑ j ∈ range sizes.length, part a sizes (if j ≤ i then z else y) i j r = comp sizes x i r)
    (s := y) ⟨hy, fun _ _ _ _ _ => rfl, by intro i r hi; omega⟩ (by
      intro n z hn hz
      obtain ⟨z1, z2, z3⟩ := hz
      obtain ⟨w, w1, w2, w3, w4⟩ := relax_row ha hs hx z1 (fun k => k) (fun _ => rfl)
        (fun _ h => h) hn
      refine ⟨w, w1, w2, ?_, ?_⟩
      · intro j c hj hj' hc
        rw [w3 j c hj' hc (by omega), z2 j c (by omega) hj' hc]
      · intro i r hi hr
        by_cases hin : i = n
        · subst hin
          rw [← w4 r hr]
          apply sum_congr rfl
          intro j hj
          by_cases hji : j ≤ i
          · rw [if_pos hji]
          · rw [if_neg hji]
            refine part_congr (fun c hc => ?_)
            rw [w3 j c (mem_range.mp hj) hc (by omega), z2 j c (by omega) (mem_range.mp hj) hc]
        · rw [← z3 i r (by omega) hr]
          apply sum_congr rfl
          intro j hj
          by_cases hji : j ≤ i
          · rw [if_pos hji, if_pos hji]
            exact part_congr (fun c hc => w3 j c (mem_range.mp hj) hc (by omega))
          · rw [if_neg hji, if_neg hji])
  exact ⟨y', h1, h2, h4⟩

theorem reflect_sum (n : Nat) (f : Nat → R) :
    ∑ k ∈ range n, f (n - 1 - k) = ∑ k ∈ range n, f k := sum_range_reflect f n

/-- A backward sweep solves with the upper part, using old values in the lower part. -/
theorem back_eq {s : BlockSmoother R} {a : BlockMat R} {sizes : List Nat} (ha : Shape a sizes)
    (hs : Good s a sizes) {x y : List R} (hx : Fits sizes x) (hy : Fits sizes y) :
    ∃ y', back s x y = .ok y' ∧ Fits sizes y' ∧ ∀ i r, i < sizes.length → r < size sizes i →
      ∑ j ∈ range sizes.length, part a sizes (if i ≤ j then y' else y) i j r = comp sizes x i r := by
  unfold back
  rw [hs.nrow, hs.ncol, Int.toNat_natCast]
  obtain ⟨y', h1, h2, h3, h4⟩ := loop_total
    (body := fun k y => relax s x (fun k => sizes.length - 1 - k) (sizes.length - 1 - k) y)
    (n := sizes.length)
    (fun n z => Fits sizes z ∧
      (∀ j c, j + n < sizes.length → c < size sizes j → comp sizes z j c = comp sizes y j c) ∧
      ∀ i r, i < sizes.length → sizes.length ≤ i + n → r < size sizes i →
        ∑ j ∈ range sizes.length, part a sizes (if i ≤ j then z else y) i j r = comp sizes x i r)
    (s := y) ⟨hy, fun _ _ _ _ => rfl, by intro i r hi; omega⟩ (by
      intro n z hn hz
      obtain ⟨z1, z2, z3⟩ := hz
      obtain ⟨w, w1, w2, w3, w4⟩ := relax_row ha hs hx z1 (fun k => sizes.length - 1 - k)
        (reflect_sum _) (fun _ h => by omega) (show sizes.length - 1 - n < sizes.length by omega)
      refine ⟨w, w1, w2, ?_, ?_⟩
      · intro j c hj hc
        rw [w3 j c (by omega) hc (by omega), z2 j c (by omega) hc]
      · intro i r hi hin hr
        by_cases hin : i = sizes.length - 1 - n
        · rw [← hin] at w3 w4
          rw [← w4 r hr]
          apply sum_congr rfl
          intro j hj
          have hj := mem_range.mp hj
          by_cases hji : i ≤ j
          · rw [if_pos hji]
          · rw [if_neg hji]
            refine part_congr (fun c hc => ?_)
            rw [w3 j c hj hc (by omega), z2 j c (by omega) hc]
        · rw [← z3 i r hi (by omega) hr]
          apply sum_congr rfl
          intro j hj
          by_cases hji : i ≤ j
          · rw [if_pos hji, if_pos hji]
            exact part_congr (fun c hc => w3 j c (mem_range.mp hj) hc (by omega))
          · rw [if_neg hji, if_neg hji])
  exact ⟨y', h1, h2, fun i r hi hr => h4 i r hi (by omega) hr⟩

theorem forw_fix {s : BlockSmoother R} {a : BlockMat R} {sizes : List Nat} (ha : Shape a sizes)
    (hs : Good s a sizes) {x y : List R} (hx : Fits sizes x) (hy : Fits sizes y)
    (hsol : Solves a sizes y x) : forw s x y = .ok y := by
  unfold forw
  rw [hs.nrow, Int.toNat_natCast]
  exact loop_spec (fun _ => y) rfl (fun i hi =>
    relax_fix ha hs hx hy (fun k => k) (fun _ => rfl) (fun _ h => h) hi hsol)

theorem back_fix {s : BlockSmoother R} {a : BlockMat R} {sizes : List Nat} (ha : Shape a sizes)
    (hs : Good s a sizes) {x y : List R} (hx : Fits sizes x) (hy : Fits sizes y)
    (hsol : Solves a sizes y x) : back s x y = .ok y := by
  unfold back
  rw [hs.nrow, hs.ncol, Int.toNat_natCast]
  exact loop_spec (fun _ => y) rfl (fun i hi =>
    relax_fix ha hs hx hy (fun k => sizes.length - 1 - k) (reflect_sum _) (fun _ h => by omega)
      (show sizes.length - 1 - i < sizes.length by omega) hsol)

end Verif.Smoother
