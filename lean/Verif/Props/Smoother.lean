import Verif.Proofs.Smoother

/-!
# C40: block Gauss-Seidel and Jacobi smoothers
-/

namespace Verif.Smoother

open Verif Verif.LinAlg Verif.LinAlg.Spec Verif.Smoother.Spec Verif.Blocks.Spec Finset

variable {R : Type} [CommRing R]

/-- **C40.** A Gauss-Seidel smoother built from a block matrix, applied with any sweep type and number of
iterations to an exact solution, returns that solution. -/
theorem gs_keeps_solution {invert : Mat R → Outcome (Mat R)} (hinv : Inverts invert)
    {a : BlockMat R} {sizes : List Nat} (ha : Shape a sizes) {type : Int} {it : Nat}
    {s : BlockSmoother R} (h : construct invert a type it = .ok s) {x y : List R}
    (hx : Fits sizes x) (hy : Fits sizes y) (hsol : Solves a sizes y x) :
    multGS { s with iterative := true } x y = .ok y := by
  obtain ⟨hg, -, -, -⟩ := construct_good hinv ha h
  have hg' : Good { s with iterative := true } a sizes := ⟨hg.1, hg.2, hg.3, hg.4, hg.5, hg.6⟩
  unfold multGS
  simp only [if_true]
  refine loop_spec (fun _ => y) rfl (fun i _ => ?_)
  unfold forwHalf backHalf
  rw [forw_fix ha hg' hx hy hsol]
  have := back_fix ha hg' hx hy hsol
  split_ifs <;> simp [ok_bind, this]

theorem fits_zero (sizes : List Nat) {y : List R} (hy : Fits sizes y) :
    Fits sizes (List.replicate y.length (0 : R)) := by
  unfold Fits; rw [List.length_replicate]; exact hy

theorem fits_start (sizes : List Nat) (b : Bool) {y : List R} (hy : Fits sizes y) :
    Fits sizes (if b then y else List.replicate y.length (0 : R)) := by
  cases b
  · exact fits_zero sizes hy
  · exact hy

/-- A sweep never fails, and its result has any property that one iteration establishes. -/
theorem gs_total {s : BlockSmoother R} {a : BlockMat R} {sizes : List Nat} (ha : Shape a sizes)
    (hg : Good s a sizes) {x y : List R} (hx : Fits sizes x) (hy : Fits sizes y)
    (P : List R → Prop)
    (hP : ∀ y z y', Fits sizes y → Fits sizes z → forwHalf s x y = .ok z →
      backHalf s x z = .ok y' → P y') :
    ∃ y', multGS s x y = .ok y' ∧ Fits sizes y' ∧ (0 < s.iterations → P y') := by
  unfold multGS
  obtain ⟨r, h1, h2, h3⟩ := loop_total (fun n z => Fits sizes z ∧ (0 < n → P z))
    (n := s.iterations) (body := fun _ y => forwHalf s x y >>= fun y => backHalf s x y)
    (s := if s.iterative then y else List.replicate y.length 0)
    ⟨fits_start sizes _ hy, by omega⟩ (by
      intro n z hn hz
      have hf : ∃ f, forwHalf s x z = .ok f ∧ Fits sizes f := by
        unfold forwHalf
        split_ifs
        · obtain ⟨f, f1, f2, -⟩ := forw_eq ha hg hx hz.1
          exact ⟨f, f1, f2⟩
        · exact ⟨z, rfl, hz.1⟩
      obtain ⟨f, f1, f2⟩ := hf
      have hb : ∃ b, backHalf s x f = .ok b ∧ Fits sizes b := by
        unfold backHalf
        split_ifs
        · obtain ⟨b, b1, b2, -⟩ := back_eq ha hg hx f2
          exact ⟨b, b1, b2⟩
        · exact ⟨f, rfl, f2⟩
      obtain ⟨b, b1, b2⟩ := hb
      exact ⟨b, by rw [f1, ok_bind, b1], b2, fun _ => hP z f b hz.1 f2 f1 b1⟩)
  exact ⟨r, h1, h2, h3⟩

theorem part_zero {a : BlockMat R} {sizes : List Nat} {y y' : List R} {i j r : Nat}
    (h : ∀ c, c < size sizes j → entry a i j r c = 0) :
    part a sizes y i j r = part a sizes y' i j r := by
  unfold part
  exact sum_congr rfl (fun c hc => by rw [h c (mem_range.mp hc)]; ring)

/-- **C40.** For a block lower triangular matrix, at least one iteration with a forward sweep (types 0
and 1) returns an exact solution from any start. -/
theorem gs_solves_lower {invert : Mat R → Outcome (Mat R)} (hinv : Inverts invert)
    {a : BlockMat R} {sizes : List Nat} (ha : Shape a sizes) {type : Int} {it : Nat}
    {s : BlockSmoother R} (h : construct invert a type it = .ok s) (hit : 0 < it) (ht : type ≠ 2)
    (hlow : ∀ i j r c, i < j → j < sizes.length → r < size sizes i → c < size sizes j →
      entry a i j r c = 0)
    {x y : List R} (hx : Fits sizes x) (hy : Fits sizes y) (mode : Bool) :
    ∃ y', multGS { s with iterative := mode } x y = .ok y' ∧ Fits sizes y' ∧
      Solves a sizes y' x := by
  obtain ⟨hg, h1, h2, -⟩ := construct_good hinv ha h
  have hg' : Good { s with iterative := mode } a sizes := ⟨hg.1, hg.2, hg.3, hg.4, hg.5, hg.6⟩
  obtain ⟨y', g1, g2, g3⟩ := gs_total ha hg' hx hy (fun y => Solves a sizes y x) (by
    intro z f z' hz hf hstep1 hstep2
    have hsol : Solves a sizes f x := by
      obtain ⟨f', f1, f2, f3⟩ := forw_eq ha hg' hx hz
      rw [forwHalf, if_pos (by rw [← h1] at ht; exact ht), f1] at hstep1
      cases hstep1
      intro i r hi hr
      rw [← f3 i r hi hr]
      apply sum_congr rfl
      intro j hj
      split_ifs with hji
      · rfl
      · exact part_zero (fun c hc => hlow i j r c (by omega) (mem_range.mp hj) hr hc)
    rw [backHalf, back_fix ha hg' hx hf hsol] at hstep2
    split_ifs at hstep2 <;> (cases hstep2; exact hsol))
  exact ⟨y', g1, g2, g3 (by rw [show (({ s with iterative := mode } : BlockSmoother R).iterations) =
    s.iterations from rfl, h2]; exact hit)⟩

/-- **C40.** For a block upper triangular matrix, at least one iteration with a backward sweep (types 0
and 2) returns an exact solution from any start. -/
theorem gs_solves_upper {invert : Mat R → Outcome (Mat R)} (hinv : Inverts invert)
    {a : BlockMat R} {sizes : List Nat} (ha : Shape a sizes) {type : Int} {it : Nat}
    {s : BlockSmoother R} (h : construct invert a type it = .ok s) (hit : 0 < it) (ht : type ≠ 1)
    (hup : ∀ i j r c, j < i → i < sizes.length → r < size sizes i → c < size sizes j →
      entry a i j r c = 0)
    {x y : List R} (hx : Fits sizes x) (hy : Fits sizes y) (mode : Bool) :
    ∃ y', multGS { s with iterative := mode } x y = .ok y' ∧ Fits sizes y' ∧
      Solves a sizes y' x := by
  obtain ⟨hg, h1, h2, -⟩ := construct_good hinv ha h
  have hg' : Good { s with iterative := mode } a sizes := ⟨hg.1, hg.2, hg.3, hg.4, hg.5, hg.6⟩
  obtain ⟨y', g1, g2, g3⟩ := gs_total ha hg' hx hy (fun y => Solves a sizes y x) (by
    intro z f z' hz hf hstep1 hstep2
    obtain ⟨b, b1, b2, b3⟩ := back_eq ha hg' hx hf
    rw [backHalf, if_pos (by rw [← h1] at ht; exact ht), b1] at hstep2
    cases hstep2
    intro i r hi hr
    rw [← b3 i r hi hr]
    apply sum_congr rfl
    intro j hj
    split_ifs with hji
    · rfl
    · exact part_zero (fun c hc => hup i j r c (by omega) hi hr hc))
  exact ⟨y', g1, g2, g3 (by rw [show (({ s with iterative := mode } : BlockSmoother R).iterations) =
    s.iterations from rfl, h2]; exact hit)⟩

/-- **C40.** One forward sweep from any start solves the rows with new values up to the diagonal and old
values behind it. -/
theorem gs_forward_rows {invert : Mat R → Outcome (Mat R)} (hinv : Inverts invert)
    {a : BlockMat R} {sizes : List Nat} (ha : Shape a sizes) {s : BlockSmoother R}
    (h : construct invert a 1 1 = .ok s)
    {x y : List R} (hx : Fits sizes x) (hy : Fits sizes y) :
    ∃ y', multGS { s with iterative := true } x y = .ok y' ∧ Fits sizes y' ∧
      ∀ i r, i < sizes.length → r < size sizes i →
        ∑ j ∈ range sizes.length, part a sizes (if j ≤ i then y' else y) i j r =
          comp sizes x i r := by
  obtain ⟨hg, h1, h2, -⟩ := construct_good hinv ha h
  have hg' : Good { s with iterative := true } a sizes := ⟨hg.1, hg.2, hg.3, hg.4, hg.5, hg.6⟩
  obtain ⟨f, f1, f2, f3⟩ := forw_eq ha hg' hx hy
  refine ⟨f, ?_, f2, f3⟩
  generalize hs' : ({ s with iterative := true } : BlockSmoother R) = s' at f1 ⊢
  have t1 : s'.type = 1 := by rw [← hs']; exact h1
  have t2 : s'.iterations = 1 := by rw [← hs']; exact h2
  have t3 : s'.iterative = true := by rw [← hs']
  simp [multGS, forwHalf, backHalf, t1, t2, t3, loop, loopFrom, f1, ok_bind]

theorem comp_zero (sizes : List Nat) (n i r : Nat) :
    comp sizes (List.replicate n (0 : R)) i r = 0 := by
  unfold comp ve
  by_cases h : (sizes.take i).sum + r < n
  · rw [List.getElem?_replicate, if_pos h]; rfl
  · rw [List.getElem?_replicate, if_neg h]; rfl

theorem part_replicate_zero (a : BlockMat R) (sizes : List Nat) (n i j r : Nat) :
    part a sizes (List.replicate n (0 : R)) i j r = 0 := by
  unfold part
  exact sum_eq_zero (fun c _ => by rw [comp_zero, mul_zero])

/-- `⟨w_i, A_ij y_j⟩`. -/
def form (a : BlockMat R) (sizes : List Nat) (w y : List R) (i j : Nat) : R :=
  ∑ r ∈ range (size sizes i), comp sizes w i r * part a sizes y i j r

theorem form_comm {a : BlockMat R} {sizes : List Nat} (hsym : Symmetric a sizes) (w y : List R)
    {i j : Nat} (hi : i < sizes.length) (hj : j < sizes.length) :
    form a sizes w y i j = form a sizes y w j i := by
  unfold form part
  simp only [mul_sum]
  rw [sum_comm]
  refine sum_congr rfl (fun c hc => sum_congr rfl (fun r hr => ?_))
  rw [hsym i j r c hi hj (mem_range.mp hr) (mem_range.mp hc)]
  ring

/-- Inner product with the result of a symmetric sweep started at zero. -/
theorem inner_sweep {s : BlockSmoother R} {a : BlockMat R} {sizes : List Nat} (ha : Shape a sizes)
    (hg : Good s a sizes) (hsym : Symmetric a sizes) {x z : List R} (hx : Fits sizes x)
    (hz : Fits sizes z) (o : List R) (ho : Fits sizes o) (hoz : o = List.replicate o.length 0) :
    ∃ y1 w y, forw s x o = .ok y1 ∧ forw s z o = .ok w ∧ back s x y1 = .ok y ∧
      Fits sizes y ∧ inner sizes z y = ∑ j ∈ range sizes.length, form a sizes w y1 j j := by
  obtain ⟨y1, a1, a2, a3⟩ := forw_eq ha hg hx ho
  obtain ⟨w, b1, b2, b3⟩ := forw_eq ha hg hz ho
  obtain ⟨y, c1, c2, c3⟩ := back_eq ha hg hx a2
  refine ⟨y1, w, y, a1, b1, c1, c2, ?_⟩
  have hp : ∀ i j r, part a sizes o i j r = 0 := by
    intro i j r; rw [hoz]; exact part_replicate_zero a sizes _ i j r
  -- ⟨z, y⟩ = sum over j ≤ i of ⟨y_i, A_ij w_j⟩
  have e1 : inner sizes z y = ∑ i ∈ range sizes.length, ∑ j ∈ range sizes.length,
      if j ≤ i then form a sizes w y j i else 0 := by
    unfold inner
    refine sum_congr rfl (fun i hi => ?_)
    have hi := mem_range.mp hi
    have : ∀ r ∈ range (size sizes i), comp sizes z i r * comp sizes y i r =
        ∑ j ∈ range sizes.length, if j ≤ i then comp sizes y i r * part a sizes w i j r else 0 := by
      intro r hr
      rw [← b3 i r hi (mem_range.mp hr), sum_mul]
      refine sum_congr rfl (fun j hj => ?_)
      split_ifs
      · ring
      · rw [hp, zero_mul]
    rw [sum_congr rfl this, sum_comm]
    refine sum_congr rfl (fun j hj => ?_)
    split_ifs
    · rw [form_comm hsym w y (mem_range.mp hj) hi]; rfl
    · simp
  rw [e1, sum_comm]
  refine sum_congr rfl (fun j hj => ?_)
  have hj := mem_range.mp hj
  -- row j of the backward sweep
  have e2 : ∑ i ∈ range sizes.length, (if j ≤ i then form a sizes w y j i else 0) =
      ∑ r ∈ range (size sizes j), comp sizes w j r *
        ∑ i ∈ range sizes.length, if j ≤ i then part a sizes y j i r else 0 := by
    simp only [mul_sum]
    rw [sum_comm]
    refine sum_congr rfl (fun i _ => ?_)
    split_ifs
    · rfl
    · simp
  rw [e2]
  refine sum_congr rfl (fun r hr => ?_)
  congr 1
  have hr := mem_range.mp hr
  have c := c3 j r hj hr
  have f := a3 j r hj hr
  have c' : ∑ i ∈ range sizes.length, part a sizes (if j ≤ i then y else y1) j i r =
      (∑ i ∈ range sizes.length, if j ≤ i then part a sizes y j i r else 0) +
      ∑ i ∈ range sizes.length, if i < j then part a sizes y1 j i r else 0 := by
    rw [← sum_add_distrib]
    refine sum_congr rfl (fun i _ => ?_)
    by_cases h : j ≤ i
    · rw [if_pos h, if_pos h, if_neg (by omega), add_zero]
    · rw [if_neg h, if_neg h, if_pos (by omega), zero_add]
  have f' : ∑ i ∈ range sizes.length, part a sizes (if i ≤ j then y1 else o) j i r =
      part a sizes y1 j j r +
      ∑ i ∈ range sizes.length, if i < j then part a sizes y1 j i r else 0 := by
    have : part a sizes y1 j j r = ∑ i ∈ range sizes.length,
        if i = j then part a sizes y1 j i r else 0 := by
      rw [sum_ite_eq', if_pos (mem_range.mpr hj)]
    rw [this, ← sum_add_distrib]
    refine sum_congr rfl (fun i _ => ?_)
    rcases Nat.lt_trichotomy i j with h | h | h
    · rw [if_pos (by omega), if_neg (by omega), if_pos h, zero_add]
    · rw [if_pos (by omega), if_pos h, if_neg (by omega), add_zero]
    · rw [if_neg (by omega), if_neg (by omega), if_neg (by omega), add_zero, hp]
  rw [c'] at c
  rw [f'] at f
  rw [← f] at c
  exact add_right_cancel c

theorem form_diag_comm {a : BlockMat R} {sizes : List Nat} (hsym : Symmetric a sizes) (w y : List R) :
    ∑ j ∈ range sizes.length, form a sizes w y j j = ∑ j ∈ range sizes.length, form a sizes y w j j :=
  sum_congr rfl (fun _ hj => form_comm hsym w y (mem_range.mp hj) (mem_range.mp hj))

/-- **C40.** For a symmetric matrix, one symmetric sweep from zero (the default) is a symmetric operator,
as conjugate gradients needs of a preconditioner. -/
theorem gs_symmetric {invert : Mat R → Outcome (Mat R)} (hinv : Inverts invert)
    {a : BlockMat R} {sizes : List Nat} (ha : Shape a sizes) {s : BlockSmoother R}
    (h : construct invert a 0 1 = .ok s) (hsym : Symmetric a sizes)
    {x z : List R} (hx : Fits sizes x) (hz : Fits sizes z) {y0 z0 : List R}
    (hy0 : Fits sizes y0) (hz0 : Fits sizes z0) :
    ∃ y v, multGS s x y0 = .ok y ∧ multGS s z z0 = .ok v ∧ inner sizes z y = inner sizes x v := by
  obtain ⟨hg, h1, h2, h3⟩ := construct_good hinv ha h
  obtain ⟨y1, w, y, e1, e2, e3, -, e4⟩ := inner_sweep ha hg hsym hx hz
    (List.replicate y0.length 0) (fits_zero sizes hy0) (by simp)
  obtain ⟨w', y1', v, g1, g2, g3, -, g4⟩ := inner_sweep ha hg hsym hz hx
    (List.replicate y0.length 0) (fits_zero sizes hy0) (by simp)
  rw [e1] at g2; cases g2
  rw [e2] at g1; cases g1
  have hl : z0.length = y0.length := by rw [hy0, hz0]
  refine ⟨y, v, ?_, ?_, ?_⟩
  · simp [multGS, forwHalf, backHalf, h1, h2, h3, loop, loopFrom, e1, e3, ok_bind]
  · simp [multGS, forwHalf, backHalf, h1, h2, h3, loop, loopFrom, hl, e2, g3, ok_bind]
  · rw [e4, g4, form_diag_comm hsym]

/-- **C40.** The Jacobi smoother returns the solution of the block diagonal system; any other setting than
a single, non-iterative application aborts. -/
theorem jacobi_spec {invert : Mat R → Outcome (Mat R)} (hinv : Inverts invert)
    {a : BlockMat R} {sizes : List Nat} (ha : Shape a sizes) {type : Int} {it : Nat}
    {s : BlockSmoother R} (h : construct invert a type it = .ok s)
    {x y : List R} (hx : Fits sizes x) (hy : Fits sizes y) :
    (type = 0 ∧ it = 1 → ∃ y', multD s x y = .ok y' ∧ Fits sizes y' ∧
      ∀ i r, i < sizes.length → r < size sizes i → part a sizes y' i i r = comp sizes x i r) ∧
    (¬ (type = 0 ∧ it = 1) → multD s x y = .error .abort) ∧
    multD { s with iterative := true } x y = .error .abort := by
  obtain ⟨hg, h1, h2, h3⟩ := construct_good hinv ha h
  refine ⟨?_, ?_, ?_⟩
  · rintro ⟨ht, hi⟩
    unfold multD
    rw [if_pos ⟨h3, by rw [h1, ht], by rw [h2, hi]⟩, hg.nrow, Int.toNat_natCast]
    obtain ⟨y', g1, g2, g3⟩ := loop_total (n := sizes.length) (body := fun i y => (do
      let (ro, rn) ← span s.roffs i
      let xi ← getSeg x ro rn
      let inv ← rd s.diagInv i
      let z ← inv.mult xi
      setSeg y ro z : Outcome (List R)))
      (fun n z => Fits sizes z ∧ ∀ i r, i < n → r < size sizes i →
        part a sizes z i i r = comp sizes x i r) (s := y) ⟨hy, by intro i r hi; omega⟩ (by
        intro n z hn hz
        obtain ⟨m, m0, m1, m2, m3⟩ := hg.inv n hn
        rw [span_eq hg.roffs hn, ok_bind]
        dsimp only
        rw [getSeg_eq (size_sum_le hn hx), ok_bind, rd_eq_ok.2 m0, ok_bind,
          Mat.mult_eq (by simp [m2]), ok_bind]
        obtain ⟨z', k1, k2, k3⟩ := setSeg_eq (R := R) (y := z) (off := (sizes.take n).sum)
          (l := tab m.h (fun r => ∑ c ∈ range m.w, ent m r c *
            ve (tab (size sizes n) (fun k => ve x ((sizes.take n).sum + k))) c))
          (by rw [length_tab, m1]; exact size_sum_le hn hz.1)
        rw [length_tab, m1] at k3
        refine ⟨z', k1, by rw [Fits, k2]; exact hz.1, ?_⟩
        intro i r hi hr
        by_cases hin : i = n
        · subst hin
          have hc : ∀ c, c < size sizes i → comp sizes z' i c =
              ∑ k ∈ range (size sizes i), ent m c k * comp sizes x i k := by
            intro c hc
            show ve z' _ = _
            rw [k3, if_pos (by omega), Nat.add_sub_cancel_left, ve_tab (by omega), m2]
            exact sum_congr rfl (fun k hk => by rw [ve_tab (mem_range.mp hk)]; rfl)
          unfold part
          rw [sum_congr rfl (fun c hc' => by rw [hc c (mem_range.mp hc'), mul_sum]), sum_comm]
          have : ∀ k ∈ range (size sizes i), ∑ c ∈ range (size sizes i),
              entry a i i r c * (ent m c k * comp sizes x i k) =
              if r = k then comp sizes x i k else 0 := by
            intro k hk
            simp only [← mul_assoc]
            rw [← sum_mul, (m3 r k hr (mem_range.mp hk)).2]
            split <;> simp
          rw [sum_congr rfl this, sum_ite_eq, if_pos (mem_range.mpr hr)]
        · rw [← hz.2 i r (by omega) hr]
          refine part_congr (fun c hc => ?_)
          unfold comp
          rw [k3, if_neg (block_disjoint sizes (size_eq hn) (size_eq (by omega)) hc (Ne.symm hin))])
    exact ⟨y', g1, g2, g3⟩
  · intro hn
    unfold multD
    rw [if_neg (fun hh => hn ⟨by rw [← h1]; exact hh.2.1, by rw [← h2]; exact hh.2.2⟩)]
  · unfold multD
    rw [if_neg (fun hh => by simp at hh)]

/-- **C40.** A smoother constructed without a matrix and then given one by `SetOperator` processes no
block: Gauss-Seidel returns zero whatever the right-hand side, Jacobi leaves its argument. -/
theorem setOperator_default_does_nothing (a : BlockMat R) (type : Int) (it : Nat) (x y : List R)
    (s : BlockSmoother R) (h : setOperator (default type it) (some a) = .ok s) :
    multGS s x y = .ok (List.replicate y.length 0) ∧
    (type = 0 ∧ it = 1 → multD s x y = .ok y) := by
  have h := Except.ok.inj h
  subst h
  constructor
  · unfold multGS
    refine loop_spec (fun _ => List.replicate y.length 0) rfl (fun i _ => ?_)
    simp only [forwHalf, backHalf, forw, back, default, loop, loopFrom, show (-1 : Int).toNat = 0 from rfl]
    split_ifs <;> rfl
  · rintro ⟨rfl, rfl⟩
    rfl

/-- Integer matrices of size one, inverted when the entry is a unit. -/
def invert1 : Mat Int → Outcome (Mat Int)
  | ⟨1, 1, [1]⟩ => .ok ⟨1, 1, [1]⟩
  | ⟨1, 1, [-1]⟩ => .ok ⟨1, 1, [-1]⟩
  | _ => .error .abort

/-- `[[1, 2], [0, -1]]`. -/
def demo : BlockMat Int where
  roffs := [0, 1, 2]
  coffs := [0, 1, 2]
  blk i j := if i = 0 ∧ j = 0 then some ⟨1, 1, [((0, 0), 1)]⟩
    else if i = 1 ∧ j = 1 then some ⟨1, 1, [((0, 0), -1)]⟩
    else if i = 0 ∧ j = 1 then some ⟨1, 1, [((0, 0), 2)]⟩ else none

theorem invert1_inverts : Inverts invert1 := by
  intro m n hm h
  unfold invert1 at h
  split at h
  · cases h
    refine ⟨rfl, rfl, ?_⟩
    intro i k hi hk
    have : i = 0 := by simpa using hi
    have : k = 0 := by simpa using hk
    subst i k
    simp [ent, ve]
  · cases h
    refine ⟨rfl, rfl, ?_⟩
    intro i k hi hk
    have : i = 0 := by simpa using hi
    have : k = 0 := by simpa using hk
    subst i k
    simp [ent, ve]
  · cases h

theorem demo_shape : Shape demo [1, 1] where
  roffs := Blocks.isOffsets_partialSum [1, 1]
  coffs := Blocks.isOffsets_partialSum [1, 1]
  blk := by
    intro i j m h
    unfold demo at h
    dsimp only at h
    split_ifs at h with h1 h2 h3
    · cases h; obtain ⟨rfl, rfl⟩ := h1; exact ⟨rfl, rfl⟩
    · cases h; obtain ⟨rfl, rfl⟩ := h2; exact ⟨rfl, rfl⟩
    · cases h; obtain ⟨rfl, rfl⟩ := h3; exact ⟨rfl, rfl⟩

example : (construct invert1 demo 0 1).isOk ∧ Fits [1, 1] [(5 : Int), 3] := ⟨by decide, rfl⟩

example : (construct invert1 demo 0 1 >>= fun s => multGS s [5, 3] [0, 0]) = .ok [11, -3] := by decide

example : (construct invert1 demo 0 1 >>= fun s => multD s [5, 3] [0, 0]) = .ok [5, -3] := by decide

/-- **C40.** `SetOperator` keeps the inverses of the matrix the smoother was built from: after changing to
another triangular matrix, the sweep no longer solves. -/
theorem setOperator_keeps_inverses :
    (construct invert1 demo 0 1 >>= fun s =>
      setOperator s (some ⟨[0, 1, 2], [0, 1, 2], fun i j =>
        if i = 1 ∧ j = 1 then some ⟨1, 1, [((0, 0), 1)]⟩ else demo.blk i j⟩) >>= fun s =>
      multGS s [5, 3] [0, 0]) = .ok [11, -3] := by decide

/-- `[[1, 2], [2, -1]]`. -/
def demoSym : BlockMat Int where
  roffs := [0, 1, 2]
  coffs := [0, 1, 2]
  blk i j := if i = 1 ∧ j = 0 then some ⟨1, 1, [((0, 0), 2)]⟩ else demo.blk i j

example : Symmetric demoSym [1, 1] := by
  intro i j r c hi hj hr hc
  have h1 : ∀ i, i < 2 → size [1, 1] i = 1 := by decide
  rw [h1 i hi] at hr
  rw [h1 j hj] at hc
  have : r = 0 := by omega
  have : c = 0 := by omega
  subst r c
  have : ∀ i < 2, ∀ j < 2, entry demoSym i j 0 0 = entry demoSym j i 0 0 := by decide
  exact this i hi j hj

example : (construct invert1 demoSym 0 1 >>= fun s => multGS s [5, 3] [0, 0]) = .ok [-9, 7] ∧
    (construct invert1 demoSym 0 1 >>= fun s => multGS s [0, 1] [0, 0]) = .ok [2, -1] := by decide

example : Solves demo [1, 1] [11, -3] [(5 : Int), 3] := by
  intro i r hi hr
  have h1 : ∀ i, i < 2 → size [1, 1] i = 1 := by decide
  rw [h1 i hi] at hr
  have : r = 0 := by omega
  subst r
  have : ∀ i < 2, ∑ j ∈ range 2, part demo [1, 1] [11, -3] i j 0 = comp [1, 1] [(5 : Int), 3] i 0 := by
    decide
  exact this i hi

end Verif.Smoother
