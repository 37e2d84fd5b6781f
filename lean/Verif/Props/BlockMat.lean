import Verif.Proofs.LinAlg
import Verif.Props.Blocks

/-!
# Property C23: block insertion and matrix conversion
-/

namespace Verif.LinAlg

open Verif Spec Finset

variable {R : Type}

theorem cget_eq [Zero R] {m : CMat R} (hm : CMatOk m) {i j : Nat} (hi : i < m.rows) (hj : j < m.cols) :
    m.get i j = .ok (cent m i j) := by
  unfold CMat.get
  rw [if_pos ⟨by omega, by omega, by omega, by omega⟩, Int.toNat_natCast, Int.toNat_natCast]
  have hlt : i * m.cols + j < m.data.length := by rw [hm]; exact (seq_entry hi hj).1
  rw [rd_of_lt hlt]
  unfold cent ve; simp [hlt]

theorem wrI_nat {b : List R} {i : Nat} {v : R} : wrI b (i : Int) v = wr b i v := by
  unfold wrI; rw [if_pos (by omega), Int.toNat_natCast]

/-- `SetBlock` for matrices: when the window lies in the target and is not larger than the block,
exactly the window is overwritten. -/
theorem setBlockMat_spec [Zero R] (b g : CMat R) (hb : CMatOk b) (hg : CMatOk g) (i0 i1 j0 j1 : Nat)
    (hd : b.distributed = false) (hd' : g.distributed = false)
    (h1 : b.rows ≤ g.rows) (h2 : b.cols ≤ g.cols) (h3 : i0 < g.rows) (h4 : j0 < g.cols)
    (h5 : i1 ≤ g.rows) (h6 : j1 ≤ g.cols) (h7 : i1 ≤ i0 + b.rows) (h8 : j1 ≤ j0 + b.cols) :
    ∃ g', setBlockMat b i0 i1 j0 j1 g = .ok g' ∧ g'.rows = g.rows ∧ g'.cols = g.cols ∧
      g'.distributed = false ∧ CMatOk g' ∧
      ∀ i j, i < g.rows → j < g.cols → cent g' i j =
        if i0 ≤ i ∧ i < i1 ∧ j0 ≤ j ∧ j < j1 then cent b (i - i0) (j - j0) else cent g i j := by
  obtain ⟨r, hr, hl, hin, hout⟩ := loop2_fill (a := i1 - i0) (b := j1 - j0)
    (fun di dj => (i0 + di) * g.cols + (j0 + dj)) (fun di dj => cent b di dj) g.data
    (fun i j i' j' hi hj hi' hj' e => by
      have e1 := seq_entry (a := g.rows) (b := g.cols) (i := i0 + i) (j := j0 + j) (by omega) (by omega)
      have e2 := seq_entry (a := g.rows) (b := g.cols) (i := i0 + i') (j := j0 + j') (by omega) (by omega)
      have a1 : i0 + i = i0 + i' := by rw [← e1.2.1, ← e2.2.1, e]
      have a2 : j0 + j = j0 + j' := by rw [← e1.2.2, ← e2.2.2, e]
      omega)
    (fun i j hi hj => by rw [hg]; exact (seq_entry (by omega) (by omega)).1)
  refine ⟨{ g with data := r }, ?_, rfl, rfl, hd', by show r.length = _; rw [hl]; exact hg, ?_⟩
  · unfold setBlockMat
    have c1 : (!b.distributed && !g.distributed) = true := by rw [hd, hd']; rfl
    have c2 : (decide ((0 : Int) ≤ i0) && decide ((i0 : Int) < g.rows)) = true := by simp; omega
    have c3 : (decide ((0 : Int) ≤ j0) && decide ((j0 : Int) < g.cols)) = true := by simp; omega
    have c4 : (decide ((0 : Int) ≤ i1) && decide ((i1 : Int) ≤ g.rows)) = true := by simp; omega
    have c5 : (decide ((0 : Int) ≤ j1) && decide ((j1 : Int) ≤ g.cols)) = true := by simp; omega
    rw [c1, c2, c3, c4, c5, decide_eq_true h1, decide_eq_true h2]
    simp only [require_true, ok_bind]
    have : loop ((i1 : Int) - i0).toNat (fun di data => loop ((j1 : Int) - j0).toNat (fun dj data => (do
        let v ← b.get ((i0 : Int) + di - i0) ((j0 : Int) + dj - j0)
        wrI data (((i0 : Int) + di) * g.cols + ((j0 : Int) + dj)) v : Outcome (List R))) data) g.data
        = .ok r := by
      rw [← hr, show ((i1 : Int) - i0).toNat = i1 - i0 by omega,
        show ((j1 : Int) - j0).toNat = j1 - j0 by omega]
      refine loop_congr fun di u hdi => loop_congr fun dj u' hdj => ?_
      rw [show (i0 : Int) + di - i0 = (di : Nat) by omega, show (j0 : Int) + dj - j0 = (dj : Nat) by omega,
        cget_eq hb (by omega) (by omega), ok_bind]
      rw [show ((i0 : Int) + di) * g.cols + ((j0 : Int) + dj) =
        (((i0 + di) * g.cols + (j0 + dj) : Nat) : Int) by push_cast; ring, wrI_nat]
    rw [this]; rfl
  · intro i j hi hj
    by_cases hw : i0 ≤ i ∧ i < i1 ∧ j0 ≤ j ∧ j < j1
    · rw [if_pos hw]
      have := hin (i - i0) (j - j0) (by omega) (by omega)
      rw [show i0 + (i - i0) = i by omega, show j0 + (j - j0) = j by omega] at this
      show ve r (i * g.cols + j) = _
      unfold ve; rw [this]; rfl
    · rw [if_neg hw]
      have := hout (i * g.cols + j) (fun di dj hdi hdj e => by
        have e1 := seq_entry (a := g.rows) (b := g.cols) (i := i0 + di) (j := j0 + dj) (by omega) (by omega)
        have e2 := seq_entry hi hj
        have a1 : i0 + di = i := by rw [← e1.2.1, ← e2.2.1, e]
        have a2 : j0 + dj = j := by rw [← e1.2.2, ← e2.2.2, e]
        omega)
      show ve r (i * g.cols + j) = ve g.data (i * g.cols + j)
      unfold ve; rw [this]

/-- `SetBlock` aborts on distributed matrices, oversized blocks and windows outside the target. -/
theorem setBlockMat_rejects (b g : CMat R) (i0 i1 j0 j1 : Int)
    (h : b.distributed = true ∨ g.distributed = true ∨ g.rows < b.rows ∨ g.cols < b.cols ∨
      i0 < 0 ∨ (g.rows : Int) ≤ i0 ∨ j0 < 0 ∨ (g.cols : Int) ≤ j0 ∨
      i1 < 0 ∨ (g.rows : Int) < i1 ∨ j1 < 0 ∨ (g.cols : Int) < j1) :
    setBlockMat b i0 i1 j0 j1 g = .error .abort := by
  unfold setBlockMat
  rcases hc : (!b.distributed && !g.distributed) with _ | _
  · rfl
  rcases hc2 : decide (b.rows ≤ g.rows) with _ | _
  · rfl
  rcases hc3 : decide (b.cols ≤ g.cols) with _ | _
  · rfl
  rcases hc4 : (decide (0 ≤ i0) && decide (i0 < (g.rows : Int))) with _ | _
  · rfl
  rcases hc5 : (decide (0 ≤ j0) && decide (j0 < (g.cols : Int))) with _ | _
  · rfl
  rcases hc6 : (decide (0 ≤ i1) && decide (i1 ≤ (g.rows : Int))) with _ | _
  · rfl
  rcases hc7 : (decide (0 ≤ j1) && decide (j1 ≤ (g.cols : Int))) with _ | _
  · rfl
  exfalso
  simp only [Bool.and_eq_true, Bool.not_eq_true', decide_eq_true_eq] at hc hc2 hc3 hc4 hc5 hc6 hc7
  rw [hc.1, hc.2] at h
  simp only [Bool.false_eq_true, false_or] at h
  omega

/-- A window larger than the block is not rejected: the code reads outside the block. -/
theorem setBlockMat_window_overflow :
    setBlockMat (⟨1, 1, false, [5]⟩ : CMat Int) 0 2 0 1 ⟨2, 2, false, [0, 0, 0, 0]⟩ = .error .ub := by
  decide

/-- `SetBlock` for vectors. -/
theorem setBlockVec_spec [Zero R] (b g : List R) (i0 i1 : Nat) (h1 : b.length ≤ g.length)
    (h2 : i0 < g.length) (h3 : i1 ≤ g.length) (h4 : i1 ≤ i0 + b.length) :
    ∃ g', setBlockVec b i0 i1 g = .ok g' ∧ g'.length = g.length ∧
      ∀ i, i < g.length → ve g' i = if i0 ≤ i ∧ i < i1 then ve b (i - i0) else ve g i := by
  obtain ⟨r, hr, hl, hin, hout⟩ := loop_fill (n := i1 - i0) (fun di => i0 + di)
    (fun di => ve b di) g (fun i j _ _ e => by omega) (fun i hi => by omega)
  refine ⟨r, ?_, hl, ?_⟩
  · unfold setBlockVec
    have c2 : (decide ((0 : Int) ≤ i0) && decide ((i0 : Int) < g.length)) = true := by simp; omega
    have c4 : (decide ((0 : Int) ≤ i1) && decide ((i1 : Int) ≤ g.length)) = true := by simp; omega
    rw [decide_eq_true h1, c2, c4]
    simp only [require_true, ok_bind]
    rw [← hr, show ((i1 : Int) - i0).toNat = i1 - i0 by omega]
    refine loop_congr fun di u hdi => ?_
    have hlt : di < b.length := by omega
    rw [show (i0 : Int) + di - i0 = (di : Nat) by omega]
    have : rdI b (di : Int) = .ok (ve b di) := by
      unfold rdI; rw [if_pos (by omega), Int.toNat_natCast, rd_of_lt hlt]; simp [ve, hlt]
    rw [this, ok_bind, show (i0 : Int) + di = ((i0 + di : Nat) : Int) by push_cast; rfl, wrI_nat]
  · intro i hi
    by_cases hw : i0 ≤ i ∧ i < i1
    · rw [if_pos hw]
      have := hin (i - i0) (by omega)
      rw [show i0 + (i - i0) = i by omega] at this
      unfold ve; rw [this]; rfl
    · rw [if_neg hw]
      unfold ve; rw [hout i (fun di hdi e => by omega)]

theorem setBlockVec_rejects (b g : List R) (i0 i1 : Int)
    (h : g.length < b.length ∨ i0 < 0 ∨ (g.length : Int) ≤ i0 ∨ i1 < 0 ∨ (g.length : Int) < i1) :
    setBlockVec b i0 i1 g = .error .abort := by
  unfold setBlockVec
  rcases hc2 : decide (b.length ≤ g.length) with _ | _
  · rfl
  rcases hc4 : (decide (0 ≤ i0) && decide (i0 < (g.length : Int))) with _ | _
  · rfl
  rcases hc6 : (decide (0 ≤ i1) && decide (i1 ≤ (g.length : Int))) with _ | _
  · rfl
  exfalso
  simp only [Bool.and_eq_true, decide_eq_true_eq] at hc2 hc4 hc6
  omega

/-- `CopyMatrix` resizes the target and copies every entry (row-major to column-major). -/
theorem copyMatrix_spec [CommRing R] (c : CMat R) (m : Mat R) (hc : CMatOk c) (hm : MatOk m) :
    ∃ m', copyMatrix c m = .ok m' ∧ m'.h = c.rows ∧ m'.w = c.cols ∧ MatOk m' ∧
      ∀ i j, i < c.rows → j < c.cols → ent m' i j = cent c i j := by
  obtain ⟨s1, s2, s3⟩ := setSize_ok m hm c.rows c.cols
  obtain ⟨r, hr, hl, hin, _⟩ := loop2_fill (a := c.rows) (b := c.cols)
    (fun i j => i + j * c.rows) (fun i j => cent c i j) (m.setSize c.rows c.cols).data
    (fun i j i' j' hi _ hi' _ e => idx_inj hi hi' e)
    (fun i j hi hj => by
      have := idx_lt hi hj; have h3 := s3; unfold MatOk at h3; rw [s1, s2] at h3; omega)
  refine ⟨{ m.setSize c.rows c.cols with data := r }, ?_, s1, s2, ?_, ?_⟩
  · unfold copyMatrix
    dsimp only
    have : loop c.rows (fun i data => loop c.cols (fun j data => (do
        let v ← c.get i j
        wr data (i + j * c.rows) v : Outcome (List R))) data) (m.setSize c.rows c.cols).data = .ok r := by
      rw [← hr]
      refine loop_congr fun i u hi => loop_congr fun j u' hj => ?_
      rw [cget_eq hc hi hj, ok_bind]
    rw [this]; rfl
  · show (m.setSize c.rows c.cols).h * (m.setSize c.rows c.cols).w ≤ r.length
    rw [hl]; exact s3
  · intro i j hi hj
    show ve r (i + j * (m.setSize c.rows c.cols).h) = _
    rw [s1]
    unfold ve; rw [hin i j hi hj]; rfl

example : copyMatrix (⟨2, 3, false, [1, 2, 3, 4, 5, 6]⟩ : CMat Int) ⟨0, 0, []⟩
    = .ok ⟨2, 3, [1, 4, 2, 5, 3, 6]⟩ := by decide
example : setBlockMat (⟨1, 2, false, [8, 9]⟩ : CMat Int) 1 2 1 3 ⟨2, 3, false, [1, 2, 3, 4, 5, 6]⟩
    = .ok ⟨2, 3, false, [1, 2, 3, 4, 8, 9]⟩ ∧ setBlockVec [8, 9] 1 3 [1, 2, (3 : Int)] = .ok [1, 8, 9] := by
  decide

/-- `ComputeCtAB` returns `C^T A(B)`: entry `(i, j)` is column `i` of `C` against the operator
applied to column `j` of `B`. -/
theorem computeCtAB_spec [CommRing R] (a : Op R) (b c out : CMat R) (hb : CMatOk b) (hc : CMatOk c)
    (ha : OpOk a) (hw : a.w = b.rows) (hh : c.rows = a.h)
    (d1 : b.distributed = true) (d2 : c.distributed = true) (d3 : out.distributed = false) :
    ∃ o, computeCtAB a b c out = .ok o ∧ o.rows = c.cols ∧ o.cols = b.cols ∧ CMatOk o ∧
      o.distributed = false ∧
      ∀ i j, i < c.cols → j < b.cols → cent o i j =
        ∑ r ∈ range a.h, cent c r i * ve (a.mult (tab b.rows fun q => cent b q j)) r := by
  have hcol : ∀ i, i < b.cols → loop b.rows (fun j bvec => (do
      let v ← b.get j i
      wr bvec j v : Outcome (List R))) (List.replicate b.rows 0) = .ok (tab b.rows fun q => cent b q i) := by
    intro i hi
    have := loop_tab_map (n := b.rows) (m := b.rows) (body := fun j bvec => (do
      let v ← b.get j i
      wr bvec j v : Outcome (List R))) (fun _ => 0) (fun r _ => cent b r i) (le_refl _) (fun r f' hr => by
        rw [cget_eq hb hr hi, ok_bind, wr_tab hr])
    rw [show List.replicate b.rows (0 : R) = tab b.rows (fun _ => 0) by
      apply List.ext_getElem?; intro q; rw [getElem?_tab, List.getElem?_replicate], this]
    congr 1
    exact tab_congr fun q hq => by rw [if_pos hq]
  have hlen : ∀ j, (a.mult (tab b.rows fun q => cent b q j)).length = a.h := fun j =>
    ha _ (by rw [length_tab, hw])
  obtain ⟨ab, hab, hl, hin, _⟩ := loop2_fill (a := b.cols) (b := a.h)
    (fun i j => j * b.cols + i) (fun i j => ve (a.mult (tab b.rows fun q => cent b q i)) j)
    (List.replicate (a.h * b.cols) (0 : R))
    (fun i j i' j' hi hj hi' hj' e => by
      have e1 := seq_entry (a := a.h) hj hi
      have e2 := seq_entry (a := a.h) hj' hi'
      have a1 : j = j' := by rw [← e1.2.1, ← e2.2.1, e]
      have a2 : i = i' := by rw [← e1.2.2, ← e2.2.2, e]
      exact ⟨a2, a1⟩)
    (fun i j hi hj => by rw [List.length_replicate]; exact (seq_entry hj hi).1)
  have hab' : loop b.cols (fun i ab => (do
    let bvec ← loop b.rows (fun j bvec => do
      let v ← b.get j i
      wr bvec j v) (List.replicate b.rows 0)
    let abvec := a.mult bvec
    loop a.h (fun j ab => do
      let v ← rd abvec j
      wr ab (j * b.cols + i) v) ab : Outcome (List R))) (List.replicate (a.h * b.cols) 0) = .ok ab := by
    rw [← hab]
    refine loop_congr fun i u hi => ?_
    rw [hcol i hi, ok_bind]
    refine loop_congr fun j u' hj => ?_
    rw [rd_ve (by rw [hlen]; exact hj), ok_bind]
  obtain ⟨r, hr, hl2, hin2, _⟩ := loop2_fill (a := c.cols) (b := b.cols)
    (fun i j => i * b.cols + j)
    (fun i j => ∑ r ∈ range a.h, cent c r i * ve (a.mult (tab b.rows fun q => cent b q j)) r)
    (List.replicate (c.cols * b.cols) (0 : R))
    (fun i j i' j' hi hj hi' hj' e => by
      have e1 := seq_entry (a := c.cols) hi hj
      have e2 := seq_entry (a := c.cols) hi' hj'
      have a1 : i = i' := by rw [← e1.2.1, ← e2.2.1, e]
      have a2 : j = j' := by rw [← e1.2.2, ← e2.2.2, e]
      exact ⟨a1, a2⟩)
    (fun i j hi hj => by rw [List.length_replicate]; exact (seq_entry hi hj).1)
  refine ⟨⟨c.cols, b.cols, false, r⟩, ?_, rfl, rfl, by show r.length = _; rw [hl2, List.length_replicate],
    rfl, ?_⟩
  · unfold computeCtAB
    rw [d1, d2, d3, hh]
    simp only [beq_self_eq_true, Bool.and_self, Bool.not_false, require_true, ok_bind]
    dsimp only at hab'
    rw [hab', ok_bind]
    have : loop c.cols (fun i data => loop b.cols (fun j data => (do
        let v ← loop a.h (fun r acc => do
          let x ← c.get r i
          let y ← rd ab (r * b.cols + j)
          return acc + x * y) 0
        wr data (i * b.cols + j) v : Outcome (List R))) data) (List.replicate (c.cols * b.cols) 0) = .ok r := by
      rw [← hr]
      refine loop_congr fun i u hi => loop_congr fun j u' hj => ?_
      rw [loop_sum (fun r => cent c r i * ve (a.mult (tab b.rows fun q => cent b q j)) r) 0
        (fun k acc hk => by
          rw [cget_eq hc (by omega) hi, ok_bind, rd_eq_ok.2 (hin j k hj hk), ok_bind]; rfl),
        ok_bind, zero_add]
    rw [this]; rfl
  · intro i j hi hj
    show ve r (i * b.cols + j) = _
    unfold ve; rw [hin2 i j hi hj]; rfl

/-- Replicated (non-distributed) bases, and a mismatch of heights, abort. -/
theorem computeCtAB_rejects [CommRing R] (a : Op R) (b c out : CMat R)
    (h : b.distributed = false ∨ c.distributed = false ∨ out.distributed = true ∨ c.rows ≠ a.h) :
    computeCtAB a b c out = .error .abort := by
  unfold computeCtAB
  rcases h1 : (b.distributed && c.distributed && !out.distributed) with _ | _
  · rfl
  · have : (c.rows == a.h) = false := by
      simp only [Bool.and_eq_true, Bool.not_eq_true'] at h1
      rcases h with h | h | h | h
      · rw [h] at h1; simp at h1
      · rw [h] at h1; simp at h1
      · rw [h] at h1; simp at h1
      · simp [h]
    rw [this]; rfl

example : computeCtAB (⟨2, 2, fun x => [x[0]?.getD 0 + 2 * x[1]?.getD 0, 3 * x[1]?.getD 0]⟩ : Op Int)
    ⟨2, 1, true, [1, 10]⟩ ⟨2, 2, true, [1, 0, 5, 1]⟩ ⟨0, 0, false, []⟩
    = .ok ⟨2, 1, false, [171, 30]⟩ := by decide

/-! ## `AddToBlockMatrix` -/

/-- Entry of block `(a, c)` of a block matrix; null blocks are zero. -/
def bval [Zero R] (b : BlockMat R) (a c p q : Nat) : R :=
  match b.blk a c with
  | none => 0
  | some m => m.val p q

/-- Entry of component `(i, j)` of a block collection; null components are zero. -/
def mval [Zero R] (m : MatBlocks R) (i j p q : Nat) : R :=
  match m.mats i j with
  | none => 0
  | some m => m.val p q

/-- Every non-null component matches the shape of the block it is added to. -/
def ShapesOk (roffs coffs : List Nat) (ridx cidx : List Int) (mats : MatBlocks R) : Prop :=
  ∀ i j m, i < ridx.length → j < cidx.length → mats.mats i j = some m →
    (m.h : Int) = (roffs[rowAt ridx i + 1]?.getD 0 : Int) - (roffs[rowAt ridx i]?.getD 0 : Int) ∧
    (m.w : Int) = (coffs[rowAt cidx j + 1]?.getD 0 : Int) - (coffs[rowAt cidx j]?.getD 0 : Int)

theorem bval_addTo [CommRing R] (b : BlockMat R) (r c : Nat) (m : Blk R) (a d p q : Nat) :
    bval (b.addTo r c m) a d p q = bval b a d p q + if a = r ∧ d = c then m.val p q else 0 := by
  unfold bval BlockMat.addTo
  dsimp only
  by_cases h : a = r ∧ d = c
  · rw [if_pos h, if_pos h, h.1, h.2]
    cases b.blk r c <;> simp
  · rw [if_neg h, if_neg h, add_zero]

theorem rowAt_get {rows : List Int} {n : Nat} (hr : ∀ r ∈ rows, 0 ≤ r ∧ r < (n : Int)) {k : Nat}
    (hk : k < rows.length) : rd rows k = .ok (rowAt rows k : Int) ∧ rowAt rows k < n := by
  have := hr rows[k] (List.getElem_mem _)
  rw [rd_of_lt hk]
  unfold rowAt
  simp only [List.getElem?_eq_getElem hk, Option.getD_some]
  exact ⟨by congr 1; omega, by omega⟩

theorem rdI_nat {b : List Nat} {i : Nat} (h : i < b.length) :
    rdI b (i : Int) = .ok (b[i]?.getD 0) := by
  unfold rdI; rw [if_pos (by omega), Int.toNat_natCast, rd_of_lt h]; simp [h]

theorem addToBlockStep_ok [CommRing R] {ridx cidx : List Int} {mats : MatBlocks R} {b : BlockMat R}
    (hr : ∀ r ∈ ridx, 0 ≤ r ∧ r < ((b.roffs.length - 1 : Nat) : Int))
    (hc : ∀ r ∈ cidx, 0 ≤ r ∧ r < ((b.coffs.length - 1 : Nat) : Int))
    (hs : ShapesOk b.roffs b.coffs ridx cidx mats) {i j : Nat} (hi : i < ridx.length)
    (hj : j < cidx.length) :
    ∃ b', addToBlockStep ridx cidx mats i j b = .ok b' ∧ b'.roffs = b.roffs ∧ b'.coffs = b.coffs ∧
      b'.ownsBlocks = b.ownsBlocks ∧
      ∀ a d p q, bval b' a d p q = bval b a d p q +
        if a = rowAt ridx i ∧ d = rowAt cidx j then mval mats i j p q else 0 := by
  unfold addToBlockStep
  rcases hm : mats.mats i j with _ | m
  · refine ⟨b, rfl, rfl, rfl, rfl, fun a d p q => ?_⟩
    have : mval mats i j p q = 0 := by unfold mval; rw [hm]
    rw [this]; split <;> rw [add_zero]
  · obtain ⟨r1, r2⟩ := rowAt_get hr hi
    obtain ⟨c1, c2⟩ := rowAt_get hc hj
    obtain ⟨s1, s2⟩ := hs i j m hi hj hm
    refine ⟨b.addTo (rowAt ridx i) (rowAt cidx j) m, ?_, rfl, rfl, rfl, fun a d p q => ?_⟩
    · dsimp only
      rw [r1, ok_bind, c1, ok_bind]
      rw [show (rowAt ridx i : Int) + 1 = ((rowAt ridx i + 1 : Nat) : Int) by push_cast; rfl,
        show (rowAt cidx j : Int) + 1 = ((rowAt cidx j + 1 : Nat) : Int) by push_cast; rfl,
        rdI_nat (by omega), ok_bind, rdI_nat (by omega), ok_bind, rdI_nat (by omega), ok_bind,
        rdI_nat (by omega), ok_bind]
      rw [decide_eq_true s1, decide_eq_true s2]
      simp only [Bool.and_self, require_true, ok_bind, Int.toNat_natCast, pure, Except.pure]
    · rw [bval_addTo]
      have : mval mats i j p q = m.val p q := by unfold mval; rw [hm]
      rw [this]

/-- `AddToBlockMatrix`: block `(a, d)` ends up with its old entries plus the sum of all components
`(i, j)` whose row index is `a` and column index is `d`; nothing else changes. -/
theorem addToBlockMatrix_spec [CommRing R] (ridx cidx : List Int) (mats : MatBlocks R)
    (b : BlockMat R) (ho : b.ownsBlocks = true) (h1 : ridx.length = mats.nrows)
    (h2 : cidx.length = mats.ncols) (n1 : ridx ≠ []) (n2 : cidx ≠ [])
    (hr : ∀ r ∈ ridx, 0 ≤ r ∧ r < (b.roffs.length - 1 : Int))
    (hc : ∀ r ∈ cidx, 0 ≤ r ∧ r < (b.coffs.length - 1 : Int))
    (hs : ShapesOk b.roffs b.coffs ridx cidx mats) :
    ∃ b', addToBlockMatrix ridx cidx mats b = .ok b' ∧ b'.roffs = b.roffs ∧ b'.coffs = b.coffs ∧
      b'.ownsBlocks = true ∧
      ∀ a d p q, bval b' a d p q = bval b a d p q +
        ∑ i ∈ range ridx.length, ∑ j ∈ range cidx.length,
          if a = rowAt ridx i ∧ d = rowAt cidx j then mval mats i j p q else 0 := by
  obtain ⟨rm, hrm, hrm', _⟩ := arrMin_spec n1
  obtain ⟨rM, hrM, hrM', _⟩ := arrMax_spec n1
  obtain ⟨cm, hcm, hcm', _⟩ := arrMin_spec n2
  obtain ⟨cM, hcM, hcM', _⟩ := arrMax_spec n2
  have hr' : ∀ r ∈ ridx, 0 ≤ r ∧ r < ((b.roffs.length - 1 : Nat) : Int) := fun r hx => by
    have := hr r hx; omega
  have hc' : ∀ r ∈ cidx, 0 ≤ r ∧ r < ((b.coffs.length - 1 : Nat) : Int) := fun r hx => by
    have := hc r hx; omega
  obtain ⟨t, ht, i1, i2, i3, i4⟩ := loop_total (n := ridx.length)
    (body := fun i b => loop cidx.length (fun j b => addToBlockStep ridx cidx mats i j b) b)
    (fun k u => u.roffs = b.roffs ∧ u.coffs = b.coffs ∧ u.ownsBlocks = b.ownsBlocks ∧
      ∀ a d p q, bval u a d p q = bval b a d p q + ∑ i ∈ range k, ∑ j ∈ range cidx.length,
          if a = rowAt ridx i ∧ d = rowAt cidx j then mval mats i j p q else 0) (s := b)
    ⟨rfl, rfl, rfl, fun a d p q => by rw [range_zero, sum_empty, add_zero]⟩ (by
      rintro i u hi ⟨u1, u2, u3, u4⟩
      obtain ⟨v, hv, v1, v2, v3, v4⟩ := loop_total (n := cidx.length)
        (body := fun j b => addToBlockStep ridx cidx mats i j b)
        (fun k w => w.roffs = u.roffs ∧ w.coffs = u.coffs ∧ w.ownsBlocks = u.ownsBlocks ∧
          ∀ a d p q, bval w a d p q = bval u a d p q + ∑ j ∈ range k,
            if a = rowAt ridx i ∧ d = rowAt cidx j then mval mats i j p q else 0) (s := u)
        ⟨rfl, rfl, rfl, fun a d p q => by rw [range_zero, sum_empty, add_zero]⟩ (by
          rintro j w hj ⟨w1, w2, w3, w4⟩
          obtain ⟨x, hx, x1, x2, x3, x4⟩ := addToBlockStep_ok (b := w) (mats := mats)
            (by rw [w1, u1]; exact hr') (by rw [w2, u2]; exact hc') (by rw [w1, w2, u1, u2]; exact hs) hi hj
          exact ⟨x, hx, by rw [x1, w1], by rw [x2, w2], by rw [x3, w3], fun a d p q => by
            rw [x4, w4, sum_range_succ, add_assoc]⟩)
      exact ⟨v, hv, by rw [v1, u1], by rw [v2, u2], by rw [v3, u3], fun a d p q => by
        rw [v4, u4, sum_range_succ, add_assoc]⟩)
  refine ⟨t, ?_, i1, i2, by rw [i3, ho], i4⟩
  unfold addToBlockMatrix
  have c1 : (decide (0 ≤ rm) && decide (rM < (b.roffs.length - 1 : Int))) = true := by
    have := hr rm hrm'; have := hr rM hrM'; simp; omega
  have c2 : (decide (0 ≤ cm) && decide (cM < (b.coffs.length - 1 : Int))) = true := by
    have := hc cm hcm'; have := hc cM hcM'; simp; omega
  rw [ho, h1, h2, hrm, hrM, hcm, hcM]
  simp only [beq_self_eq_true, require_true, ok_bind, c1, c2]
  rw [← h1, ← h2]
  exact ht

/-- Every rejected call: not owning the blocks, wrong index counts, an index outside the block
matrix. -/
theorem addToBlockMatrix_rejects [CommRing R] (ridx cidx : List Int) (mats : MatBlocks R)
    (b : BlockMat R) (n1 : ridx ≠ []) (n2 : cidx ≠ [])
    (h : b.ownsBlocks = false ∨ ridx.length ≠ mats.nrows ∨ cidx.length ≠ mats.ncols ∨
      (∃ r ∈ ridx, r < 0 ∨ (b.roffs.length - 1 : Int) ≤ r) ∨
      (∃ r ∈ cidx, r < 0 ∨ (b.coffs.length - 1 : Int) ≤ r)) :
    addToBlockMatrix ridx cidx mats b = .error .abort := by
  obtain ⟨rm, hrm, hrm', hrl⟩ := arrMin_spec n1
  obtain ⟨rM, hrM, hrM', hrg⟩ := arrMax_spec n1
  obtain ⟨cm, hcm, hcm', hcl⟩ := arrMin_spec n2
  obtain ⟨cM, hcM, hcM', hcg⟩ := arrMax_spec n2
  unfold addToBlockMatrix
  rw [hrm, hrM, hcm, hcM]
  simp only [ok_bind]
  rcases a1 : b.ownsBlocks with _ | _
  · rfl
  rcases a2 : (ridx.length == mats.nrows) with _ | _
  · rfl
  rcases a3 : (cidx.length == mats.ncols) with _ | _
  · rfl
  rcases a4 : (decide (0 ≤ rm) && decide (rM < (b.roffs.length - 1 : Int))) with _ | _
  · rfl
  rcases a5 : (decide (0 ≤ cm) && decide (cM < (b.coffs.length - 1 : Int))) with _ | _
  · rfl
  exfalso
  simp only [beq_iff_eq, Bool.and_eq_true, decide_eq_true_eq] at a2 a3 a4 a5
  rcases h with h | h | h | ⟨r, hr, h⟩ | ⟨r, hr, h⟩
  · rw [a1] at h; cases h
  · exact h a2
  · exact h a3
  · have := hrl r hr; have := hrg r hr; omega
  · have := hcl r hr; have := hcg r hr; omega

/-- A shape mismatch aborts, whatever the other components. -/
theorem addToBlockMatrix_shape [CommRing R] (ridx cidx : List Int) (mats : MatBlocks R)
    (b : BlockMat R) (hr : ∀ r ∈ ridx, 0 ≤ r ∧ r < (b.roffs.length - 1 : Int))
    (hc : ∀ r ∈ cidx, 0 ≤ r ∧ r < (b.coffs.length - 1 : Int))
    (n1 : ridx ≠ []) (n2 : cidx ≠ [])
    (hs : ¬ ShapesOk b.roffs b.coffs ridx cidx mats) :
    addToBlockMatrix ridx cidx mats b = .error .abort := by
  by_cases h0 : b.ownsBlocks = false ∨ ridx.length ≠ mats.nrows ∨ cidx.length ≠ mats.ncols
  · refine addToBlockMatrix_rejects ridx cidx mats b n1 n2 ?_
    tauto
  have hr' : ∀ r ∈ ridx, 0 ≤ r ∧ r < ((b.roffs.length - 1 : Nat) : Int) := fun r hx => by
    have := hr r hx; omega
  have hc' : ∀ r ∈ cidx, 0 ≤ r ∧ r < ((b.coffs.length - 1 : Nat) : Int) := fun r hx => by
    have := hc r hx; omega
  obtain ⟨rm, hrm, hrm', hrl⟩ := arrMin_spec n1
  obtain ⟨rM, hrM, hrM', hrg⟩ := arrMax_spec n1
  obtain ⟨cm, hcm, hcm', hcl⟩ := arrMin_spec n2
  obtain ⟨cM, hcM, hcM', hcg⟩ := arrMax_spec n2
  -- one step either succeeds keeping the offsets, or aborts; it aborts at a mismatch
  have step : ∀ (u : BlockMat R) (i j : Nat), u.roffs = b.roffs → u.coffs = b.coffs →
      i < ridx.length → j < cidx.length →
      (∃ v, addToBlockStep ridx cidx mats i j u = .ok v ∧ v.roffs = b.roffs ∧ v.coffs = b.coffs) ∨
      addToBlockStep ridx cidx mats i j u = .error .abort := by
    intro u i j u1 u2 hi hj
    unfold addToBlockStep
    rcases mats.mats i j with _ | m
    · exact .inl ⟨u, rfl, u1, u2⟩
    · obtain ⟨r1, r2⟩ := rowAt_get hr' hi
      obtain ⟨c1, c2⟩ := rowAt_get hc' hj
      dsimp only
      rw [u1, u2, r1, ok_bind, c1, ok_bind]
      rw [show (rowAt ridx i : Int) + 1 = ((rowAt ridx i + 1 : Nat) : Int) by push_cast; rfl,
        show (rowAt cidx j : Int) + 1 = ((rowAt cidx j + 1 : Nat) : Int) by push_cast; rfl,
        rdI_nat (by omega), ok_bind, rdI_nat (by omega), ok_bind, rdI_nat (by omega), ok_bind,
        rdI_nat (by omega), ok_bind]
      cases hcond : (decide ((m.h : Int) = (b.roffs[rowAt ridx i + 1]?.getD 0 : Int)
          - (b.roffs[rowAt ridx i]?.getD 0 : Int)) && decide ((m.w : Int) =
          (b.coffs[rowAt cidx j + 1]?.getD 0 : Int) - (b.coffs[rowAt cidx j]?.getD 0 : Int)))
      · exact .inr rfl
      · exact .inl ⟨_, rfl, u1, u2⟩
  have bad : ∃ i j, i < ridx.length ∧ j < cidx.length ∧ ∀ u : BlockMat R, u.roffs = b.roffs →
      u.coffs = b.coffs → addToBlockStep ridx cidx mats i j u = .error .abort := by
    unfold ShapesOk at hs
    push Not at hs
    obtain ⟨i, j, m, hi, hj, hm, hx⟩ := hs
    refine ⟨i, j, hi, hj, fun u u1 u2 => ?_⟩
    unfold addToBlockStep
    obtain ⟨r1, r2⟩ := rowAt_get hr' hi
    obtain ⟨c1, c2⟩ := rowAt_get hc' hj
    rw [hm]
    dsimp only
    rw [u1, u2, r1, ok_bind, c1, ok_bind]
    rw [show (rowAt ridx i : Int) + 1 = ((rowAt ridx i + 1 : Nat) : Int) by push_cast; rfl,
        show (rowAt cidx j : Int) + 1 = ((rowAt cidx j + 1 : Nat) : Int) by push_cast; rfl,
        rdI_nat (by omega), ok_bind, rdI_nat (by omega), ok_bind, rdI_nat (by omega), ok_bind,
        rdI_nat (by omega), ok_bind]
    have : (decide ((m.h : Int) = (b.roffs[rowAt ridx i + 1]?.getD 0 : Int) - (b.roffs[rowAt ridx i]?.getD 0 : Int))
        && decide ((m.w : Int) = (b.coffs[rowAt cidx j + 1]?.getD 0 : Int) - (b.coffs[rowAt cidx j]?.getD 0 : Int)))
        = false := by
      rw [Bool.and_eq_false_iff, decide_eq_false_iff_not, decide_eq_false_iff_not]
      by_cases e : (m.h : Int) = (b.roffs[rowAt ridx i + 1]?.getD 0 : Int) - (b.roffs[rowAt ridx i]?.getD 0 : Int)
      · exact .inr (hx e)
      · exact .inl e
    rw [this]; rfl
  have main : loop ridx.length (fun i b => loop cidx.length (fun j b =>
      addToBlockStep ridx cidx mats i j b) b) b = .error .abort := by
    obtain ⟨i0, j0, hi0, hj0, hbad⟩ := bad
    refine Blocks.loop_error_of (fun u => u.roffs = b.roffs ∧ u.coffs = b.coffs) ⟨rfl, rfl⟩ ?_
      ⟨i0, hi0, fun u hu => Blocks.loop_error_of (fun u => u.roffs = b.roffs ∧ u.coffs = b.coffs) hu
        (fun j v hj hv => ?_) ⟨j0, hj0, fun v hv => hbad v hv.1 hv.2⟩⟩
    · intro i u hi hu
      by_cases hex : ∃ v, loop cidx.length (fun j b => addToBlockStep ridx cidx mats i j b) u = .ok v
      · obtain ⟨v, hv⟩ := hex
        refine .inl ⟨v, hv, ?_⟩
        exact loop_inv (n := cidx.length) (body := fun j b => addToBlockStep ridx cidx mats i j b)
          (fun _ u => u.roffs = b.roffs ∧ u.coffs = b.coffs) hu (fun j w w' hj hw he => by
            rcases step w i j hw.1 hw.2 hi hj with ⟨x, hx, hx'⟩ | hx
            · rw [hx] at he; cases he; exact hx'
            · rw [hx] at he; cases he) hv
      · refine .inr ?_
        by_cases hb2 : ∃ j, j < cidx.length ∧ ∃ w : BlockMat R, (w.roffs = b.roffs ∧ w.coffs = b.coffs) ∧
            addToBlockStep ridx cidx mats i j w = .error .abort
        · obtain ⟨j, hj, w, hw, hwe⟩ := hb2
          refine Blocks.loop_error_of (fun u => u.roffs = b.roffs ∧ u.coffs = b.coffs) hu
            (fun j v hj hv => ?_) ⟨j, hj, fun v hv => ?_⟩
          · rcases step v i j hv.1 hv.2 hi hj with ⟨x, hx, hx'⟩ | hx
            · exact .inl ⟨x, hx, hx'⟩
            · exact .inr hx
          · unfold addToBlockStep at hwe ⊢
            rcases hmm : mats.mats i j with _ | m
            · rw [hmm] at hwe; cases hwe
            · rw [hmm] at hwe
              dsimp only at hwe ⊢
              rw [hw.1, hw.2] at hwe
              rw [hv.1, hv.2]
              obtain ⟨r1, r2⟩ := rowAt_get hr' hi
              obtain ⟨c1, c2⟩ := rowAt_get hc' hj
              rw [r1, ok_bind, c1, ok_bind] at hwe ⊢
              rw [show (rowAt ridx i : Int) + 1 = ((rowAt ridx i + 1 : Nat) : Int) by push_cast; rfl,
                show (rowAt cidx j : Int) + 1 = ((rowAt cidx j + 1 : Nat) : Int) by push_cast; rfl,
                rdI_nat (by omega), ok_bind, rdI_nat (by omega), ok_bind, rdI_nat (by omega), ok_bind,
                rdI_nat (by omega), ok_bind] at hwe ⊢
              cases hcond : (decide ((m.h : Int) = (b.roffs[rowAt ridx i + 1]?.getD 0 : Int)
                  - (b.roffs[rowAt ridx i]?.getD 0 : Int)) && decide ((m.w : Int) =
                  (b.coffs[rowAt cidx j + 1]?.getD 0 : Int) - (b.coffs[rowAt cidx j]?.getD 0 : Int)))
              · rfl
              · rw [hcond] at hwe; cases hwe
        · exfalso
          apply hex
          obtain ⟨t, ht, _⟩ := loop_total (n := cidx.length)
            (body := fun j b => addToBlockStep ridx cidx mats i j b)
            (fun _ u => u.roffs = b.roffs ∧ u.coffs = b.coffs) hu (fun j w hj hw => by
              rcases step w i j hw.1 hw.2 hi hj with ⟨x, hx, hx'⟩ | hx
              · exact ⟨x, hx, hx'⟩
              · exact absurd ⟨j, hj, w, hw, hx⟩ hb2)
          exact ⟨t, ht⟩
    · rcases step v i0 j hv.1 hv.2 hi0 hj with ⟨x, hx, hx'⟩ | hx
      · exact .inl ⟨x, hx, hx'⟩
      · exact .inr hx
  push Not at h0
  unfold addToBlockMatrix
  have c1 : (decide (0 ≤ rm) && decide (rM < (b.roffs.length - 1 : Int))) = true := by
    have := hr rm hrm'; have := hr rM hrM'; simp; omega
  have c2 : (decide (0 ≤ cm) && decide (cM < (b.coffs.length - 1 : Int))) = true := by
    have := hc cm hcm'; have := hc cM hcM'; simp; omega
  have ho : b.ownsBlocks = true := by simpa using h0.1
  rw [ho, h0.2.1, h0.2.2, hrm, hrM, hcm, hcM]
  simp only [beq_self_eq_true, require_true, ok_bind, c1, c2]
  rw [← h0.2.1, ← h0.2.2]
  exact main

/-- Two components added to the same block, one to another. -/
example :
    let mats : MatBlocks Int := ⟨2, 1, fun i _ => some ⟨1, 1, fun _ _ => (i : Int) + 1⟩⟩
    let b : BlockMat Int := ⟨[0, 1, 2], [0, 1, 2], true, fun _ _ => none⟩
    ShapesOk b.roffs b.coffs [1, 1] [0] mats ∧
    (addToBlockMatrix [1, 1] [0] mats b).map (fun b' => (bval b' 1 0 0 0, bval b' 0 0 0 0))
      = .ok (3, 0) := by
  refine ⟨?_, by decide⟩
  intro i j m hi hj hm
  simp at hi hj
  have : i = 0 ∨ i = 1 := by omega
  rcases this with rfl | rfl <;> (subst hj; simp at hm; subst hm; decide)

end Verif.LinAlg
