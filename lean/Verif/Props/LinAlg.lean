import Verif.Proofs.LinAlg

/-!
# Properties C18-C21: dense kernels
-/

namespace Verif.LinAlg

open Verif Spec Finset

variable {R : Type} [CommRing R]

/-! ## C18: triple products -/

/-- The value the triple products compute: `r_i . A(p_j)`. -/
theorem tripleValue {r p : Mat R} {a : Op R} (hr : MatOk r) (hp : MatOk p) (ha : OpOk a)
    (h1 : r.h = a.h) (h2 : a.w = p.h) {i j : Nat} (hi : i < r.w) (hj : j < p.w) :
    (do
      let vi ← r.col i
      let vj ← p.col j
      dot vi (a.mult vj) : Outcome R) =
      .ok (∑ k ∈ range r.h, ent r k i * ve (a.mult (tab p.h (fun c => ent p c j))) k) := by
  have hl := ha (tab p.h (fun c => ent p c j)) (by rw [length_tab, h2])
  rw [col_eq hr hi, ok_bind, col_eq hp hj, ok_bind, dot_eq (by rw [length_tab, hl, h1])]
  congr 1
  rw [length_tab]
  exact sum_congr rfl fun k hk => by rw [ve_tab (mem_range.1 hk)]

/-- `RtAP` overwrites the target, resized, with `R^T A(P)`: entry `(i, j)` is the inner product of
column `i` of `R` with the operator applied to column `j` of `P`. -/
theorem rtap_spec (r p out : Mat R) (a : Op R) (hr : MatOk r) (hp : MatOk p) (ho : MatOk out)
    (ha : OpOk a) (h1 : r.h = a.h) (h2 : a.w = p.h) :
    ∃ m, rtap r a p out = .ok m ∧ m.h = r.w ∧ m.w = p.w ∧ MatOk m ∧
      ∀ i j, i < r.w → j < p.w → ent m i j =
        ∑ k ∈ range r.h, ent r k i * ve (a.mult (tab p.h (fun c => ent p c j))) k := by
  obtain ⟨s1, s2, s3⟩ := setSize_ok out ho r.w p.w
  have s3' : r.w * p.w ≤ (out.setSize r.w p.w).data.length := by
    have := s3; unfold MatOk at this; rwa [s1, s2] at this
  obtain ⟨res, hres, q1, q2, _⟩ := loop2_update (a := r.w) (b := p.w)
    (body := fun i j st => (do
      let vi ← r.col i
      let vj ← p.col j
      let tmp := a.mult vj
      let v ← dot vi tmp
      wr st (i + j * r.w) v : Outcome (List R)))
    (fun i j => i + j * r.w)
    (fun i j _ => ∑ k ∈ range r.h, ent r k i * ve (a.mult (tab p.h (fun c => ent p c j))) k)
    (out.setSize r.w p.w).data
    (fun i j i' j' hi _ hi' _ e => idx_inj hi hi' e)
    (fun i j hi hj => Nat.lt_of_lt_of_le (idx_lt hi hj) s3')
    (fun i j c hi hj hl => by
      have hl' := ha (tab p.h (fun c => ent p c j)) (by rw [length_tab, h2])
      have e := tripleValue hr hp ha h1 h2 hi hj
      rw [col_eq hr hi, ok_bind, col_eq hp hj, ok_bind] at e
      rw [col_eq hr hi, ok_bind, col_eq hp hj, ok_bind]
      dsimp only
      rw [e, ok_bind, wr_of_lt hl])
  refine ⟨⟨r.w, p.w, res⟩, ?_, rfl, rfl, ?_, ?_⟩
  · unfold rtap
    rw [h1, h2]
    simp only [beq_self_eq_true, require_true, ok_bind]
    rw [hres, ok_bind]
    show Except.ok _ = Except.ok _
    congr 1
    cases hs : out.setSize r.w p.w
    rw [hs] at s1 s2
    simp only at s1 s2
    subst s1; subst s2; rfl
  · show r.w * p.w ≤ res.length
    rw [q1]; exact s3'
  · intro i j hi hj
    exact q2 i j hi hj

/-- For an operator acting by a matrix `A` this is the matrix product `R^T A P`. -/
theorem rtap_matrix (r p out : Mat R) (A : Nat → Nat → R) (hr : MatOk r) (hp : MatOk p)
    (ho : MatOk out) :
    ∃ m, rtap r ⟨r.h, p.h, fun x => tab r.h (fun k => ∑ c ∈ range p.h, A k c * ve x c)⟩ p out
        = .ok m ∧ m.h = r.w ∧ m.w = p.w ∧
      ∀ i j, i < r.w → j < p.w → ent m i j =
        ∑ k ∈ range r.h, ∑ c ∈ range p.h, ent r k i * A k c * ent p c j := by
  obtain ⟨m, hm, m1, m2, _, m3⟩ := rtap_spec r p out
    ⟨r.h, p.h, fun x => tab r.h (fun k => ∑ c ∈ range p.h, A k c * ve x c)⟩ hr hp ho
    (fun x _ => by simp) rfl rfl
  refine ⟨m, hm, m1, m2, ?_⟩
  intro i j hi hj
  rw [m3 i j hi hj]
  refine sum_congr rfl fun k hk => ?_
  rw [ve_tab (mem_range.1 hk), mul_sum]
  refine sum_congr rfl fun c hc => ?_
  rw [ve_tab (mem_range.1 hc)]; ring

/-- Shape mismatches abort. -/
theorem rtap_rejects (r p out : Mat R) (a : Op R) (w : R) (sp : Sp R)
    (h : r.h ≠ a.h ∨ a.w ≠ p.h) :
    rtap r a p out = .error .abort ∧ addwRtAP r a p out w = .error .abort ∧
    sparseRtAP r a p = .error .abort ∧ addwRtAPSparse r a p sp w = .error .abort := by
  unfold rtap addwRtAP sparseRtAP addwRtAPSparse
  by_cases h1 : r.h = a.h
  · have h2 : (a.w == p.h) = false := by
      rcases h with h | h
      · exact absurd h1 h
      · simp [h]
    simp only [h1, beq_self_eq_true, require_true, ok_bind, h2, require_false, error_bind, and_self]
  · have h1' : (r.h == a.h) = false := by simp [h1]
    simp only [h1', require_false, error_bind, and_self]

/-- `AddwRtAP` adds `w * R^T A(P)` to the target. -/
theorem addwRtAP_spec (r p out : Mat R) (a : Op R) (w : R) (hr : MatOk r) (hp : MatOk p)
    (ho : MatOk out) (ha : OpOk a) (h1 : r.h = a.h) (h2 : a.w = p.h) (h3 : out.h = r.w)
    (h4 : out.w = p.w) :
    ∃ m, addwRtAP r a p out w = .ok m ∧ m.h = out.h ∧ m.w = out.w ∧ MatOk m ∧
      ∀ i j, i < r.w → j < p.w → ent m i j = ent out i j + w *
        ∑ k ∈ range r.h, ent r k i * ve (a.mult (tab p.h (fun c => ent p c j))) k := by
  have s3' : r.w * p.w ≤ out.data.length := by
    have := ho; unfold MatOk at this; rwa [h3, h4] at this
  obtain ⟨res, hres, q1, q2, _⟩ := loop2_update (a := r.w) (b := p.w)
    (body := fun i j st => (do
      let vi ← r.col i
      let vj ← p.col j
      let tmp := a.mult vj
      let v ← dot vi tmp
      upd st (i + j * r.w) (fun x => x + w * v) : Outcome (List R)))
    (fun i j => i + j * r.w)
    (fun i j x => x + w *
      ∑ k ∈ range r.h, ent r k i * ve (a.mult (tab p.h (fun c => ent p c j))) k)
    out.data
    (fun i j i' j' hi _ hi' _ e => idx_inj hi hi' e)
    (fun i j hi hj => Nat.lt_of_lt_of_le (idx_lt hi hj) s3')
    (fun i j c hi hj hl => by
      have e := tripleValue hr hp ha h1 h2 hi hj
      rw [col_eq hr hi, ok_bind, col_eq hp hj, ok_bind] at e
      rw [col_eq hr hi, ok_bind, col_eq hp hj, ok_bind]
      dsimp only
      rw [e, ok_bind, upd_of_lt hl])
  refine ⟨{ out with data := res }, ?_, rfl, rfl, ?_, ?_⟩
  · unfold addwRtAP
    rw [h1, h2, h3, h4]
    simp only [beq_self_eq_true, require_true, ok_bind]
    rw [hres, ok_bind]
    rfl
  · show out.h * out.w ≤ res.length
    rw [q1]; exact ho
  · intro i j hi hj
    have := q2 i j hi hj
    unfold ent
    simp only [h3]
    exact this

/-- A target of another shape aborts. -/
theorem addwRtAP_rejects_target (r p out : Mat R) (a : Op R) (w : R) (h1 : r.h = a.h)
    (h2 : a.w = p.h) (h : out.h ≠ r.w ∨ out.w ≠ p.w) : addwRtAP r a p out w = .error .abort := by
  unfold addwRtAP
  by_cases h3 : out.h = r.w
  · have h4 : (out.w == p.w) = false := by
      rcases h with h | h
      · exact absurd h3 h
      · simp [h]
    simp only [h1, h2, h3, beq_self_eq_true, require_true, ok_bind, h4, require_false, error_bind]
  · have h3' : (out.h == r.w) = false := by simp [h3]
    simp only [h1, h2, beq_self_eq_true, require_true, ok_bind, h3', require_false, error_bind]

theorem Sp.get_set {s s' : Sp R} {i j : Nat} {v : R} (h : s.set i j v = .ok s') (i' j' : Nat) :
    s'.get i' j' = if i' = i ∧ j' = j then v else s.get i' j' := by
  unfold Sp.set at h
  split at h
  · cases h
    unfold Sp.get
    simp only [List.find?_cons]
    by_cases e : i' = i ∧ j' = j
    · obtain ⟨rfl, rfl⟩ := e; simp
    · have : ((i, j) == (i', j')) = false := by
        simp only [beq_eq_false_iff_ne, ne_eq, Prod.mk.injEq]; intro hh; exact e ⟨hh.1.symm, hh.2.symm⟩
      simp [this, e]
  · cases h

/-- Nested loop of in-range sparse updates. -/
theorem loop2_sparse {a b : Nat} {body : Nat → Nat → Sp R → Outcome (Sp R)} (s : Sp R)
    (g : Nat → Nat → R → R) (ha : a = s.h) (hb : b = s.w)
    (h : ∀ i j t, i < a → j < b → t.h = s.h → t.w = s.w → body i j t = t.set i j (g i j (t.get i j))) :
    ∃ r, loop a (fun i st => loop b (fun j st => body i j st) st) s = .ok r ∧ r.h = s.h ∧ r.w = s.w ∧
      ∀ i j, r.get i j = if i < a ∧ j < b then g i j (s.get i j) else s.get i j := by
  have hset : ∀ (t : Sp R) i j v, i < t.h → j < t.w →
      ∃ t', t.set i j v = .ok t' ∧ t'.h = t.h ∧ t'.w = t.w := by
    intro t i j v hi hj
    exact ⟨{ t with ents := ((i, j), v) :: t.ents }, by unfold Sp.set; rw [if_pos ⟨hi, hj⟩], rfl, rfl⟩
  obtain ⟨r, hr, h1, h2, h3⟩ := loop_total (n := a)
    (body := fun i st => loop b (fun j st => body i j st) st)
    (fun k r => r.h = s.h ∧ r.w = s.w ∧
      ∀ i j, r.get i j = if i < k ∧ j < b then g i j (s.get i j) else s.get i j) (s := s)
    ⟨rfl, rfl, by intro i j; simp⟩ (by
      rintro k u hk ⟨i1, i2, i3⟩
      obtain ⟨r, hr, r1, r2, r3⟩ := loop_total (n := b) (body := fun j st => body k j st)
        (fun l r => r.h = s.h ∧ r.w = s.w ∧
          ∀ i j, r.get i j = if i < k ∧ j < b ∨ i = k ∧ j < l then g i j (s.get i j) else s.get i j)
        (s := u) ⟨i1, i2, by intro i j; rw [i3]; simp⟩ (by
          rintro l v hl ⟨j1, j2, j3⟩
          obtain ⟨v', hv', e1, e2⟩ := hset v k l (g k l (v.get k l)) (by omega) (by omega)
          refine ⟨v', by rw [h k l v hk hl j1 j2]; exact hv', by omega, by omega, ?_⟩
          intro i j
          have hv0 : v.get k l = s.get k l := by rw [j3, if_neg (by omega)]
          rw [Sp.get_set hv', hv0]
          by_cases e : i = k ∧ j = l
          · obtain ⟨rfl, rfl⟩ := e
            rw [if_pos ⟨rfl, rfl⟩, if_pos (by omega)]
          · rw [if_neg e, j3 i j]
            by_cases e' : i < k ∧ j < b ∨ i = k ∧ j < l
            · rw [if_pos e', if_pos (by omega)]
            · rw [if_neg e', if_neg (by omega)])
      refine ⟨r, hr, r1, r2, ?_⟩
      intro i j
      rw [r3]
      by_cases e' : i < k ∧ j < b ∨ i = k ∧ j < b
      · rw [if_pos e', if_pos (by omega)]
      · rw [if_neg e', if_neg (by omega)])
  exact ⟨r, hr, h1, h2, h3⟩

/-- `SparseRtAP` returns a matrix with the same entries as `RtAP`. -/
theorem sparseRtAP_spec (r p : Mat R) (a : Op R) (hr : MatOk r) (hp : MatOk p)
    (ha : OpOk a) (h1 : r.h = a.h) (h2 : a.w = p.h) :
    ∃ m, sparseRtAP r a p = .ok m ∧ m.h = r.w ∧ m.w = p.w ∧
      ∀ i j, i < r.w → j < p.w → m.get i j =
        ∑ k ∈ range r.h, ent r k i * ve (a.mult (tab p.h (fun c => ent p c j))) k := by
  obtain ⟨m, hm, m1, m2, m3⟩ := loop2_sparse (a := r.w) (b := p.w)
    (body := fun i j st => (do
      let vi ← r.col i
      let vj ← p.col j
      let tmp := a.mult vj
      let v ← dot vi tmp
      st.set i j v : Outcome (Sp R))) (⟨r.w, p.w, []⟩ : Sp R)
    (fun i j _ => ∑ k ∈ range r.h, ent r k i * ve (a.mult (tab p.h (fun c => ent p c j))) k) rfl rfl
    (fun i j t hi hj _ _ => by
      have e := tripleValue hr hp ha h1 h2 hi hj
      rw [col_eq hr hi, ok_bind, col_eq hp hj, ok_bind] at e
      rw [col_eq hr hi, ok_bind, col_eq hp hj, ok_bind]
      dsimp only
      rw [e, ok_bind])
  refine ⟨m, ?_, m1, m2, ?_⟩
  · unfold sparseRtAP
    rw [h1, h2]
    simp only [beq_self_eq_true, require_true, ok_bind]
    exact hm
  · intro i j hi hj
    rw [m3 i j, if_pos ⟨hi, hj⟩]

/-- The sparse `AddwRtAP` adds `w * R^T A(P)`. -/
theorem addwRtAPSparse_spec (r p : Mat R) (out : Sp R) (a : Op R) (w : R) (hr : MatOk r)
    (hp : MatOk p) (ha : OpOk a) (h1 : r.h = a.h) (h2 : a.w = p.h) (h3 : out.h = r.w)
    (h4 : out.w = p.w) :
    ∃ m, addwRtAPSparse r a p out w = .ok m ∧ m.h = out.h ∧ m.w = out.w ∧
      ∀ i j, i < r.w → j < p.w → m.get i j = out.get i j + w *
        ∑ k ∈ range r.h, ent r k i * ve (a.mult (tab p.h (fun c => ent p c j))) k := by
  obtain ⟨m, hm, m1, m2, m3⟩ := loop2_sparse (a := r.w) (b := p.w)
    (body := fun i j st => (do
      let vi ← r.col i
      let vj ← p.col j
      let tmp := a.mult vj
      let v ← dot vi tmp
      st.add i j (w * v) : Outcome (Sp R))) out
    (fun i j x => x + w *
      ∑ k ∈ range r.h, ent r k i * ve (a.mult (tab p.h (fun c => ent p c j))) k) h3.symm h4.symm
    (fun i j t hi hj _ _ => by
      have e := tripleValue hr hp ha h1 h2 hi hj
      rw [col_eq hr hi, ok_bind, col_eq hp hj, ok_bind] at e
      rw [col_eq hr hi, ok_bind, col_eq hp hj, ok_bind]
      dsimp only
      rw [e, ok_bind]; rfl)
  refine ⟨m, ?_, m1, m2, ?_⟩
  · unfold addwRtAPSparse
    rw [h1, h2, h3, h4]
    simp only [beq_self_eq_true, require_true, ok_bind]
    exact hm
  · intro i j hi hj
    rw [m3 i j, if_pos ⟨hi, hj⟩]

example :
    let a : Op Int := ⟨2, 3, fun x => match x with | [x, y, z] => [x + y, y - z] | _ => []⟩
    let r : Mat Int := ⟨2, 2, [1, 2, 3, 4]⟩
    let p : Mat Int := ⟨3, 1, [1, 5, 2]⟩
    rtap r a p ⟨0, 0, []⟩ = .ok ⟨2, 1, [12, 30]⟩ ∧
    addwRtAP r a p ⟨2, 1, [100, 200]⟩ 2 = .ok ⟨2, 1, [124, 260]⟩ := by decide

/-! ## C19: products with a subset of rows -/

/-- Value read through `d_mat[d_rows[r]]` in column `c`. -/
theorem rd_row {m : Mat R} (hm : MatOk m) {rows : List Int} (hr : RowsOk rows m.h) {k c : Nat}
    (hk : k < rows.length) (hc : c < m.w) :
    rdI m.data (((c * m.h : Nat) : Int) + (rowAt rows k : Int)) = .ok (ent m (rowAt rows k) c) := by
  have h1 := (rowAt_lt hr hk).1
  have hl : c * m.h + rowAt rows k < m.data.length := by
    have := idx_lt h1 hc
    have h2 := hm; unfold MatOk at h2; omega
  rw [show ((c * m.h : Nat) : Int) + (rowAt rows k : Int) = ((c * m.h + rowAt rows k : Nat) : Int) by
    push_cast; rfl, rdI_ve hl]
  unfold ent; rw [Nat.add_comm]

theorem vecSetSize_length (v : List R) (n : Nat) (junk : Nat → R) :
    (vecSetSize v n junk).length = n := by
  unfold vecSetSize; split
  · rw [List.length_take]; omega
  · simp

/-- `MultSubMatrix` computes the product with the gathered rows, `y_k = sum_c A(rows_k, c) x_c`,
whatever `y` held before. -/
theorem multSubMatrix_spec (m : Mat R) (rows : List Int) (x y : List R) (junk : Nat → R)
    (hm : MatOk m) (hr : RowsOk rows m.h) (hx : x.length = m.w) (hw : 0 < m.w) :
    multSubMatrix m rows x y junk =
      .ok (tab rows.length fun k => ∑ c ∈ range m.w, ent m (rowAt rows k) c * ve x c) := by
  have hy := list_eq_tab' (vecSetSize_length y rows.length junk)
  have e1 : loop rows.length (fun r y => (do
      let row ← rd rows r
      let v ← rdI m.data row
      wr y r (v * ve x 0) : Outcome (List R))) (vecSetSize y rows.length junk) =
      .ok (tab rows.length fun k => ent m (rowAt rows k) 0 * ve x 0) := by
    rw [hy, loop_tab_map _ (fun k _ => ent m (rowAt rows k) 0 * ve x 0) (Nat.le_refl _)
      (fun r f' hr' => by
        have := rd_row hm hr hr' hw
        rw [Nat.zero_mul, Int.natCast_zero, Int.zero_add] at this
        rw [(rowAt_lt hr hr').2, ok_bind, this, ok_bind, wr_tab hr'])]
    congr 1
    exact tab_congr fun i hi => by rw [if_pos hi]
  have e2 := loop_spec (n := m.w - 1) (body := fun c (st : List R × Nat) => (do
      let (y, dmat) := st
      let xc ← rd x (c + 1)
      let y ← loop rows.length (fun r y => do
        let row ← rd rows r
        let v ← rdI m.data (dmat + row)
        upd y r (fun t => t + v * xc)) y
      return (y, dmat + m.h) : Outcome (List R × Nat)))
    (fun c => (tab rows.length fun k => ∑ c' ∈ range (c + 1), ent m (rowAt rows k) c' * ve x c',
      (c + 1) * m.h))
    (s := (tab rows.length fun k => ent m (rowAt rows k) 0 * ve x 0, m.h))
    (by simp) (fun c hc => by
      dsimp only
      rw [rd_ve (show c + 1 < x.length by omega), ok_bind]
      rw [loop_tab_map _ (fun k t => t + ent m (rowAt rows k) (c + 1) * ve x (c + 1)) (Nat.le_refl _)
        (fun r f' hr' => by
          rw [(rowAt_lt hr hr').2, ok_bind, rd_row hm hr hr' (show c + 1 < m.w by omega), ok_bind,
            upd_tab hr'])]
      rw [ok_bind]
      show Except.ok _ = Except.ok _
      rw [Nat.add_mul (c + 1) 1, Nat.one_mul]
      congr 2
      exact tab_congr fun i hi => by rw [if_pos hi, sum_range_succ _ (c + 1)])
  unfold multSubMatrix
  dsimp only
  rw [hx, checkRows_ok hr]
  simp only [beq_self_eq_true, require_true, ok_bind]
  rw [rd_ve (show 0 < x.length by omega), ok_bind, e1, ok_bind, e2, ok_bind]
  show Except.ok _ = Except.ok _
  rw [show m.w - 1 + 1 = m.w by omega]

theorem gatherDot_eq {m : Mat R} (hm : MatOk m) {rows : List Int} (hr : RowsOk rows m.h)
    {x : List R} (hx : x.length = rows.length) {c : Nat} (hc : c < m.w) :
    gatherDot m rows x (c * m.h) =
      .ok (∑ k ∈ range rows.length, ent m (rowAt rows k) c * ve x k) := by
  unfold gatherDot
  rw [loop_sum (fun k => ent m (rowAt rows k) c * ve x k) 0 (fun k acc hk => by
    rw [(rowAt_lt hr hk).2, ok_bind, rd_row hm hr hk hc, ok_bind,
      rd_ve (show k < x.length by omega)]; rfl), zero_add]

/-- `AddMultTransposeSubMatrix`: `y_c += sum_k A(rows_k, c) x_k`. -/
theorem addMultTransposeSubMatrix_spec (m : Mat R) (rows : List Int) (x y : List R)
    (hm : MatOk m) (hr : RowsOk rows m.h) (hx : x.length = rows.length) (hy : y.length = m.w) :
    addMultTransposeSubMatrix m rows x y =
      .ok (tab m.w fun c => ve y c + ∑ k ∈ range rows.length, ent m (rowAt rows k) c * ve x k) := by
  have e2 := loop_spec (n := m.w) (body := fun c (st : List R × Nat) => (do
      let (y, dmat) := st
      let yc ← gatherDot m rows x dmat
      let y ← upd y c (fun t => t + yc)
      return (y, dmat + m.h) : Outcome (List R × Nat)))
    (fun c => (tab m.w fun c' => if c' < c then
        ve y c' + ∑ k ∈ range rows.length, ent m (rowAt rows k) c' * ve x k else ve y c', c * m.h))
    (s := (y, 0))
    (by
      rw [Nat.zero_mul]
      congr 1
      conv_lhs => rw [list_eq_tab' hy]
      exact tab_congr fun i _ => by simp) (fun c hc => by
      dsimp only
      rw [gatherDot_eq hm hr hx hc, ok_bind, upd_tab hc, ok_bind]
      show Except.ok _ = Except.ok _
      rw [Nat.add_mul c 1, Nat.one_mul]
      congr 2
      refine tab_congr fun i hi => ?_
      by_cases hic : i = c
      · subst hic; simp
      · rw [Function.update_of_ne hic]
        by_cases h2 : i < c
        · rw [if_pos h2, if_pos (by omega)]
        · rw [if_neg h2, if_neg (by omega)])
  unfold addMultTransposeSubMatrix
  rw [checkRows_ok hr, hx, hy]
  simp only [beq_self_eq_true, require_true, ok_bind]
  rw [e2, ok_bind]
  show Except.ok _ = Except.ok _
  congr 1
  exact tab_congr fun i hi => by rw [if_pos hi]

/-- `MultTransposeSubMatrix`: `y_c = sum_k A(rows_k, c) x_k`. -/
theorem multTransposeSubMatrix_spec (m : Mat R) (rows : List Int) (x y : List R)
    (hm : MatOk m) (hr : RowsOk rows m.h) (hx : x.length = rows.length) (hy : y.length = m.w) :
    multTransposeSubMatrix m rows x y =
      .ok (tab m.w fun c => ∑ k ∈ range rows.length, ent m (rowAt rows k) c * ve x k) := by
  have e2 := loop_spec (n := m.w) (body := fun c (st : List R × Nat) => (do
      let (y, dmat) := st
      let yc ← gatherDot m rows x dmat
      let y ← wr y c yc
      return (y, dmat + m.h) : Outcome (List R × Nat)))
    (fun c => (tab m.w fun c' => if c' < c then
        ∑ k ∈ range rows.length, ent m (rowAt rows k) c' * ve x k else ve y c', c * m.h))
    (s := (y, 0))
    (by
      rw [Nat.zero_mul]
      congr 1
      conv_lhs => rw [list_eq_tab' hy]
      exact tab_congr fun i _ => by simp) (fun c hc => by
      dsimp only
      rw [gatherDot_eq hm hr hx hc, ok_bind, wr_tab hc, ok_bind]
      show Except.ok _ = Except.ok _
      rw [Nat.add_mul c 1, Nat.one_mul]
      congr 2
      refine tab_congr fun i hi => ?_
      by_cases hic : i = c
      · subst hic; simp
      · rw [Function.update_of_ne hic]
        by_cases h2 : i < c
        · rw [if_pos h2, if_pos (by omega)]
        · rw [if_neg h2, if_neg (by omega)])
  unfold multTransposeSubMatrix
  rw [checkRows_ok hr, hx, hy]
  simp only [beq_self_eq_true, require_true, ok_bind]
  rw [e2, ok_bind]
  show Except.ok _ = Except.ok _
  congr 1
  exact tab_congr fun i hi => by rw [if_pos hi]

/-- Wrong vector sizes, and row indices out of range, abort instead of touching memory. -/
theorem subMatrix_rejects (m : Mat R) (rows : List Int) (x y : List R) (junk : Nat → R) :
    (x.length ≠ m.w → multSubMatrix m rows x y junk = .error .abort) ∧
    (x.length = m.w → rows ≠ [] → (¬ ∀ r ∈ rows, 0 ≤ r ∧ r < m.h) →
      multSubMatrix m rows x y junk = .error .abort) ∧
    (x.length ≠ rows.length ∨ y.length ≠ m.w →
      addMultTransposeSubMatrix m rows x y = .error .abort ∧
      multTransposeSubMatrix m rows x y = .error .abort) ∧
    (x.length = rows.length → y.length = m.w → rows ≠ [] → (¬ ∀ r ∈ rows, 0 ≤ r ∧ r < m.h) →
      addMultTransposeSubMatrix m rows x y = .error .abort ∧
      multTransposeSubMatrix m rows x y = .error .abort) := by
  refine ⟨?_, ?_, ?_, ?_⟩
  · intro h
    have h' : (x.length == m.w) = false := by simp [h]
    unfold multSubMatrix; dsimp only; rw [h']; rfl
  · intro h hne hb
    unfold multSubMatrix; dsimp only
    rw [h, checkRows_abort hne hb]
    simp only [beq_self_eq_true, require_true, ok_bind, error_bind]
  · intro h
    unfold addMultTransposeSubMatrix multTransposeSubMatrix
    by_cases h1 : x.length = rows.length
    · have h2 : (y.length == m.w) = false := by
        rcases h with h | h
        · exact absurd h1 h
        · simp [h]
      simp only [h1, beq_self_eq_true, require_true, ok_bind, h2, require_false, error_bind, and_self]
    · have h1' : (x.length == rows.length) = false := by simp [h1]
      simp only [h1', require_false, error_bind, and_self]
  · intro h1 h2 hne hb
    unfold addMultTransposeSubMatrix multTransposeSubMatrix
    rw [checkRows_abort hne hb]
    simp only [h1, h2, beq_self_eq_true, require_true, ok_bind, error_bind, and_self]

/-- Findings: an empty row list, or a matrix without columns, is undefined behaviour (the routines
read the first entry of an empty array). -/
theorem subMatrix_empty_ub (m : Mat R) (rows : List Int) (x y : List R) (junk : Nat → R) :
    (x.length = m.w → multSubMatrix m [] x y junk = .error .ub) ∧
    (x = [] → m.w = 0 → RowsOk rows m.h → multSubMatrix m rows x y junk = .error .ub) := by
  constructor
  · intro h
    unfold multSubMatrix; dsimp only; rw [h]
    simp only [beq_self_eq_true, require_true, ok_bind]
    rfl
  · rintro rfl hw hr
    unfold multSubMatrix; dsimp only; rw [hw, checkRows_ok hr]
    rfl

theorem subRtAPStep1_eq {a p : Mat R} (ha : MatOk a) (hp : MatOk p) {prows : List Int}
    (hr : RowsOk prows p.h) (h2 : a.w = prows.length) {j : Nat} (hj : j < p.w) (tmp : List R)
    (ht : tmp.length = a.h) :
    subRtAPStep1 a p prows a.h prows.length (j * p.h) tmp =
      .ok (tab a.h fun r => ∑ c ∈ range prows.length, ent a r c * ent p (rowAt prows c) j) := by
  have hpos : 0 < prows.length := List.length_pos_of_ne_nil hr.1
  have hae : ∀ c r, c < prows.length → r < a.h →
      rd a.data (c * a.h + r) = .ok (ent a r c) := by
    intro c r hc hr'
    have := idx_lt hr' (show c < a.w by omega)
    have h2 := ha; unfold MatOk at h2
    rw [rd_ve (by omega)]; unfold ent; rw [Nat.add_comm]
  have e1 : loop a.h (fun r tmp => (do
      let v ← rd a.data r
      wr tmp r (v * ent p (rowAt prows 0) j) : Outcome (List R))) tmp =
      .ok (tab a.h fun r => ent a r 0 * ent p (rowAt prows 0) j) := by
    conv_lhs => rw [list_eq_tab' ht]
    rw [loop_tab_map _ (fun r _ => ent a r 0 * ent p (rowAt prows 0) j) (Nat.le_refl _)
      (fun r f' hr' => by
        have := hae 0 r hpos hr'
        rw [Nat.zero_mul, Nat.zero_add] at this
        rw [this, ok_bind, wr_tab hr'])]
    congr 1
    exact tab_congr fun i hi => by rw [if_pos hi]
  have e2 := loop_spec (n := prows.length - 1) (body := fun c (st : List R × Nat) => (do
      let (tmp, dA) := st
      let row ← rd prows (c + 1)
      let pr ← rdI p.data (((j * p.h : Nat) : Int) + row)
      let tmp ← loop a.h (fun r tmp => do
        let v ← rd a.data (dA + r)
        upd tmp r (fun t => t + v * pr)) tmp
      return (tmp, dA + a.h) : Outcome (List R × Nat)))
    (fun c => (tab a.h fun r => ∑ c' ∈ range (c + 1), ent a r c' * ent p (rowAt prows c') j,
      (c + 1) * a.h))
    (s := (tab a.h fun r => ent a r 0 * ent p (rowAt prows 0) j, a.h))
    (by simp) (fun c hc => by
      dsimp only
      rw [(rowAt_lt hr (show c + 1 < prows.length by omega)).2, ok_bind,
        rd_row hp hr (show c + 1 < prows.length by omega) hj, ok_bind]
      rw [loop_tab_map _ (fun r t => t + ent a r (c + 1) * ent p (rowAt prows (c + 1)) j)
        (Nat.le_refl _)
        (fun r f' hr' => by
          rw [hae (c + 1) r (by omega) hr', ok_bind, upd_tab hr'])]
      rw [ok_bind]
      show Except.ok _ = Except.ok _
      rw [Nat.add_mul (c + 1) 1, Nat.one_mul]
      congr 2
      exact tab_congr fun i hi => by rw [if_pos hi, sum_range_succ _ (c + 1)])
  unfold subRtAPStep1
  rw [(rowAt_lt hr hpos).2, ok_bind, rd_row hp hr hpos hj, ok_bind, e1, ok_bind, e2, ok_bind]
  show Except.ok _ = Except.ok _
  rw [show prows.length - 1 + 1 = prows.length by omega]

theorem length_setCol {data : List R} {h c : Nat} {col : List R} (hc : col.length = h)
    (hl : c * h + h ≤ data.length) : (setCol data h c col).length = data.length := by
  unfold setCol
  rw [List.length_append, List.length_append, List.length_take, List.length_drop, hc]; omega

theorem ve_setCol {data : List R} {h c : Nat} {col : List R} (hc : col.length = h)
    (hl : c * h + h ≤ data.length) {i j : Nat} (hi : i < h) :
    ve (setCol data h c col) (i + j * h) = if j = c then ve col i else ve data (i + j * h) := by
  unfold setCol ve
  by_cases hj : j = c
  · subst hj
    rw [if_pos rfl, List.append_assoc, List.getElem?_append_right (by rw [List.length_take]; omega),
      List.length_take, Nat.min_eq_left (by omega), List.getElem?_append_left (by omega)]
    congr 2; omega
  · rw [if_neg hj]
    rcases Nat.lt_or_gt_of_ne hj with h1 | h1
    · have : (j + 1) * h ≤ c * h := Nat.mul_le_mul_right h h1
      rw [Nat.add_mul] at this
      rw [List.append_assoc, List.getElem?_append_left (by rw [List.length_take]; omega),
        List.getElem?_take, if_pos (by omega)]
    · have : (c + 1) * h ≤ j * h := Nat.mul_le_mul_right h h1
      rw [Nat.add_mul] at this
      rw [List.getElem?_append_right (by
          rw [List.length_append, List.length_take, hc]; omega), List.length_append,
        List.length_take, hc, List.getElem?_drop, Nat.min_eq_left (by omega)]
      congr 2; omega

/-- `AddSubMatrixRtAP` adds `R[Rrows,:]^T A P[Prows,:]` to the resized target. -/
theorem addSubMatrixRtAP_spec (r a p rap : Mat R) (rrows prows : List Int) (junk : Nat → R)
    (hr : MatOk r) (ha : MatOk a) (hp : MatOk p) (ho : MatOk rap)
    (hrr : RowsOk rrows r.h) (hpr : RowsOk prows p.h)
    (h1 : a.h = rrows.length) (h2 : a.w = prows.length) :
    ∃ m, addSubMatrixRtAP r rrows a p prows rap junk = .ok m ∧ m.h = r.w ∧ m.w = p.w ∧ MatOk m ∧
      ∀ i j, i < r.w → j < p.w → ent m i j = ent (rap.setSize r.w p.w) i j +
        ∑ k ∈ range rrows.length, ∑ c ∈ range prows.length,
          ent r (rowAt rrows k) i * ent a k c * ent p (rowAt prows c) j := by
  obtain ⟨s1, s2, s3⟩ := setSize_ok rap ho r.w p.w
  have s3' : r.w * p.w ≤ (rap.setSize r.w p.w).data.length := by
    have := s3; unfold MatOk at this; rwa [s1, s2] at this
  obtain ⟨⟨data, tmp, dP⟩, hres, q1, _, _, q2⟩ := loop_total (n := p.w)
    (body := fun j (st : List R × List R × Nat) => (do
      let (data, tmp, dP) := st
      let tmp ← subRtAPStep1 a p prows rrows.length prows.length dP tmp
      let col ← (⟨r.w, p.w, data⟩ : Mat R).col j
      let col ← addMultTransposeSubMatrix r rrows tmp col
      return (setCol data r.w j col, tmp, dP + p.h) : Outcome (List R × List R × Nat)))
    (fun k st => st.1.length = (rap.setSize r.w p.w).data.length ∧ st.2.1.length = rrows.length ∧
      st.2.2 = k * p.h ∧ ∀ i j, i < r.w → j < p.w → ve st.1 (i + j * r.w) =
        ent (rap.setSize r.w p.w) i j + if j < k then
          ∑ k ∈ range rrows.length, ∑ c ∈ range prows.length,
            ent r (rowAt rrows k) i * ent a k c * ent p (rowAt prows c) j else 0)
    (s := ((rap.setSize r.w p.w).data, vecSetSize [] rrows.length junk, 0))
    ⟨rfl, vecSetSize_length _ _ _, by simp, by
      intro i j hi hj; simp only [Nat.not_lt_zero, if_false, add_zero]; unfold ent; rw [s1]⟩ (by
      rintro j ⟨data, tmp, dP⟩ hj ⟨i1, i2, i3, i4⟩
      dsimp only at i1 i2 i3 i4
      have hd : MatOk (⟨r.w, p.w, data⟩ : Mat R) := by show r.w * p.w ≤ data.length; omega
      have e1 := subRtAPStep1_eq ha hp hpr h2 hj tmp (by omega)
      rw [h1] at e1
      have e2 := col_eq hd hj
      have e3 := addMultTransposeSubMatrix_spec r rrows
        (tab rrows.length fun r => ∑ c ∈ range prows.length, ent a r c * ent p (rowAt prows c) j)
        (tab r.w fun r' => ent (⟨r.w, p.w, data⟩ : Mat R) r' j) hr hrr (length_tab _ _) (length_tab _ _)
      have hle : j * r.w + r.w ≤ data.length := by
        have := Nat.mul_le_mul_right r.w (show j + 1 ≤ p.w by omega)
        rw [Nat.add_mul, Nat.mul_comm p.w] at this; omega
      refine ⟨_, by dsimp only; rw [i3, e1, ok_bind, e2, ok_bind, e3, ok_bind]; rfl, ?_, length_tab _ _,
        by dsimp only; rw [Nat.add_mul, Nat.one_mul], ?_⟩
      · dsimp only; rw [length_setCol (length_tab _ _) hle, i1]
      · intro i j' hi hj'
        dsimp only
        rw [ve_setCol (length_tab _ _) hle hi]
        by_cases hjj : j' = j
        · subst hjj
          rw [if_pos rfl, if_pos (by omega), ve_tab hi, ve_tab hi]
          have := i4 i j' hi hj'
          rw [if_neg (by omega), add_zero] at this
          show ve data (i + j' * r.w) + _ = _
          rw [this]
          congr 1
          refine sum_congr rfl fun k hk => ?_
          rw [ve_tab (mem_range.1 hk), mul_sum]
          exact sum_congr rfl fun c _ => by ring
        · rw [if_neg hjj, i4 i j' hi hj']
          by_cases h3 : j' < j
          · rw [if_pos h3, if_pos (by omega)]
          · rw [if_neg h3, if_neg (by omega)])
  refine ⟨⟨r.w, p.w, data⟩, ?_, rfl, rfl, ?_, ?_⟩
  · unfold addSubMatrixRtAP
    dsimp only
    rw [h1, h2, checkRows_ok hrr, checkRows_ok hpr]
    simp only [beq_self_eq_true, require_true, ok_bind]
    rw [hres, ok_bind]
    show Except.ok _ = Except.ok _
    congr 1
    cases hs : rap.setSize r.w p.w
    rw [hs] at s1 s2
    simp only at s1 s2
    subst s1; subst s2; rfl
  · show r.w * p.w ≤ data.length
    dsimp only at q1; rw [q1]; exact s3'
  · intro i j hi hj
    have := q2 i j hi hj
    rw [if_pos hj] at this
    exact this

/-- Consequences for the three kinds of target: same shape accumulates onto the old entries; a target
too small is zeroed first. -/
theorem addSubMatrixRtAP_target (rap : Mat R) (h w : Nat) (i j : Nat) :
    (rap.h = h ∧ rap.w = w → ent (rap.setSize h w) i j = ent rap i j) ∧
    (¬ (rap.h = h ∧ rap.w = w) → rap.data.length < h * w → ent (rap.setSize h w) i j = 0) := by
  constructor
  · rintro ⟨rfl, rfl⟩; unfold Mat.setSize; simp
  · intro h1 h2
    unfold Mat.setSize
    rw [if_neg h1, if_pos h2]
    unfold ent ve
    simp only [List.getElem?_replicate]
    split <;> rfl

/-- Finding: into a target of another shape whose buffer is large enough, the product is added to
whatever that buffer held. -/
theorem addSubMatrixRtAP_stale :
    addSubMatrixRtAP (⟨1, 1, [1]⟩ : Mat Int) [0] ⟨1, 1, [1]⟩ ⟨1, 1, [1]⟩ [0] ⟨2, 2, [7, 0, 0, 0]⟩
      (fun _ => 0) = .ok ⟨1, 1, [8, 0, 0, 0]⟩ := by decide

/-- The sparse overload accumulates onto the sparse target. -/
theorem addSubMatrixRtAPSparse_spec (r a p : Mat R) (rap : Sp R) (rrows prows : List Int)
    (junk : Nat → R) (hr : MatOk r) (ha : MatOk a) (hp : MatOk p)
    (hrr : RowsOk rrows r.h) (hpr : RowsOk prows p.h)
    (h1 : a.h = rrows.length) (h2 : a.w = prows.length) (h3 : rap.h = r.w) (h4 : rap.w = p.w) :
    ∃ m, addSubMatrixRtAPSparse r rrows a p prows rap junk = .ok m ∧ m.h = rap.h ∧ m.w = rap.w ∧
      ∀ i j, i < r.w → j < p.w → m.get i j = rap.get i j +
        ∑ k ∈ range rrows.length, ∑ c ∈ range prows.length,
          ent r (rowAt rrows k) i * ent a k c * ent p (rowAt prows c) j := by
  obtain ⟨m, hm, m1, m2, m3, m4⟩ := addSubMatrixRtAP_spec r a p ⟨0, 0, []⟩ rrows prows junk hr ha hp
    (by simp [MatOk]) hrr hpr h1 h2
  have hz : ∀ i j, ent ((⟨0, 0, []⟩ : Mat R).setSize r.w p.w) i j = 0 := by
    intro i j
    unfold Mat.setSize
    split
    · simp [ent, ve]
    · split
      · unfold ent ve
        simp only [List.getElem?_replicate]
        split <;> rfl
      · simp [ent, ve]
  have hset : ∀ (t : Sp R) i j v, i < t.h → j < t.w →
      ∃ t', t.set i j v = .ok t' ∧ t'.h = t.h ∧ t'.w = t.w := by
    intro t i j v hi hj
    exact ⟨{ t with ents := ((i, j), v) :: t.ents }, by unfold Sp.set; rw [if_pos ⟨hi, hj⟩], rfl, rfl⟩
  obtain ⟨⟨res, d⟩, hres, q1, q2, _, q3⟩ := loop_total (n := m.w)
    (body := fun j (st : Sp R × Nat) => loop m.h (fun i (st : Sp R × Nat) => (do
      let (rap, d) := st
      let v ← rd m.data d
      let rap ← rap.add i j v
      return (rap, d + 1) : Outcome (Sp R × Nat))) st)
    (fun k st => st.1.h = rap.h ∧ st.1.w = rap.w ∧ st.2 = k * m.h ∧
      ∀ i j, i < m.h → j < m.w → st.1.get i j = rap.get i j + if j < k then ent m i j else 0)
    (s := (rap, 0)) ⟨rfl, rfl, by simp, by intro i j _ _; simp⟩ (by
      rintro k ⟨u, d⟩ hk ⟨i1, i2, i3, i4⟩
      dsimp only at i1 i2 i3 i4
      obtain ⟨⟨v, d'⟩, hv, j1, j2, j3, j4⟩ := loop_total (n := m.h)
        (body := fun i (st : Sp R × Nat) => (do
          let (rap, d) := st
          let v ← rd m.data d
          let rap ← rap.add i k v
          return (rap, d + 1) : Outcome (Sp R × Nat)))
        (fun l st => st.1.h = rap.h ∧ st.1.w = rap.w ∧ st.2 = k * m.h + l ∧
          ∀ i j, i < m.h → j < m.w → st.1.get i j = rap.get i j +
            if j < k ∨ j = k ∧ i < l then ent m i j else 0)
        (s := (u, d)) ⟨i1, i2, by simp [i3], by intro i j hi hj; rw [i4 i j hi hj]; simp⟩ (by
          rintro l ⟨u, d⟩ hl ⟨j1, j2, j3, j4⟩
          dsimp only at j1 j2 j3 j4
          obtain ⟨v', hv', e1, e2⟩ := hset u l k (u.get l k + ent m l k) (by omega) (by omega)
          refine ⟨(v', d + 1), ?_, by dsimp only; omega, by dsimp only; omega, by dsimp only; omega, ?_⟩
          · have hlt := idx_lt hl hk
            have hok := m3; unfold MatOk at hok
            dsimp only
            rw [j3, rd_ve (by omega), ok_bind]
            have : ve m.data (k * m.h + l) = ent m l k := by unfold ent; rw [Nat.add_comm]
            rw [this]
            unfold Sp.add
            rw [hv']; rfl
          · intro i j hi hj
            have h0 := j4 l k hl hk
            rw [if_neg (by omega), add_zero] at h0
            dsimp only
            rw [Sp.get_set hv', h0]
            by_cases e : i = l ∧ j = k
            · obtain ⟨rfl, rfl⟩ := e
              rw [if_pos ⟨rfl, rfl⟩, if_pos (by omega)]
            · rw [if_neg e, j4 i j hi hj]
              by_cases e' : j < k ∨ j = k ∧ i < l
              · rw [if_pos e', if_pos (by omega)]
              · rw [if_neg e', if_neg (by omega)])
      refine ⟨(v, d'), hv, j1, j2, by dsimp only at j3 ⊢; rw [j3, Nat.add_mul]; omega, ?_⟩
      intro i j hi hj
      have := j4 i j hi hj
      dsimp only at this ⊢
      rw [this]
      by_cases e' : j < k ∨ j = k ∧ i < m.h
      · rw [if_pos e', if_pos (by omega)]
      · rw [if_neg e', if_neg (by omega)])
  refine ⟨res, ?_, q1, q2, ?_⟩
  · unfold addSubMatrixRtAPSparse
    rw [hm, ok_bind]
    have e1 : (m.h == rap.h) = true := by simp [m1, h3]
    have e2 : (m.w == rap.w) = true := by simp [m2, h4]
    rw [e1, e2]
    simp only [require_true, ok_bind]
    rw [hres]; rfl
  · intro i j hi hj
    have := q3 i j (by omega) (by omega)
    dsimp only at this
    rw [this, if_pos (by omega), m4 i j hi hj, hz, zero_add]

example : RowsOk [2, 0, 2] 3 := by simp [RowsOk]
example :
    multSubMatrix (⟨3, 2, [1, 2, 3, 4, 5, 6]⟩ : Mat Int) [2, 0, 2] [10, 1] [] (fun _ => 99)
      = .ok [36, 14, 36] ∧
    addMultTransposeSubMatrix (⟨3, 2, [1, 2, 3, 4, 5, 6]⟩ : Mat Int) [2, 0] [1, 10] [100, 200]
      = .ok [113, 246] ∧
    multTransposeSubMatrix (⟨3, 2, [1, 2, 3, 4, 5, 6]⟩ : Mat Int) [2, 0] [1, 10] [100, 200]
      = .ok [13, 46] ∧
    addSubMatrixRtAP (⟨2, 1, [1, 2]⟩ : Mat Int) [1] ⟨1, 2, [3, 4]⟩ ⟨2, 2, [1, 0, 5, 7]⟩ [0, 1]
      ⟨0, 0, []⟩ (fun _ => 99) = .ok ⟨1, 2, [6, 86]⟩ := by decide

/-! ## C20: tensor kernels -/

/-- `TensorContract` computes `y_k = sum_ij T_ijk x_i y_j`, whatever the target held. -/
theorem tensorContract_spec (t : Tensor R) (xi xj yk : List R) (junk : Nat → R) (ht : TensorOk t)
    (hi : xi.length = t.nI) (hj : xj.length = t.nJ) :
    tensorContract t xi xj yk junk =
      .ok (tab t.nK fun k => ∑ j ∈ range t.nJ, ∑ i ∈ range t.nI, tent t i j k * ve xi i * ve xj j) := by
  have hy := list_eq_tab' (vecSetSize_length yk t.nK junk)
  have e := loop_spec (n := t.nK) (body := fun k (st : List R × Nat) => (do
      let (y, td) := st
      let y ← wr y k 0
      let y0 ← rd y k
      let (acc, td) ← contractSlice t 1 xi xj y0 td
      let y ← wr y k acc
      return (y, td) : Outcome (List R × Nat)))
    (fun k => (tab t.nK fun k' => if k' < k then
        ∑ j ∈ range t.nJ, ∑ i ∈ range t.nI, tent t i j k' * ve xi i * ve xj j
        else ve (vecSetSize yk t.nK junk) k', k * (t.nI * t.nJ)))
    (s := (vecSetSize yk t.nK junk, 0)) (by
      rw [Nat.zero_mul]; congr 1) (fun k hk => by
      dsimp only
      rw [wr_tab hk, ok_bind, rd_tab hk, ok_bind, Function.update_self, contractSlice_eq ht hi hj _ hk,
        ok_bind]
      dsimp only
      rw [wr_tab hk, ok_bind]
      show Except.ok _ = Except.ok _
      congr 2
      refine tab_congr fun k' _ => ?_
      by_cases h : k' = k
      · subst h; rw [Function.update_self, if_pos (by omega), zero_add]
        exact sum_congr rfl fun j _ => sum_congr rfl fun i _ => by ring
      · rw [Function.update_of_ne h, Function.update_of_ne h]
        by_cases h2 : k' < k
        · rw [if_pos h2, if_pos (by omega)]
        · rw [if_neg h2, if_neg (by omega)])
  unfold tensorContract
  rw [hi, hj]
  simp only [beq_self_eq_true, require_true, ok_bind]
  rw [e, ok_bind]
  show Except.ok _ = Except.ok _
  congr 1
  exact tab_congr fun k hk => by rw [if_pos hk]

/-- `TensorAddScaledContract` adds `w * sum_ij T_ijk x_i y_j` to the resized target. -/
theorem tensorAddScaledContract_spec (t : Tensor R) (w : R) (xi xj yk : List R) (junk : Nat → R)
    (ht : TensorOk t) (hi : xi.length = t.nI) (hj : xj.length = t.nJ) :
    tensorAddScaledContract t w xi xj yk junk =
      .ok (tab t.nK fun k => (if t.nK ≤ yk.length then ve yk k else junk k) +
        w * ∑ j ∈ range t.nJ, ∑ i ∈ range t.nI, tent t i j k * ve xi i * ve xj j) := by
  have hy := list_eq_tab' (vecSetSize_length yk t.nK junk)
  have hval : ∀ k, k < t.nK → ve (vecSetSize yk t.nK junk) k =
      if t.nK ≤ yk.length then ve yk k else junk k := by
    intro k hk
    unfold vecSetSize
    split
    · unfold ve; rw [List.getElem?_take, if_pos hk]
    · unfold ve; simp [hk]
  have e := loop_spec (n := t.nK) (body := fun k (st : List R × Nat) => (do
      let (y, td) := st
      let y0 ← rd y k
      let (acc, td) ← contractSlice t w xi xj y0 td
      let y ← wr y k acc
      return (y, td) : Outcome (List R × Nat)))
    (fun k => (tab t.nK fun k' => if k' < k then ve (vecSetSize yk t.nK junk) k' +
        ∑ j ∈ range t.nJ, ∑ i ∈ range t.nI, w * tent t i j k' * ve xi i * ve xj j
        else ve (vecSetSize yk t.nK junk) k', k * (t.nI * t.nJ)))
    (s := (vecSetSize yk t.nK junk, 0)) (by
      rw [Nat.zero_mul]; congr 1) (fun k hk => by
      dsimp only
      rw [rd_tab hk, ok_bind, contractSlice_eq ht hi hj _ hk, ok_bind]
      dsimp only
      rw [wr_tab hk, ok_bind]
      show Except.ok _ = Except.ok _
      congr 2
      refine tab_congr fun k' _ => ?_
      by_cases h : k' = k
      · subst h
        rw [Function.update_self, if_pos (Nat.lt_succ_self _), if_neg (Nat.lt_irrefl _)]
      · rw [Function.update_of_ne h]
        by_cases h2 : k' < k
        · rw [if_pos h2, if_pos (by omega)]
        · rw [if_neg h2, if_neg (by omega)])
  unfold tensorAddScaledContract
  rw [hi, hj]
  simp only [beq_self_eq_true, require_true, ok_bind]
  rw [e, ok_bind]
  show Except.ok _ = Except.ok _
  congr 1
  refine tab_congr fun k hk => ?_
  rw [if_pos hk, hval k hk, mul_sum]
  congr 1
  refine sum_congr rfl fun j _ => ?_
  rw [mul_sum]
  exact sum_congr rfl fun i _ => by ring

/-- Vectors of the wrong size abort both contractions. -/
theorem tensorContract_rejects (t : Tensor R) (w : R) (xi xj yk : List R) (junk : Nat → R)
    (h : xi.length ≠ t.nI ∨ xj.length ≠ t.nJ) :
    tensorContract t xi xj yk junk = .error .abort ∧
    tensorAddScaledContract t w xi xj yk junk = .error .abort := by
  unfold tensorContract tensorAddScaledContract
  by_cases h1 : xi.length = t.nI
  · have h2 : (xj.length == t.nJ) = false := by
      rcases h with h | h
      · exact absurd h1 h
      · simp [h]
    simp only [h1, beq_self_eq_true, require_true, ok_bind, h2, require_false, error_bind, and_self]
  · have h1' : (xi.length == t.nI) = false := by simp [h1]
    simp only [h1', require_false, error_bind, and_self]

/-- `TensorMult` overwrites the matrix with `M_ij = sum_k T_ijk x_k`. -/
theorem tensorMult_spec (t : Tensor R) (x : List R) (m : Mat R) (ht : TensorOk t) (hm : MatOk m)
    (hx : t.nK ≤ x.length) (h1 : m.h = t.nI) (h2 : m.w = t.nJ) :
    ∃ m', tensorMult t x m = .ok m' ∧ m'.h = m.h ∧ m'.w = m.w ∧ MatOk m' ∧
      ∀ i j, i < t.nI → j < t.nJ → ent m' i j = ∑ k ∈ range t.nK, tent t i j k * ve x k := by
  let cap := m.data.length
  have hcap : t.nI * t.nJ ≤ cap := by have := hm; unfold MatOk at this; rwa [h1, h2] at this
  let f0 : Nat → R := fun q => ve ((List.replicate (m.h * m.w) (0 : R)) ++ m.data.drop (m.h * m.w)) q
  have hlen : ((List.replicate (m.h * m.w) (0 : R)) ++ m.data.drop (m.h * m.w)).length = cap := by
    rw [List.length_append, List.length_replicate, List.length_drop, h1, h2]
    show _ = cap
    have : m.data.length = cap := rfl
    omega
  have h0 := list_eq_tab' hlen
  let T : Nat → Nat → R := fun k q => ve t.data (k * (t.nI * t.nJ) + q)
  have inner : ∀ k f, k < t.nK →
      loop t.nJ (fun _ (st : List R × Nat × Nat) =>
        loop t.nI (fun _ (st : List R × Nat × Nat) => (do
          let (data, td, dM) := st
          let v ← rd t.data td
          let data ← upd data dM (fun y => y + v * ve x k)
          return (data, td + 1, dM + 1) : Outcome (List R × Nat × Nat))) st)
        (tab cap f, k * (t.nI * t.nJ), 0) =
      .ok (tab cap (fun q => if q < t.nJ * t.nI then f q + T k q * ve x k else f q),
        k * (t.nI * t.nJ) + t.nJ * t.nI, t.nJ * t.nI) := by
    intro k f hk
    have key := loop_spec (n := t.nJ) (body := fun _ (st : List R × Nat × Nat) =>
        loop t.nI (fun _ (st : List R × Nat × Nat) => (do
          let (data, td, dM) := st
          let v ← rd t.data td
          let data ← upd data dM (fun y => y + v * ve x k)
          return (data, td + 1, dM + 1) : Outcome (List R × Nat × Nat))) st)
      (fun j => (tab cap (fun q => if q < j * t.nI then f q + T k q * ve x k else f q),
        k * (t.nI * t.nJ) + j * t.nI, j * t.nI)) (s := (tab cap f, k * (t.nI * t.nJ), 0))
      (by simp) (fun j hj => by
        have := loop_spec (n := t.nI) (body := fun _ (st : List R × Nat × Nat) => (do
            let (data, td, dM) := st
            let v ← rd t.data td
            let data ← upd data dM (fun y => y + v * ve x k)
            return (data, td + 1, dM + 1) : Outcome (List R × Nat × Nat)))
          (fun i => (tab cap (fun q => if q < j * t.nI + i then f q + T k q * ve x k else f q),
            k * (t.nI * t.nJ) + (j * t.nI + i), j * t.nI + i))
          (s := (tab cap (fun q => if q < j * t.nI then f q + T k q * ve x k else f q),
            k * (t.nI * t.nJ) + j * t.nI, j * t.nI)) (by simp) (fun i hi => by
            have hlt := tensor_idx ht hi hj hk
            have hlt2 := idx_lt hi hj
            have hlt3 : j * t.nI + i < cap := by omega
            dsimp only
            rw [rd_ve (by omega), ok_bind, upd_tab hlt3, ok_bind]
            show Except.ok _ = Except.ok _
            congr 2
            refine tab_congr fun q _ => ?_
            by_cases hq : q = j * t.nI + i
            · subst hq
              rw [Function.update_self, if_neg (by omega), if_pos (by omega)]
            · rw [Function.update_of_ne hq]
              by_cases h3 : q < j * t.nI + i
              · rw [if_pos h3, if_pos (by omega)]
              · rw [if_neg h3, if_neg (by omega)])
        rw [this, Nat.add_mul j 1, Nat.one_mul])
    exact key
  have outer := loop_spec (n := t.nK) (body := fun k (st : List R × Nat) => (do
      let (data, td) := st
      let xk ← rd x k
      let st ← loop t.nJ (fun _ (st : List R × Nat × Nat) =>
        loop t.nI (fun _ (st : List R × Nat × Nat) => do
          let (data, td, dM) := st
          let v ← rd t.data td
          let data ← upd data dM (fun y => y + v * xk)
          return (data, td + 1, dM + 1)) st) (data, td, 0)
      return (st.1, st.2.1) : Outcome (List R × Nat)))
    (fun k => (tab cap (fun q => if q < t.nJ * t.nI then
      f0 q + ∑ k' ∈ range k, T k' q * ve x k' else f0 q), k * (t.nI * t.nJ)))
    (s := ((List.replicate (m.h * m.w) (0 : R)) ++ m.data.drop (m.h * m.w), 0))
    (by
      rw [Nat.zero_mul]; congr 1
      conv_lhs => rw [h0]
      exact tab_congr fun q _ => by simp [f0]) (fun k hk => by
      dsimp only
      rw [rd_ve (by omega), ok_bind, inner k _ hk, ok_bind]
      show Except.ok _ = Except.ok _
      rw [Nat.add_mul k 1, Nat.one_mul, Nat.mul_comm t.nI t.nJ]
      congr 2
      refine tab_congr fun q _ => ?_
      by_cases hq : q < t.nJ * t.nI
      · rw [if_pos hq, if_pos hq, if_pos hq, sum_range_succ, add_assoc]
      · rw [if_neg hq, if_neg hq, if_neg hq])
  refine ⟨{ m with data := tab cap (fun q => if q < t.nJ * t.nI then
      f0 q + ∑ k' ∈ range t.nK, T k' q * ve x k' else f0 q) }, ?_, rfl, rfl, ?_, ?_⟩
  · unfold tensorMult
    dsimp only
    rw [outer]; rfl
  · show m.h * m.w ≤ (tab cap _).length
    rw [length_tab, h1, h2]; exact hcap
  · intro i j hi hj
    have hlt := idx_lt hi hj
    have hc := Nat.mul_comm t.nI t.nJ
    unfold ent
    simp only [h1]
    rw [ve_tab (by omega), if_pos (by omega)]
    have hz : f0 (i + j * t.nI) = 0 := by
      simp only [f0]
      unfold ve
      rw [List.getElem?_append_left (by rw [List.length_replicate, h1, h2]; omega),
        List.getElem?_replicate]
      split <;> rfl
    rw [hz, zero_add]
    refine sum_congr rfl fun k _ => ?_
    simp only [T]; unfold tent; rw [Nat.add_comm]

/-- The transposed products: axis 0 adds `w * sum_i T_ijk x_i` to `M_kj`, axis 1 adds
`w * sum_j T_ijk x_j` to `M_ki`. -/
theorem tensorAddScaledMultTranspose_spec (t : Tensor R) (w : R) (x : List R) (m : Mat R)
    (ht : TensorOk t) (hm : MatOk m) (hh : m.h = t.nK) :
    (x.length = t.nI → m.w = t.nJ → ∃ m', tensorAddScaledMultTranspose t w x 0 m = .ok m' ∧
      m'.h = m.h ∧ m'.w = m.w ∧ MatOk m' ∧ ∀ k j, k < t.nK → j < t.nJ →
        ent m' k j = ent m k j + w * ∑ i ∈ range t.nI, tent t i j k * ve x i) ∧
    (x.length = t.nJ → m.w = t.nI → ∃ m', tensorAddScaledMultTranspose t w x 1 m = .ok m' ∧
      m'.h = m.h ∧ m'.w = m.w ∧ MatOk m' ∧ ∀ k i, k < t.nK → i < t.nI →
        ent m' k i = ent m k i + w * ∑ j ∈ range t.nJ, tent t i j k * ve x j) := by
  have gen : ∀ (sizeAx sizeNx offset stride : Nat) (T : Nat → Nat → Nat → R), m.w = sizeNx →
      x.length = sizeAx →
      (∀ nx k ax, nx < sizeNx → k < t.nK → ax < sizeAx →
        rd t.data (k * (t.nI * t.nJ) + offset * nx + ax * stride) = .ok (T nx k ax)) →
      ∃ data, loop sizeNx (fun nx (st : List R × Nat) => loop t.nK (fun k (st : List R × Nat) => (do
          let (data, dM) := st
          let st ← loop sizeAx (fun ax (st : List R × Nat) => do
            let (data, td) := st
            let v ← rd t.data td
            let xa ← rd x ax
            let data ← upd data dM (fun y => y + w * v * xa)
            return (data, td + stride)) (data, k * (t.nI * t.nJ) + offset * nx)
          return (st.1, dM + 1) : Outcome (List R × Nat))) st) (m.data, 0) = .ok data ∧
        MatOk { m with data := data.1 } ∧ ∀ nx k, nx < sizeNx → k < t.nK →
          ent { m with data := data.1 } k nx = ent m k nx + w * ∑ ax ∈ range sizeAx, T nx k ax * ve x ax := by
    intro sizeAx sizeNx offset stride T hw hx hT
    have hcap : sizeNx * t.nK ≤ m.data.length := by
      have := hm; unfold MatOk at this; rw [hh, hw] at this; rw [Nat.mul_comm]; exact this
    have key := loop2_seq (a := sizeNx) (b := t.nK) (cap := m.data.length)
      (body := fun nx k (st : List R × Nat) => (do
          let (data, dM) := st
          let st ← loop sizeAx (fun ax (st : List R × Nat) => do
            let (data, td) := st
            let v ← rd t.data td
            let xa ← rd x ax
            let data ← upd data dM (fun y => y + w * v * xa)
            return (data, td + stride)) (data, k * (t.nI * t.nJ) + offset * nx)
          return (st.1, dM + 1) : Outcome (List R × Nat)))
      (ve m.data) (fun nx k => ∑ ax ∈ range sizeAx, w * T nx k ax * ve x ax)
      (fun nx k f' hnx hk => by
        have hd : nx * t.nK + k < m.data.length := by
          have := (seq_entry hnx hk).1; omega
        have := loop_acc_at (n := sizeAx) (cap := m.data.length) (d := nx * t.nK + k)
          (body := fun ax (st : List R × Nat) => (do
            let (data, td) := st
            let v ← rd t.data td
            let xa ← rd x ax
            let data ← upd data (nx * t.nK + k) (fun y => y + w * v * xa)
            return (data, td + stride) : Outcome (List R × Nat)))
          f' (fun ax => k * (t.nI * t.nJ) + offset * nx + ax * stride)
          (fun ax => w * T nx k ax * ve x ax) (fun ax f'' hax => by
            dsimp only
            rw [hT nx k ax hnx hk hax, ok_bind, rd_ve (by omega), ok_bind, upd_tab hd, ok_bind]
            show Except.ok _ = Except.ok _
            rw [Nat.add_mul ax 1, Nat.one_mul, Nat.add_assoc _ (ax * stride)])
        rw [Nat.zero_mul, Nat.add_zero] at this
        dsimp only
        rw [this, ok_bind]
        rfl)
    rw [← list_eq_tab m.data] at key
    refine ⟨_, key, ?_, ?_⟩
    · show m.h * m.w ≤ (tab m.data.length _).length
      rw [length_tab]; exact hm
    · intro nx k hnx hk
      obtain ⟨e1, e2, e3⟩ := seq_entry hnx hk
      unfold ent
      simp only [hh]
      rw [Nat.add_comm k, ve_tab (by omega), if_pos e1, e2, e3, mul_sum]
      congr 1
      exact sum_congr rfl fun ax _ => by ring
  constructor
  · intro hx hw
    obtain ⟨data, hd, hok, hval⟩ := gen t.nI t.nJ t.nI 1 (fun nx k ax => tent t ax nx k) hw hx
      (fun nx k ax hnx hk hax => by
        have := rd_tensor ht hax hnx hk
        rw [show k * (t.nI * t.nJ) + t.nI * nx + ax * 1 = k * (t.nI * t.nJ) + (ax + nx * t.nI) by
          rw [Nat.mul_comm nx]; omega]
        exact this)
    refine ⟨{ m with data := data.1 }, ?_, rfl, rfl, hok, fun k j hk hj => hval j k hj hk⟩
    unfold tensorAddScaledMultTranspose
    rw [if_pos rfl, hx, hh, hw]
    simp only [beq_self_eq_true, require_true, ok_bind, pure, Except.pure]
    simp only [pure, Except.pure] at hd
    rw [hd]; rfl
  · intro hx hw
    obtain ⟨data, hd, hok, hval⟩ := gen t.nJ t.nI 1 t.nI (fun nx k ax => tent t nx ax k) hw hx
      (fun nx k ax hnx hk hax => by
        have := rd_tensor ht hnx hax hk
        rw [show k * (t.nI * t.nJ) + 1 * nx + ax * t.nI = k * (t.nI * t.nJ) + (nx + ax * t.nI) by omega]
        exact this)
    refine ⟨{ m with data := data.1 }, ?_, rfl, rfl, hok, fun k j hk hj => hval j k hj hk⟩
    unfold tensorAddScaledMultTranspose
    rw [if_neg (by decide), if_pos rfl, hx, hh, hw]
    simp only [beq_self_eq_true, require_true, ok_bind, pure, Except.pure]
    simp only [pure, Except.pure] at hd
    rw [hd]; rfl

/-- Any other axis, and any shape mismatch, aborts. -/
theorem tensorAddScaledMultTranspose_rejects (t : Tensor R) (w : R) (x : List R) (axis : Int)
    (m : Mat R)
    (h : (axis ≠ 0 ∧ axis ≠ 1) ∨ m.h ≠ t.nK ∨
      (axis = 0 ∧ (x.length ≠ t.nI ∨ m.w ≠ t.nJ)) ∨ (axis = 1 ∧ (x.length ≠ t.nJ ∨ m.w ≠ t.nI))) :
    tensorAddScaledMultTranspose t w x axis m = .error .abort := by
  unfold tensorAddScaledMultTranspose
  by_cases h0 : axis = 0
  · rw [if_pos h0]
    by_cases a : x.length = t.nI
    · by_cases b : m.h = t.nK
      · have c : (m.w == t.nJ) = false := by simp; omega
        simp only [a, b, c, beq_self_eq_true, require_true, ok_bind, require_false, error_bind]
      · have b' : (m.h == t.nK) = false := by simp [b]
        simp only [a, b', beq_self_eq_true, require_true, ok_bind, require_false, error_bind]
    · have a' : (x.length == t.nI) = false := by simp [a]
      simp only [a', require_false, error_bind]
  · rw [if_neg h0]
    by_cases h1 : axis = 1
    · rw [if_pos h1]
      by_cases a : x.length = t.nJ
      · by_cases b : m.h = t.nK
        · have c : (m.w == t.nI) = false := by simp; omega
          simp only [a, b, c, beq_self_eq_true, require_true, ok_bind, require_false, error_bind]
        · have b' : (m.h == t.nK) = false := by simp [b]
          simp only [a, b', beq_self_eq_true, require_true, ok_bind, require_false, error_bind]
      · have a' : (x.length == t.nJ) = false := by simp [a]
        simp only [a', require_false, error_bind]
    · rw [if_neg h1]; rfl

/-- Exact derivative: for a tensor with equal first two dimensions, adding both axis matrices at `x`
to a zero matrix gives `J` with `T(x+d, x+d) = T(x, x) + J d + T(d, d)`. -/
theorem tensor_jacobian (t : Tensor R) (ht : TensorOk t) (hsq : t.nI = t.nJ) (x d : List R)
    (hx : x.length = t.nI) (hd : d.length = t.nI) (junk : Nat → R) :
    ∃ m1 m2 yx yd yxd,
      tensorAddMultTranspose t x 0 ⟨t.nK, t.nI, List.replicate (t.nK * t.nI) 0⟩ = .ok m1 ∧
      tensorAddMultTranspose t x 1 m1 = .ok m2 ∧
      tensorContract t x x [] junk = .ok yx ∧ tensorContract t d d [] junk = .ok yd ∧
      tensorContract t (tab t.nI fun i => ve x i + ve d i) (tab t.nI fun i => ve x i + ve d i) [] junk
        = .ok yxd ∧
      ∀ k, k < t.nK → ve yxd k = ve yx k + (∑ i ∈ range t.nI, ent m2 k i * ve d i) + ve yd k := by
  obtain ⟨m1, hm1, a1, a2, a3, a4⟩ := (tensorAddScaledMultTranspose_spec t 1 x
    ⟨t.nK, t.nI, List.replicate (t.nK * t.nI) 0⟩ ht (by simp [MatOk]) rfl).1 hx hsq
  obtain ⟨m2, hm2, b1, b2, b3, b4⟩ := (tensorAddScaledMultTranspose_spec t 1 x m1 ht a3 a1).2
    (by omega) a2
  refine ⟨m1, m2, _, _, _, hm1, hm2, tensorContract_spec t x x [] junk ht hx (by omega),
    tensorContract_spec t d d [] junk ht hd (by omega),
    tensorContract_spec t _ _ [] junk ht (length_tab _ _) (by rw [length_tab]; omega), ?_⟩
  intro k hk
  rw [ve_tab hk, ve_tab hk, ve_tab hk]
  have hJ : ∀ i, i < t.nI → ent m2 k i =
      (∑ j ∈ range t.nI, tent t j i k * ve x j) + ∑ j ∈ range t.nJ, tent t i j k * ve x j := by
    intro i hi
    rw [b4 k i hk hi, a4 k i hk (by omega)]
    have : ent (⟨t.nK, t.nI, List.replicate (t.nK * t.nI) 0⟩ : Mat R) k i = 0 := by
      unfold ent ve; simp only [List.getElem?_replicate]; split <;> rfl
    rw [this, one_mul, one_mul, zero_add]
  have hJd : ∑ i ∈ range t.nI, ent m2 k i * ve d i = ∑ i ∈ range t.nI,
      ((∑ j ∈ range t.nI, tent t j i k * ve x j) + ∑ j ∈ range t.nJ, tent t i j k * ve x j) * ve d i :=
    sum_congr rfl fun i hi => by rw [hJ i (mem_range.1 hi)]
  rw [hJd, ← hsq]
  have e1 : ∀ j ∈ range t.nI, ∑ i ∈ range t.nI, tent t i j k *
      ve (tab t.nI fun i => ve x i + ve d i) i * ve (tab t.nI fun i => ve x i + ve d i) j =
      (∑ i ∈ range t.nI, tent t i j k * ve x i * ve x j) +
      (∑ i ∈ range t.nI, tent t i j k * ve x i) * ve d j +
      (∑ i ∈ range t.nI, tent t i j k * ve d i * ve x j) +
      ∑ i ∈ range t.nI, tent t i j k * ve d i * ve d j := by
    intro j hj
    rw [sum_mul, ← sum_add_distrib, ← sum_add_distrib, ← sum_add_distrib]
    refine sum_congr rfl fun i hi => ?_
    rw [ve_tab (mem_range.1 hi), ve_tab (mem_range.1 hj)]; ring
  rw [sum_congr rfl e1, sum_add_distrib, sum_add_distrib, sum_add_distrib]
  have e2 : ∑ j ∈ range t.nI, ∑ i ∈ range t.nI, tent t i j k * ve d i * ve x j =
      ∑ i ∈ range t.nI, (∑ j ∈ range t.nI, tent t i j k * ve x j) * ve d i := by
    rw [Finset.sum_comm]
    refine sum_congr rfl fun i _ => ?_
    rw [sum_mul]
    exact sum_congr rfl fun j _ => by ring
  rw [e2]
  simp only [add_mul, sum_add_distrib]
  ring

example :
    let t : Tensor Int := ⟨2, 2, 1, [1, 2, 3, 4]⟩
    tensorContract t [1, 10] [100, 1000] [] (fun _ => 7) = .ok [45100] := by decide
example :
    tensorAddMultTranspose (⟨2, 2, 1, [1, 2, 3, 4]⟩ : Tensor Int) [1, 10] 0 ⟨1, 2, [0, 0]⟩
      = .ok ⟨1, 2, [21, 43]⟩ ∧
    tensorAddMultTranspose (⟨2, 2, 1, [1, 2, 3, 4]⟩ : Tensor Int) [1, 10] 1 ⟨1, 2, [0, 0]⟩
      = .ok ⟨1, 2, [31, 42]⟩ ∧
    tensorMult (⟨2, 1, 2, [1, 2, 3, 4]⟩ : Tensor Int) [1, 10] ⟨2, 1, [9, 9]⟩ = .ok ⟨2, 1, [31, 42]⟩ := by
  decide

/-! ## C21: `TensorAddMultOnJ` -/

/-- What the pinned code computes: `M_ik += (sum_j T_ijk) x_0`. -/
theorem tensorAddMultOnJ_actual (t : Tensor R) (x : List R) (m : Mat R) (ht : TensorOk t)
    (hm : MatOk m) (h1 : m.h = t.nI) (h2 : m.w = t.nK) (hx : 0 < x.length) :
    ∃ m', tensorAddMultOnJ t x m = .ok m' ∧ m'.h = m.h ∧ m'.w = m.w ∧ MatOk m' ∧
      ∀ i k, i < t.nI → k < t.nK →
        ent m' i k = ent m i k + (∑ j ∈ range t.nJ, tent t i j k) * ve x 0 := by
  have hcap : t.nK * t.nI ≤ m.data.length := by
    have := hm; unfold MatOk at this; rw [h1, h2] at this; rw [Nat.mul_comm]; exact this
  have key := loop2_seq (a := t.nK) (b := t.nI) (cap := m.data.length)
    (body := fun k i (st : List R × Nat) => (do
      let (data, dM) := st
      let st ← loop t.nJ (fun _ (st : List R × Nat) => do
        let (data, td) := st
        let v ← rd t.data td
        let x0 ← rd x 0
        let data ← upd data dM (fun y => y + v * x0)
        return (data, td + t.nI)) (data, k * (t.nI * t.nJ) + i)
      return (st.1, dM + 1) : Outcome (List R × Nat)))
    (ve m.data) (fun k i => ∑ j ∈ range t.nJ, tent t i j k * ve x 0)
    (fun k i f' hk hi => by
      have hd : k * t.nI + i < m.data.length := by
        have := (seq_entry hk hi).1; omega
      have := loop_acc_at (n := t.nJ) (cap := m.data.length) (d := k * t.nI + i)
        (body := fun _ (st : List R × Nat) => (do
          let (data, td) := st
          let v ← rd t.data td
          let x0 ← rd x 0
          let data ← upd data (k * t.nI + i) (fun y => y + v * x0)
          return (data, td + t.nI) : Outcome (List R × Nat)))
        f' (fun j => k * (t.nI * t.nJ) + (i + j * t.nI))
        (fun j => tent t i j k * ve x 0) (fun j f'' hj => by
          dsimp only
          rw [rd_tensor ht hi hj hk, ok_bind, rd_ve (by omega), ok_bind, upd_tab hd, ok_bind]
          show Except.ok _ = Except.ok _
          rw [Nat.add_mul j 1, Nat.one_mul]
          congr 2
          omega)
      rw [Nat.zero_mul, Nat.add_zero] at this
      dsimp only
      rw [this, ok_bind]
      rfl)
  rw [← list_eq_tab m.data] at key
  refine ⟨{ m with data := tab m.data.length (fun q => if q < t.nK * t.nI then ve m.data q +
      ∑ j ∈ range t.nJ, tent t (q % t.nI) j (q / t.nI) * ve x 0 else ve m.data q) },
    by unfold tensorAddMultOnJ; rw [key]; rfl, rfl, rfl, ?_, ?_⟩
  · show m.h * m.w ≤ (tab m.data.length _).length
    rw [length_tab]; exact hm
  · intro i k hi hk
    obtain ⟨e1, e2, e3⟩ := seq_entry hk hi
    unfold ent
    simp only [h1]
    rw [Nat.add_comm i, ve_tab (by omega), if_pos e1, e2, e3, sum_mul]

/-- The intended contraction `M_ik += sum_j T_ijk x_j` holds for vectors with equal entries (in
particular one-dimensional ones).  Missing: all other vectors, where the pinned code is wrong
(`tensorAddMultOnJ_wrong`). -/
theorem tensorAddMultOnJ_partial (t : Tensor R) (x : List R) (m : Mat R) (ht : TensorOk t)
    (hm : MatOk m) (h1 : m.h = t.nI) (h2 : m.w = t.nK) (hx : 0 < x.length)
    (hconst : ∀ j, j < t.nJ → ve x j = ve x 0) :
    ∃ m', tensorAddMultOnJ t x m = .ok m' ∧ ∀ i k, i < t.nI → k < t.nK →
        ent m' i k = ent m i k + ∑ j ∈ range t.nJ, tent t i j k * ve x j := by
  obtain ⟨m', hm', _, _, _, h⟩ := tensorAddMultOnJ_actual t x m ht hm h1 h2 hx
  refine ⟨m', hm', fun i k hi hk => ?_⟩
  rw [h i k hi hk, sum_mul]
  congr 1
  exact sum_congr rfl fun j hj => by rw [hconst j (mem_range.1 hj)]

/-- The intended contraction fails: `T = (1, 2)`, `x = (1, 10)` should give `21`, the code gives `3`. -/
theorem tensorAddMultOnJ_wrong :
    tensorAddMultOnJ (⟨1, 2, 1, [1, 2]⟩ : Tensor Int) [1, 10] ⟨1, 1, [0]⟩ = .ok ⟨1, 1, [3]⟩ ∧
    ∑ j ∈ range 2, tent (⟨1, 2, 1, [1, 2]⟩ : Tensor Int) 0 j 0 * ve [1, 10] j = 21 := by
  decide

end Verif.LinAlg
