import Verif.Spec.Supremizer
import Verif.Props.GramSchmidt
import Verif.Props.Hdf5

/-! Helper lemmas for supremizer enrichment. -/

namespace Verif.Supremizer

open Verif Verif.Hdf5 Verif.Hdf5.Spec Verif.Supremizer.Spec Verif.GramSchmidt.Spec
open Verif.LinAlg (Mat)
open Verif.GramSchmidt (Col orthonormalize orthonormalize_spec JointlyIndependent)

theorem colsOf_eq (n : Nat) (m : Mat ℝ) : colsOf n m = (List.range m.w).map (column n m) := rfl

theorem length_colsOf (n : Nat) (m : Mat ℝ) : (colsOf n m).length = m.w := by simp [colsOf]

theorem colAt_colsOf {n : Nat} {m : Mat ℝ} {i : Nat} (h : i < m.w) : colAt (colsOf n m) i = column n m i := by
  unfold colAt; rw [colsOf_eq, List.getElem?_map, List.getElem?_range h]; rfl

theorem orthonormal_iff {n : Nat} {u : Mat ℝ} : Orthonormal n u ↔ OrthonormalCols (colsOf n u) := by
  unfold Orthonormal OrthonormalCols
  rw [length_colsOf]
  constructor
  · intro h i j hi hj; rw [colAt_colsOf hi, colAt_colsOf hj, h i j hi hj]
  · intro h i j hi hj; rw [← colAt_colsOf hi, ← colAt_colsOf hj, h i j hi hj]

theorem colSpan_eq (n : Nat) (m : Mat ℝ) (k : Nat) (hk : m.w ≤ k) : colSpan n m = prefixSpan (colsOf n m) k := by
  unfold colSpan prefixSpan
  rw [length_colsOf]
  congr 1
  ext v
  constructor
  · rintro ⟨i, hi, rfl⟩; exact ⟨i, by omega, hi, colAt_colsOf hi⟩
  · rintro ⟨i, _, hi, rfl⟩; exact ⟨i, hi, (colAt_colsOf hi).symm⟩

/-! ## Writing a matrix into another -/

theorem setSub_ok {m a : Mat ℝ} {jbeg : Nat} (hh : m.h = a.h) (ha : a.w * a.h ≤ a.data.length)
    (hm : (jbeg + a.w) * a.h ≤ m.data.length) :
    ∃ D, setSub m jbeg a = .ok { m with data := D } ∧ D.length = m.data.length ∧
      ∀ k, D[k]? = if jbeg * a.h ≤ k ∧ k < jbeg * a.h + a.w * a.h then a.data[k - jbeg * a.h]? else m.data[k]? := by
  set H := a.h with hH
  have hmul : (jbeg + a.w) * H = jbeg * H + a.w * H := Nat.add_mul ..
  let P : Nat → List ℝ → Prop := fun t D => D.length = m.data.length ∧
    ∀ k, D[k]? = if jbeg * H ≤ k ∧ k < jbeg * H + t then a.data[k - jbeg * H]? else m.data[k]?
  obtain ⟨D, e, i1, i2⟩ := loop_total (n := a.w) (body := fun j data => loop a.h (fun i data => do
      let x ← rd a.data (j * a.h + i)
      wr data ((jbeg + j) * m.h + i) x) data) (s := m.data) (fun j D => P (j * H) D)
    ⟨rfl, fun k => by rw [if_neg (by omega)]⟩ (by
    intro j u hj hu
    obtain ⟨v, e, hv⟩ := loop_total (n := H) (body := fun i data => do
        let x ← rd a.data (j * a.h + i)
        wr data ((jbeg + j) * m.h + i) x) (s := u) (fun i D => P (j * H + i) D) hu (by
      rintro i w hi ⟨w1, w2⟩
      have hlt : j * H + i < a.w * H := by
        have := Nat.mul_le_mul_right H (show j + 1 ≤ a.w by omega)
        rw [Nat.succ_mul] at this; omega
      have e2 : (jbeg + j) * m.h + i = jbeg * H + (j * H + i) := by rw [hh, Nat.add_mul]; omega
      refine ⟨w.set (jbeg * H + (j * H + i)) (a.data[j * H + i]'(by omega)), ?_, by simp [w1], fun k => ?_⟩
      · rw [← hH, rd_of_lt (by omega), ok_bind, e2, wr_of_lt (by omega)]
      · by_cases hk : k = jbeg * H + (j * H + i)
        · subst hk
          rw [List.getElem?_set_self (by omega), if_pos (by omega), Nat.add_sub_cancel_left,
            List.getElem?_eq_getElem (by omega)]
        · rw [List.getElem?_set_ne (by omega), w2]
          by_cases h1 : jbeg * H ≤ k ∧ k < jbeg * H + (j * H + i)
          · rw [if_pos h1, if_pos (by omega)]
          · rw [if_neg h1, if_neg (by omega)])
    refine ⟨v, e, ?_⟩
    show P ((j + 1) * H) v
    rw [Nat.succ_mul]; exact hv)
  refine ⟨D, ?_, i1, i2⟩
  unfold setSub
  rw [e]
  rfl

/-- Two matrices side by side. -/
theorem colsOf_append {n : Nat} {r u s : Mat ℝ} (hr : r.h = n) (hu : u.h = n) (hs : s.h = n)
    (hw : r.w = u.w + s.w)
    (h1 : ∀ k, k < u.w * n → r.data[k]? = u.data[k]?)
    (h2 : ∀ k, k < s.w * n → r.data[u.w * n + k]? = s.data[k]?) : colsOf n r = colsOf n u ++ colsOf n s := by
  have hlt : ∀ {j w i : Nat}, j < w → i < n → j * n + i < w * n := by
    intro j w i hj hi
    have := Nat.mul_le_mul_right n (show j + 1 ≤ w by omega)
    rw [Nat.succ_mul] at this; omega
  rw [colsOf_eq, colsOf_eq, colsOf_eq, hw, List.range_add, List.map_append, List.map_map]
  congr 1
  · refine List.map_congr_left fun j hj => ?_
    funext i
    unfold column
    rw [hr, hu, h1 _ (hlt (List.mem_range.1 hj) i.2)]
  · refine List.map_congr_left fun j hj => ?_
    funext i
    show column n r (u.w + j) i = _
    unfold column
    rw [hr, hs, Nat.add_mul, Nat.add_assoc, h2 _ (hlt (List.mem_range.1 hj) i.2)]

theorem colsOf_take {n : Nat} (m : Mat ℝ) {k : Nat} (h : k ≤ m.w) :
    colsOf n { m with w := k } = (colsOf n m).take k := by
  rw [colsOf_eq, colsOf_eq, ← List.map_take, List.take_range, Nat.min_eq_left h]
  rfl

/-- What appending does to one basis. -/
theorem append_basis {n : Nat} {r mat : Mat ℝ} (hr : Shape n r) (hm : Shape n mat) :
    ∃ r1 r2, setSub (r.setSize r.h (r.w + mat.w)) 0 r = .ok r1 ∧ setSub r1 r.w mat = .ok r2 ∧ Shape n r2 ∧
      r2.w = r.w + mat.w ∧ colsOf n r2 = colsOf n r ++ colsOf n mat := by
  obtain ⟨hr1, hr2⟩ := hr
  obtain ⟨hm1, hm2⟩ := hm
  set r0 := r.setSize r.h (r.w + mat.w) with hr0
  have s1 : r0.h = n ∧ r0.w = r.w + mat.w ∧ n * (r.w + mat.w) ≤ r0.data.length := by
    rw [hr0]
    unfold Mat.setSize
    split
    · next hh => exact ⟨hr1, by omega, by rw [← hh.2]; exact hr2⟩
    · split
      · exact ⟨hr1, rfl, by simp [hr1]⟩
      · next hh => exact ⟨hr1, rfl, by rw [hr1] at hh; exact Nat.le_of_not_lt hh⟩
  obtain ⟨a1, a2, a3⟩ := s1
  have m1 : n * (r.w + mat.w) = n * r.w + n * mat.w := Nat.mul_add ..
  obtain ⟨D, e1, l1, g1⟩ := setSub_ok (m := r0) (a := r) (jbeg := 0) (by rw [a1, hr1])
    (by rw [hr1, Nat.mul_comm]; exact hr2) (by rw [hr1, Nat.zero_add, Nat.mul_comm]; omega)
  obtain ⟨E, e2, l2, g2⟩ := setSub_ok (m := { r0 with data := D }) (a := mat) (jbeg := r.w)
    (by show r0.h = _; rw [a1, hm1]) (by rw [hm1, Nat.mul_comm]; exact hm2)
    (by rw [hm1, Nat.mul_comm]; show _ ≤ D.length; rw [l1]; exact a3)
  refine ⟨_, _, e1, e2, ⟨a1, ?_⟩, a2, ?_⟩
  · show n * r0.w ≤ E.length
    rw [l2, a2]
    show _ ≤ D.length
    rw [l1]; exact a3
  · refine colsOf_append a1 hr1 hm1 a2 ?_ ?_
    · intro k hk
      show E[k]? = _
      rw [g2, if_neg (by rw [hm1]; omega)]
      show D[k]? = _
      rw [g1, if_pos (by rw [hr1]; omega), Nat.zero_mul, Nat.sub_zero]
    · intro k hk
      show E[_]? = _
      rw [g2, hm1, if_pos (by omega), Nat.add_sub_cancel_left]

/-! ## Images of pressure modes -/

theorem list_sum_range (n : Nat) (f : Nat → ℝ) : ((List.range n).map f).sum = ∑ j ∈ Finset.range n, f j := by
  induction n with
  | zero => simp
  | succ n ih => rw [List.range_succ, List.map_append, List.sum_append, ih, Finset.sum_range_succ]; simp

theorem gradient_col {c : Comp} {p : Mat ℝ} (hp : Shape c.np p) {k : Nat} (hk : k < p.w) :
    ∃ pv, p.col k = .ok pv ∧ gradient c pv = modeGrad c p k := by
  obtain ⟨h1, h2⟩ := hp
  have hlt : (k + 1) * p.h ≤ p.data.length := by
    rw [h1]
    calc (k + 1) * c.np ≤ p.w * c.np := Nat.mul_le_mul_right _ hk
      _ ≤ _ := by rw [Nat.mul_comm]; exact h2
  refine ⟨_, by unfold Mat.col; rw [if_pos hlt], ?_⟩
  funext i
  unfold gradient modeGrad
  rw [list_sum_range]
  refine Finset.sum_congr rfl fun j hj => ?_
  rw [List.getElem?_take, if_pos (by rw [h1]; exact Finset.mem_range.1 hj), List.getElem?_drop]

theorem images_ok {c : Comp} {nsup : Nat} {u p : Mat ℝ} (h : Ready c nsup u p) :
    images c nsup u p = .ok ((List.range nsup).map (modeGrad c p)) := by
  unfold images
  rw [if_neg (by
    rintro (h1 | h1 | h1)
    · omega
    · exact h1 h.vel.1
    · exact h1 h.prs.1)]
  refine loop_spec (n := (nsup : Int).toNat) (fun k => (List.range k).map (modeGrad c p)) rfl ?_
  intro k hk
  have hk' : k < p.w := by have := h.enough; simp at hk; omega
  obtain ⟨pv, e1, e2⟩ := gradient_col h.prs hk'
  rw [e1, ok_bind, e2, List.range_succ, List.map_append]
  rfl

/-! ## The stored supremizers -/

/-- What is known about stored supremizers `s`: orthonormal, orthogonal to the velocity modes, and spanning,
with them, the gradients. -/
structure Good (c : Comp) (nsup : Nat) (u p s : Mat ℝ) : Prop where
  shape : Shape c.nu s
  width : s.w = nsup
  ortho : OrthonormalCols (colsOf c.nu s)
  perp : ∀ i j, i < u.w → j < s.w → column c.nu u i ⬝ᵥ column c.nu s j = 0
  span : ∀ k, k ≤ nsup → colSpan c.nu u ⊔ prefixSpan (colsOf c.nu s) k = colSpan c.nu u ⊔ gradSpan c p k

/-- The file of a component holds good supremizers. -/
def Stored (pre : String) (c : Comp) (nsup : Nat) (u p : Mat ℝ) (d : Disk) : Prop :=
  ∃ f, d (fileName pre c.name) = some f ∧ ∀ old : Mat ℝ, old.h * old.w ≤ old.data.length →
    ∃ s, readDense f [] "supremizer_basis" old = .ok s ∧ Good c nsup u p s

theorem colsOf_ofCols {n : Nat} (l : List (Col n)) : colsOf n (ofCols l) = l := by
  have key : ∀ (l : List (Col n)) (j : Nat) (i : Fin n), j < l.length →
      (l.flatMap List.ofFn)[j * n + i]? = some ((l[j]?.getD 0) i) := by
    intro l
    induction l with
    | nil => intro j i hj; simp at hj
    | cons a l ih =>
      intro j i hj
      rw [List.flatMap_cons]
      cases j with
      | zero =>
        rw [Nat.zero_mul, Nat.zero_add, List.getElem?_append_left (by simp)]
        simp
      | succ j =>
        have e : (j + 1) * n + i = n + (j * n + i) := by rw [Nat.succ_mul]; omega
        rw [e, List.getElem?_append_right (by simp), List.length_ofFn, Nat.add_sub_cancel_left,
          ih j i (by simpa using hj)]
        rfl
  refine List.ext_getElem? fun j => ?_
  rw [colsOf_eq, List.getElem?_map]
  by_cases hj : j < l.length
  · have hw : (ofCols l).w = l.length := rfl
    rw [hw, List.getElem?_range hj, List.getElem?_eq_getElem hj]
    show some _ = some _
    congr 1
    funext i
    show ((l.flatMap List.ofFn)[j * n + i]?).getD 0 = _
    rw [key l j i hj, List.getElem?_eq_getElem hj]
    rfl
  · have hw : (ofCols l).w = l.length := rfl
    rw [hw, List.getElem?_eq_none (by simpa using hj), List.getElem?_eq_none (by simpa using hj)]
    rfl

theorem length_ofCols {n : Nat} (l : List (Col n)) : (ofCols l).data.length = l.length * n := by
  show (l.flatMap List.ofFn).length = _
  induction l with
  | nil => simp
  | cons a l ih => rw [List.flatMap_cons, List.length_append, ih, List.length_ofFn, List.length_cons,
      Nat.succ_mul, Nat.add_comm]

theorem same_shape {n : Nat} {a b : Mat ℝ} (hn : 0 < n) (ha : Shape n a) (h : SameMat a b) :
    Shape n b ∧ b.w = a.w ∧ colsOf n b = colsOf n a := by
  obtain ⟨h1, h2, h3⟩ := h
  obtain ⟨a1, a2⟩ := ha
  have hb : b.h = n := by omega
  refine ⟨⟨hb, ?_⟩, h2.symm, ?_⟩
  · by_cases hw : b.w = 0
    · rw [hw]; omega
    · have hlt : (n - 1) + (b.w - 1) * n < a.data.length := by
        have : n * a.w = (b.w - 1) * n + n := by
          rw [h2]
          obtain ⟨w, hw'⟩ : ∃ w, b.w = w + 1 := ⟨b.w - 1, by omega⟩
          rw [hw', Nat.add_sub_cancel, Nat.mul_succ, Nat.mul_comm]
        omega
      have := h3 (n - 1) (b.w - 1) (by omega) (by omega)
      rw [hb, a1, List.getElem?_eq_getElem hlt] at this
      have := (List.getElem?_eq_some_iff.1 this).1
      obtain ⟨w, hw'⟩ : ∃ w, b.w = w + 1 := ⟨b.w - 1, by omega⟩
      rw [hw', Nat.add_sub_cancel] at this
      rw [hw', Nat.mul_succ, Nat.mul_comm]; omega
  · rw [colsOf_eq, colsOf_eq, h2]
    refine List.map_congr_left fun j hj => ?_
    funext i
    unfold column
    have := h3 i j (by omega) (by have := List.mem_range.1 hj; omega)
    rw [Nat.add_comm, this, Nat.add_comm]

theorem fileName_inj {pre a b : String} (h : fileName pre a = fileName pre b) : a = b := by
  have h := congrArg String.toList h
  simp only [fileName, Snapshots.BasisTag.print, String.toList_append] at h
  rw [if_pos (by decide), if_pos (by decide)] at h
  simp only [String.toList_append, List.append_assoc] at h
  have h := List.append_cancel_left h
  have h := List.append_cancel_left h
  have h := List.append_cancel_right h
  exact String.toList_inj.1 h

theorem enrichOne_ok {pre : String} {c : Comp} {nsup : Nat} {u p : Mat ℝ} (h : Ready c nsup u p) (d : Disk) :
    ∃ d', enrichOne pre c nsup u.w u p d = .ok d' ∧ Stored pre c nsup u p d' ∧
      ∀ f, f ≠ fileName pre c.name → d' f = d f := by
  set im := (List.range nsup).map (modeGrad c p) with him
  have hlen : im.length = nsup := by simp [him]
  have hcol : ∀ i, i < nsup → colAt im i = modeGrad c p i := by
    intro i hi
    unfold colAt
    rw [him, List.getElem?_map, List.getElem?_range hi]; rfl
  have hon := orthonormal_iff.1 h.ortho
  have horth : OrthogonalCols (colsOf c.nu u) := by
    intro i j hi hj
    rw [hon i j hi hj]
    split <;> simp_all
  have hj : JointlyIndependent (colsOf c.nu u) im := by
    unfold JointlyIndependent
    have h0 := h.indep
    have e1 : (colsOf c.nu u).length = u.w := length_colsOf _ _
    let e : Fin (colsOf c.nu u).length ⊕ Fin im.length ≃ Fin u.w ⊕ Fin nsup :=
      Equiv.sumCongr (finCongr e1) (finCongr hlen)
    rw [← linearIndependent_equiv e] at h0
    convert h0 using 1
    funext x
    cases x with
    | inl i =>
      show colAt _ i = column c.nu u i
      exact colAt_colsOf (by have := i.2; omega)
    | inr k =>
      show colAt _ k = modeGrad c p k
      exact hcol _ (by have := k.2; omega)
  obtain ⟨r, e1, e2, e3, e4, e5⟩ := orthonormalize_spec _ _ horth hj
  rw [hlen] at e2
  have hr : Shape c.nu (ofCols r) := ⟨rfl, by rw [length_ofCols, Nat.mul_comm]; exact le_rfl⟩
  obtain ⟨f, w1, -, -, -, w2⟩ := dense_roundTrip ([] : File ℝ) [] "supremizer_basis" ⟨valid_empty, rfl, rfl⟩ (ofCols r)
    h.rows (by show 0 < r.length; rw [e2]; exact h.pos) hr.2
  refine ⟨_, ?_, ⟨f, Function.update_self _ _ _, ?_⟩, fun g hg => Function.update_of_ne hg _ _⟩
  · unfold enrichOne
    rw [show (u.w == u.w) = true by simp, require_true, ok_bind, images_ok h, ok_bind, e1, ok_bind, w1, ok_bind]
    rfl
  · intro old hold
    obtain ⟨s, s1, s2⟩ := w2 f old (Later.refl f) hold
    obtain ⟨t1, t2, t3⟩ := same_shape h.rows hr s2
    rw [colsOf_ofCols] at t3
    have hw : s.w = nsup := by rw [t2]; exact e2
    refine ⟨s, s1, t1, hw, by rw [t3]; exact e3, ?_, ?_⟩
    · intro i j hi hj
      rw [← colAt_colsOf hi, ← colAt_colsOf hj, t3]
      exact e4 i j (by rw [length_colsOf]; exact hi) (by rw [e2]; omega)
    · intro k hk
      rw [colSpan_eq c.nu u (colsOf c.nu u).length (by rw [length_colsOf]), t3, e5 k]
      congr 1
      unfold prefixSpan gradSpan
      congr 1
      ext v
      rw [hlen]
      constructor
      · rintro ⟨i, h1, h2, rfl⟩; exact ⟨i, h1, (hcol i h2).symm⟩
      · rintro ⟨i, h1, rfl⟩; exact ⟨i, h1, by omega, hcol i (by omega)⟩

theorem Stored.mono {pre : String} {c : Comp} {nsup : Nat} {u p : Mat ℝ} {d d' : Disk}
    (h : Stored pre c nsup u p d) (he : d' (fileName pre c.name) = d (fileName pre c.name)) :
    Stored pre c nsup u p d' := by
  obtain ⟨f, h1, h2⟩ := h
  exact ⟨f, he.trans h1, h2⟩

end Verif.Supremizer
