import Verif.Proofs.Convection
import Verif.Proofs.InterfaceForm

namespace Verif.Convection

open Verif Verif.LinAlg Verif.LinAlg.Spec Verif.Convection.Spec Finset

variable {R : Type} [CommRing R]

/-- The entries of basis vector `c` at the degrees of freedom `rows`. -/
def bcol (b : Mat R) (rows : List Int) (c : Nat) : List R :=
  tab rows.length (fun k => ent b (rowAt rows k) c)

theorem ve_bcol {b : Mat R} {rows : List Int} {c k : Nat} (hk : k < rows.length) :
    ve (bcol b rows c) k = ent b (rowAt rows k) c := ve_tab hk

theorem basisElement_eq {b : Mat R} (hb : MatOk b) {rows : List Int} (hr : RowsOk rows b.h) {c : Nat}
    (hc : c < b.w) : basisElement b c rows = .ok (bcol b rows c) := by
  have hpos : ∀ d ∈ rows, InterfaceForm.Spec.dofPos d = d.toNat := by
    intro d hd
    have := hr.2 d hd
    unfold InterfaceForm.Spec.dofPos; rw [if_neg (by omega)]
  unfold basisElement
  rw [col_eq hb hc, ok_bind, InterfaceForm.getSubVector_eq (by
    intro d hd
    rw [hpos d hd]
    have := hr.2 d hd; omega)]
  congr 1
  unfold InterfaceForm.Spec.gather bcol
  apply List.ext_getElem (by simp)
  intro k h1 h2
  have hk : k < rows.length := by simpa using h1
  have hmem := hr.2 rows[k] (List.getElem_mem hk)
  rw [List.getElem_map, hpos _ (List.getElem_mem hk)]
  unfold InterfaceForm.Spec.dofSign
  rw [if_neg (by omega), one_mul]
  simp only [tab, List.getElem_map, List.getElem_range]
  unfold rowAt
  rw [List.getElem?_eq_getElem hk]; rfl

theorem tab_succ {α : Type} (n : Nat) (f : Nat → α) : tab (n + 1) f = tab n f ++ [f n] := by
  unfold tab; rw [List.range_succ, List.map_append]; rfl

theorem flatten_tab (m n : Nat) (hm : 0 < m) (f : Nat → Nat → R) :
    (tab n fun c => tab m (f c)).flatten = (Mat.of m n (fun d c => f c d)).data := by
  induction n with
  | zero => simp [tab, Mat.of]
  | succ n ih =>
    rw [tab_succ, List.flatten_append, ih]
    unfold Mat.of
    dsimp only
    rw [Nat.mul_succ, List.range_add, List.map_append, List.map_map]
    congr 1
    rw [List.flatten_singleton]
    unfold tab
    refine List.map_congr_left fun i hi => ?_
    have hi' := List.mem_range.1 hi
    show f n i = f ((m * n + i) / m) ((m * n + i) % m)
    rw [Nat.mul_add_mod, Nat.mod_eq_of_lt hi', Nat.mul_add_div hm, Nat.div_eq_of_lt hi', Nat.add_zero]

/-- The precomputed data: the basis functions and their gradients at the point. -/
theorem precompute_eq {p : Pt R} {b : Mat R} (hb : MatOk b) {rows : List Int} (hr : RowsOk rows b.h) :
    precompute p b rows = .ok ⟨⟨p.dim, b.w, (tab b.w fun c =>
        (⟨p.nd, p.dim, bcol b rows c⟩ : Mat R).mulTV p.shape).flatten⟩,
      tab b.w fun c => mulAtB (⟨p.nd, p.dim, bcol b rows c⟩ : Mat R) p.dshape⟩ := by
  have := loop_spec (n := b.w) (body := fun i (st : List (List R) × List (Mat R)) => (do
      let b ← basisElement b i rows
      let ef : Mat R := ⟨p.nd, p.dim, b⟩
      return (st.1 ++ [ef.mulTV p.shape], st.2 ++ [mulAtB ef p.dshape]) : Outcome _))
    (fun i => (tab i fun c => (⟨p.nd, p.dim, bcol b rows c⟩ : Mat R).mulTV p.shape,
      tab i fun c => mulAtB (⟨p.nd, p.dim, bcol b rows c⟩ : Mat R) p.dshape)) (s := ([], [])) rfl
    (fun i hi => by
      dsimp only
      rw [basisElement_eq hb hr hi, ok_bind, tab_succ, tab_succ]; rfl)
  unfold precompute
  rw [this]; rfl

theorem shape1_ent {p : Pt R} {b : Mat R} {rows : List Int} {d c : Nat} (hd : d < p.dim)
    (hc : c < b.w) :
    ent (⟨p.dim, b.w, (tab b.w fun c =>
        (⟨p.nd, p.dim, bcol b rows c⟩ : Mat R).mulTV p.shape).flatten⟩ : Mat R) d c =
      value p (bcol b rows c) d := by
  have e : (tab b.w fun c => (⟨p.nd, p.dim, bcol b rows c⟩ : Mat R).mulTV p.shape).flatten =
      (Mat.of p.dim b.w (fun d c => ∑ i ∈ range p.nd,
        (⟨p.nd, p.dim, bcol b rows c⟩ : Mat R).get i d * vget p.shape i)).data :=
    flatten_tab p.dim b.w (by omega) _
  rw [e]
  exact ent_of (f := fun d c => ∑ i ∈ range p.nd,
    (⟨p.nd, p.dim, bcol b rows c⟩ : Mat R).get i d * vget p.shape i) hd hc

/-- The field of a reduced vector is the combination of the basis fields. -/
theorem coef_lift {nd dim : Nat} {b : Mat R} {rows : List Int} (hl : rows.length = nd * dim)
    (x : List R) {k d : Nat} (hk : k < nd) (hd : d < dim) :
    coef nd (lift b rows x) k d = ∑ c ∈ range b.w, coef nd (bcol b rows c) k d * ve x c := by
  have hi : k + d * nd < rows.length := by rw [hl]; exact idx_lt hk hd
  unfold coef
  show ve (tab rows.length _) _ = _
  rw [ve_tab hi]
  exact sum_congr rfl fun c _ => by rw [ve_bcol hi]

theorem value_lift {p : Pt R} {b : Mat R} {rows : List Int} (hl : rows.length = p.nd * p.dim)
    (x : List R) {d : Nat} (hd : d < p.dim) :
    value p (lift b rows x) d = ∑ c ∈ range b.w, value p (bcol b rows c) d * ve x c := by
  unfold value
  rw [sum_congr rfl fun k hk => by rw [coef_lift hl x (mem_range.1 hk) hd]]
  simp only [sum_mul]
  rw [sum_comm]
  exact sum_congr rfl fun c _ => sum_congr rfl fun k _ => by ring

theorem deriv_lift {p : Pt R} {b : Mat R} {rows : List Int} (hl : rows.length = p.nd * p.dim)
    (x : List R) {d : Nat} (e : Nat) (hd : d < p.dim) :
    deriv p (lift b rows x) d e = ∑ c ∈ range b.w, ve x c * deriv p (bcol b rows c) d e := by
  unfold deriv
  rw [sum_congr rfl fun k hk => by rw [coef_lift hl x (mem_range.1 hk) hd]]
  simp only [sum_mul, mul_sum]
  rw [sum_comm]
  exact sum_congr rfl fun c _ => sum_congr rfl fun k _ => by ring

theorem sumGrads_spec {dim n : Nat} {D : Nat → Mat R} {x : List R} (hx : x.length = n) :
    ∃ m, sumGrads dim (tab n D) x = .ok m ∧ m.h = dim ∧ m.w = dim ∧
      ∀ d e, d < dim → e < dim → ent m d e = ∑ c ∈ range n, ve x c * ent (D c) d e := by
  unfold sumGrads
  obtain ⟨m, e, h1, h2, h3⟩ := loop_total (n := (tab n D).length) (body := fun k (m : Mat R) => (do
      let d ← rd (tab n D) k
      let xk ← rd x k
      return m.addScaled xk d : Outcome (Mat R)))
    (fun k m => m.h = dim ∧ m.w = dim ∧
      ∀ d e, d < dim → e < dim → ent m d e = ∑ c ∈ range k, ve x c * ent (D c) d e)
    (s := Mat.of dim dim (fun _ _ => 0)) ⟨rfl, rfl, fun d e hd he => by rw [ent_of hd he]; simp⟩
    (fun k m hk hm => by
      rw [length_tab] at hk
      obtain ⟨a, b, c⟩ := hm
      refine ⟨m.addScaled (ve x k) (D k), ?_, a, b, fun d e hd he => ?_⟩
      · rw [rd_tab hk, ok_bind, rd_ve (by omega), ok_bind]; rfl
      · rw [ent_addScaled (by omega) (by omega), c d e hd he, sum_range_succ])
  rw [length_tab] at h3
  exact ⟨m, e, h1, h2, h3⟩

theorem proj_layout {p : Pt R} (v : List R) (f : Nat → R) :
    ∑ t ∈ range (p.nd * p.dim), ve v t * (ve p.shape (t % p.nd) * f (t / p.nd)) =
      ∑ d ∈ range p.dim, value p v d * f d := by
  rw [sum_layout]
  refine sum_congr rfl fun d _ => ?_
  unfold value
  rw [sum_mul]
  exact sum_congr rfl fun k hk => by
    rw [mod_idx (mem_range.1 hk), div_idx (mem_range.1 hk)]; unfold coef; ring

theorem proj_layout2 {p : Pt R} (v : List R) (g : Nat → Nat → R) :
    ∑ t ∈ range (p.nd * p.dim), ve v t * ∑ e ∈ range p.dim, ent p.dshape (t % p.nd) e * g e (t / p.nd) =
      ∑ d ∈ range p.dim, ∑ e ∈ range p.dim, deriv p v d e * g e d := by
  rw [sum_layout]
  refine sum_congr rfl fun d _ => ?_
  rw [sum_congr rfl fun k hk => by rw [mod_idx (mem_range.1 hk), div_idx (mem_range.1 hk)]]
  unfold deriv
  simp only [sum_mul, mul_sum]
  rw [sum_comm]
  exact sum_congr rfl fun e _ => sum_congr rfl fun k _ => by unfold coef; ring

theorem advection_none {p : Pt R} (hv : p.vq = none) (u : List R) (e : Nat) :
    advection p u e = value p u e := by unfold advection; rw [hv]

theorem project_bcol {b : Mat R} {rows : List Int} (q : List R) (c : Nat) :
    project b rows q c = ∑ t ∈ range rows.length, ve (bcol b rows c) t * ve q t :=
  sum_congr rfl fun t ht => by rw [ve_bcol (mem_range.1 ht)]

/-- What the trilinear term contributes to reduced equation `c`. -/
theorem project_tri {p : Pt R} (hp : PtOk p) (hv : p.vq = none) (iw : R) {b : Mat R} {rows : List Int}
    (hl : rows.length = p.nd * p.dim) (u : List R) (c : Nat) :
    project b rows (triVec p iw u) c = wq p iw * ∑ d ∈ range p.dim, value p (bcol b rows c) d *
      ∑ e ∈ range p.dim, deriv p u d e * value p u e := by
  rw [project_bcol, hl, sum_congr rfl fun t ht => by rw [triVec_ve hp iw u (mem_range.1 ht)],
    ← proj_layout, mul_sum]
  refine sum_congr rfl fun t _ => ?_
  unfold triTerm
  simp only [advection_none hv]
  ring

theorem project_inv {p : Pt R} (hp : PtOk p) (iw : R) {b : Mat R} {rows : List Int}
    (hl : rows.length = p.nd * p.dim) (u : List R) (c : Nat) :
    project b rows (invVec p iw u) c = wq p iw * ∑ d ∈ range p.dim, ∑ e ∈ range p.dim,
      deriv p (bcol b rows c) d e * (value p u e * value p u d) := by
  rw [project_bcol, hl, sum_congr rfl fun t ht => by rw [invVec_ve hp iw u (mem_range.1 ht)],
    ← proj_layout2 _ (fun e d => value p u e * value p u d), mul_sum]
  refine sum_congr rfl fun t _ => ?_
  unfold invTerm
  ring

theorem triFastVec_spec {p : Pt R} (hp : PtOk p) (hv : p.vq = none) {b : Mat R} (hb : MatOk b)
    {rows : List Int} (hr : RowsOk rows b.h) (hl : rows.length = p.nd * p.dim) (qw : R)
    {x y : List R} (hx : x.length = b.w) (hy : y.length = b.w) {s : Pre R}
    (hs : precompute p b rows = .ok s) :
    triFastVec p s qw x y = .ok (tab b.w fun c =>
      ve y c + project b rows (triVec p qw (lift b rows x)) c) := by
  rw [precompute_eq hb hr] at hs
  cases hs
  obtain ⟨m, e, h1, h2, h3⟩ := sumGrads_spec (dim := p.dim) (n := b.w)
    (D := fun c => mulAtB (⟨p.nd, p.dim, bcol b rows c⟩ : Mat R) p.dshape) hx
  unfold triFastVec
  dsimp only
  rw [e, ok_bind, hx, hy]
  simp only [beq_self_eq_true, require_true, ok_bind]
  show Except.ok (tab b.w _) = _
  congr 1
  refine tab_congr fun c hc => ?_
  congr 1
  rw [project_tri hp hv qw hl, withQ_eq, wq]
  congr 1
  rw [vget_eq, ve_mulTV (by exact hc)]
  refine sum_congr rfl fun d hd => ?_
  have hd' : d < p.dim := mem_range.1 hd
  rw [shape1_ent hd' hc, ve_mulV (by rw [h1]; exact hd'), h2]
  congr 1
  refine sum_congr rfl fun e' he => ?_
  have he' : e' < p.dim := mem_range.1 he
  rw [h3 d e' hd' he', ve_mulV (by exact he'), deriv_lift hl x e' hd', value_lift hl x he']
  congr 1
  · exact sum_congr rfl fun c _ => by rw [ent_deriv hp hd' he']
  · exact sum_congr rfl fun c hc => by rw [shape1_ent he' (mem_range.1 hc)]

theorem project2_eq {p : Pt R} {b : Mat R} {rows : List Int}
    (hl : rows.length = p.nd * p.dim) (a : Mat R) (i j : Nat) :
    project2 b rows a i j = ∑ t ∈ range (p.nd * p.dim), ve (bcol b rows i) t *
      ∑ s ∈ range (p.nd * p.dim), ent a t s * ve (bcol b rows j) s := by
  unfold project2
  rw [hl]
  refine sum_congr rfl fun t ht => ?_
  rw [mul_sum]
  exact sum_congr rfl fun s hs => by
    rw [ve_bcol (by rw [hl]; exact mem_range.1 ht), ve_bcol (by rw [hl]; exact mem_range.1 hs)]; ring

theorem project2_tri {p : Pt R} (hp : PtOk p) (iw : R) {b : Mat R} {rows : List Int}
    (hl : rows.length = p.nd * p.dim) (u : List R) (i j : Nat) :
    project2 b rows (triGrad p iw u) i j = wq p iw * ∑ d ∈ range p.dim, value p (bcol b rows i) d *
      (∑ e ∈ range p.dim, deriv p (bcol b rows j) d e * value p u e +
       ∑ e ∈ range p.dim, deriv p u d e * value p (bcol b rows j) e) := by
  rw [project2_eq hl, sum_congr rfl fun t ht => by
    rw [sum_congr rfl fun s hs => by rw [triGrad_ent hp iw u (mem_range.1 ht) (mem_range.1 hs)],
      triGradTerm_sum iw u _ (mem_range.1 ht)], ← proj_layout, mul_sum]
  exact sum_congr rfl fun t _ => by ring

theorem project2_inv {p : Pt R} (hp : PtOk p) (iw : R) {b : Mat R} {rows : List Int}
    (hl : rows.length = p.nd * p.dim) (u : List R) (i j : Nat) :
    project2 b rows (invGrad p iw u) i j = wq p iw * ∑ d ∈ range p.dim, ∑ e ∈ range p.dim,
      deriv p (bcol b rows i) d e *
        (value p u e * value p (bcol b rows j) d + value p (bcol b rows j) e * value p u d) := by
  rw [project2_eq hl, sum_congr rfl fun t ht => by
    rw [sum_congr rfl fun s hs => by rw [invGrad_ent hp iw u (mem_range.1 ht) (mem_range.1 hs)],
      invGradTerm_sum iw u _ (mem_range.1 ht)],
    ← proj_layout2 _ (fun e d => value p u e * value p (bcol b rows j) d +
      value p (bcol b rows j) e * value p u d), mul_sum]
  exact sum_congr rfl fun t _ => by ring

/-- A loop that updates one column at a time. -/
theorem loop_cols {n : Nat} {f : Nat → Nat → R} {body : Nat → Mat R → Outcome (Mat R)} {m : Mat R}
    {h w : Nat} (h1 : m.h = h) (h2 : m.w = w) (hm : MatOk m)
    (hstep : ∀ k (a : Mat R), k < n → a.h = h → a.w = w → MatOk a → body k a =
      .ok (Mat.of a.h a.w (fun i j => if j = k then a.get i j + f i k else a.get i j))) :
    ∃ m', loop n body m = .ok m' ∧ m'.h = h ∧ m'.w = w ∧ MatOk m' ∧
      ∀ i j, i < h → j < w → ent m' i j = ent m i j + if j < n then f i j else 0 := by
  obtain ⟨m', e, a, b, c, d⟩ := loop_total (n := n) (body := body)
    (fun k a => a.h = h ∧ a.w = w ∧ MatOk a ∧
      ∀ i j, i < h → j < w → ent a i j = ent m i j + if j < k then f i j else 0) (s := m)
    ⟨h1, h2, hm, fun i j _ _ => by simp⟩
    (fun k a hk ⟨e1, e2, e3, e4⟩ => by
      refine ⟨_, hstep k a hk e1 e2 e3, e1, e2, of_ok _ _ _, fun i j hi hj => ?_⟩
      rw [ent_of (by omega) (by omega), get_eq, e4 i j hi hj]
      by_cases hjk : j = k
      · subst hjk; simp
      · rw [if_neg hjk]
        by_cases h : j < k
        · rw [if_pos h, if_pos (by omega)]
        · rw [if_neg h, if_neg (by omega)])
  exact ⟨m', e, a, b, c, d⟩

theorem triFastGrad_spec {p : Pt R} (hp : PtOk p) {b : Mat R} (hb : MatOk b)
    {rows : List Int} (hr : RowsOk rows b.h) (hl : rows.length = p.nd * p.dim) (qw : R)
    {x : List R} (hx : x.length = b.w) {jac : Mat R} (hj : MatOk jac) (hj1 : jac.h = b.w)
    (hj2 : jac.w = b.w) {s : Pre R} (hs : precompute p b rows = .ok s) :
    ∃ m, triFastGrad p s qw x jac = .ok m ∧ m.h = b.w ∧ m.w = b.w ∧ MatOk m ∧
      ∀ i j, i < b.w → j < b.w → ent m i j = ent jac i j +
        project2 b rows (triGrad p qw (lift b rows x)) i j := by
  rw [precompute_eq hb hr] at hs
  cases hs
  obtain ⟨g, e, h1, h2, h3⟩ := sumGrads_spec (dim := p.dim) (n := b.w)
    (D := fun c => mulAtB (⟨p.nd, p.dim, bcol b rows c⟩ : Mat R) p.dshape) hx
  unfold triFastGrad triFastCols
  dsimp only
  rw [e]
  simp only [ok_bind]
  generalize hW : p.withQ (qw * p.weight) = W
  generalize hS : (⟨p.dim, b.w, (tab b.w fun c =>
    (⟨p.nd, p.dim, bcol b rows c⟩ : Mat R).mulTV p.shape).flatten⟩ : Mat R) = S
  have S1 : S.h = p.dim := by rw [← hS]
  have S2 : S.w = b.w := by rw [← hS]
  have S3 : ∀ d c, d < p.dim → c < b.w → ent S d c = value p (bcol b rows c) d :=
    fun d c hd hc => by rw [← hS]; exact shape1_ent hd hc
  obtain ⟨elv, q1, q2, q3, q4, q5⟩ := loop_cols (n := b.w) (m := mulAB (Mat.scale W g) S)
    (h := p.dim) (w := b.w)
    (f := fun i k => W * ve ((mulAtB (⟨p.nd, p.dim, bcol b rows k⟩ : Mat R) p.dshape).mulV (S.mulV x)) i)
    (body := fun k elv => (do
      let d ← rd (tab b.w fun c => mulAtB (⟨p.nd, p.dim, bcol b rows c⟩ : Mat R) p.dshape) k
      pure (Mat.of elv.h elv.w fun i j =>
        if j = k then elv.get i j + W * vget (d.mulV (S.mulV x)) i else elv.get i j) : Outcome (Mat R)))
    h1 S2 (of_ok _ _ _) (fun k a hk _ _ _ => by rw [rd_tab hk, ok_bind]; rfl)
  rw [q1]
  simp only [ok_bind]
  obtain ⟨m, r1, r2, r3, r4, r5⟩ := loop_cols (n := b.w) (m := jac) (h := b.w) (w := b.w)
    (f := fun i k => ve (S.mulTV (elv.colV k)) i)
    (body := fun k jac => (do
      let _ ← jac.col k
      pure (Mat.of jac.h jac.w fun i j =>
        if j = k then jac.get i j + vget (S.mulTV (elv.colV k)) i else jac.get i j) : Outcome (Mat R)))
    hj1 hj2 hj (fun k a hk _ ha2 ha => by rw [col_eq ha (by omega), ok_bind]; rfl)
  refine ⟨m, r1, r2, r3, r4, fun i j hi hj => ?_⟩
  rw [r5 i j hi hj, if_pos hj]
  congr 1
  rw [project2_tri hp qw hl, ve_mulTV (by omega), S1, mul_sum]
  refine sum_congr rfl fun d hd => ?_
  have hd' : d < p.dim := mem_range.1 hd
  rw [S3 d i hd' hi, ve_colV (by omega), q5 d j hd' hj, if_pos hj, ent_mulAB (by rw [scale_h]; omega)
    (by omega), scale_w, h2, ve_mulV (by exact hd'), mulAtB_w, hp.dsw]
  have t1 : ∀ e' ∈ range p.dim, ent (Mat.scale W g) d e' * ent S e' j =
      W * (deriv p (lift b rows x) d e' * value p (bcol b rows j) e') := fun e' he => by
    have he' : e' < p.dim := mem_range.1 he
    rw [ent_scale (by omega) (by omega), h3 d e' hd' he', S3 e' j he' hj, deriv_lift hl x e' hd',
      sum_congr rfl fun c _ => by rw [ent_deriv hp hd' he']]
    ring
  have t2 : ∀ e' ∈ range p.dim, ent (mulAtB (⟨p.nd, p.dim, bcol b rows j⟩ : Mat R) p.dshape) d e' *
      ve (S.mulV x) e' = deriv p (bcol b rows j) d e' * value p (lift b rows x) e' := fun e' he => by
    have he' : e' < p.dim := mem_range.1 he
    rw [ent_deriv hp hd' he', ve_mulV (by omega), S2, value_lift hl x he',
      sum_congr rfl fun c hc => by rw [S3 e' c he' (mem_range.1 hc)]]
  rw [sum_congr rfl t1, sum_congr rfl t2, ← mul_sum, ← hW, withQ_eq, wq]
  ring

theorem invFastVec_spec {p : Pt R} (hp : PtOk p) {b : Mat R} (hb : MatOk b)
    {rows : List Int} (hr : RowsOk rows b.h) (hl : rows.length = p.nd * p.dim) (qw : R)
    {x y : List R} (hy : y.length = b.w) {s : Pre R}
    (hs : precompute p b rows = .ok s) :
    invFastVec p s qw x y = .ok (tab b.w fun c =>
      ve y c + project b rows (invVec p qw (lift b rows x)) c) := by
  rw [precompute_eq hb hr] at hs
  cases hs
  unfold invFastVec
  dsimp only
  rw [hy, length_tab]
  simp only [beq_self_eq_true, require_true, ok_bind]
  conv_lhs => rw [list_eq_tab' hy]
  generalize hS : (⟨p.dim, b.w, (tab b.w fun c =>
    (⟨p.nd, p.dim, bcol b rows c⟩ : Mat R).mulTV p.shape).flatten⟩ : Mat R) = S
  have S1 : S.h = p.dim := by rw [← hS]
  have S2 : S.w = b.w := by rw [← hS]
  have S3 : ∀ d c, d < p.dim → c < b.w → ent S d c = value p (bcol b rows c) d :=
    fun d c hd hc => by rw [← hS]; exact shape1_ent hd hc
  have hval : ∀ d, d < p.dim → ve (S.mulV x) d = value p (lift b rows x) d := fun d hd => by
    rw [ve_mulV (by omega), S2, value_lift hl x hd]
    exact sum_congr rfl fun c hc => by rw [S3 d c hd (mem_range.1 hc)]
  rw [loop_tab_map _ (fun c t => t + p.withQ (qw * p.weight) * vdot p.dim (S.mulV x)
    ((mulAtB (⟨p.nd, p.dim, bcol b rows c⟩ : Mat R) p.dshape).mulV (S.mulV x))) (Nat.le_refl _)
    (fun c f hc => by rw [rd_tab hc, ok_bind, upd_tab hc])]
  congr 1
  refine tab_congr fun c hc => ?_
  rw [if_pos hc, project_inv hp qw hl, withQ_eq, wq]
  congr 2
  unfold vdot
  refine sum_congr rfl fun d hd => ?_
  have hd' : d < p.dim := mem_range.1 hd
  rw [vget_eq, vget_eq, hval d hd', ve_mulV (by exact hd'), mulAtB_w, hp.dsw, mul_sum]
  refine sum_congr rfl fun e he => ?_
  rw [ent_deriv hp hd' (mem_range.1 he), hval e (mem_range.1 he)]
  ring

/-- Walking one row of a square matrix with a stride. -/
theorem row_walk {nb i : Nat} (hi : i < nb) (v : List R) {data : List R} (hd : data.length = nb * nb) :
    ∃ out, (do
      let st ← loop nb (fun j (st : List R × Nat) => do
        let data ← upd st.1 st.2 (fun t => t + vget v j)
        return (data, st.2 + nb)) (data, i)
      return st.1 : Outcome (List R)) = .ok out ∧ out.length = nb * nb ∧
      ∀ r c, r < nb → c < nb → ve out (r + c * nb) = ve data (r + c * nb) + if r = i then ve v c else 0 := by
  obtain ⟨st, e, h1, h2, h3⟩ := loop_total (n := nb) (body := fun j (st : List R × Nat) => (do
        let data ← upd st.1 st.2 (fun t => t + vget v j)
        return (data, st.2 + nb) : Outcome _))
    (fun j st => st.2 = i + j * nb ∧ st.1.length = nb * nb ∧
      ∀ r c, r < nb → c < nb → ve st.1 (r + c * nb) = ve data (r + c * nb) +
        if r = i ∧ c < j then ve v c else 0) (s := (data, i)) ⟨by simp, hd, fun r c _ _ => by simp⟩
    (fun j st hj ⟨g1, g2, g3⟩ => by
      have hlt : st.2 < st.1.length := by rw [g1, g2]; exact idx_lt hi hj
      refine ⟨(st.1.set st.2 (ve st.1 st.2 + ve v j), st.2 + nb), ?_, ?_, ?_, fun r c hr hc => ?_⟩
      · rw [upd_of_lt hlt]; rfl
      · rw [g1, Nat.succ_mul]; omega
      · simpa using g2
      · rw [ve_set hlt, g3 r c hr hc]
        by_cases h : r = i ∧ c = j
        · obtain ⟨rfl, rfl⟩ := h
          rw [if_pos g1, g1, g3 r c hr hc, if_neg (by omega), if_pos (by omega), add_zero]
        · have : ¬ st.2 = r + c * nb := by
            intro h'
            rw [g1] at h'
            have q1 := congrArg (· % nb) h'
            have q2 := congrArg (· / nb) h'
            simp only [mod_idx hr, mod_idx hi, div_idx hr, div_idx hi] at q1 q2
            exact h ⟨q1.symm, q2.symm⟩
          rw [if_neg this]
          congr 1
          by_cases h' : r = i ∧ c < j
          · rw [if_pos h', if_pos ⟨h'.1, by omega⟩]
          · rw [if_neg h', if_neg (by omega)])
  refine ⟨st.1, by rw [e]; rfl, h2, fun r c hr hc => ?_⟩
  rw [h3 r c hr hc]
  by_cases h : r = i
  · rw [if_pos ⟨h, hc⟩, if_pos h]
  · rw [if_neg (fun h' => h h'.1), if_neg h]

theorem invFastGrad_spec {p : Pt R} (hp : PtOk p) {b : Mat R} (hb : MatOk b)
    {rows : List Int} (hr : RowsOk rows b.h) (hl : rows.length = p.nd * p.dim) (qw : R)
    {x : List R} {jac : Mat R} (hj : jac.data.length = b.w * b.w) (hj1 : jac.h = b.w)
    (hj2 : jac.w = b.w) {s : Pre R} (hs : precompute p b rows = .ok s) :
    ∃ m, invFastGrad p s qw x jac = .ok m ∧ m.h = b.w ∧ m.w = b.w ∧ m.data.length = b.w * b.w ∧
      ∀ i j, i < b.w → j < b.w → ent m i j = ent jac i j +
        project2 b rows (invGrad p qw (lift b rows x)) i j := by
  rw [precompute_eq hb hr] at hs
  cases hs
  unfold invFastGrad
  dsimp only
  generalize hW : p.withQ (qw * p.weight) = W
  generalize hS : (⟨p.dim, b.w, (tab b.w fun c =>
    (⟨p.nd, p.dim, bcol b rows c⟩ : Mat R).mulTV p.shape).flatten⟩ : Mat R) = S
  have S1 : S.h = p.dim := by rw [← hS]
  have S2 : S.w = b.w := by rw [← hS]
  have S3 : ∀ d c, d < p.dim → c < b.w → ent S d c = value p (bcol b rows c) d :=
    fun d c hd hc => by rw [← hS]; exact shape1_ent hd hc
  have hval : ∀ d, d < p.dim → ve (vscale W (S.mulV x)) d = value p (lift b rows x) d * W :=
    fun d hd => by
      rw [ve_vscale (by rw [length_mulV]; omega), ve_mulV (by omega), S2, value_lift hl x hd,
        sum_congr rfl fun c hc => by rw [S3 d c hd (mem_range.1 hc)]]
  generalize hu : vscale W (S.mulV x) = u1 at hval
  let v : Nat → List R := fun i => S.mulTV (vof p.dim fun t =>
    vget ((mulAtB (⟨p.nd, p.dim, bcol b rows i⟩ : Mat R) p.dshape).mulV u1) t +
    vget ((mulAtB (⟨p.nd, p.dim, bcol b rows i⟩ : Mat R) p.dshape).mulTV u1) t)
  obtain ⟨data, e, h1, h2⟩ := loop_total (n := b.w) (body := fun i data => (do
    let d ← rd (tab b.w fun c => mulAtB (⟨p.nd, p.dim, bcol b rows c⟩ : Mat R) p.dshape) i
    let st ← loop b.w (fun j (st : List R × Nat) => do
      let data ← upd st.1 st.2 (fun t => t + vget (S.mulTV (vof p.dim fun t =>
        vget (d.mulV u1) t + vget (d.mulTV u1) t)) j)
      return (data, st.2 + b.w)) (data, i)
    return st.1 : Outcome (List R)))
    (fun i data => data.length = b.w * b.w ∧ ∀ r c, r < b.w → c < b.w →
      ve data (r + c * b.w) = ve jac.data (r + c * b.w) + if r < i then ve (v r) c else 0)
    (s := jac.data) ⟨hj, fun r c _ _ => by simp⟩
    (fun i data hi ⟨g1, g2⟩ => by
      obtain ⟨out, k1, k2, k3⟩ := row_walk hi (v i) g1
      refine ⟨out, by rw [rd_tab hi, ok_bind]; exact k1, k2, fun r c hr hc => ?_⟩
      rw [k3 r c hr hc, g2 r c hr hc]
      by_cases h : r = i
      · subst h; simp
      · rw [if_neg h, add_zero]
        congr 1
        by_cases h' : r < i
        · rw [if_pos h', if_pos (by omega)]
        · rw [if_neg h', if_neg (by omega)])
  refine ⟨{ jac with data := data }, ?_, hj1, hj2, h1, fun i j hi hj => ?_⟩
  · rw [S1] at *
    exact (congrArg (fun z => z >>= fun data => Except.ok { jac with data := data }) e)
  · unfold ent
    dsimp only
    rw [hj1, h2 i j hi hj, if_pos hi]
    congr 1
    rw [project2_inv hp qw hl]
    show ve (S.mulTV _) j = _
    rw [ve_mulTV (by omega), S1]
    have hdx : ∀ d e, d < p.dim → e < p.dim →
        ent (mulAtB (⟨p.nd, p.dim, bcol b rows i⟩ : Mat R) p.dshape) d e = deriv p (bcol b rows i) d e :=
      fun d e hd he => ent_deriv hp hd he
    have key : ∀ d ∈ range p.dim, ent S d j * ve (vof p.dim fun t =>
        vget ((mulAtB (⟨p.nd, p.dim, bcol b rows i⟩ : Mat R) p.dshape).mulV u1) t +
        vget ((mulAtB (⟨p.nd, p.dim, bcol b rows i⟩ : Mat R) p.dshape).mulTV u1) t) d =
      W * (∑ e ∈ range p.dim, deriv p (bcol b rows i) d e *
          (value p (lift b rows x) e * value p (bcol b rows j) d) +
        ∑ e ∈ range p.dim, deriv p (bcol b rows i) e d *
          (value p (bcol b rows j) d * value p (lift b rows x) e)) := fun d hd => by
      have hd' : d < p.dim := mem_range.1 hd
      rw [S3 d j hd' hj, vof_eq, ve_tab hd', vget_eq, vget_eq, ve_mulV (by exact hd'),
        ve_mulTV (by rw [mulAtB_w, hp.dsw]; exact hd'), mulAtB_w, hp.dsw, mul_add, mul_add, mul_sum, mul_sum,
        mul_sum, mul_sum]
      congr 1
      · exact sum_congr rfl fun e he => by
          rw [hdx d e hd' (mem_range.1 he), hval e (mem_range.1 he)]; ring
      · exact sum_congr rfl fun e he => by
          rw [hdx e d (mem_range.1 he) hd', hval e (mem_range.1 he)]; ring
    rw [sum_congr rfl key, ← mul_sum, sum_add_distrib]
    have hw : W = wq p qw := by rw [← hW, withQ_eq]; rfl
    rw [hw]
    congr 1
    rw [sum_comm (f := fun d e => deriv p (bcol b rows i) e d *
      (value p (bcol b rows j) d * value p (lift b rows x) e)), ← sum_add_distrib]
    refine sum_congr rfl fun d _ => ?_
    rw [← sum_add_distrib]
    exact sum_congr rfl fun e _ => by ring

end Verif.Convection
