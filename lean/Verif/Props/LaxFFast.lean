import Verif.Proofs.LaxFFast

/-!
# The Lax-Friedrichs flux at a precomputed point: C65
-/

namespace Verif.LaxF

open Verif Verif.LinAlg Verif.LinAlg.Spec Verif.LaxF.Spec Finset
open Verif.Convection (bcol ve_bcol)
open Verif.Convection.Spec (coef lift project project2)

variable {R : Type} [Field R] [LinearOrder R]

omit [LinearOrder R] in
theorem ve_addMultT {m : Mat R} {x y : List R} {a : R} (hy : y.length = m.w) {c : Nat} (hc : c < m.w) :
    ve (addMultT m x y a) c = ve y c + a * ∑ d ∈ range m.h, ent m d c * ve x d := by
  unfold addMultT
  simp only [vof_eq, vget_eq]
  rw [ve_tab (by rw [hy]; exact hc), ve_mulTV hc]

omit [LinearOrder R] in
theorem length_addMultT (m : Mat R) (x y : List R) (a : R) : (addMultT m x y a).length = y.length := by
  unfold addMultT; simp [vof_eq]

theorem sideSum_one (sqrt : R → R) (f : Face) (p : FPt R) (iw : R) (u1 u2 : List R)
    (shape : FPt R → List R) (k d : Nat) :
    sideSum sqrt f [(p, iw)] u1 u2 shape k d = wq p iw * ve (shape p) k *
      pointFlux sqrt p (valueAt f.nd1 p.shape1 u1) (valueAt f.n2 p.shape2 u2) d := by
  unfold sideSum; simp

omit [LinearOrder R] in
/-- The contribution of one side of a point to a reduced equation. -/
theorem side_contrib {f : Face} {shape : List R} {b : Mat R} {rows : List Int} {s : Mat R} {n off : Nat}
    (hs : ShapesOk f.dim n off shape b rows s) (flux : List R) (F : Nat → R)
    (hF : ∀ d < f.dim, ve flux d = F d) (w sg : R) {c : Nat} (hc : c < b.w) :
    ∑ l ∈ range n, ∑ e ∈ range f.dim, ve (bcol b rows c) (off + (l + e * n)) *
        (sg * (w * ve shape l * F e)) =
      sg * w * ∑ d ∈ range s.h, ent s d c * ve flux d := by
  have := sum_side n f.dim off shape (bcol b rows c) F
  have e : ∑ d ∈ range f.dim, ent s d c * ve flux d = ∑ e ∈ range f.dim,
      valueAt n shape ((bcol b rows c).drop off) e * F e :=
    sum_congr rfl fun d hd => by rw [hs.ent d c (mem_range.1 hd) hc, hF d (mem_range.1 hd)]
  rw [hs.h, e, ← this, mul_sum]
  refine sum_congr rfl fun l _ => ?_
  rw [mul_sum]
  exact sum_congr rfl fun e _ => by ring

omit [Field R] [LinearOrder R] in
theorem ok_face {p : FPt R} {f : Face} (hp : FPtOk f p) : p.face = f := by
  cases f; unfold FPt.face
  rw [hp.dim, hp.nd1, hp.n2]

/-- **C65.**  On a face, interior or boundary, `PrecomputeFaceEQPSample` succeeds, and with what it stores
`AddAssembleVector_Fast` adds to `y` the projection on the basis of the vector `AssembleQuadratureVector`
computes for the lifted state. -/
theorem fastVec_projects (sqrt : R → R) (f : Face) (p : FPt R) (hp : FPtOk f p) (b : Mat R) (hb : MatOk b)
    (rows : List Int) (hr : RowsOk rows b.h) (hl : rows.length = f.dim * (f.nd1 + f.n2)) :
    ∃ s, precomputeFace p b rows = .ok s ∧
      ∀ (qw : R) (x y : List R), x.length = b.w → y.length = b.w →
        ∃ y', fastVec sqrt p s qw x y = .ok y' ∧ y'.length = b.w ∧
          ∀ c < b.w, ve y' c = ve y c + project b rows (quadVec sqrt p qw (lift b rows x)) c := by
  obtain ⟨s1, e1, h1⟩ := shapesOf_ok (dim := f.dim) (nd := f.nd1) (off := 0) (shape := p.shape1) hb hr
  have hle1 : 0 + f.nd1 * f.dim ≤ rows.length := by
    rw [hl, Nat.mul_add, Nat.mul_comm f.nd1]; omega
  have pts : ∀ pw ∈ [(p, (0 : R))], FPtOk f pw.1 := by simpa using hp
  have pos0 : ∀ l e, pos f 0 l e = 0 + (l + e * f.nd1) := fun l e => by simp [pos, sideN]
  have pos1 : ∀ l e, pos f 1 l e = f.nd1 * f.dim + (l + e * f.n2) := fun l e => by
    simp [pos, sideN, Nat.mul_comm]
  by_cases he : p.el2
  · have hn := (n2_ne hp).2 he
    have hd2 : p.dof2 = f.n2 := by have := hp.n2; unfold FPt.ndofs2 at this; rwa [if_pos he] at this
    obtain ⟨s2, e2, h2⟩ := shapesOf_ok (dim := f.dim) (nd := f.n2) (off := f.nd1 * f.dim)
      (shape := p.shape2) hb hr
    have hle2 : f.nd1 * f.dim + f.n2 * f.dim ≤ rows.length := by
      rw [hl, Nat.mul_add, Nat.mul_comm f.nd1, Nat.mul_comm f.n2]
    refine ⟨⟨s1, some s2⟩, ?_, ?_⟩
    · unfold precomputeFace
      rw [hp.dim, hp.nd1, hd2, e1, e2, ok_bind, if_pos he]; rfl
    · intro qw x y hx hy
      have u1 := fast_u h1 hle1 x
      have u2 := fast_u h2 hle2 x
      rw [List.drop_zero] at u1
      unfold fastVec FPt.otherFast
      simp only [he, if_true, deref, ok_bind, hx, hy, beq_self_eq_true, require_true, Bool.true_or,
        withQ_eq]
      set fl := fluxDotN sqrt s1.h (s1.mulV x) (s2.mulV x) p.nor true with hfl
      refine ⟨_, rfl, by rw [length_addMultT, length_addMultT, hy], ?_⟩
      intro c hc
      have hF : ∀ d < f.dim, ve fl d = pointFlux sqrt p (valueAt f.nd1 p.shape1 (lift b rows x))
          (valueAt f.n2 p.shape2 ((lift b rows x).drop (f.nd1 * f.dim))) d := by
        intro d hd
        have := ve_ptFlux (sqrt := sqrt) hp (u1 := lift b rows x)
          (u2 := (lift b rows x).drop (f.nd1 * f.dim)) hd
        rw [← this, hfl, u1, u2, h1.h]
        unfold ptFlux FPt.other
        simp [hn, hp.dim]
      rw [ve_addMultT (by rw [length_addMultT, hy, h2.w]) (by rw [h2.w]; exact hc),
        ve_addMultT (by rw [hy, h1.w]) (by rw [h1.w]; exact hc), project_split hl]
      obtain ⟨-, fa, fb⟩ := faceVec_flux sqrt f [(p, qw)] (lift b rows x) (by simpa using hp)
      rw [quadVec, ok_face hp]
      rw [add_assoc]
      congr 2
      · rw [← neg_one_mul (wq p qw), ← side_contrib h1 fl _ hF (wq p qw) (-1) hc]
        refine sum_congr rfl fun l hl => sum_congr rfl fun e he => ?_
        rw [pos0, Nat.zero_add, fa l e (mem_range.1 hl) (mem_range.1 he), sideSum_one, neg_one_mul]
      · rw [← one_mul (wq p qw), ← side_contrib h2 fl _ hF (wq p qw) 1 hc]
        refine sum_congr rfl fun l hl => sum_congr rfl fun e he => ?_
        rw [pos1, fb l e (mem_range.1 hl) (mem_range.1 he), sideSum_one, one_mul]
  · have hn : f.n2 = 0 := by by_contra hc; exact he ((n2_ne hp).1 hc)
    refine ⟨⟨s1, none⟩, ?_, ?_⟩
    · unfold precomputeFace
      rw [hp.dim, hp.nd1, e1, ok_bind, if_neg he]; rfl
    · intro qw x y hx hy
      have u1 := fast_u h1 hle1 x
      rw [List.drop_zero] at u1
      have ho : p.otherFast (none : Option (Mat R)) x =
          .ok (p.other f.n2 ⟨f.n2, f.dim, (lift b rows x).drop (f.nd1 * f.dim)⟩) := by
        unfold FPt.otherFast FPt.other
        rw [if_neg he, if_neg (by simp [hn])]
        cases p.ud <;> rfl
      unfold fastVec
      dsimp only
      rw [ho]
      simp only [he, if_false, ok_bind, hx, hy, beq_self_eq_true, require_true, Bool.false_or,
        withQ_eq, Bool.false_eq_true]
      set fl := fluxDotN sqrt s1.h (s1.mulV x)
        (p.other f.n2 ⟨f.n2, f.dim, (lift b rows x).drop (f.nd1 * f.dim)⟩) p.nor p.ud.isSome with hfl
      refine ⟨_, rfl, by rw [length_addMultT, hy], ?_⟩
      intro c hc
      have hF : ∀ d < f.dim, ve fl d = pointFlux sqrt p (valueAt f.nd1 p.shape1 (lift b rows x))
          (valueAt f.n2 p.shape2 ((lift b rows x).drop (f.nd1 * f.dim))) d := by
        intro d hd
        have := ve_ptFlux (sqrt := sqrt) hp (u1 := lift b rows x)
          (u2 := (lift b rows x).drop (f.nd1 * f.dim)) hd
        rw [← this, hfl, u1, h1.h]
        unfold ptFlux
        simp [hn, hp.dim]
      rw [ve_addMultT (by rw [hy, h1.w]) (by rw [h1.w]; exact hc), project_split hl]
      obtain ⟨-, fa, -⟩ := faceVec_flux sqrt f [(p, qw)] (lift b rows x) (by simpa using hp)
      rw [quadVec, ok_face hp]
      congr 1
      rw [hn, range_zero, sum_empty, add_zero]
      rw [← neg_one_mul (wq p qw), ← side_contrib h1 fl _ hF (wq p qw) (-1) hc]
      refine sum_congr rfl fun l hl => sum_congr rfl fun e he => ?_
      rw [pos0, Nat.zero_add, fa l e (mem_range.1 hl) (mem_range.1 he), sideSum_one, neg_one_mul]

/-- **C65** on interfaces: each side's reduced vector receives the projection on that side's basis. -/
theorem itfFastVec_projects (sqrt : R → R) (f : Face) (p : FPt R) (hp : FPtOk f p) (he : p.el2 = true)
    (b1 b2 : Mat R) (hb1 : MatOk b1) (hb2 : MatOk b2) (rows1 rows2 : List Int) (hr1 : RowsOk rows1 b1.h)
    (hr2 : RowsOk rows2 b2.h) (hl1 : rows1.length = f.nd1 * f.dim) (hl2 : rows2.length = f.n2 * f.dim) :
    ∃ s, precomputeItf p b1 b2 rows1 rows2 = .ok s ∧
      ∀ (qw : R) (x1 x2 y1 y2 : List R), x1.length = b1.w → x2.length = b2.w → y1.length = b1.w →
        y2.length = b2.w →
        ∃ z1 z2, itfFastVec sqrt p s qw x1 x2 y1 y2 = .ok (z1, z2) ∧ z1.length = b1.w ∧
          z2.length = b2.w ∧
          (∀ c < b1.w, ve z1 c = ve y1 c +
            project b1 rows1 (itfQuadVec sqrt p qw (lift b1 rows1 x1) (lift b2 rows2 x2)).1 c) ∧
          (∀ c < b2.w, ve z2 c = ve y2 c +
            project b2 rows2 (itfQuadVec sqrt p qw (lift b1 rows1 x1) (lift b2 rows2 x2)).2 c) := by
  obtain ⟨s1, e1, h1⟩ := shapesOf_ok (dim := f.dim) (nd := f.nd1) (off := 0) (shape := p.shape1) hb1 hr1
  obtain ⟨s2, e2, h2⟩ := shapesOf_ok (dim := f.dim) (nd := f.n2) (off := 0) (shape := p.shape2) hb2 hr2
  have hn := (n2_ne hp).2 he
  have hd2 : p.dof2 = f.n2 := by have := hp.n2; unfold FPt.ndofs2 at this; rwa [if_pos he] at this
  refine ⟨⟨s1, some s2⟩, ?_, ?_⟩
  · unfold precomputeItf
    rw [hp.dim, hp.nd1, hd2, e1, e2]; rfl
  · intro qw x1 x2 y1 y2 hx1 hx2 hy1 hy2
    have u1 := fast_u h1 (by omega) x1
    have u2 := fast_u h2 (by omega) x2
    rw [List.drop_zero] at u1 u2
    unfold itfFastVec
    simp only [deref, ok_bind, hx1, hx2, hy1, hy2, beq_self_eq_true, require_true, withQ_eq]
    set fl := fluxDotN sqrt s1.h (s1.mulV x1) (s2.mulV x2) p.nor true with hfl
    refine ⟨_, _, rfl, by rw [length_addMultT, hy1], by rw [length_addMultT, hy2], ?_, ?_⟩
    all_goals
      intro c hc
      have hF : ∀ d < f.dim, ve fl d = pointFlux sqrt p (valueAt f.nd1 p.shape1 (lift b1 rows1 x1))
          (valueAt f.n2 p.shape2 (lift b2 rows2 x2)) d := by
        intro d hd
        have := ve_ptFlux (sqrt := sqrt) hp (u1 := lift b1 rows1 x1) (u2 := lift b2 rows2 x2) hd
        rw [← this, hfl, u1, u2, h1.h]
        unfold ptFlux FPt.other
        simp [hn, hp.dim]
      obtain ⟨-, -, fa, fb⟩ := itfVec_flux sqrt f [(p, qw)] (lift b1 rows1 x1) (lift b2 rows2 x2)
        (by simpa using hp)
      rw [itfQuadVec, ok_face hp, Convection.project_bcol]
    · rw [ve_addMultT (by rw [hy1, h1.w]) (by rw [h1.w]; exact hc), hl1, sum_layout, sum_comm]
      congr 1
      rw [← neg_one_mul (wq p qw), ← side_contrib h1 fl _ hF (wq p qw) (-1) hc]
      refine sum_congr rfl fun l hl => sum_congr rfl fun e he => ?_
      rw [Nat.zero_add, fa l e (mem_range.1 hl) (mem_range.1 he), sideSum_one, neg_one_mul]
    · rw [ve_addMultT (by rw [hy2, h2.w]) (by rw [h2.w]; exact hc), hl2, sum_layout, sum_comm]
      congr 1
      rw [← one_mul (wq p qw), ← side_contrib h2 fl _ hF (wq p qw) 1 hc]
      refine sum_congr rfl fun l hl => sum_congr rfl fun e he => ?_
      rw [Nat.zero_add, fb l e (mem_range.1 hl) (mem_range.1 he), sideSum_one, one_mul]

omit [LinearOrder R] in
/-- The contribution of two sides of a point to a reduced matrix. -/
theorem side_contrib2 {f : Face} {i j : Nat} {p : FPt R} {b b' : Mat R} {rows rows' : List Int}
    {s s' : Mat R} {off off' : Nat} (hs : ShapesOk f.dim (sideN f i) off (sideShape p i) b rows s)
    (hs' : ShapesOk f.dim (sideN f j) off' (sideShape p j) b' rows' s') (w : R) (g : Mat R × Mat R)
    {c c' : Nat} (hc : c < b.w) (hc' : c' < b'.w) :
    ∑ k ∈ range (sideN f i), ∑ d ∈ range f.dim, ∑ l ∈ range (sideN f j), ∑ e ∈ range f.dim,
      ve (bcol b rows c) (off + (k + d * sideN f i)) * gterm p w g i j k d l e *
        ve (bcol b' rows' c') (off' + (l + e * sideN f j)) =
      sideSign i * w * ∑ d ∈ range f.dim, ent s d c *
        ∑ e ∈ range f.dim, ent (sideGrad g j) d e * ent s' e c' := by
  have e1 : ∀ d ∈ range f.dim, ent s d c * ∑ e ∈ range f.dim, ent (sideGrad g j) d e * ent s' e c' =
      valueAt (sideN f i) (sideShape p i) ((bcol b rows c).drop off) d *
        ∑ e ∈ range f.dim, ent (sideGrad g j) d e *
          valueAt (sideN f j) (sideShape p j) ((bcol b' rows' c').drop off') e := by
    intro d hd
    rw [hs.ent d c (mem_range.1 hd) hc]
    congr 1
    exact sum_congr rfl fun e he => by rw [hs'.ent e c' (mem_range.1 he) hc']
  rw [sum_congr rfl e1]
  exact sum_side2 f.dim (sideN f i) off (sideN f j) off' (sideShape p i) (sideShape p j)
    (bcol b rows c) (bcol b' rows' c') (sideSign i * w) (fun d e => ent (sideGrad g j) d e)

omit [LinearOrder R] in
theorem project2_split {f : Face} {b : Mat R} {rows : List Int}
    (hl : rows.length = f.dim * (f.nd1 + f.n2)) (a : Mat R) (c c' : Nat) :
    project2 b rows a c c' = ∑ i ∈ range 2, ∑ j ∈ range 2,
      ∑ k ∈ range (sideN f i), ∑ d ∈ range f.dim, ∑ l ∈ range (sideN f j), ∑ e ∈ range f.dim,
        ve (bcol b rows c) (pos f i k d) * ent a (pos f i k d) (pos f j l e) *
          ve (bcol b rows c') (pos f j l e) := by
  have e : project2 b rows a c c' = ∑ t ∈ range (f.dim * (f.nd1 + f.n2)),
      ∑ s ∈ range (f.dim * (f.nd1 + f.n2)),
        ve (bcol b rows c) t * ent a t s * ve (bcol b rows c') s := by
    unfold project2
    rw [hl]
    exact sum_congr rfl fun t ht => sum_congr rfl fun s hs => by
      rw [ve_bcol (by rw [hl]; exact mem_range.1 ht), ve_bcol (by rw [hl]; exact mem_range.1 hs)]
  have s0 : sideN f 0 = f.nd1 := rfl
  have s1 : sideN f 1 = f.n2 := rfl
  rw [e, sum_pos]
  simp only [sum_pos, sum_add_distrib, sum_range_succ, sum_range_zero, zero_add, s0, s1]
  ring

theorem foldlM_one {m : Type → Type} [Monad m] [LawfulMonad m] {α β : Type} (f : β → α → m β) (b : β) (a : α) :
    [a].foldlM f b = f b a := by
  rw [List.foldlM_cons]; simp

theorem quadGrad_fault {sqrt : R → R} {f : Face} {p : FPt R} (hp : FPtOk f p) {iw : R} {u : List R}
    {err : Fault} (h : quadGradBase sqrt p f.n2 ⟨f.nd1, f.dim, u⟩
      ⟨f.n2, f.dim, u.drop (f.nd1 * f.dim)⟩ = .error err) : quadGrad sqrt p iw u = .error err := by
  unfold quadGrad faceGrad
  rw [ok_face hp]
  dsimp only
  rw [foldlM_one]
  dsimp only
  rw [h, error_bind]

/-- **C65 (partial).**  On a face, if the member `ndofs2` holds some value, and not zero when the face is
interior, `AddAssembleGrad_Fast` adds to the reduced matrix the projection of the matrix
`AssembleQuadratureGrad` computes for the lifted state; it faults when that does. -/
theorem fastGrad_projects_partial (sqrt : R → R) (hsq : ∀ x, 0 ≤ sqrt x) (f : Face) (p : FPt R)
    (hp : FPtOk f p) (b : Mat R) (hb : MatOk b)
    (rows : List Int) (hr : RowsOk rows b.h) (hl : rows.length = f.dim * (f.nd1 + f.n2)) (n : Nat)
    (hn : p.el2 = true → n ≠ 0) :
    ∃ s, precomputeFace p b rows = .ok s ∧
      ∀ (qw : R) (x : List R) (jac : Mat R), x.length = b.w → MatOk jac → jac.h = b.w → jac.w = b.w →
        (∀ m, quadGrad sqrt p qw (lift b rows x) = .ok m →
          ∃ jac', fastGrad sqrt (some n) p s qw x jac = .ok jac' ∧ jac'.h = b.w ∧ jac'.w = b.w ∧
            MatOk jac' ∧ ∀ i j, i < b.w → j < b.w →
              ent jac' i j = ent jac i j + project2 b rows m i j) ∧
        (∀ err, quadGrad sqrt p qw (lift b rows x) = .error err →
          fastGrad sqrt (some n) p s qw x jac = .error err) := by
  obtain ⟨s1, e1, h1⟩ := shapesOf_ok (dim := f.dim) (nd := f.nd1) (off := 0) (shape := p.shape1) hb hr
  have hle1 : 0 + f.nd1 * f.dim ≤ rows.length := by
    rw [hl, Nat.mul_add, Nat.mul_comm f.nd1]; omega
  have pos0 : ∀ l e, pos f 0 l e = 0 + (l + e * sideN f 0) := fun l e => by simp [pos, sideN]
  have pos1 : ∀ l e, pos f 1 l e = f.nd1 * f.dim + (l + e * sideN f 1) := fun l e => by
    simp [pos, sideN, Nat.mul_comm]
  -- the slow matrix, projected
  have slow : ∀ (qw : R) (x : List R) (g : Mat R × Mat R) (m : Mat R),
      quadGradBase sqrt p f.n2 ⟨f.nd1, f.dim, lift b rows x⟩
        ⟨f.n2, f.dim, (lift b rows x).drop (f.nd1 * f.dim)⟩ = .ok g →
      quadGrad sqrt p qw (lift b rows x) = .ok m → ∀ i j k d l e, i < 2 → j < 2 → k < sideN f i →
        d < f.dim → l < sideN f j → e < f.dim →
        ent m (pos f i k d) (pos f j l e) = gterm p (wq p qw) g i j k d l e := by
    intro qw x g m hg hm i j k d l e hi hj hk hd hl he
    obtain ⟨m', em, -, -, hm'⟩ := faceGrad_spec (sqrt := sqrt) (pts := [(p, qw)]) (by simpa using hp)
      (lift b rows x) (fun _ => g) (by simpa using hg)
    rw [quadGrad, ok_face hp, em] at hm
    cases hm
    rw [hm' i j k d l e hi hj hk hd hl he]; simp
  by_cases he : p.el2
  · have hn2 := (n2_ne hp).2 he
    have hd2 : p.dof2 = f.n2 := by have := hp.n2; unfold FPt.ndofs2 at this; rwa [if_pos he] at this
    obtain ⟨s2, e2, h2⟩ := shapesOf_ok (dim := f.dim) (nd := f.n2) (off := f.nd1 * f.dim)
      (shape := p.shape2) hb hr
    have hle2 : f.nd1 * f.dim + f.n2 * f.dim ≤ rows.length := by
      rw [hl, Nat.mul_add, Nat.mul_comm f.nd1, Nat.mul_comm f.n2]
    refine ⟨⟨s1, some s2⟩, ?_, ?_⟩
    · unfold precomputeFace
      rw [hp.dim, hp.nd1, hd2, e1, e2, ok_bind, if_pos he]; rfl
    · intro qw x jac hx hj hj1 hj2
      have u1 := fast_u h1 hle1 x
      have u2 := fast_u h2 hle2 x
      rw [List.drop_zero] at u1
      have hbase : quadGradBase sqrt p f.n2 ⟨f.nd1, f.dim, lift b rows x⟩
          ⟨f.n2, f.dim, (lift b rows x).drop (f.nd1 * f.dim)⟩ =
          gradFluxDotN sqrt s1.h (s1.mulV x) (s2.mulV x) p.nor true (decide (n ≠ 0)) := by
        unfold quadGradBase FPt.other
        rw [u1, u2, h1.h, hp.dim]
        simp [hn2, hn he]
      have hfast : fastGrad sqrt (some n) p ⟨s1, some s2⟩ qw x jac = (do
          let g ← gradFluxDotN sqrt s1.h (s1.mulV x) (s2.mulV x) p.nor true (decide (n ≠ 0))
          let jac ← addwRtAP s1 (asOp g.1) s1 jac (-wq p qw)
          let jac ← addwRtAP s2 (asOp g.1) s1 jac (wq p qw)
          let jac ← addwRtAP s1 (asOp g.2) s2 jac (-wq p qw)
          addwRtAP s2 (asOp g.2) s2 jac (wq p qw)) := by
        unfold fastGrad FPt.otherFast
        simp only [he, if_true, deref, ok_bind, Bool.true_or, withQ_eq]
        rfl
      rw [hfast]
      cases hg : gradFluxDotN sqrt s1.h (s1.mulV x) (s2.mulV x) p.nor true (decide (n ≠ 0)) with
      | error err =>
        rw [hg] at hbase
        have := quadGrad_fault hp (iw := qw) hbase
        rw [this]
        exact ⟨fun m h => (by cases h), fun err' h => (by cases h; rfl)⟩
      | ok g =>
        rw [hg] at hbase
        obtain ⟨g1, g2, g3, g4⟩ := gradFlux_sizes hg
        rw [h1.h] at g1 g2 g3 g4
        obtain ⟨m, em, -, -, -⟩ := faceGrad_spec (sqrt := sqrt) (pts := [(p, qw)]) (by simpa using hp)
          (lift b rows x) (fun _ => g) (by simpa using hbase)
        have em' : quadGrad sqrt p qw (lift b rows x) = .ok m := by rw [quadGrad, ok_face hp, em]
        rw [em']
        refine ⟨fun m' h => ?_, fun err h => by cases h⟩
        cases h
        obtain ⟨j1, q1, a1, b1, c1, d1⟩ := addwRtAP_grad (w := -wq p qw) h1.ok h1.ok hj g1 g2 h1.h h1.h
          (by rw [h1.w, hj1]) (by rw [h1.w, hj2])
        obtain ⟨j2, q2, a2, b2, c2, d2⟩ := addwRtAP_grad (w := wq p qw) h2.ok h1.ok c1 g1 g2 h2.h h1.h
          (by rw [h2.w, a1, hj1]) (by rw [h1.w, b1, hj2])
        obtain ⟨j3, q3, a3, b3, c3, d3⟩ := addwRtAP_grad (w := -wq p qw) h1.ok h2.ok c2 g3 g4 h1.h h2.h
          (by rw [h1.w, a2, a1, hj1]) (by rw [h2.w, b2, b1, hj2])
        obtain ⟨j4, q4, a4, b4, c4, d4⟩ := addwRtAP_grad (w := wq p qw) h2.ok h2.ok c3 g3 g4 h2.h h2.h
          (by rw [h2.w, a3, a2, a1, hj1]) (by rw [h2.w, b3, b2, b1, hj2])
        refine ⟨j4, ?_, by rw [a4, a3, a2, a1, hj1], by rw [b4, b3, b2, b1, hj2], c4, ?_⟩
        · simp only [ok_bind, q1, q2, q3, q4]
        · intro i j hi hj'
          have w1 := h1.w
          have w2 := h2.w
          rw [d4 i j (by omega) (by omega), d3 i j (by omega) (by omega), d2 i j (by omega) (by omega),
            d1 i j (by omega) (by omega), project2_split hl]
          have S := slow qw x g m hbase em'
          have t00 := side_contrib2 (i := 0) (j := 0) (p := p) h1 h1 (wq p qw) g hi hj'
          have t01 := side_contrib2 (i := 0) (j := 1) (p := p) h1 h2 (wq p qw) g hi hj'
          have t10 := side_contrib2 (i := 1) (j := 0) (p := p) h2 h1 (wq p qw) g hi hj'
          have t11 := side_contrib2 (i := 1) (j := 1) (p := p) h2 h2 (wq p qw) g hi hj'
          have key : ∀ a c, a < 2 → c < 2 → ∀ off off', (∀ l e, pos f a l e = off + (l + e * sideN f a)) →
              (∀ l e, pos f c l e = off' + (l + e * sideN f c)) →
              ∑ k ∈ range (sideN f a), ∑ d ∈ range f.dim, ∑ l ∈ range (sideN f c), ∑ e ∈ range f.dim,
                ve (bcol b rows i) (pos f a k d) * ent m (pos f a k d) (pos f c l e) *
                  ve (bcol b rows j) (pos f c l e) =
              ∑ k ∈ range (sideN f a), ∑ d ∈ range f.dim, ∑ l ∈ range (sideN f c), ∑ e ∈ range f.dim,
                ve (bcol b rows i) (off + (k + d * sideN f a)) * gterm p (wq p qw) g a c k d l e *
                  ve (bcol b rows j) (off' + (l + e * sideN f c)) := by
            intro a c ha hc off off' ho ho'
            refine sum_congr rfl fun k hk => sum_congr rfl fun d hd => sum_congr rfl fun l hl =>
              sum_congr rfl fun e he => ?_
            rw [S a c k d l e ha hc (mem_range.1 hk) (mem_range.1 hd) (mem_range.1 hl) (mem_range.1 he),
              ho, ho']
          simp only [sum_range_succ, sum_range_zero, zero_add]
          rw [key 0 0 (by omega) (by omega) _ _ pos0 pos0, key 0 1 (by omega) (by omega) _ _ pos0 pos1,
            key 1 0 (by omega) (by omega) _ _ pos1 pos0, key 1 1 (by omega) (by omega) _ _ pos1 pos1,
            t00, t01, t10, t11]
          simp only [sideSign, sideGrad, if_true, Nat.one_ne_zero, if_false]
          ring
  · have hn2 : f.n2 = 0 := by by_contra hc; exact he ((n2_ne hp).1 hc)
    refine ⟨⟨s1, none⟩, ?_, ?_⟩
    · unfold precomputeFace
      rw [hp.dim, hp.nd1, e1, ok_bind, if_neg he]; rfl
    · intro qw x jac hx hj hj1 hj2
      have u1 := fast_u h1 hle1 x
      rw [List.drop_zero] at u1
      have ho : p.otherFast (none : Option (Mat R)) x =
          .ok (p.other f.n2 ⟨f.n2, f.dim, (lift b rows x).drop (f.nd1 * f.dim)⟩) := by
        unfold FPt.otherFast FPt.other
        rw [if_neg he, if_neg (by simp [hn2])]
        cases p.ud <;> rfl
      set o := p.other f.n2 ⟨f.n2, f.dim, (lift b rows x).drop (f.nd1 * f.dim)⟩ with hoo
      have hbase : quadGradBase sqrt p f.n2 ⟨f.nd1, f.dim, lift b rows x⟩
          ⟨f.n2, f.dim, (lift b rows x).drop (f.nd1 * f.dim)⟩ =
          gradFluxDotN sqrt s1.h (s1.mulV x) o p.nor p.ud.isSome false := by
        unfold quadGradBase
        rw [u1, h1.h, hp.dim, ← hoo]
        simp [hn2]
      have hfast : fastGrad sqrt (some n) p ⟨s1, none⟩ qw x jac = (do
          let g ← gradFluxDotN sqrt s1.h (s1.mulV x) o p.nor p.ud.isSome (decide (n ≠ 0))
          addwRtAP s1 (asOp g.1) s1 jac (-wq p qw)) := by
        unfold fastGrad
        dsimp only
        rw [ho]
        simp only [he, if_false, deref, ok_bind, Bool.false_or, withQ_eq, Bool.false_eq_true]
        congr 1
        funext g
        cases addwRtAP s1 (asOp g.1) s1 jac (-wq p qw) <;> rfl
      have hflag : (gradFluxDotN sqrt s1.h (s1.mulV x) o p.nor p.ud.isSome (decide (n ≠ 0))).map Prod.fst =
          (gradFluxDotN sqrt s1.h (s1.mulV x) o p.nor p.ud.isSome false).map Prod.fst := by
        cases decide (n ≠ 0)
        · rfl
        · exact gradFlux_flag hsq
      rw [hfast]
      cases hg : gradFluxDotN sqrt s1.h (s1.mulV x) o p.nor p.ud.isSome false with
      | error err =>
        rw [hg] at hbase hflag
        have := quadGrad_fault hp (iw := qw) hbase
        rw [this]
        refine ⟨fun m h => (by cases h), fun err' h => ?_⟩
        cases h
        cases hg2 : gradFluxDotN sqrt s1.h (s1.mulV x) o p.nor p.ud.isSome (decide (n ≠ 0)) with
        | error e2 => rw [hg2] at hflag; cases hflag; rfl
        | ok g2 => rw [hg2] at hflag; cases hflag
      | ok g =>
        rw [hg] at hbase hflag
        cases hg2 : gradFluxDotN sqrt s1.h (s1.mulV x) o p.nor p.ud.isSome (decide (n ≠ 0)) with
        | error e2 => rw [hg2] at hflag; cases hflag
        | ok g' =>
          rw [hg2] at hflag
          have hgg : g'.1 = g.1 := by
            have := hflag
            simp only [Except.map] at this
            exact Except.ok.inj this
          obtain ⟨g1, g2, g3, g4⟩ := gradFlux_sizes hg
          rw [h1.h] at g1 g2 g3 g4
          obtain ⟨m, em, -, -, -⟩ := faceGrad_spec (sqrt := sqrt) (pts := [(p, qw)]) (by simpa using hp)
            (lift b rows x) (fun _ => g) (by simpa using hbase)
          have em' : quadGrad sqrt p qw (lift b rows x) = .ok m := by rw [quadGrad, ok_face hp, em]
          rw [em']
          refine ⟨fun m' h => ?_, fun err h => by cases h⟩
          cases h
          obtain ⟨j1, q1, a1, b1, c1, d1⟩ := addwRtAP_grad (w := -wq p qw) h1.ok h1.ok hj g1 g2 h1.h h1.h
            (by rw [h1.w, hj1]) (by rw [h1.w, hj2])
          refine ⟨j1, ?_, by rw [a1, hj1], by rw [b1, hj2], c1, ?_⟩
          · simp only [ok_bind, hgg, q1]
          · intro i j hi hj'
            have w1 := h1.w
            rw [d1 i j (by omega) (by omega), project2_split hl]
            have S := slow qw x g m hbase em'
            have t00 := side_contrib2 (i := 0) (j := 0) (p := p) h1 h1 (wq p qw) g hi hj'
            have z : sideN f 1 = 0 := hn2
            simp only [sum_range_succ, sum_range_zero, zero_add, z, sum_const_zero, add_zero]
            congr 1
            rw [show ∑ k ∈ range (sideN f 0), ∑ d ∈ range f.dim, ∑ l ∈ range (sideN f 0),
                ∑ e ∈ range f.dim, ve (bcol b rows i) (pos f 0 k d) * ent m (pos f 0 k d) (pos f 0 l e) *
                  ve (bcol b rows j) (pos f 0 l e) = ∑ k ∈ range (sideN f 0), ∑ d ∈ range f.dim,
                ∑ l ∈ range (sideN f 0), ∑ e ∈ range f.dim,
                ve (bcol b rows i) (0 + (k + d * sideN f 0)) * gterm p (wq p qw) g 0 0 k d l e *
                  ve (bcol b rows j) (0 + (l + e * sideN f 0)) from
              sum_congr rfl fun k hk => sum_congr rfl fun d hd => sum_congr rfl fun l hl =>
                sum_congr rfl fun e he => by
                  rw [S 0 0 k d l e (by omega) (by omega) (mem_range.1 hk) (mem_range.1 hd)
                    (mem_range.1 hl) (mem_range.1 he), pos0, pos0], t00]
            simp only [sideSign, sideGrad, if_true]
            ring

omit [LinearOrder R] in
theorem itfProject2_split {f : Face} {i j : Nat} {b b' : Mat R} {rows rows' : List Int}
    (hl : rows.length = sideN f i * f.dim) (hl' : rows'.length = sideN f j * f.dim) (a : Mat R)
    (c c' : Nat) :
    EqpItf.Spec.project2 b rows b' rows' a c c' =
      ∑ k ∈ range (sideN f i), ∑ d ∈ range f.dim, ∑ l ∈ range (sideN f j), ∑ e ∈ range f.dim,
        ve (bcol b rows c) (0 + (k + d * sideN f i)) * ent a (k + d * sideN f i) (l + e * sideN f j) *
          ve (bcol b' rows' c') (0 + (l + e * sideN f j)) := by
  unfold EqpItf.Spec.project2
  rw [hl, sum_layout, sum_comm]
  refine sum_congr rfl fun k hk => sum_congr rfl fun d hd => ?_
  rw [hl', sum_layout, sum_comm]
  refine sum_congr rfl fun l hl2 => sum_congr rfl fun e he => ?_
  rw [Nat.zero_add, Nat.zero_add, ve_bcol (by rw [hl]; exact idx_lt (mem_range.1 hk) (mem_range.1 hd)),
    ve_bcol (by rw [hl']; exact idx_lt (mem_range.1 hl2) (mem_range.1 he))]

/-- **C65 (partial)** for the matrices of interfaces: holds without restriction. -/
theorem itfFastGrad_projects (sqrt : R → R) (f : Face) (p : FPt R) (hp : FPtOk f p) (he : p.el2 = true)
    (b1 b2 : Mat R) (hb1 : MatOk b1) (hb2 : MatOk b2) (rows1 rows2 : List Int) (hr1 : RowsOk rows1 b1.h)
    (hr2 : RowsOk rows2 b2.h) (hl1 : rows1.length = f.nd1 * f.dim) (hl2 : rows2.length = f.n2 * f.dim) :
    ∃ s, precomputeItf p b1 b2 rows1 rows2 = .ok s ∧
      ∀ (qw : R) (x1 x2 : List R) (jac : Sps R), x1.length = b1.w → x2.length = b2.w →
        (jac.m11.h = b1.w ∧ jac.m11.w = b1.w) → (jac.m12.h = b1.w ∧ jac.m12.w = b2.w) →
        (jac.m21.h = b2.w ∧ jac.m21.w = b1.w) → (jac.m22.h = b2.w ∧ jac.m22.w = b2.w) →
        (∀ ms, itfQuadGrad sqrt p qw (lift b1 rows1 x1) (lift b2 rows2 x2) = .ok ms →
          ∃ J, itfFastGrad sqrt p s qw x1 x2 jac = .ok J ∧
            (∀ i j, i < b1.w → j < b1.w → J.m11.get i j = jac.m11.get i j +
              EqpItf.Spec.project2 b1 rows1 b1 rows1 ms.m11 i j) ∧
            (∀ i j, i < b1.w → j < b2.w → J.m12.get i j = jac.m12.get i j +
              EqpItf.Spec.project2 b1 rows1 b2 rows2 ms.m12 i j) ∧
            (∀ i j, i < b2.w → j < b1.w → J.m21.get i j = jac.m21.get i j +
              EqpItf.Spec.project2 b2 rows2 b1 rows1 ms.m21 i j) ∧
            (∀ i j, i < b2.w → j < b2.w → J.m22.get i j = jac.m22.get i j +
              EqpItf.Spec.project2 b2 rows2 b2 rows2 ms.m22 i j)) ∧
        (∀ err, itfQuadGrad sqrt p qw (lift b1 rows1 x1) (lift b2 rows2 x2) = .error err →
          itfFastGrad sqrt p s qw x1 x2 jac = .error err) := by
  obtain ⟨s1, e1, h1⟩ := shapesOf_ok (dim := f.dim) (nd := f.nd1) (off := 0) (shape := p.shape1) hb1 hr1
  obtain ⟨s2, e2, h2⟩ := shapesOf_ok (dim := f.dim) (nd := f.n2) (off := 0) (shape := p.shape2) hb2 hr2
  have hn := (n2_ne hp).2 he
  have hd2 : p.dof2 = f.n2 := by have := hp.n2; unfold FPt.ndofs2 at this; rwa [if_pos he] at this
  refine ⟨⟨s1, some s2⟩, ?_, ?_⟩
  · unfold precomputeItf
    rw [hp.dim, hp.nd1, hd2, e1, e2]; rfl
  · intro qw x1 x2 jac hx1 hx2 k11 k12 k21 k22
    have u1 := fast_u h1 (by omega) x1
    have u2 := fast_u h2 (by omega) x2
    rw [List.drop_zero] at u1 u2
    have hbase : quadGradBase sqrt p f.n2 ⟨f.nd1, f.dim, lift b1 rows1 x1⟩
        ⟨f.n2, f.dim, lift b2 rows2 x2⟩ =
        gradFluxDotN sqrt s1.h (s1.mulV x1) (s2.mulV x2) p.nor true true := by
      unfold quadGradBase FPt.other
      rw [u1, u2, h1.h, hp.dim]
      simp [hn]
    have hfast : itfFastGrad sqrt p ⟨s1, some s2⟩ qw x1 x2 jac = (do
        let g ← gradFluxDotN sqrt s1.h (s1.mulV x1) (s2.mulV x2) p.nor true true
        let m11 ← addwRtAPSparse s1 (asOp g.1) s1 jac.m11 (-wq p qw)
        let m21 ← addwRtAPSparse s2 (asOp g.1) s1 jac.m21 (wq p qw)
        let m12 ← addwRtAPSparse s1 (asOp g.2) s2 jac.m12 (-wq p qw)
        let m22 ← addwRtAPSparse s2 (asOp g.2) s2 jac.m22 (wq p qw)
        return (⟨m11, m12, m21, m22⟩ : Sps R)) := by
      unfold itfFastGrad
      simp only [deref, ok_bind, withQ_eq]
    rw [hfast]
    cases hg : gradFluxDotN sqrt s1.h (s1.mulV x1) (s2.mulV x2) p.nor true true with
    | error err =>
      rw [hg] at hbase
      have : itfQuadGrad sqrt p qw (lift b1 rows1 x1) (lift b2 rows2 x2) = .error err := by
        unfold itfQuadGrad itfGrad
        rw [ok_face hp]
        dsimp only
        rw [foldlM_one]
        dsimp only
        rw [hbase, error_bind]
      rw [this]
      exact ⟨fun m h => (by cases h), fun err' h => (by cases h; rfl)⟩
    | ok g =>
      rw [hg] at hbase
      obtain ⟨g1, g2, g3, g4⟩ := gradFlux_sizes hg
      rw [h1.h] at g1 g2 g3 g4
      obtain ⟨ms, em, -, hm⟩ := itfGrad_spec (sqrt := sqrt) (pts := [(p, qw)]) (by simpa using hp)
        (lift b1 rows1 x1) (lift b2 rows2 x2) (fun _ => g) (by simpa using hbase)
      have em' : itfQuadGrad sqrt p qw (lift b1 rows1 x1) (lift b2 rows2 x2) = .ok ms := by
        rw [itfQuadGrad, ok_face hp, em]
      rw [em']
      refine ⟨fun m' h => ?_, fun err h => by cases h⟩
      cases h
      have w1 := h1.w
      have w2 := h2.w
      obtain ⟨j1, q1, -, -, d1⟩ := addwRtAPSparse_grad (w := -wq p qw) (out := jac.m11) h1.ok h1.ok g1 g2
        h1.h h1.h (by omega) (by omega)
      obtain ⟨j2, q2, -, -, d2⟩ := addwRtAPSparse_grad (w := wq p qw) (out := jac.m21) h2.ok h1.ok g1 g2
        h2.h h1.h (by omega) (by omega)
      obtain ⟨j3, q3, -, -, d3⟩ := addwRtAPSparse_grad (w := -wq p qw) (out := jac.m12) h1.ok h2.ok g3 g4
        h1.h h2.h (by omega) (by omega)
      obtain ⟨j4, q4, -, -, d4⟩ := addwRtAPSparse_grad (w := wq p qw) (out := jac.m22) h2.ok h2.ok g3 g4
        h2.h h2.h (by omega) (by omega)
      have S : ∀ a c k d l e, a < 2 → c < 2 → k < sideN f a → d < f.dim → l < sideN f c → e < f.dim →
          ent (ms.get a c) (k + d * sideN f a) (l + e * sideN f c) =
            gterm p (wq p qw) g a c k d l e := by
        intro a c k d l e ha hc hk hd hl he
        rw [hm a c k d l e ha hc hk hd hl he]; simp
      have key : ∀ a c (ha : a < 2) (hc : c < 2) (b b' : Mat R) (rows rows' : List Int) (i j : Nat),
          rows.length = sideN f a * f.dim → rows'.length = sideN f c * f.dim →
          EqpItf.Spec.project2 b rows b' rows' (ms.get a c) i j =
          ∑ k ∈ range (sideN f a), ∑ d ∈ range f.dim, ∑ l ∈ range (sideN f c), ∑ e ∈ range f.dim,
            ve (bcol b rows i) (0 + (k + d * sideN f a)) * gterm p (wq p qw) g a c k d l e *
              ve (bcol b' rows' j) (0 + (l + e * sideN f c)) := by
        intro a c ha hc b b' rows rows' i j hl hl'
        rw [itfProject2_split hl hl']
        exact sum_congr rfl fun k hk => sum_congr rfl fun d hd => sum_congr rfl fun l hl =>
          sum_congr rfl fun e he => by
            rw [S a c k d l e ha hc (mem_range.1 hk) (mem_range.1 hd) (mem_range.1 hl) (mem_range.1 he)]
      refine ⟨⟨j1, j3, j2, j4⟩, ?_, fun i j hi hj => ?_, fun i j hi hj => ?_, fun i j hi hj => ?_,
        fun i j hi hj => ?_⟩
      · simp only [ok_bind, q1, q2, q3, q4]; rfl
      · rw [d1 i j (by omega) (by omega)]
        have t := side_contrib2 (i := 0) (j := 0) (p := p) h1 h1 (wq p qw) g hi hj
        rw [show ms.m11 = ms.get 0 0 from rfl, key 0 0 (by omega) (by omega) b1 b1 rows1 rows1 i j hl1 hl1, t]
        simp only [sideSign, sideGrad, if_true, neg_one_mul]
      · rw [d3 i j (by omega) (by omega)]
        have t := side_contrib2 (i := 0) (j := 1) (p := p) h1 h2 (wq p qw) g hi hj
        rw [show ms.m12 = ms.get 0 1 from rfl, key 0 1 (by omega) (by omega) b1 b2 rows1 rows2 i j hl1 hl2, t]
        simp only [sideSign, sideGrad, if_true, neg_one_mul, Nat.one_ne_zero, if_false]
      · rw [d2 i j (by omega) (by omega)]
        have t := side_contrib2 (i := 1) (j := 0) (p := p) h2 h1 (wq p qw) g hi hj
        rw [show ms.m21 = ms.get 1 0 from rfl, key 1 0 (by omega) (by omega) b2 b1 rows2 rows1 i j hl2 hl1, t]
        simp only [sideSign, sideGrad, if_true, one_mul, Nat.one_ne_zero, if_false]
      · rw [d4 i j (by omega) (by omega)]
        have t := side_contrib2 (i := 1) (j := 1) (p := p) h2 h2 (wq p qw) g hi hj
        rw [show ms.m22 = ms.get 1 1 from rfl, key 1 1 (by omega) (by omega) b2 b2 rows2 rows2 i j hl2 hl2, t]
        simp only [sideSign, sideGrad, one_mul, Nat.one_ne_zero, if_false]

/-- **C65 is violated by an integrator used only through the fast routines**: the member `ndofs2` is read
before anything is assigned to it. -/
theorem fastGrad_uninit_ub (sqrt : R → R) (f : Face) (p : FPt R) (hp : FPtOk f p) (b : Mat R)
    (hb : MatOk b) (rows : List Int) (hr : RowsOk rows b.h) :
    ∃ s, precomputeFace p b rows = .ok s ∧
      ∀ (qw : R) (x : List R) (jac : Mat R), fastGrad sqrt none p s qw x jac = .error .ub := by
  obtain ⟨s1, e1, h1⟩ := shapesOf_ok (dim := f.dim) (nd := f.nd1) (off := 0) (shape := p.shape1) hb hr
  by_cases he : p.el2
  · have hd2 : p.dof2 = f.n2 := by have := hp.n2; unfold FPt.ndofs2 at this; rwa [if_pos he] at this
    obtain ⟨s2, e2, h2⟩ := shapesOf_ok (dim := f.dim) (nd := f.n2) (off := f.nd1 * f.dim)
      (shape := p.shape2) hb hr
    refine ⟨⟨s1, some s2⟩, ?_, fun qw x jac => ?_⟩
    · unfold precomputeFace
      rw [hp.dim, hp.nd1, hd2, e1, e2, ok_bind, if_pos he]; rfl
    · unfold fastGrad FPt.otherFast
      simp only [he, if_true, deref, ok_bind, error_bind]
      rfl
  · refine ⟨⟨s1, none⟩, ?_, fun qw x jac => ?_⟩
    · unfold precomputeFace
      rw [hp.dim, hp.nd1, e1, ok_bind, if_neg he]; rfl
    · unfold fastGrad FPt.otherFast
      simp only [he, if_false, Bool.false_eq_true]
      cases p.ud <;> rfl

/-! ## Examples -/

/-- An interior face in one dimension, one shape function on each side. -/
def exLine : FPt ℚ :=
  { dim := 1, nd1 := 1, dof2 := 1, shape1 := [1], shape2 := [1], nor := [1], el2 := true, q := none,
    ud := none }
/-- The identity as basis. -/
def exBasis : Mat ℚ := ⟨2, 2, [1, 0, 0, 1]⟩

theorem exLine_ok : FPtOk ⟨1, 1, 1⟩ exLine :=
  ⟨rfl, rfl, rfl, by decide, rfl, fun _ => rfl, rfl, fun _ h => by cases h⟩

/-- **C65 is violated after a boundary face**: with `ndofs2 = 0` left by a boundary face, the matrix of
the next interior face lacks the derivative in the second velocity. -/
theorem fastGrad_stale_wrong :
    (do let s ← precomputeFace exLine exBasis [0, 1]
        fastGrad exSqrt (some 0) exLine s 1 [1, 2] (Convection.zeroMat 2) : Outcome (Mat ℚ)) =
      .ok ⟨2, 2, [-3, 3, 0, 0]⟩ ∧
    quadGrad exSqrt exLine 1 (lift exBasis [0, 1] [1, 2]) = .ok ⟨2, 2, [-3, 3, 1, -1]⟩ ∧
    (do let s ← precomputeFace exLine exBasis [0, 1]
        fastGrad exSqrt (some 1) exLine s 1 [1, 2] (Convection.zeroMat 2) : Outcome (Mat ℚ)) =
      .ok ⟨2, 2, [-3, 3, 1, -1]⟩ := by
  refine ⟨?_, ?_, ?_⟩ <;> decide +kernel

example : MatOk exBasis ∧ RowsOk [0, 1] exBasis.h ∧ ([0, 1] : List Int).length = 1 * (1 + 1) := by
  refine ⟨by unfold MatOk; decide, ⟨by decide, by decide⟩, rfl⟩

example : ∀ x : ℚ, 0 ≤ exSqrt x := by
  intro x; unfold exSqrt; split_ifs <;> norm_num

end Verif.LaxF
