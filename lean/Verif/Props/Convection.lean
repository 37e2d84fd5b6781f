import Verif.Proofs.ConvectionFast

/-! # C49, C50: the convection integrators, their gradients and their fast paths -/

namespace Verif.Convection

open Verif Verif.LinAlg Verif.LinAlg.Spec Verif.Convection.Spec Finset

variable {R : Type} [CommRing R]

/-! ## What the integrators compute -/

/-- The trilinear integrator at a quadrature point tests the convective derivative of the field along
the advecting velocity. -/
theorem triVec_spec {p : Pt R} (hp : PtOk p) (iw : R) (u : List R) {k d : Nat} (hk : k < p.nd)
    (hd : d < p.dim) :
    (triVec p iw u).length = p.nd * p.dim ∧
    coef p.nd (triVec p iw u) k d =
      wq p iw * ve p.shape k * ∑ e ∈ range p.dim, deriv p u d e * advection p u e := by
  refine ⟨triVec_length hp iw u, ?_⟩
  unfold coef
  rw [triVec_ve hp iw u (idx_lt hk hd), triTerm, mod_idx hk, div_idx hk]

/-- The inviscid flux integrator tests the momentum flux with the gradient of the test function. -/
theorem invVec_spec {p : Pt R} (hp : PtOk p) (iw : R) (u : List R) {k d : Nat} (hk : k < p.nd)
    (hd : d < p.dim) :
    (invVec p iw u).length = p.nd * p.dim ∧
    coef p.nd (invVec p iw u) k d =
      wq p iw * ∑ e ∈ range p.dim, ent p.dshape k e * (value p u e * value p u d) := by
  refine ⟨invVec_length p iw u, ?_⟩
  unfold coef
  rw [invVec_ve hp iw u (idx_lt hk hd), invTerm, mod_idx hk, div_idx hk]

/-! ## C50: exact gradients -/

/-- **C50.** Without a prescribed advection field, `AssembleQuadratureGrad` of the trilinear
integrator is the exact derivative of `AssembleQuadratureVector`. -/
theorem triGrad_exact {p : Pt R} (hp : PtOk p) (hv : p.vq = none) (iw : R) {u h : List R}
    (hu : u.length = p.nd * p.dim) {t : Nat} (ht : t < p.nd * p.dim) :
    ve (triVec p iw (vadd u h)) t = ve (triVec p iw u) t +
      ∑ s ∈ range (p.nd * p.dim), ent (triGrad p iw u) t s * ve h s + ve (triVec p iw h) t := by
  rw [sum_congr rfl fun s hs => by rw [triGrad_ent hp iw u ht (mem_range.1 hs)],
    triGradTerm_sum iw u h ht, triVec_ve hp iw _ ht, triVec_ve hp iw _ ht, triVec_ve hp iw _ ht]
  have hd := div_lt_dim ht
  unfold triTerm
  simp only [advection_none hv]
  have e1 : ∀ e ∈ range p.dim, deriv p (vadd u h) (t / p.nd) e * value p (vadd u h) e =
      (deriv p u (t / p.nd) e * value p u e + (deriv p h (t / p.nd) e * value p u e +
        deriv p u (t / p.nd) e * value p h e)) + deriv p h (t / p.nd) e * value p h e := fun e he => by
    rw [deriv_vadd hu e hd, value_vadd hu (mem_range.1 he)]; ring
  rw [sum_congr rfl e1]
  simp only [sum_add_distrib]
  ring

/-- **C50.** `AssembleQuadratureGrad` of the inviscid flux integrator is the exact derivative of
`AssembleQuadratureVector`. -/
theorem invGrad_exact {p : Pt R} (hp : PtOk p) (iw : R) {u h : List R}
    (hu : u.length = p.nd * p.dim) {t : Nat} (ht : t < p.nd * p.dim) :
    ve (invVec p iw (vadd u h)) t = ve (invVec p iw u) t +
      ∑ s ∈ range (p.nd * p.dim), ent (invGrad p iw u) t s * ve h s + ve (invVec p iw h) t := by
  rw [sum_congr rfl fun s hs => by rw [invGrad_ent hp iw u ht (mem_range.1 hs)],
    invGradTerm_sum iw u h ht, invVec_ve hp iw _ ht, invVec_ve hp iw _ ht, invVec_ve hp iw _ ht]
  have hd := div_lt_dim ht
  unfold invTerm
  have e1 : ∀ e ∈ range p.dim, ent p.dshape (t % p.nd) e *
      (value p (vadd u h) e * value p (vadd u h) (t / p.nd)) =
      (ent p.dshape (t % p.nd) e * (value p u e * value p u (t / p.nd)) +
        ent p.dshape (t % p.nd) e *
          (value p u e * value p h (t / p.nd) + value p h e * value p u (t / p.nd))) +
      ent p.dshape (t % p.nd) e * (value p h e * value p h (t / p.nd)) := fun e he => by
    rw [value_vadd hu hd, value_vadd hu (mem_range.1 he)]; ring
  rw [sum_congr rfl e1]
  simp only [sum_add_distrib]
  ring

/-- The points of one element: same finite element, each satisfying the contract. -/
def ElemOk (nd dim : Nat) (pts : List (Pt R × R)) : Prop :=
  ∀ pw ∈ pts, PtOk pw.1 ∧ pw.1.nd = nd ∧ pw.1.dim = dim

theorem foldl_ve {pts : List (Pt R × R)} (f : Pt R × R → List R → List R) (g : Pt R × R → R) (t : Nat)
    (h : ∀ pw ∈ pts, ∀ elv, ve (f pw elv) t = ve elv t + g pw) (elv : List R) :
    ve (pts.foldl (fun elv pw => f pw elv) elv) t = ve elv t + (pts.map g).sum := by
  induction pts generalizing elv with
  | nil => simp
  | cons a l ih =>
    rw [List.foldl_cons, ih (fun pw hpw => h pw (List.mem_cons_of_mem _ hpw)),
      h a (List.mem_cons_self ..), List.map_cons, List.sum_cons, add_assoc]

theorem foldl_ent {pts : List (Pt R × R)} (n : Nat) (f : Pt R × R → Mat R → Mat R) (g : Pt R × R → R)
    (t s : Nat) (h : ∀ pw ∈ pts, ∀ m, m.h = n → m.w = n →
      (f pw m).h = n ∧ (f pw m).w = n ∧ ent (f pw m) t s = ent m t s + g pw) (m : Mat R)
    (h1 : m.h = n) (h2 : m.w = n) :
    ent (pts.foldl (fun m pw => f pw m) m) t s = ent m t s + (pts.map g).sum := by
  induction pts generalizing m with
  | nil => simp
  | cons a l ih =>
    obtain ⟨a1, a2, a3⟩ := h a (List.mem_cons_self ..) m h1 h2
    rw [List.foldl_cons, ih (fun pw hpw => h pw (List.mem_cons_of_mem _ hpw)) _ a1 a2, a3, List.map_cons,
      List.sum_cons, add_assoc]

/-- The element vector of the trilinear integrator is the sum of its quadrature vectors: sampling all
the points with their weights reproduces the element. -/
theorem triElemVec_eq {nd dim : Nat} {pts : List (Pt R × R)} (hp : ElemOk nd dim pts) (u : List R)
    {t : Nat} (ht : t < nd * dim) :
    ve (triElemVec nd dim pts u) t = (pts.map fun pw => ve (triVec pw.1 pw.2 u) t).sum := by
  unfold triElemVec
  rw [foldl_ve (fun pw elv => triVecAdd pw.1 pw.2 u elv) (fun pw => ve (triVec pw.1 pw.2 u) t) t
    (fun pw hpw elv => by
      obtain ⟨a, b, c⟩ := hp pw hpw
      have ht' : t < pw.1.nd * pw.1.dim := by rw [b, c]; exact ht
      rw [triVecAdd_ve a _ _ _ ht', triVec_ve a _ _ ht']), vof_eq, ve_tab ht, zero_add]

theorem invElemVec_eq {nd dim : Nat} {pts : List (Pt R × R)} (hp : ElemOk nd dim pts) (u : List R)
    {t : Nat} (ht : t < nd * dim) :
    ve (invElemVec nd dim pts u) t = (pts.map fun pw => ve (invVec pw.1 pw.2 u) t).sum := by
  unfold invElemVec
  rw [foldl_ve (fun pw elv => invVecAdd pw.1 pw.2 u elv) (fun pw => ve (invVec pw.1 pw.2 u) t) t
    (fun pw hpw elv => by
      obtain ⟨a, b, c⟩ := hp pw hpw
      have ht' : t < pw.1.nd * pw.1.dim := by rw [b, c]; exact ht
      rw [invVecAdd_ve a _ _ _ ht', invVec_ve a _ _ ht']), vof_eq, ve_tab ht, zero_add]

/-- The element gradient is the sum of the quadrature gradients. -/
theorem triElemGrad_eq {nd dim : Nat} {pts : List (Pt R × R)} (hp : ElemOk nd dim pts) (u : List R)
    {t s : Nat} (ht : t < nd * dim) (hs : s < nd * dim) :
    ent (triElemGrad nd dim pts u) t s = (pts.map fun pw => ent (triGrad pw.1 pw.2 u) t s).sum := by
  unfold triElemGrad
  rw [foldl_ent (nd * dim) (fun pw m => triGradAdd pw.1 pw.2 u m)
    (fun pw => ent (triGrad pw.1 pw.2 u) t s) t s (fun pw hpw m h1 h2 => by
      obtain ⟨a, rfl, rfl⟩ := hp pw hpw
      rw [triGrad_ent a _ _ ht hs]
      exact triGradAdd_spec a pw.2 u h1 h2 ht hs) (zeroMat _) rfl rfl, ent_zeroMat ht hs, zero_add]

theorem invElemGrad_eq {nd dim : Nat} {pts : List (Pt R × R)} (hp : ElemOk nd dim pts) (u : List R)
    {t s : Nat} (ht : t < nd * dim) (hs : s < nd * dim) :
    ent (invElemGrad nd dim pts u) t s = (pts.map fun pw => ent (invGrad pw.1 pw.2 u) t s).sum := by
  unfold invElemGrad
  rw [foldl_ent (nd * dim) (fun pw m => invGradAdd pw.1 pw.2 u m)
    (fun pw => ent (invGrad pw.1 pw.2 u) t s) t s (fun pw hpw m h1 h2 => by
      obtain ⟨a, rfl, rfl⟩ := hp pw hpw
      rw [invGrad_ent a _ _ ht hs]
      exact invGradAdd_spec a pw.2 u h1 h2 ht hs) (zeroMat _) rfl rfl, ent_zeroMat ht hs, zero_add]

theorem sum_grad {pts : List (Pt R × R)} {n : Nat} {F : Pt R × R → Nat → R} {h : Nat → R} :
    ∑ s ∈ range n, (pts.map fun pw => F pw s).sum * h s =
      (pts.map fun pw => ∑ s ∈ range n, F pw s * h s).sum := by
  induction pts with
  | nil => simp
  | cons a l ih => simp only [List.map_cons, List.sum_cons, add_mul, sum_add_distrib, ih]

theorem sum_three {pts : List (Pt R × R)} {f a b c : Pt R × R → R}
    (h : ∀ pw ∈ pts, f pw = a pw + b pw + c pw) :
    (pts.map f).sum = (pts.map a).sum + (pts.map b).sum + (pts.map c).sum := by
  induction pts with
  | nil => simp
  | cons x l ih =>
    simp only [List.map_cons, List.sum_cons]
    rw [ih fun pw hpw => h pw (List.mem_cons_of_mem _ hpw), h x (List.mem_cons_self ..)]
    ring

/-- **C50.** The element gradient of the trilinear integrator is the exact derivative of its element
vector, when no advection field is prescribed. -/
theorem triElemGrad_exact {nd dim : Nat} {pts : List (Pt R × R)} (hp : ElemOk nd dim pts)
    (hv : ∀ pw ∈ pts, pw.1.vq = none) {u h : List R} (hu : u.length = nd * dim) {t : Nat}
    (ht : t < nd * dim) :
    ve (triElemVec nd dim pts (vadd u h)) t = ve (triElemVec nd dim pts u) t +
      ∑ s ∈ range (nd * dim), ent (triElemGrad nd dim pts u) t s * ve h s +
      ve (triElemVec nd dim pts h) t := by
  rw [triElemVec_eq hp _ ht, triElemVec_eq hp _ ht, triElemVec_eq hp _ ht,
    sum_congr rfl fun s hs => by rw [triElemGrad_eq hp u ht (mem_range.1 hs)], sum_grad]
  exact sum_three fun pw hpw => by
    obtain ⟨a, rfl, rfl⟩ := hp pw hpw
    exact triGrad_exact a (hv pw hpw) pw.2 hu ht

/-- **C50.** The element gradient of the inviscid flux integrator is the exact derivative of its
element vector. -/
theorem invElemGrad_exact {nd dim : Nat} {pts : List (Pt R × R)} (hp : ElemOk nd dim pts)
    {u h : List R} (hu : u.length = nd * dim) {t : Nat} (ht : t < nd * dim) :
    ve (invElemVec nd dim pts (vadd u h)) t = ve (invElemVec nd dim pts u) t +
      ∑ s ∈ range (nd * dim), ent (invElemGrad nd dim pts u) t s * ve h s +
      ve (invElemVec nd dim pts h) t := by
  rw [invElemVec_eq hp _ ht, invElemVec_eq hp _ ht, invElemVec_eq hp _ ht,
    sum_congr rfl fun s hs => by rw [invElemGrad_eq hp u ht (mem_range.1 hs)], sum_grad]
  exact sum_three fun pw hpw => by
    obtain ⟨a, rfl, rfl⟩ := hp pw hpw
    exact invGrad_exact a pw.2 hu ht

/-! ## C49: the fast path -/

/-- **C49.** With the precomputed coefficients of the point, `AddAssembleVector_Fast` of the trilinear
integrator adds to each reduced equation the test, with that basis vector, of the quadrature vector
of the lifted field; no advection field is prescribed. -/
theorem triFastVec_correct {p : Pt R} (hp : PtOk p) (hv : p.vq = none) {b : Mat R} (hb : MatOk b)
    {rows : List Int} (hr : RowsOk rows b.h) (hl : rows.length = p.nd * p.dim) (qw : R)
    {x y : List R} (hx : x.length = b.w) (hy : y.length = b.w) :
    ∃ s, precompute p b rows = .ok s ∧ ∃ y', triFastVec p s qw x y = .ok y' ∧ y'.length = b.w ∧
      ∀ c < b.w, ve y' c = ve y c + project b rows (triVec p qw (lift b rows x)) c :=
  ⟨_, precompute_eq hb hr, _, triFastVec_spec hp hv hb hr hl qw hx hy (precompute_eq hb hr),
    length_tab .., fun _ hc => ve_tab hc⟩

/-- **C49.** The same for the inviscid flux integrator. -/
theorem invFastVec_correct {p : Pt R} (hp : PtOk p) {b : Mat R} (hb : MatOk b)
    {rows : List Int} (hr : RowsOk rows b.h) (hl : rows.length = p.nd * p.dim) (qw : R)
    {x y : List R} (hy : y.length = b.w) :
    ∃ s, precompute p b rows = .ok s ∧ ∃ y', invFastVec p s qw x y = .ok y' ∧ y'.length = b.w ∧
      ∀ c < b.w, ve y' c = ve y c + project b rows (invVec p qw (lift b rows x)) c :=
  ⟨_, precompute_eq hb hr, _, invFastVec_spec hp hb hr hl qw hy (precompute_eq hb hr),
    length_tab .., fun _ hc => ve_tab hc⟩

/-- **C49.** With the precomputed coefficients of the point, `AddAssembleGrad_Fast` of the trilinear
integrator adds `basis^T * AssembleQuadratureGrad * basis` to the Jacobian. -/
theorem triFastGrad_correct {p : Pt R} (hp : PtOk p) {b : Mat R} (hb : MatOk b)
    {rows : List Int} (hr : RowsOk rows b.h) (hl : rows.length = p.nd * p.dim) (qw : R)
    {x : List R} (hx : x.length = b.w) {jac : Mat R} (hj : MatOk jac) (hj1 : jac.h = b.w)
    (hj2 : jac.w = b.w) :
    ∃ s, precompute p b rows = .ok s ∧
      ∃ m, triFastGrad p s qw x jac = .ok m ∧ m.h = b.w ∧ m.w = b.w ∧ MatOk m ∧
      ∀ i j, i < b.w → j < b.w → ent m i j = ent jac i j +
        project2 b rows (triGrad p qw (lift b rows x)) i j :=
  ⟨_, precompute_eq hb hr, triFastGrad_spec hp hb hr hl qw hx hj hj1 hj2 (precompute_eq hb hr)⟩

/-- **C49.** The same for the inviscid flux integrator. -/
theorem invFastGrad_correct {p : Pt R} (hp : PtOk p) {b : Mat R} (hb : MatOk b)
    {rows : List Int} (hr : RowsOk rows b.h) (hl : rows.length = p.nd * p.dim) (qw : R)
    {x : List R} {jac : Mat R} (hj : jac.data.length = b.w * b.w) (hj1 : jac.h = b.w)
    (hj2 : jac.w = b.w) :
    ∃ s, precompute p b rows = .ok s ∧
      ∃ m, invFastGrad p s qw x jac = .ok m ∧ m.h = b.w ∧ m.w = b.w ∧ m.data.length = b.w * b.w ∧
      ∀ i j, i < b.w → j < b.w → ent m i j = ent jac i j +
        project2 b rows (invGrad p qw (lift b rows x)) i j :=
  ⟨_, precompute_eq hb hr, invFastGrad_spec hp hb hr hl qw hj hj1 hj2 (precompute_eq hb hr)⟩

theorem lift_length (b : Mat R) (rows : List Int) (x : List R) :
    (lift b rows x).length = rows.length := by unfold lift; simp

theorem ve_lift {b : Mat R} {rows : List Int} {x : List R} {k : Nat} (hk : k < rows.length) :
    ve (lift b rows x) k = ∑ c ∈ range b.w, ent b (rowAt rows k) c * ve x c :=
  ve_tab (f := fun k => ∑ c ∈ range b.w, ent b (rowAt rows k) c * ve x c) hk

theorem ve_vadd {u h : List R} {i : Nat} (hi : i < u.length) : ve (vadd u h) i = ve u i + ve h i :=
  ve_tab (f := fun i => ve u i + ve h i) hi

theorem lift_vadd (b : Mat R) (rows : List Int) {x z : List R} (hx : x.length = b.w) :
    lift b rows (vadd x z) = vadd (lift b rows x) (lift b rows z) := by
  show tab rows.length _ = tab (lift b rows x).length _
  rw [lift_length]
  refine tab_congr fun k hk => ?_
  rw [ve_lift hk, ve_lift hk, ← sum_add_distrib]
  exact sum_congr rfl fun c hc => by rw [ve_vadd (by rw [hx]; exact mem_range.1 hc)]; ring

/-- A quadratic map with exact gradient, restricted to a basis, has the restricted gradient. -/
theorem project_exact {b : Mat R} {rows : List Int} {F : List R → List R} {G : Mat R} {x z : List R}
    (hx : x.length = b.w)
    (hF : ∀ t < rows.length, ve (F (vadd (lift b rows x) (lift b rows z))) t =
      ve (F (lift b rows x)) t + ∑ s ∈ range rows.length, ent G t s * ve (lift b rows z) s +
      ve (F (lift b rows z)) t) (i : Nat) :
    project b rows (F (lift b rows (vadd x z))) i = project b rows (F (lift b rows x)) i +
      ∑ j ∈ range b.w, project2 b rows G i j * ve z j + project b rows (F (lift b rows z)) i := by
  rw [lift_vadd b rows hx]
  unfold project
  rw [sum_congr rfl fun t ht => by rw [hF t (mem_range.1 ht)]]
  simp only [mul_add, sum_add_distrib]
  congr 2
  unfold project2
  simp only [sum_mul]
  rw [sum_comm]
  refine sum_congr rfl fun t _ => ?_
  rw [sum_comm, mul_sum]
  refine sum_congr rfl fun s hs => ?_
  rw [ve_lift (mem_range.1 hs), mul_sum, mul_sum]
  exact sum_congr rfl fun j _ => by ring

/-- **C50.** The fast Jacobian of the trilinear integrator is the exact derivative of its fast
residual, as a function of the reduced vector. -/
theorem triFast_exact {p : Pt R} (hp : PtOk p) (hv : p.vq = none) {b : Mat R} (hb : MatOk b)
    {rows : List Int} (hr : RowsOk rows b.h) (hl : rows.length = p.nd * p.dim) (qw : R)
    {x z : List R} (hx : x.length = b.w) (hz : z.length = b.w) {s : Pre R}
    (hs : precompute p b rows = .ok s) {y0 yx yz yxz : List R} {J : Mat R}
    (h0 : y0 = List.replicate b.w 0)
    (hyx : triFastVec p s qw x y0 = .ok yx) (hyz : triFastVec p s qw z y0 = .ok yz)
    (hyxz : triFastVec p s qw (vadd x z) y0 = .ok yxz)
    (hJ : triFastGrad p s qw x (zeroMat b.w) = .ok J) {i : Nat} (hi : i < b.w) :
    ve yxz i = ve yx i + ∑ j ∈ range b.w, ent J i j * ve z j + ve yz i := by
  have hy0 : y0.length = b.w := by rw [h0]; simp
  have hv0 : ve y0 i = 0 := by rw [h0]; simp [ve, hi]
  have hxz : (vadd x z).length = b.w := by unfold vadd; simpa using hx
  rw [triFastVec_spec hp hv hb hr hl qw hx hy0 hs] at hyx
  rw [triFastVec_spec hp hv hb hr hl qw hz hy0 hs] at hyz
  rw [triFastVec_spec hp hv hb hr hl qw hxz hy0 hs] at hyxz
  cases hyx; cases hyz; cases hyxz
  obtain ⟨m, e, -, -, -, hm⟩ := triFastGrad_spec hp hb hr hl qw hx (jac := zeroMat b.w)
    (of_ok _ _ _) rfl rfl hs
  rw [hJ] at e; cases e
  rw [ve_tab hi, ve_tab hi, ve_tab hi, hv0, zero_add, zero_add, zero_add,
    sum_congr rfl fun j hj => by
      rw [hm i j hi (mem_range.1 hj), ent_zeroMat hi (mem_range.1 hj), zero_add]]
  exact project_exact (F := triVec p qw) hx (fun t ht => by
    rw [hl]
    exact triGrad_exact hp hv qw (by rw [lift_length, hl]) (by rw [← hl]; exact ht)) i

/-- **C50.** The same for the inviscid flux integrator. -/
theorem invFast_exact {p : Pt R} (hp : PtOk p) {b : Mat R} (hb : MatOk b)
    {rows : List Int} (hr : RowsOk rows b.h) (hl : rows.length = p.nd * p.dim) (qw : R)
    {x z : List R} (hx : x.length = b.w) {s : Pre R}
    (hs : precompute p b rows = .ok s) {y0 yx yz yxz : List R} {J : Mat R}
    (h0 : y0 = List.replicate b.w 0)
    (hyx : invFastVec p s qw x y0 = .ok yx) (hyz : invFastVec p s qw z y0 = .ok yz)
    (hyxz : invFastVec p s qw (vadd x z) y0 = .ok yxz)
    (hJ : invFastGrad p s qw x (zeroMat b.w) = .ok J) {i : Nat} (hi : i < b.w) :
    ve yxz i = ve yx i + ∑ j ∈ range b.w, ent J i j * ve z j + ve yz i := by
  have hy0 : y0.length = b.w := by rw [h0]; simp
  have hv0 : ve y0 i = 0 := by rw [h0]; simp [ve, hi]
  rw [invFastVec_spec hp hb hr hl qw hy0 hs] at hyx
  rw [invFastVec_spec hp hb hr hl qw hy0 hs] at hyz
  rw [invFastVec_spec hp hb hr hl qw hy0 hs] at hyxz
  cases hyx; cases hyz; cases hyxz
  obtain ⟨m, e, -, -, -, hm⟩ := invFastGrad_spec (x := x) hp hb hr hl qw (jac := zeroMat b.w)
    (of_length _ _ _) rfl rfl hs
  rw [hJ] at e; cases e
  rw [ve_tab hi, ve_tab hi, ve_tab hi, hv0, zero_add, zero_add, zero_add,
    sum_congr rfl fun j hj => by
      rw [hm i j hi (mem_range.1 hj), ent_zeroMat hi (mem_range.1 hj), zero_add]]
  exact project_exact (F := invVec p qw) hx (fun t ht => by
    rw [hl]
    exact invGrad_exact hp qw (by rw [lift_length, hl]) (by rw [← hl]; exact ht)) i

/-! ## A concrete point -/

/-- Two shape functions in two dimensions, a sheared element (`J^-1 = [[1,1],[0,1]]`,
determinant 1), coefficient 3. -/
def pt : Pt Int :=
  { nd := 2, dim := 2, shape := [1, 2], dref := ⟨2, 2, [1, -1, 2, 5]⟩, dshape := ⟨2, 2, [1, -1, 3, 4]⟩,
    invJ := ⟨2, 2, [1, 0, 1, 1]⟩, adjJ := ⟨2, 2, [1, 0, 1, 1]⟩, weight := 1, q := some 3, vq := none }

theorem pt_ok : PtOk pt := by
  refine ⟨rfl, rfl, rfl, rfl, rfl, rfl, rfl, rfl, rfl, ?_, ?_⟩
  · intro k e (hk : k < 2) (he : e < 2)
    match k, e, hk, he with
    | 0, 0, _, _ => decide
    | 0, 1, _, _ => decide
    | 1, 0, _, _ => decide
    | 1, 1, _, _ => decide
  · intro k e (hk : k < 2) (he : e < 2)
    match k, e, hk, he with
    | 0, 0, _, _ => decide
    | 0, 1, _, _ => decide
    | 1, 0, _, _ => decide
    | 1, 1, _, _ => decide

/-- A basis of two vectors on five degrees of freedom; the element uses four of them. -/
def ptBasis : Mat Int := ⟨5, 2, [1, 0, 2, -1, 3, 0, 1, 1, 2, 7]⟩
def ptRows : List Int := [4, 0, 2, 1]

theorem ptBasis_ok : MatOk ptBasis := by unfold MatOk; decide

example : MatOk ptBasis ∧ RowsOk ptRows ptBasis.h ∧ ptRows.length = pt.nd * pt.dim ∧
    ElemOk 2 2 [(pt, 1), (pt, 2)] ∧ pt.vq = none := by
  refine ⟨ptBasis_ok, ⟨by decide, by decide⟩, rfl, ?_, rfl⟩
  intro pw hpw
  simp only [List.mem_cons, List.not_mem_nil, or_false] at hpw
  rcases hpw with rfl | rfl <;> exact ⟨pt_ok, rfl, rfl⟩

/-- The values are not trivially zero. -/
example : triVec pt 1 [1, 2, 3, 4] = [348, 696, 810, 1620] ∧
    invVec pt 1 [1, 2, 3, 4] = [570, 585, 1254, 1287] := by decide +kernel

/-- The fast path on the concrete point. -/
example : (do
    let s ← precompute pt ptBasis ptRows
    triFastVec pt s 1 [1, 1] [0, 0]) =
    .ok ((List.range 2).map (project ptBasis ptRows (triVec pt 1 (lift ptBasis ptRows [1, 1])))) := by
  decide +kernel

/-- **C50 fails with a prescribed advection field**: the trilinear gradient ignores `vQ`
(src/hyperreduction_integ.cpp:397-464), so it is not the derivative of the vector, which uses it. -/
theorem triGrad_not_exact_with_vq : ∃ (p : Pt Int) (u h : List Int) (t : Nat), PtOk p ∧
    u.length = p.nd * p.dim ∧ h.length = p.nd * p.dim ∧ t < p.nd * p.dim ∧
    ve (triVec p 1 (vadd u h)) t - ve (triVec p 1 u) t = ve (triVec p 1 h) t ∧
    ∑ s ∈ range (p.nd * p.dim), ent (triGrad p 1 u) t s * ve h s ≠ ve (triVec p 1 h) t := by
  refine ⟨{ pt with vq := some [1, 1] }, [1, 2, 3, 4], [1, 0, 0, 0], 0, ?_, rfl, rfl, by decide, ?_⟩
  · exact ⟨rfl, rfl, rfl, rfl, rfl, rfl, rfl, rfl, rfl, pt_ok.chain, pt_ok.adj⟩
  · decide +kernel

/-- **C49 fails with a prescribed advection field**: the fast path of the trilinear integrator ignores
`vQ` as well (src/hyperreduction_integ.cpp:466-491). -/
theorem triFastVec_wrong_with_vq : ∃ (p : Pt Int) (b : Mat Int) (rows : List Int) (x : List Int)
    (s : Pre Int) (y : List Int), PtOk p ∧ MatOk b ∧ RowsOk rows b.h ∧ rows.length = p.nd * p.dim ∧
    x.length = b.w ∧ precompute p b rows = .ok s ∧
    triFastVec p s 1 x (List.replicate b.w 0) = .ok y ∧
    ve y 0 ≠ project b rows (triVec p 1 (lift b rows x)) 0 := by
  let p : Pt Int := { pt with vq := some [1, 1] }
  have hp : PtOk p := ⟨rfl, rfl, rfl, rfl, rfl, rfl, rfl, rfl, rfl, pt_ok.chain, pt_ok.adj⟩
  have hr : RowsOk ptRows ptBasis.h := ⟨by decide, by decide⟩
  refine ⟨p, ptBasis, ptRows, [1, 1], _, _, hp, ptBasis_ok, hr, rfl, rfl,
    precompute_eq ptBasis_ok hr, rfl, ?_⟩
  decide +kernel

end Verif.Convection
