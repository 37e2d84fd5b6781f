import Verif.Proofs.Temam
import Mathlib.Tactic.NormNum
import Mathlib.Data.Rat.Defs
import Mathlib.Algebra.Field.Rat

/-!
# C78: the skew-symmetric convection forms

The element, face, boundary and interface integrators assemble Temam's form, their gradients are the exact
derivatives, and the form does no work except through the boundary.
-/

namespace Verif.Temam

open Verif Verif.LinAlg Verif.Spec.Temam
open Finset hiding val

variable {R : Type} [Field R]

/-! ## The assembled forms -/

/-- The element vector is the form with the function convecting itself. -/
theorem elemVec_form (nd dim : Nat) (pts : List (EPt R)) (u : Nat → R) :
    ∃ x, elemVec nd dim pts u = .ok x ∧ x.h = nd * dim ∧ x.w = 1 ∧
      ∀ v, lin (nd * dim) x v = elem dim nd pts u u v := elemVec_ok nd dim pts u

/-- The element matrix is the derivative of the form. -/
theorem elemGrad_form (nd dim : Nat) (pts : List (EPt R)) (u : Nat → R) :
    ∃ m, elemGrad nd dim pts u = .ok m ∧ m.h = nd * dim ∧ m.w = nd * dim ∧
      ∀ v h, bil (nd * dim) (nd * dim) m v h = elem dim nd pts h u v + elem dim nd pts u h v :=
  elemGrad_ok nd dim pts u

/-- The face vector on an interior face. -/
theorem faceVec_form {dim n1 n2 : Nat} (hn : n2 ≠ 0) (pts : List (FPt R)) (u : Nat → R) :
    ∃ x, faceVec dim n1 n2 pts u = .ok x ∧ x.h = dim * (n1 + n2) ∧ x.w = 1 ∧
      ∀ v, lin (dim * (n1 + n2)) x v =
        face dim n1 n2 pts (halves (n1 * dim) u) (halves (n1 * dim) u) (halves (n1 * dim) v) := faceVec_in hn pts u

/-- The face matrix on an interior face. -/
theorem faceGrad_form {dim n1 n2 : Nat} (hn : n2 ≠ 0) (pts : List (FPt R)) (u : Nat → R) :
    ∃ m, faceGrad dim n1 n2 pts u = .ok m ∧ m.h = dim * (n1 + n2) ∧ m.w = dim * (n1 + n2) ∧
      ∀ v h, bil (dim * (n1 + n2)) (dim * (n1 + n2)) m v h =
        face dim n1 n2 pts (halves (n1 * dim) h) (halves (n1 * dim) u) (halves (n1 * dim) v) +
        face dim n1 n2 pts (halves (n1 * dim) u) (halves (n1 * dim) h) (halves (n1 * dim) v) := faceGrad_in hn pts u

/-- The face vector on a boundary face. -/
theorem bdrVec_form (dim n1 : Nat) (pts : List (FPt R)) (u : Nat → R) :
    ∃ x, faceVec dim n1 0 pts u = .ok x ∧ x.h = dim * n1 ∧ x.w = 1 ∧
      ∀ v, lin (dim * n1) x v = bdr dim n1 pts u u v := faceVec_bdr dim n1 pts u

/-- The face matrix on a boundary face. -/
theorem bdrGrad_form (dim n1 : Nat) (pts : List (FPt R)) (u : Nat → R) :
    ∃ m, faceGrad dim n1 0 pts u = .ok m ∧ m.h = dim * n1 ∧ m.w = dim * n1 ∧
      ∀ v h, bil (dim * n1) (dim * n1) m v h = bdr dim n1 pts h u v + bdr dim n1 pts u h v :=
  faceGrad_bdr dim n1 pts u

/-- The vectors on an interface. -/
theorem itfVec_form (dim n1 n2 : Nat) (pts : List (FPt R)) (uf : Bool → Nat → R) :
    ∃ x, itfVec dim n1 n2 pts (uf false) (uf true) = .ok x ∧ x.1.h = dim * n1 ∧ x.1.w = 1 ∧
      x.2.h = dim * n2 ∧ x.2.w = 1 ∧
      ∀ v : Bool → Nat → R, lin (dim * n1) x.1 (v false) + lin (dim * n2) x.2 (v true) =
        face dim n1 n2 pts uf uf v := itfVec_ok dim n1 n2 pts uf

/-- The matrices on an interface; the last block is zero. -/
theorem itfGrad_form (dim n1 n2 : Nat) (pts : List (FPt R)) (uf : Bool → Nat → R) :
    ∃ e, itfGrad dim n1 n2 pts (uf false) (uf true) = .ok e ∧
      Spec.Penalty.Sized e (sz dim n1 n2) (sz dim n1 n2) ∧ (∀ r c, e.a11.val r c = 0) ∧
      ∀ v h : Bool → Nat → R, bil (dim * n1) (dim * n1) e.a00 (v false) (h false) +
        bil (dim * n1) (dim * n2) e.a01 (v false) (h true) + bil (dim * n2) (dim * n1) e.a10 (v true) (h false) =
        face dim n1 n2 pts h uf v + face dim n1 n2 pts uf h v := by
  obtain ⟨e, o, s, z, f⟩ := itfGrad_ok dim n1 n2 pts uf
  exact ⟨e, o, s, fun r c => by rw [z]; rfl, f⟩

/-- The boundary load. -/
theorem load_form (dim nd : Nat) (pts : List (LPt R)) :
    ∃ x, load dim nd pts = .ok x ∧ x.h = dim * nd ∧ x.w = 1 ∧ ∀ v, lin (dim * nd) x v = bdrLoad dim nd pts v :=
  load_ok dim nd pts

/-! ## Entries -/

/-- The coefficients of the `r`-th basis function. -/
def basis (r : Nat) : Nat → R := fun r' => if r' = r then 1 else 0

theorem lin_basis {n r : Nat} (hr : r < n) (x : Blk R) : lin n x (basis r) = x.val r 0 := by
  unfold lin basis
  rw [sum_eq_single r]
  · simp
  · intro b _ hb; simp [hb]
  · intro h; exact absurd (mem_range.2 hr) h

theorem bil_basis {n m r : Nat} (hr : r < n) (M : Blk R) (h : Nat → R) :
    bil n m M (basis r) h = ∑ c ∈ range m, M.val r c * h c := by
  unfold bil basis
  rw [sum_eq_single r]
  · simp
  · intro b _ hb; simp [hb]
  · intro h; exact absurd (mem_range.2 hr) h

theorem bil_basis₂ {n m r c : Nat} (hr : r < n) (hc : c < m) (M : Blk R) :
    bil n m M (basis r) (basis c) = M.val r c := by
  rw [bil_basis hr]
  unfold basis
  rw [sum_eq_single c]
  · simp
  · intro b _ hb; simp [hb]
  · intro h; exact absurd (mem_range.2 hc) h

/-! ## The forms are linear in each argument -/

theorem val_add (nd : Nat) (s u h : Nat → R) (d : Nat) : val nd s (u + h) d = val nd s u d + val nd s h d := by
  simp only [val, Pi.add_apply, add_mul, sum_add_distrib]

theorem der_add (nd : Nat) (p : EPt R) (u h : Nat → R) (d b : Nat) :
    der nd p (u + h) d b = der nd p u d b + der nd p h d b := by
  simp only [der, Pi.add_apply, add_mul, sum_add_distrib]

theorem conv_add_left (dim nd : Nat) (p : EPt R) (a a' u : Nat → R) (d : Nat) :
    conv dim nd p (a + a') u d = conv dim nd p a u d + conv dim nd p a' u d := by
  simp only [conv, val_add, add_mul, sum_add_distrib]

theorem conv_add_right (dim nd : Nat) (p : EPt R) (a u u' : Nat → R) (d : Nat) :
    conv dim nd p a (u + u') d = conv dim nd p a u d + conv dim nd p a u' d := by
  simp only [conv, der_add, mul_add, sum_add_distrib]

theorem normalVel_add (dim n1 : Nat) (p : FPt R) (a a' : Nat → R) :
    normalVel dim n1 p (a + a') = normalVel dim n1 p a + normalVel dim n1 p a' := by
  simp only [normalVel, val_add, mul_add, sum_add_distrib]

theorem elem_quad (dim nd : Nat) (pts : List (EPt R)) (u h v : Nat → R) :
    elem dim nd pts (u + h) (u + h) v =
      elem dim nd pts u u v + (elem dim nd pts h u v + elem dim nd pts u h v) + elem dim nd pts h h v := by
  unfold elem
  rw [← List.sum_map_add, ← List.sum_map_add, ← List.sum_map_add]
  refine congrArg List.sum (List.map_congr_left fun p _ => ?_)
  rw [← mul_add, ← mul_add, ← mul_add, ← sum_add_distrib, ← sum_add_distrib, ← sum_add_distrib]
  refine congrArg _ (sum_congr rfl fun d _ => ?_)
  simp only [conv_add_left, conv_add_right, val_add]
  ring

theorem face_quad (dim n1 n2 : Nat) (pts : List (FPt R)) (u h v : Bool → Nat → R) :
    face dim n1 n2 pts (u + h) (u + h) v =
      face dim n1 n2 pts u u v + (face dim n1 n2 pts h u v + face dim n1 n2 pts u h v) + face dim n1 n2 pts h h v := by
  unfold face
  rw [← List.sum_map_add, ← List.sum_map_add, ← List.sum_map_add]
  refine congrArg List.sum (List.map_congr_left fun p _ => ?_)
  rw [← mul_add, ← mul_add, ← mul_add]
  refine congrArg _ ?_
  simp only [mul_sum]
  rw [← sum_add_distrib, ← sum_add_distrib, ← sum_add_distrib]
  refine sum_congr rfl fun d _ => ?_
  simp only [Pi.add_apply, normalVel_add, val_add]
  ring

theorem bdr_quad (dim n1 : Nat) (pts : List (FPt R)) (u h v : Nat → R) :
    bdr dim n1 pts (u + h) (u + h) v =
      bdr dim n1 pts u u v + (bdr dim n1 pts h u v + bdr dim n1 pts u h v) + bdr dim n1 pts h h v := by
  unfold bdr
  rw [← List.sum_map_add, ← List.sum_map_add, ← List.sum_map_add]
  refine congrArg List.sum (List.map_congr_left fun p _ => ?_)
  rw [← mul_add, ← mul_add, ← mul_add]
  refine congrArg _ ?_
  simp only [mul_sum]
  rw [← sum_add_distrib, ← sum_add_distrib, ← sum_add_distrib]
  refine sum_congr rfl fun d _ => ?_
  simp only [normalVel_add, val_add]
  ring

/-! ## The gradients are the exact derivatives -/

/-- Moving the element function by `h` changes the vector by the matrix applied to `h` plus a term quadratic in
`h`, with no other remainder. -/
theorem elem_newton {nd dim : Nat} {pts : List (EPt R)} {u h : Nat → R} {x y z m : Blk R}
    (hx : elemVec nd dim pts u = .ok x) (hm : elemGrad nd dim pts u = .ok m) (hy : elemVec nd dim pts (u + h) = .ok y)
    (hz : elemVec nd dim pts h = .ok z) {r : Nat} (hr : r < nd * dim) :
    y.val r 0 = x.val r 0 + (∑ c ∈ range (nd * dim), m.val r c * h c) + z.val r 0 := by
  obtain ⟨x', e1, _, _, f1⟩ := elemVec_ok nd dim pts u
  obtain ⟨m', e2, _, _, f2⟩ := elemGrad_ok nd dim pts u
  obtain ⟨y', e3, _, _, f3⟩ := elemVec_ok nd dim pts (u + h)
  obtain ⟨z', e4, _, _, f4⟩ := elemVec_ok nd dim pts h
  cases hx.symm.trans e1; cases hm.symm.trans e2; cases hy.symm.trans e3; cases hz.symm.trans e4
  rw [← lin_basis hr, ← lin_basis hr, ← lin_basis hr, ← bil_basis hr, f1, f2, f3, f4, elem_quad]

/-- The same on an interior face. -/
theorem face_newton {dim n1 n2 : Nat} (hn : n2 ≠ 0) {pts : List (FPt R)} {u h : Nat → R} {x y z m : Blk R}
    (hx : faceVec dim n1 n2 pts u = .ok x) (hm : faceGrad dim n1 n2 pts u = .ok m)
    (hy : faceVec dim n1 n2 pts (u + h) = .ok y) (hz : faceVec dim n1 n2 pts h = .ok z) {r : Nat}
    (hr : r < dim * (n1 + n2)) :
    y.val r 0 = x.val r 0 + (∑ c ∈ range (dim * (n1 + n2)), m.val r c * h c) + z.val r 0 := by
  obtain ⟨x', e1, _, _, f1⟩ := faceVec_in (dim := dim) (n1 := n1) hn pts u
  obtain ⟨m', e2, _, _, f2⟩ := faceGrad_in (dim := dim) (n1 := n1) hn pts u
  obtain ⟨y', e3, _, _, f3⟩ := faceVec_in (dim := dim) (n1 := n1) hn pts (u + h)
  obtain ⟨z', e4, _, _, f4⟩ := faceVec_in (dim := dim) (n1 := n1) hn pts h
  cases hx.symm.trans e1; cases hm.symm.trans e2; cases hy.symm.trans e3; cases hz.symm.trans e4
  have hh : halves (n1 * dim) (u + h) = halves (n1 * dim) u + halves (n1 * dim) h := by
    funext I j; cases I <;> simp [halves]
  rw [← lin_basis hr, ← lin_basis hr, ← lin_basis hr, ← bil_basis hr, f1, f2, f3, f4, hh, face_quad]

/-- The same on a boundary face. -/
theorem bdr_newton {dim n1 : Nat} {pts : List (FPt R)} {u h : Nat → R} {x y z m : Blk R}
    (hx : faceVec dim n1 0 pts u = .ok x) (hm : faceGrad dim n1 0 pts u = .ok m)
    (hy : faceVec dim n1 0 pts (u + h) = .ok y) (hz : faceVec dim n1 0 pts h = .ok z) {r : Nat} (hr : r < dim * n1) :
    y.val r 0 = x.val r 0 + (∑ c ∈ range (dim * n1), m.val r c * h c) + z.val r 0 := by
  obtain ⟨x', e1, _, _, f1⟩ := faceVec_bdr dim n1 pts u
  obtain ⟨m', e2, _, _, f2⟩ := faceGrad_bdr dim n1 pts u
  obtain ⟨y', e3, _, _, f3⟩ := faceVec_bdr dim n1 pts (u + h)
  obtain ⟨z', e4, _, _, f4⟩ := faceVec_bdr dim n1 pts h
  cases hx.symm.trans e1; cases hm.symm.trans e2; cases hy.symm.trans e3; cases hz.symm.trans e4
  rw [← lin_basis hr, ← lin_basis hr, ← lin_basis hr, ← bil_basis hr, f1, f2, f3, f4, bdr_quad]

/-! ## No work except through the boundary -/

/-- The element vector does no work on the function itself, whatever the function, the mesh and the coefficient. -/
theorem elem_energy {nd dim : Nat} {pts : List (EPt R)} {u : Nat → R} {x : Blk R}
    (hx : elemVec nd dim pts u = .ok x) : ∑ r ∈ range (nd * dim), u r * x.val r 0 = 0 := by
  obtain ⟨x', e, _, _, f⟩ := elemVec_ok nd dim pts u
  cases hx.symm.trans e
  have := f u
  unfold lin at this
  rw [this]
  unfold elem
  simp

/-- Nor does the face vector of an interior face. -/
theorem face_energy {dim n1 n2 : Nat} (hn : n2 ≠ 0) {pts : List (FPt R)} {u : Nat → R} {x : Blk R}
    (hx : faceVec dim n1 n2 pts u = .ok x) : ∑ r ∈ range (dim * (n1 + n2)), u r * x.val r 0 = 0 := by
  obtain ⟨x', e, _, _, f⟩ := faceVec_in (dim := dim) (n1 := n1) hn pts u
  cases hx.symm.trans e
  have := f u
  unfold lin at this
  rw [this]
  unfold face
  refine List.sum_eq_zero fun t ht => ?_
  obtain ⟨p, _, rfl⟩ := List.mem_map.1 ht
  have : ∑ d ∈ range dim, (val n1 p.sh1 (halves (n1 * dim) u false) d * val n2 p.sh2 (halves (n1 * dim) u true) d -
      val n2 p.sh2 (halves (n1 * dim) u true) d * val n1 p.sh1 (halves (n1 * dim) u false) d) = 0 :=
    sum_eq_zero fun d _ => by ring
  rw [this, mul_zero, mul_zero]

/-- Nor do the two vectors of an interface together. -/
theorem itf_energy {dim n1 n2 : Nat} {pts : List (FPt R)} {u1 u2 : Nat → R} {x : Blk R × Blk R}
    (hx : itfVec dim n1 n2 pts u1 u2 = .ok x) :
    (∑ r ∈ range (dim * n1), u1 r * x.1.val r 0) + ∑ r ∈ range (dim * n2), u2 r * x.2.val r 0 = 0 := by
  obtain ⟨x', e, _, _, _, _, f⟩ := itfVec_ok dim n1 n2 pts (fun I => if I then u2 else u1)
  cases hx.symm.trans e
  have := f (fun I => if I then u2 else u1)
  unfold lin at this
  refine this.trans ?_
  unfold face
  refine List.sum_eq_zero fun t ht => ?_
  obtain ⟨p, _, rfl⟩ := List.mem_map.1 ht
  have : ∑ d ∈ range dim, (val n1 p.sh1 u1 d * val n2 p.sh2 u2 d - val n2 p.sh2 u2 d * val n1 p.sh1 u1 d) = 0 :=
    sum_eq_zero fun d _ => by ring
  exact (congrArg (fun t => 1 / 2 * p.wt * coef p.q * (normalVel dim n1 p u1 * t)) this).trans (by simp)

/-- On a boundary face the work is the kinetic energy carried by the flow: `Σ w Q (n·u) ½|u|²`. -/
theorem bdr_energy {dim n1 : Nat} {pts : List (FPt R)} {u : Nat → R} {x : Blk R}
    (hx : faceVec dim n1 0 pts u = .ok x) : ∑ r ∈ range (dim * n1), u r * x.val r 0 =
      (pts.map fun p => p.wt * coef p.q * (∑ b ∈ range dim, p.nor b * val n1 p.sh1 u b) *
        (1 / 2 * ∑ d ∈ range dim, val n1 p.sh1 u d ^ 2)).sum := by
  obtain ⟨x', e, _, _, f⟩ := faceVec_bdr dim n1 pts u
  cases hx.symm.trans e
  have := f u
  unfold lin at this
  rw [this]
  unfold bdr normalVel
  refine congrArg List.sum (List.map_congr_left fun p _ => ?_)
  have : ∑ d ∈ range dim, val n1 p.sh1 u d ^ 2 = ∑ d ∈ range dim, val n1 p.sh1 u d * val n1 p.sh1 u d :=
    sum_congr rfl fun d _ => sq _
  rw [this]
  ring

/-! ## Interface and face agree -/

theorem val_zero (nd : Nat) (s : Nat → R) (d : Nat) : val nd s (fun _ => 0) d = 0 := by simp [val]

theorem val_far {nd dim r d : Nat} (s : Nat → R) (hd : d < dim) : val nd s (basis (dim * nd + r)) d = 0 := by
  refine sum_eq_zero fun j hj => ?_
  have := mul_succ_le' (nd := nd) hd
  have hj := mem_range.1 hj
  have : d * nd + j ≠ dim * nd + r := by omega
  simp [basis, this]

/-- The basis functions of the two sides. -/
theorem halves_first {k r : Nat} (hr : r < k) :
    halves k (basis r : Nat → R) = fun I => if I then fun _ => 0 else basis r := by
  funext I j
  cases I
  · simp [halves]
  · have : k + j ≠ r := by omega
    simp [halves, basis, this]

/-- `u` on the two sides, as far as the forms look. -/
theorem face_congr {dim n1 n2 : Nat} {pts : List (FPt R)} {a a' u u' v v' : Bool → Nat → R}
    (ha : ∀ j < dim * n1, a false j = a' false j)
    (hu : (∀ j < dim * n1, u false j = u' false j) ∧ ∀ j < dim * n2, u true j = u' true j)
    (hv : (∀ j < dim * n1, v false j = v' false j) ∧ ∀ j < dim * n2, v true j = v' true j) :
    face dim n1 n2 pts a u v = face dim n1 n2 pts a' u' v' := by
  have hval : ∀ {n : Nat} {s x y : Nat → R} {d : Nat}, d < dim → (∀ j < dim * n, x j = y j) →
      val n s x d = val n s y d := by
    intro n s x y d hd h
    refine sum_congr rfl fun j hj => ?_
    have := mul_succ_le' (nd := n) hd
    have hj := mem_range.1 hj
    rw [h _ (by omega)]
  unfold face
  refine congrArg List.sum (List.map_congr_left fun p _ => ?_)
  congr 1
  have h1 : normalVel dim n1 p (a false) = normalVel dim n1 p (a' false) :=
    sum_congr rfl fun d hd => by rw [hval (mem_range.1 hd) ha]
  rw [h1]
  congr 1
  refine sum_congr rfl fun d hd => ?_
  have hd := mem_range.1 hd
  rw [hval hd hu.1, hval hd hu.2, hval hd hv.1, hval hd hv.2]

/-- The two sides of a basis function of the second element. -/
theorem halves_second {k r : Nat} : (∀ j < k, halves k (basis (k + r) : Nat → R) false j = 0) ∧
    ∀ j, halves k (basis (k + r) : Nat → R) true j = basis r j := by
  refine ⟨fun j hj => ?_, fun j => ?_⟩
  · have : j ≠ k + r := by omega
    simp [halves, basis, this]
  · simp [halves, basis]

/-- An interface assembles what a face of one mesh does: the two vectors are the two parts of the face vector. -/
theorem itfVec_eq_face {dim n1 n2 : Nat} (hn : n2 ≠ 0) {pts : List (FPt R)} {u : Nat → R} {x : Blk R}
    {y : Blk R × Blk R} (hx : faceVec dim n1 n2 pts u = .ok x)
    (hy : itfVec dim n1 n2 pts u (fun j => u (n1 * dim + j)) = .ok y) :
    (∀ r < dim * n1, y.1.val r 0 = x.val r 0) ∧ ∀ r < dim * n2, y.2.val r 0 = x.val (n1 * dim + r) 0 := by
  obtain ⟨x', e1, _, _, f1⟩ := faceVec_in (dim := dim) (n1 := n1) hn pts u
  have hu : halves (n1 * dim) u true = fun j => u (n1 * dim + j) := by funext j; simp [halves]
  obtain ⟨y', e2, _, _, _, _, f2⟩ := itfVec_ok dim n1 n2 pts (halves (n1 * dim) u)
  rw [halves_false, hu] at e2
  cases hx.symm.trans e1; cases hy.symm.trans e2
  have z : ∀ n (y : Blk R), lin n y (fun _ => 0) = 0 := fun n y => by simp [lin]
  have hm : dim * (n1 + n2) = dim * n1 + dim * n2 := Nat.mul_add _ _ _
  have hc : n1 * dim = dim * n1 := Nat.mul_comm _ _
  refine ⟨fun r hr => ?_, fun r hr => ?_⟩
  · have g := f2 (fun I => if I then fun _ => 0 else basis r)
    simp only [if_true, Bool.false_eq_true, if_false] at g
    rw [z, lin_basis hr, add_zero] at g
    rw [g, ← lin_basis (show r < dim * (n1 + n2) by omega), f1, halves_first (by omega)]
  · have g := f2 (fun I => if I then basis r else fun _ => 0)
    simp only [if_true, Bool.false_eq_true, if_false] at g
    rw [z, lin_basis hr, zero_add] at g
    rw [g, ← lin_basis (show n1 * dim + r < dim * (n1 + n2) by omega), f1]
    refine face_congr (fun _ _ => rfl) ⟨fun _ _ => rfl, fun _ _ => rfl⟩ ⟨fun j hj => ?_, fun j _ => ?_⟩
    · rw [halves_second.1 j (by omega)]; rfl
    · rw [halves_second.2 j]; rfl

/-- … and the four matrices are the four blocks of the face matrix. -/
theorem itfGrad_eq_face {dim n1 n2 : Nat} (hn : n2 ≠ 0) {pts : List (FPt R)} {u : Nat → R} {m : Blk R} {e : Penalty.Four R}
    (hm : faceGrad dim n1 n2 pts u = .ok m) (he : itfGrad dim n1 n2 pts u (fun j => u (n1 * dim + j)) = .ok e) :
    (∀ r < dim * n1, ∀ c < dim * n1, e.a00.val r c = m.val r c) ∧
    (∀ r < dim * n1, ∀ c < dim * n2, e.a01.val r c = m.val r (n1 * dim + c)) ∧
    (∀ r < dim * n2, ∀ c < dim * n1, e.a10.val r c = m.val (n1 * dim + r) c) ∧
    ∀ r < dim * n2, ∀ c < dim * n2, e.a11.val r c = m.val (n1 * dim + r) (n1 * dim + c) := by
  obtain ⟨m', e1, _, _, f1⟩ := faceGrad_in (dim := dim) (n1 := n1) hn pts u
  have hu : halves (n1 * dim) u true = fun j => u (n1 * dim + j) := by funext j; simp [halves]
  obtain ⟨y', e2, _, hz, f2⟩ := itfGrad_ok dim n1 n2 pts (halves (n1 * dim) u)
  rw [halves_false, hu] at e2
  cases hm.symm.trans e1; cases he.symm.trans e2
  have z1 : ∀ n m (y : Blk R) h, bil n m y (fun _ => 0) h = 0 := fun n m y h => by simp [bil]
  have z2 : ∀ n m (y : Blk R) v, bil n m y v (fun _ => 0) = 0 := fun n m y h => by simp [bil]
  have hm : dim * (n1 + n2) = dim * n1 + dim * n2 := Nat.mul_add _ _ _
  have hc : n1 * dim = dim * n1 := Nat.mul_comm _ _
  have sec : ∀ r, (∀ j < dim * n1, (if false = true then basis r else fun _ => (0 : R) : Nat → R) j =
      halves (n1 * dim) (basis (n1 * dim + r)) false j) ∧
      ∀ j < dim * n2, (if true = true then basis r else fun _ => (0 : R) : Nat → R) j =
      halves (n1 * dim) (basis (n1 * dim + r)) true j := fun r =>
    ⟨fun j hj => by rw [halves_second.1 j (by omega)]; rfl, fun j _ => by rw [halves_second.2 j]; rfl⟩
  refine ⟨fun r hr c hc' => ?_, fun r hr c hc' => ?_, fun r hr c hc' => ?_, fun r hr c hc' => ?_⟩
  · have g := f2 (fun I => if I then fun _ => 0 else basis r) (fun I => if I then fun _ => 0 else basis c)
    simp only [if_true, Bool.false_eq_true, if_false] at g
    rw [z1, z2, bil_basis₂ hr hc', add_zero, add_zero] at g
    rw [g, ← bil_basis₂ (show r < dim * (n1 + n2) by omega) (show c < dim * (n1 + n2) by omega), f1,
      halves_first (by omega), halves_first (by omega)]
  · have g := f2 (fun I => if I then fun _ => 0 else basis r) (fun I => if I then basis c else fun _ => 0)
    simp only [if_true, Bool.false_eq_true, if_false] at g
    rw [z1, z2, bil_basis₂ hr hc', zero_add, add_zero] at g
    rw [g, ← bil_basis₂ (show r < dim * (n1 + n2) by omega) (show n1 * dim + c < dim * (n1 + n2) by omega), f1,
      halves_first (r := r) (by omega)]
    congr 1
    · exact face_congr (sec c).1 ⟨fun _ _ => rfl, fun _ _ => rfl⟩ ⟨fun _ _ => rfl, fun _ _ => rfl⟩
    · exact face_congr (fun _ _ => rfl) (sec c) ⟨fun _ _ => rfl, fun _ _ => rfl⟩
  · have g := f2 (fun I => if I then basis r else fun _ => 0) (fun I => if I then fun _ => 0 else basis c)
    simp only [if_true, Bool.false_eq_true, if_false] at g
    rw [z1, z1, bil_basis₂ hr hc', zero_add, zero_add] at g
    rw [g, ← bil_basis₂ (show n1 * dim + r < dim * (n1 + n2) by omega) (show c < dim * (n1 + n2) by omega), f1,
      halves_first (r := c) (by omega)]
    congr 1
    · exact face_congr (fun _ _ => rfl) ⟨fun _ _ => rfl, fun _ _ => rfl⟩ (sec r)
    · exact face_congr (fun _ _ => rfl) ⟨fun _ _ => rfl, fun _ _ => rfl⟩ (sec r)
  · have g := f2 (fun I => if I then basis r else fun _ => 0) (fun I => if I then basis c else fun _ => 0)
    simp only [if_true, Bool.false_eq_true, if_false] at g
    rw [z1, z1, z2, zero_add, zero_add] at g
    rw [hz, ← bil_basis₂ (show n1 * dim + r < dim * (n1 + n2) by omega)
      (show n1 * dim + c < dim * (n1 + n2) by omega) m, f1]
    refine (show (Penalty.zeros (dim * n2) (dim * n2) : Blk R).val r c = 0 from rfl).trans (g.trans ?_)
    congr 1
    · exact face_congr (sec c).1 ⟨fun _ _ => rfl, fun _ _ => rfl⟩ (sec r)
    · exact face_congr (fun _ _ => rfl) (sec c) (sec r)

/-! ## Which side comes first -/

/-- The form does not depend on which side comes first where the normal velocity of the convecting function is the
same on both sides. -/
theorem face_swap {dim n1 n2 : Nat} {pts : List (FPt R)} {a u v : Bool → Nat → R}
    (hc : ∀ p ∈ pts, ∑ b ∈ range dim, p.nor b * val n1 p.sh1 (a false) b =
      ∑ b ∈ range dim, p.nor b * val n2 p.sh2 (a true) b) :
    face dim n2 n1 (pts.map swapPt) (fun I => a !I) (fun I => u !I) (fun I => v !I) = face dim n1 n2 pts a u v := by
  unfold face
  rw [List.map_map]
  refine congrArg List.sum (List.map_congr_left fun p hp => ?_)
  have h1 : normalVel dim n2 (swapPt p) (a true) = -normalVel dim n1 p (a false) := by
    unfold normalVel
    rw [hc p hp, ← sum_neg_distrib]
    exact sum_congr rfl fun b _ => by simp [swapPt]
  have h2 : ∑ d ∈ range dim, (val n2 p.sh2 (u true) d * val n1 p.sh1 (v false) d -
      val n1 p.sh1 (u false) d * val n2 p.sh2 (v true) d) = -∑ d ∈ range dim,
      (val n1 p.sh1 (u false) d * val n2 p.sh2 (v true) d - val n2 p.sh2 (u true) d * val n1 p.sh1 (v false) d) := by
    rw [← sum_neg_distrib]
    exact sum_congr rfl fun d _ => by ring
  show 1 / 2 * p.wt * coef p.q * (normalVel dim n2 (swapPt p) (a true) * ∑ d ∈ range dim,
    (val n2 p.sh2 (u true) d * val n1 p.sh1 (v false) d - val n1 p.sh1 (u false) d * val n2 p.sh2 (v true) d)) = _
  rw [h1, h2]
  ring

/-- Then the vectors assembled from the two sides are the same. -/
theorem itfVec_swap {dim n1 n2 : Nat} {pts : List (FPt R)} {u1 u2 : Nat → R} {x y : Blk R × Blk R}
    (hc : ∀ p ∈ pts, ∑ b ∈ range dim, p.nor b * val n1 p.sh1 u1 b = ∑ b ∈ range dim, p.nor b * val n2 p.sh2 u2 b)
    (hx : itfVec dim n1 n2 pts u1 u2 = .ok x) (hy : itfVec dim n2 n1 (pts.map swapPt) u2 u1 = .ok y) :
    (∀ r < dim * n1, y.2.val r 0 = x.1.val r 0) ∧ ∀ r < dim * n2, y.1.val r 0 = x.2.val r 0 := by
  obtain ⟨x', e1, _, _, _, _, f1⟩ := itfVec_ok dim n1 n2 pts (fun I => if I then u2 else u1)
  obtain ⟨y', e2, _, _, _, _, f2⟩ := itfVec_ok dim n2 n1 (pts.map swapPt) (fun I => if !I then u2 else u1)
  cases hx.symm.trans e1; cases hy.symm.trans e2
  have z : ∀ n (y : Blk R), lin n y (fun _ => 0) = 0 := fun n y => by simp [lin]
  have key : ∀ v : Bool → Nat → R, lin (dim * n2) y.1 (v true) + lin (dim * n1) y.2 (v false) =
      lin (dim * n1) x.1 (v false) + lin (dim * n2) x.2 (v true) := fun v =>
    (f2 (fun I => v !I)).trans ((face_swap (a := fun I => if I then u2 else u1) (u := fun I => if I then u2 else u1)
      (v := v) hc).trans (f1 v).symm)
  refine ⟨fun r hr => ?_, fun r hr => ?_⟩
  · have := key (fun I => if I then fun _ => 0 else basis r)
    simp only [if_true, Bool.false_eq_true, if_false] at this
    rwa [z, z, lin_basis hr, lin_basis hr, zero_add, add_zero] at this
  · have := key (fun I => if I then basis r else fun _ => 0)
    simp only [if_true, Bool.false_eq_true, if_false] at this
    rwa [z, z, lin_basis hr, lin_basis hr, zero_add, add_zero] at this

/-- A point of a face in one dimension with one shape function on either side. -/
def pt1 : FPt Rat := { wt := 1, q := none, nor := fun _ => 1, sh1 := fun _ => 1, sh2 := fun _ => 1 }

/-- Where the normal velocity jumps, the assembled vectors do depend on which side comes first: with the values 1
and 2 on the two sides, the first side receives -1 when it comes first and -2 when it comes second. -/
theorem itfVec_depends_on_order : ∃ x y : Blk Rat × Blk Rat,
    itfVec 1 1 1 [pt1] (fun _ => 1) (fun _ => 2) = .ok x ∧
    itfVec 1 1 1 ([pt1].map swapPt) (fun _ => 2) (fun _ => 1) = .ok y ∧ x.1.val 0 0 = -1 ∧ y.2.val 0 0 = -2 := by
  obtain ⟨x, e1, _, _, _, _, f1⟩ := itfVec_ok 1 1 1 [pt1] (fun I => if I then fun _ => 2 else fun _ => 1)
  obtain ⟨y, e2, _, _, _, _, f2⟩ := itfVec_ok 1 1 1 ([pt1].map swapPt) (fun I => if I then fun _ => 1 else fun _ => 2)
  refine ⟨x, y, e1, e2, ?_, ?_⟩
  · have := f1 (fun I => if I then fun _ => 0 else basis 0)
    simpa [lin, basis, face, val, normalVel, coef, pt1] using this
  · have := f2 (fun I => if I then basis 0 else fun _ => 0)
    simpa [lin, basis, face, val, normalVel, coef, pt1, swapPt] using this

/-! ## The boundary load -/

/-- The point of the load on a boundary face whose velocity is prescribed. -/
def loadPtOf (g : FPt R → Nat → R) (p : FPt R) : LPt R :=
  { wt := p.wt, z := some (1 / 2 * coef p.q), nor := p.nor, g := g p, shape := p.sh1 }

/-- With half the coefficient the load is the boundary flux of any function that takes the prescribed values: moved
to the right-hand side it cancels the flux exactly. -/
theorem load_consistent {dim n1 : Nat} {pts : List (FPt R)} {u : Nat → R} {g : FPt R → Nat → R} {x y : Blk R}
    (hg : ∀ p ∈ pts, ∀ d < dim, val n1 p.sh1 u d = g p d) (hx : faceVec dim n1 0 pts u = .ok x)
    (hy : load dim n1 (pts.map (loadPtOf g)) = .ok y) : ∀ r < dim * n1, y.val r 0 = x.val r 0 := by
  obtain ⟨x', e1, _, _, f1⟩ := faceVec_bdr dim n1 pts u
  obtain ⟨y', e2, _, _, f2⟩ := load_ok dim n1 (pts.map (loadPtOf g))
  cases hx.symm.trans e1; cases hy.symm.trans e2
  intro r hr
  rw [← lin_basis hr, ← lin_basis hr, f1, f2]
  unfold bdrLoad bdr
  rw [List.map_map]
  refine congrArg List.sum (List.map_congr_left fun p hp => ?_)
  have h1 : ∑ b ∈ range dim, p.nor b * g p b = normalVel dim n1 p u :=
    sum_congr rfl fun b hb => by rw [hg p hp b (mem_range.1 hb)]
  have h2 : ∑ d ∈ range dim, g p d * val n1 p.sh1 (basis r) d = ∑ d ∈ range dim, val n1 p.sh1 u d * val n1 p.sh1 (basis r) d :=
    sum_congr rfl fun b hb => by rw [hg p hp b (mem_range.1 hb)]
  show p.wt * (1 / 2 * coef p.q) * ((∑ b ∈ range dim, p.nor b * g p b) *
    ∑ d ∈ range dim, g p d * val n1 p.sh1 (basis r) d) = _
  rw [h1, h2]
  ring

/-! ## Concrete cases -/

/-- A point of an interval with two shape functions, values 1/4 and 3/4, derivatives -1 and 1. -/
def ept : EPt Rat :=
  { wt := 2, q := some 3, shape := fun j => if j = 0 then 1 / 4 else 3 / 4
    dshape := fun j _ => if j = 0 then -1 else 1 }

/-- A point of a face in two dimensions, one shape function on the first side and two on the second. -/
def fpt : FPt Rat :=
  { wt := 2, q := some 3, nor := fun a => if a = 0 then 1 else 2, sh1 := fun _ => 1
    sh2 := fun j => if j = 0 then 1 / 2 else 1 }

/-- With `u = (1, 2)`: value 7/4, derivative 1, so the vector is `3 * (7/4 * φ - 49/16 * φ')`. -/
example : (elemVec 2 1 [ept] (fun j => j + 1)).toOption.map (fun x => (x.val 0 0, x.val 1 0)) =
    some (3 * (7 / 4 * (1 / 4) + 49 / 16), 3 * (7 / 4 * (3 / 4) - 49 / 16)) := by decide +kernel

/-- Its work on `u` vanishes although the vector does not. -/
example : (1 : Rat) * (3 * (7 / 4 * (1 / 4) + 49 / 16)) + 2 * (3 * (7 / 4 * (3 / 4) - 49 / 16)) = 0 := by norm_num

/-- The gradient at the same function has non-zero entries. -/
example : (elemGrad 2 1 [ept] (fun j => j + 1)).toOption.map (fun m => m.val 0 1) =
    some (3 * (7 / 4 * (3 / 4) + 1 / 4 * (7 / 4) + 7 / 4 * (3 / 4) + 1 / 4 * (3 / 4))) := by decide +kernel

/-- An interior face in two dimensions: all parts of the vector are met. -/
example : (faceVec 2 1 2 [fpt] (fun j => j + 1)).toOption.map (fun x => (x.val 0 0, x.val 1 0, x.val 2 0, x.val 5 0)) =
    some (-(15 * (3 / 2 + 4)), -(15 * (5 / 2 + 6)), 15 * (1 / 2), 15 * 2) := by decide +kernel

/-- The normal velocity is continuous where both sides take the same values: `u1 = (1, 2)` and `u2` with
coefficients `(0, 1), (0, 2)`. -/
example : ∀ p ∈ [fpt], ∑ b ∈ range 2, p.nor b * val 1 p.sh1 (fun j => (j : Rat) + 1) b =
    ∑ b ∈ range 2, p.nor b * val 2 p.sh2 (fun j => if j = 1 then 1 else if j = 3 then 2 else 0) b := by
  decide +kernel

/-- Prescribed values met by a function on the boundary. -/
example : ∀ p ∈ [fpt], ∀ d < 2, val 1 p.sh1 (fun j => (j : Rat) + 1) d = if d = 0 then 1 else 2 := by
  decide +kernel

end Verif.Temam
