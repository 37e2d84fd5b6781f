import Verif.Proofs.Penalty
import Mathlib.Data.Rat.Defs
import Mathlib.Algebra.Order.Ring.Rat

/-!
# C77: the interior-penalty and normal-flux integrators

The forms the matrices are compared with are in `Verif.Spec.Penalty`.
-/

namespace Verif.Penalty

open Verif Verif.LinAlg Verif.Spec.Penalty Finset

variable {R : Type} [Field R] [DecidableEq R]

/-! ## The matrices are the forms -/

/-- **C77.** The scalar interface matrices are the interior-penalty form, for every coefficient, penalty,
number of shape functions on each side and quadrature rule. -/
theorem diffusion_form {d : Dims} {sigma kappa : R} {pts : List (Pt R)} (hp : Regular pts) :
    ∃ m, diffusion d sigma kappa pts = .ok m ∧ Sized m (nd d) (nd d) ∧
      ∀ v u, pairing (nd d) (nd d) (fun I J => (blk m I J).val) v u = ipForm d (·.coef) sigma kappa pts v u :=
  diffusion_ok hp

/-- **C77.** The vector interface matrices are the interior-penalty form, component by component. -/
theorem vecDiffusion_form {d : Dims} {alpha kappa : R} {pts : List (Pt R)} (hp : Regular pts) :
    ∃ m, vecDiffusion d alpha kappa pts = .ok m ∧ Sized m (nv d) (nv d) ∧
      ∀ v u, pairing (nv d) (nv d) (fun I J => (blk m I J).val) v u = vecForm d alpha kappa pts v u :=
  vecDiffusion_ok hp

/-- **C77.** The elasticity interface matrices are the interior-penalty form of linear elasticity. -/
theorem elasticity_form {d : Dims} {alpha kappa : R} {pts : List (Pt R)} (hp : Regular pts) :
    ∃ m, elasticity d alpha kappa pts = .ok m ∧ Sized m (nv d) (nv d) ∧
      ∀ v u, pairing (nv d) (nv d) (fun I J => (blk m I J).val) v u = elForm d alpha kappa pts v u :=
  elasticity_ok hp

/-- **C77.** The normal-flux interface matrices are `<{q}, [u] · n>`. -/
theorem normalFlux_form (d : MDims) (pts : List (MPt R)) :
    ∃ m, normalFlux d pts = .ok m ∧ Sized m (teN d) (tw d) ∧
      ∀ q u, pairing (teN d) (tw d) (fun I J => (blk m I J).val) q u = fluxForm d pts q u :=
  normalFlux_pairing d pts

/-! ## Interfaces agree with faces inside a mesh -/

/-- **C77.** On a face inside one mesh the vector integrator assembles the matrix whose four blocks are those of
the interface integrator: cutting a mesh in two does not change the discretisation. -/
theorem vecFace_eq_interface {d : Dims} {alpha kappa : R} {pts : List (Pt R)} (hn : d.n2 ≠ 0) (hp : Regular pts) :
    ∃ m E, vecDiffusion d alpha kappa pts = .ok m ∧ vecFace d alpha kappa pts = .ok E ∧
      E.h = nv d false + nv d true ∧ E.w = nv d false + nv d true ∧
      ∀ I J r c, r < nv d I → c < nv d J → E.val (roff d I + r) (roff d J + c) = (blk m I J).val r c := by
  obtain ⟨m, e, _, v, _⟩ := vec_ok (alpha := alpha) (kappa := kappa) (d := d) vecFlux_eq vecBlock_ok hp
  obtain ⟨E, e', h1, h2, v'⟩ := vecFace_ok (alpha := alpha) (kappa := kappa) hn hp
  exact ⟨m, E, e, e', h1, h2, fun I J r c hr hc => by rw [v I J r c hr hc, v' I J r c hr hc]⟩

/-- **C77.** On a boundary face the vector integrator assembles the Nitsche form. -/
theorem vecFace_boundary {d : Dims} {alpha kappa : R} {pts : List (Pt R)} (hn : d.n2 = 0)
    (hp : ∀ p ∈ pts, p.s1.det ≠ 0) :
    ∃ E, vecFace d alpha kappa pts = .ok E ∧ E.h = d.dim * d.n1 ∧ E.w = d.dim * d.n1 ∧
      ∀ v u : Nat → R, ∑ r ∈ range (d.dim * d.n1), ∑ c ∈ range (d.dim * d.n1), v r * E.val r c * u c =
        bdrForm d alpha kappa pts v u := vecBdr_ok hn hp

omit [DecidableEq R] in
/-- **C77.** The same for the normal flux: the face matrix has the blocks of the interface. -/
theorem fluxFace_eq_interface {d : MDims} (hn : d.tr2 ≠ 0) (pts : List (MPt R)) :
    ∃ m E, normalFlux d pts = .ok m ∧ fluxFace d pts = .ok E ∧
      E.h = teN d false + teN d true ∧ E.w = tw d false + tw d true ∧
      ∀ I J r c, r < teN d I → c < tw d J → E.val (teOff d I + r) (trOff d J + c) = (blk m I J).val r c := by
  obtain ⟨m, e, _, v⟩ := normalFlux_ok d pts
  obtain ⟨E, e', h1, h2, v'⟩ := fluxFace_ok hn pts
  exact ⟨m, E, e, e', h1, h2, fun I J r c hr hc => by rw [v I J r c hr hc, v' I J r c hr hc]⟩

omit [DecidableEq R] in
/-- **C77.** On a boundary face it is `<q, u · n>`. -/
theorem fluxFace_boundary {d : MDims} (hn : d.tr2 = 0) (hn' : d.te2 = 0) (pts : List (MPt R)) :
    ∃ E, fluxFace d pts = .ok E ∧ E.h = d.te1 ∧ E.w = d.dim * d.tr1 ∧
      ∀ q u : Nat → R, ∑ r ∈ range d.te1, ∑ c ∈ range (d.dim * d.tr1), q r * E.val r c * u c = bdrFluxForm d pts q u :=
  fluxBdr_ok hn hn' pts

/-! ## Consequences -/

/-- The function with one coefficient. -/
def unit (I : Bool) (r : Nat) : Bool → Nat → R := fun I' r' => if I' = I ∧ r' = r then 1 else 0

omit [DecidableEq R] in
theorem entry_of_pairing {h w : Bool → Nat} {E : Bool → Bool → Nat → Nat → R} {I J : Bool} {r c : Nat}
    (hr : r < h I) (hc : c < w J) : pairing h w E (unit I r) (unit J c) = E I J r c := by
  unfold pairing unit
  rw [sum_eq_single I]
  · rw [sum_eq_single r]
    · rw [sum_eq_single J]
      · rw [sum_eq_single c]
        · simp
        · intro b _ hb; simp [hb]
        · intro h'; exact absurd (mem_range.2 hc) h'
      · intro b _ hb; simp [hb]
      · intro h'; exact absurd (mem_univ J) h'
    · intro b _ hb; simp [hb]
    · intro h'; exact absurd (mem_range.2 hr) h'
  · intro b _ hb; simp [hb]
  · intro h'; exact absurd (mem_univ I) h'

omit [DecidableEq R] in
theorem ipForm_symm (d : Dims) (Q : Side R → Coef R) (kappa : R) (pts : List (Pt R)) (v u : Bool → Nat → R) :
    ipForm d Q (-1) kappa pts v u = ipForm d Q (-1) kappa pts u v :=
  congrArg _ (List.map_congr_left fun p _ => by ring)

omit [DecidableEq R] in
theorem elForm_symm (d : Dims) (kappa : R) (pts : List (Pt R)) (v u : Bool → Nat → R) :
    elForm d (-1) kappa pts v u = elForm d (-1) kappa pts u v :=
  congrArg List.sum (List.map_congr_left fun p _ =>
    congrArg (p.wt * ·) (sum_congr rfl fun c _ => by ring))

/-- **C77.** With `sigma = -1` the assembled interface matrices are symmetric: block `(J, I)` is the transpose of
block `(I, J)`, for the scalar, the vector and the elasticity integrator, whatever the coefficients (the scalar one
even for a coefficient matrix that is not symmetric). -/
theorem symmetric {d : Dims} {kappa : R} {pts : List (Pt R)} (hp : Regular pts) :
    (∃ m, diffusion d (-1) kappa pts = .ok m ∧ ∀ I J r c, r < nd d I → c < nd d J →
      (blk m J I).val c r = (blk m I J).val r c) ∧
    (∃ m, vecDiffusion d (-1) kappa pts = .ok m ∧ ∀ I J r c, r < nv d I → c < nv d J →
      (blk m J I).val c r = (blk m I J).val r c) ∧
    (∃ m, elasticity d (-1) kappa pts = .ok m ∧ ∀ I J r c, r < nv d I → c < nv d J →
      (blk m J I).val c r = (blk m I J).val r c) := by
  obtain ⟨m1, e1, _, v1⟩ := diffusion_form (d := d) (sigma := -1) (kappa := kappa) hp
  obtain ⟨m2, e2, _, v2⟩ := vecDiffusion_form (d := d) (alpha := -1) (kappa := kappa) hp
  obtain ⟨m3, e3, _, v3⟩ := elasticity_form (d := d) (alpha := -1) (kappa := kappa) hp
  refine ⟨⟨m1, e1, fun I J r c hr hc => ?_⟩, ⟨m2, e2, fun I J r c hr hc => ?_⟩, ⟨m3, e3, fun I J r c hr hc => ?_⟩⟩
  · rw [← entry_of_pairing (E := fun I J => (blk m1 I J).val) hr hc,
      ← entry_of_pairing (E := fun I J => (blk m1 I J).val) hc hr, v1, v1, ipForm_symm]
  · rw [← entry_of_pairing (E := fun I J => (blk m2 I J).val) hr hc,
      ← entry_of_pairing (E := fun I J => (blk m2 I J).val) hc hr, v2, v2, vecForm, vecForm]
    exact sum_congr rfl fun k _ => ipForm_symm ..
  · rw [← entry_of_pairing (E := fun I J => (blk m3 I J).val) hr hc,
      ← entry_of_pairing (E := fun I J => (blk m3 I J).val) hc hr, v3, v3, elForm_symm]

/-- **C77.** Nothing is added for two functions that match across the interface. -/
theorem zero_of_no_jump {d : Dims} {sigma kappa : R} {pts : List (Pt R)} (hp : Regular pts)
    {v u : Bool → Nat → R} (hv : ∀ p ∈ pts, jump d p v = 0) (hu : ∀ p ∈ pts, jump d p u = 0) :
    ∃ m, diffusion d sigma kappa pts = .ok m ∧ pairing (nd d) (nd d) (fun I J => (blk m I J).val) v u = 0 := by
  obtain ⟨m, e, _, v'⟩ := diffusion_form (d := d) (sigma := sigma) (kappa := kappa) hp
  refine ⟨m, e, ?_⟩
  rw [v']
  refine List.sum_eq_zero fun y hy => ?_
  obtain ⟨p, hp', rfl⟩ := List.mem_map.1 hy
  simp [hv p hp', hu p hp']

/-- **C77.** With `sigma = 1` only the penalty contributes to the energy: the consistency terms cancel. -/
theorem energy_nonsymmetric {d : Dims} {kappa : R} {pts : List (Pt R)} (hp : Regular pts) :
    ∃ m, diffusion d 1 kappa pts = .ok m ∧ ∀ u, pairing (nd d) (nd d) (fun I J => (blk m I J).val) u u =
      (pts.map fun p => p.wt * (kappa * penalty d (·.coef) p * (jump d p u) ^ 2)).sum := by
  obtain ⟨m, e, _, v'⟩ := diffusion_form (d := d) (sigma := 1) (kappa := kappa) hp
  refine ⟨m, e, fun u => ?_⟩
  rw [v']
  exact congrArg _ (List.map_congr_left fun p _ => by ring)

/-! ### The side from which an interface is seen -/

/-- A function seen from the other side. -/
def swapFn (u : Bool → Nat → R) : Bool → Nat → R := fun I => u (!I)

omit [DecidableEq R] in
theorem side_swap (p : Pt R) (I : Bool) : side (swapPt p) I = side p (!I) := by cases I <;> rfl

theorem nd_swap (d : Dims) (I : Bool) : nd (swapDims d) I = nd d (!I) := by cases I <;> rfl

omit [DecidableEq R] in
theorem apply_neg (dim : Nat) (c : Coef R) (g : Nat → R) (a : Nat) :
    apply dim c (fun b => -g b) a = -apply dim c g a := by
  cases c <;> simp [apply]

omit [DecidableEq R] in
theorem flux_swap (d : Dims) (Q : Side R → Coef R) (p : Pt R) (I : Bool) (u : Nat → R) :
    flux (swapDims d) Q (swapPt p) I u = -flux d Q p (!I) u := by
  unfold flux
  rw [side_swap, nd_swap, ← sum_neg_distrib]
  exact sum_congr rfl fun a _ => by simp only [swapPt, swapDims]; ring

omit [DecidableEq R] in
theorem jump_swap (d : Dims) (p : Pt R) (u : Bool → Nat → R) :
    jump (swapDims d) (swapPt p) (swapFn u) = -jump d p u := by
  simp only [jump, swapDims, swapPt, swapFn, nd, Bool.not_false, Bool.not_true]
  ring

omit [DecidableEq R] in
theorem avgFlux_swap (d : Dims) (Q : Side R → Coef R) (p : Pt R) (u : Bool → Nat → R) :
    avgFlux (swapDims d) Q (swapPt p) (swapFn u) = -avgFlux d Q p u := by
  simp only [avgFlux, flux_swap, swapFn, Bool.not_false, Bool.not_true]
  ring

omit [DecidableEq R] in
theorem penalty_swap (d : Dims) (Q : Side R → Coef R) (p : Pt R) :
    penalty (swapDims d) Q (swapPt p) = penalty d Q p := by
  simp only [penalty, swapDims, swapPt, apply_neg, neg_mul_neg]
  ring

omit [DecidableEq R] in
theorem ipForm_swap (d : Dims) (Q : Side R → Coef R) (sigma kappa : R) (pts : List (Pt R)) (v u : Bool → Nat → R) :
    ipForm (swapDims d) Q sigma kappa (pts.map swapPt) (swapFn v) (swapFn u) = ipForm d Q sigma kappa pts v u := by
  unfold ipForm
  rw [List.map_map]
  refine congrArg _ (List.map_congr_left fun p _ => ?_)
  simp only [Function.comp_apply, avgFlux_swap, jump_swap, penalty_swap]
  simp only [swapPt]
  ring

omit [Field R] [DecidableEq R] in
theorem comp_swap (d : Dims) (c : Nat) (u : Bool → Nat → R) :
    comp (swapDims d) c (swapFn u) = swapFn (comp d c u) := by
  funext I j
  simp only [comp, swapFn, nd_swap]

omit [DecidableEq R] in
theorem stress_swap (d : Dims) (p : Pt R) (I : Bool) (u : Bool → Nat → R) (a b : Nat) :
    stress (swapDims d) (swapPt p) I (swapFn u) a b = stress d p (!I) u a b := by
  simp only [stress, side_swap, nd_swap, comp_swap]
  rfl

omit [DecidableEq R] in
theorem avgTraction_swap (d : Dims) (p : Pt R) (u : Bool → Nat → R) (a : Nat) :
    avgTraction (swapDims d) (swapPt p) (swapFn u) a = -avgTraction d p u a := by
  simp only [avgTraction, stress_swap, Bool.not_false, Bool.not_true]
  simp only [swapPt, swapDims, mul_neg, sum_neg_distrib]
  ring

omit [DecidableEq R] in
theorem elForm_swap (d : Dims) (alpha kappa : R) (pts : List (Pt R)) (v u : Bool → Nat → R) :
    elForm (swapDims d) alpha kappa (pts.map swapPt) (swapFn v) (swapFn u) = elForm d alpha kappa pts v u := by
  unfold elForm
  rw [List.map_map]
  refine congrArg _ (List.map_congr_left fun p _ => ?_)
  have : elPenalty (swapDims d) (swapPt p) = elPenalty d p := by
    simp only [elPenalty, swapDims, swapPt, neg_mul_neg]
    ring
  simp only [Function.comp_apply, avgTraction_swap, comp_swap, jump_swap, this]
  simp only [swapPt, swapDims]
  congr 1
  exact sum_congr rfl fun c _ => by ring

omit [DecidableEq R] in
theorem unit_swap (I : Bool) (r : Nat) : swapFn (unit (!I) r : Bool → Nat → R) = unit I r := by
  funext I' r'
  cases I <;> cases I' <;> simp [swapFn, unit]

omit [DecidableEq R] in
theorem Regular.swap {pts : List (Pt R)} (h : Regular pts) : Regular (pts.map swapPt) := by
  intro p hp
  obtain ⟨q, hq, rfl⟩ := List.mem_map.1 hp
  exact ⟨(h q hq).2, (h q hq).1⟩

/-- **C77.** It does not matter which of the two subdomains is called the first: with the elements exchanged and the
normal reversed the same blocks are assembled, exchanged. -/
theorem orientation {d : Dims} {sigma kappa : R} {pts : List (Pt R)} (hp : Regular pts) :
    (∃ m m', diffusion d sigma kappa pts = .ok m ∧
      diffusion (swapDims d) sigma kappa (pts.map swapPt) = .ok m' ∧
      ∀ I J r c, r < nd d I → c < nd d J → (blk m' (!I) (!J)).val r c = (blk m I J).val r c) ∧
    (∃ m m', vecDiffusion d sigma kappa pts = .ok m ∧
      vecDiffusion (swapDims d) sigma kappa (pts.map swapPt) = .ok m' ∧
      ∀ I J r c, r < nv d I → c < nv d J → (blk m' (!I) (!J)).val r c = (blk m I J).val r c) ∧
    (∃ m m', elasticity d sigma kappa pts = .ok m ∧
      elasticity (swapDims d) sigma kappa (pts.map swapPt) = .ok m' ∧
      ∀ I J r c, r < nv d I → c < nv d J → (blk m' (!I) (!J)).val r c = (blk m I J).val r c) := by
  have hn : ∀ {I r}, r < nd d I → r < nd (swapDims d) (!I) := by
    intro I r h; rw [nd_swap, Bool.not_not]; exact h
  have hv : ∀ {I r}, r < nv d I → r < nv (swapDims d) (!I) := by
    intro I r h; rw [nv, nd_swap, Bool.not_not]; exact h
  refine ⟨?_, ?_, ?_⟩
  · obtain ⟨m, e, _, v⟩ := diffusion_form (d := d) (sigma := sigma) (kappa := kappa) hp
    obtain ⟨m', e', _, v'⟩ := diffusion_form (d := swapDims d) (sigma := sigma) (kappa := kappa) (Regular.swap hp)
    refine ⟨m, m', e, e', fun I J r c hr hc => ?_⟩
    rw [← entry_of_pairing (E := fun I J => (blk m I J).val) hr hc,
      ← entry_of_pairing (E := fun I J => (blk m' I J).val) (hn hr) (hn hc), v, v']
    rw [← unit_swap (!I), ← unit_swap (!J), ipForm_swap, Bool.not_not, Bool.not_not]
  · obtain ⟨m, e, _, v⟩ := vecDiffusion_form (d := d) (alpha := sigma) (kappa := kappa) hp
    obtain ⟨m', e', _, v'⟩ := vecDiffusion_form (d := swapDims d) (alpha := sigma) (kappa := kappa) (Regular.swap hp)
    refine ⟨m, m', e, e', fun I J r c hr hc => ?_⟩
    rw [← entry_of_pairing (E := fun I J => (blk m I J).val) hr hc,
      ← entry_of_pairing (E := fun I J => (blk m' I J).val) (hv hr) (hv hc), v, v']
    rw [← unit_swap (!I), ← unit_swap (!J), vecForm, vecForm]
    refine sum_congr rfl fun k _ => ?_
    rw [comp_swap, comp_swap, ipForm_swap, Bool.not_not, Bool.not_not]
  · obtain ⟨m, e, _, v⟩ := elasticity_form (d := d) (alpha := sigma) (kappa := kappa) hp
    obtain ⟨m', e', _, v'⟩ := elasticity_form (d := swapDims d) (alpha := sigma) (kappa := kappa) (Regular.swap hp)
    refine ⟨m, m', e, e', fun I J r c hr hc => ?_⟩
    rw [← entry_of_pairing (E := fun I J => (blk m I J).val) hr hc,
      ← entry_of_pairing (E := fun I J => (blk m' I J).val) (hv hr) (hv hc), v, v']
    rw [← unit_swap (!I), ← unit_swap (!J), elForm_swap, Bool.not_not, Bool.not_not]

omit [DecidableEq R] in
theorem fluxForm_swap (d : MDims) (pts : List (MPt R)) (q u : Bool → Nat → R) :
    fluxForm (swapMDims d) (pts.map swapMPt) (swapFn q) (swapFn u) = fluxForm d pts q u := by
  unfold fluxForm
  rw [List.map_map]
  refine congrArg _ (List.map_congr_left fun p _ => ?_)
  simp only [Function.comp_apply, swapMPt, swapMDims, swapFn, Bool.not_false, Bool.not_true]
  rw [add_comm (value d.te2 _ _)]
  congr 2
  exact sum_congr rfl fun a _ => by ring

/-- **C77.** The same for the normal flux. -/
theorem orientation_flux (d : MDims) (pts : List (MPt R)) :
    ∃ m m', normalFlux d pts = .ok m ∧ normalFlux (swapMDims d) (pts.map swapMPt) = .ok m' ∧
      ∀ I J r c, r < teN d I → c < tw d J → (blk m' (!I) (!J)).val r c = (blk m I J).val r c := by
  obtain ⟨m, e, _, v⟩ := normalFlux_form d pts
  obtain ⟨m', e', _, v'⟩ := normalFlux_form (swapMDims d) (pts.map swapMPt)
  refine ⟨m, m', e, e', fun I J r c hr hc => ?_⟩
  have h1 : r < teN (swapMDims d) (!I) := by cases I <;> exact hr
  have h2 : c < tw (swapMDims d) (!J) := by cases J <;> exact hc
  rw [← entry_of_pairing (E := fun I J => (blk m I J).val) hr hc,
    ← entry_of_pairing (E := fun I J => (blk m' I J).val) h1 h2, v, v']
  rw [← unit_swap (!I), ← unit_swap (!J), fluxForm_swap, Bool.not_not, Bool.not_not]

/-! ## A concrete case -/

namespace Example

/-- Two linear segments of lengths `1/2` and `1/3` meeting at a point, as a one-dimensional face. -/
def pt : Pt ℚ :=
  { wt := 2, nor := fun _ => 1
    s1 := { shape := fun j => if j = 0 then 1 / 4 else 3 / 4, dshape := fun j _ => if j = 0 then -1 else 1
            adj := fun _ _ => 1, det := 1 / 2, coef := .scalar 3, lam := 5, mu := 7 }
    s2 := { shape := fun j => if j = 0 then 1 else 0, dshape := fun j _ => if j = 0 then -1 else 1
            adj := fun _ _ => 1, det := 1 / 3, coef := .scalar 2, lam := 1, mu := 4 } }

def d : Dims := { dim := 1, n1 := 2, n2 := 2 }

example : Regular [pt] := by
  intro p hp
  rw [List.mem_singleton.1 hp]
  decide +kernel

/-- The four diagonal-corner entries of the scalar integrator with `sigma = -1`, `kappa = 10`. -/
example : ((diffusion d (-1) 10 [pt]).map fun m => (m.a00.val 0 0, m.a01.val 0 1, m.a10.val 1 1, m.a11.val 0 0)) =
    .ok (21 / 2, -3 / 2, -9 / 2, 108) := by decide +kernel

example : ((vecDiffusion d (-1) 10 [pt]).map fun m => m.a00.val 0 0) =
    (vecFace d (-1) 10 [pt]).map fun e => e.val 0 0 := by decide +kernel

end Example

end Verif.Penalty
