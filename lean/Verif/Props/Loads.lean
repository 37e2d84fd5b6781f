import Verif.Proofs.Loads
import Verif.Props.Penalty
import Verif.Props.Temam

/-!
# C79: boundary loads agree with the boundary matrices
-/

namespace Verif.Loads

open Verif Verif.LinAlg Verif.Penalty Verif.Temam Verif.Spec.Temam Verif.Spec.Penalty Verif.Spec.Loads
open Finset hiding val

variable {R : Type} [Field R]

/-- **C79.** The load of prescribed velocities. -/
theorem dirichlet_form [DecidableEq R] {d : Dims} {alpha kappa : R} {pts : List (DPt R)}
    (hp : ∀ q ∈ pts, q.p.s1.det ≠ 0) :
    ∃ x, dirichlet d.dim d.n1 alpha kappa pts = .ok x ∧ x.h = d.dim * d.n1 ∧ x.w = 1 ∧
      ∀ v, lin (d.dim * d.n1) x v = dirichletForm d alpha kappa pts v := dirichlet_ok hp

/-- **C79.** The load of the prescribed normal velocity. -/
theorem normal_form (dim nd : Nat) (pts : List (NPt R)) :
    ∃ x, normal dim nd pts = .ok x ∧ x.h = nd ∧ x.w = 1 ∧ ∀ q, lin nd x q = normalForm dim nd pts q :=
  normal_ok dim nd pts

/-- **C79.** The load of a prescribed stress. -/
theorem stress_form (dim nd : Nat) (pts : List (NPt R)) :
    ∃ x, stress dim nd pts = .ok x ∧ x.h = dim * nd ∧ x.w = 1 ∧ ∀ v, lin (dim * nd) x v = stressForm dim nd pts v :=
  stress_ok dim nd pts

/-- **C79.** For a velocity that takes the prescribed values at the quadrature points, the boundary matrix and the
load, built with the same sigma and kappa, differ exactly by the flux `-<mu grad u · n, v>`: neither the
symmetrisation nor the penalty is left over. -/
theorem dirichlet_consistent [DecidableEq R] {d : Dims} {alpha kappa : R} {pts : List (DPt R)} {u : Nat → R}
    {E x : Blk R} (hn : d.n2 = 0) (hp : ∀ q ∈ pts, q.p.s1.det ≠ 0)
    (hg : ∀ q ∈ pts, ∀ c < d.dim, value d.n1 q.p.s1.shape (part d.n1 c u) = q.g c)
    (hE : vecFace d alpha kappa (pts.map DPt.p) = .ok E) (hx : dirichlet d.dim d.n1 alpha kappa pts = .ok x) :
    ∀ r < d.dim * d.n1, (∑ c ∈ range (d.dim * d.n1), E.val r c * u c) - x.val r 0 =
      fluxTerm d (pts.map DPt.p) (basis r) u := by
  obtain ⟨E', e1, _, _, f1⟩ := vecFace_boundary (d := d) (alpha := alpha) (kappa := kappa) (pts := pts.map DPt.p) hn
    (fun p hm => by obtain ⟨q, hq, rfl⟩ := List.mem_map.1 hm; exact hp q hq)
  obtain ⟨x', e2, _, _, f2⟩ := dirichlet_ok (d := d) (alpha := alpha) (kappa := kappa) hp
  cases hE.symm.trans e1; cases hx.symm.trans e2
  intro r hr
  have g1 := f1 (basis r) u
  have g2 := f2 (basis r)
  rw [lin_basis hr] at g2
  have g3 : ∑ r' ∈ range (d.dim * d.n1), ∑ c ∈ range (d.dim * d.n1), basis r r' * E.val r' c * u c =
      ∑ c ∈ range (d.dim * d.n1), E.val r c * u c := bil_basis hr E u
  rw [g3] at g1
  rw [g1, g2, bdrForm, dirichletForm, fluxTerm, ← sum_sub_distrib]
  refine sum_congr rfl fun c hc => ?_
  rw [List.map_map, List.map_map, sub_eq_iff_eq_add, ← List.sum_map_add]
  refine congrArg List.sum (List.map_congr_left fun q hq => ?_)
  have hv := hg q hq c (mem_range.1 hc)
  simp only [Function.comp]
  show q.p.wt * (-(flux d visc q.p false (part d.n1 c u) * value d.n1 q.p.s1.shape (part d.n1 c (basis r))) +
      alpha * (value d.n1 q.p.s1.shape (part d.n1 c u) * flux d visc q.p false (part d.n1 c (basis r))) +
      kappa * invh d q.p * value d.n1 q.p.s1.shape (part d.n1 c u) * value d.n1 q.p.s1.shape (part d.n1 c (basis r))) = _
  rw [hv]
  ring

/-- The points of the normal load on the faces of a mixed form. -/
def normalPtOf (g : MPt R → Nat → R) (p : MPt R) : NPt R :=
  { wt := p.wt, nor := p.nor, g := g p, shape := p.te1 }

/-- **C79.** For a velocity that takes the prescribed values, the boundary part of the divergence equation holds
exactly: the normal-flux matrix applied to it is the normal load. -/
theorem normal_consistent {d : MDims} {pts : List (MPt R)} {g : MPt R → Nat → R} {u : Nat → R} {E x : Blk R}
    (hn : d.tr2 = 0) (hn' : d.te2 = 0)
    (hg : ∀ p ∈ pts, ∀ a < d.dim, value d.tr1 p.tr1 (part d.tr1 a u) = g p a)
    (hE : fluxFace d pts = .ok E) (hx : normal d.dim d.te1 (pts.map (normalPtOf g)) = .ok x) :
    ∀ r < d.te1, ∑ c ∈ range (d.dim * d.tr1), E.val r c * u c = x.val r 0 := by
  obtain ⟨E', e1, _, _, f1⟩ := fluxFace_boundary hn hn' pts
  obtain ⟨x', e2, _, _, f2⟩ := normal_ok d.dim d.te1 (pts.map (normalPtOf g))
  cases hE.symm.trans e1; cases hx.symm.trans e2
  intro r hr
  have g1 := f1 (basis r) u
  have g2 := f2 (basis r)
  rw [lin_basis hr] at g2
  have g3 : ∑ r' ∈ range d.te1, ∑ c ∈ range (d.dim * d.tr1), basis r r' * E.val r' c * u c =
      ∑ c ∈ range (d.dim * d.tr1), E.val r c * u c := bil_basis hr E u
  rw [g3] at g1
  rw [g1, g2, bdrFluxForm, normalForm, List.map_map]
  refine congrArg List.sum (List.map_congr_left fun p hp => ?_)
  show p.wt * (value d.te1 p.te1 (basis r) * ∑ a ∈ range d.dim, p.nor a * value d.tr1 p.tr1 (part d.tr1 a u)) =
    p.wt * ((∑ a ∈ range d.dim, g p a * p.nor a) * value d.te1 p.te1 (basis r))
  have : ∑ a ∈ range d.dim, p.nor a * value d.tr1 p.tr1 (part d.tr1 a u) = ∑ a ∈ range d.dim, g p a * p.nor a :=
    sum_congr rfl fun a ha => by rw [hg p hp a (mem_range.1 ha), mul_comm]
  rw [this]
  ring

/-- **C79.** The loads are linear in the data: scaling all prescribed values scales the load. -/
theorem dirichlet_scale [DecidableEq R] {d : Dims} {alpha kappa s : R} {pts : List (DPt R)} {x y : Blk R}
    (hp : ∀ q ∈ pts, q.p.s1.det ≠ 0) (hx : dirichlet d.dim d.n1 alpha kappa pts = .ok x)
    (hy : dirichlet d.dim d.n1 alpha kappa (pts.map fun q => { q with g := fun c => s * q.g c }) = .ok y) :
    ∀ r < d.dim * d.n1, y.val r 0 = s * x.val r 0 := by
  obtain ⟨x', e1, _, _, f1⟩ := dirichlet_ok (d := d) (alpha := alpha) (kappa := kappa) hp
  obtain ⟨y', e2, _, _, f2⟩ := dirichlet_ok (d := d) (alpha := alpha) (kappa := kappa)
    (pts := pts.map fun q => { q with g := fun c => s * q.g c }) (by
      intro q hq
      obtain ⟨q', hq', rfl⟩ := List.mem_map.1 hq
      exact hp q' hq')
  cases hx.symm.trans e1; cases hy.symm.trans e2
  intro r hr
  rw [← lin_basis hr, ← lin_basis hr, f1, f2, dirichletForm, dirichletForm, mul_sum]
  refine sum_congr rfl fun c _ => ?_
  rw [List.map_map, ← List.sum_map_mul_left]
  refine congrArg List.sum (List.map_congr_left fun q _ => ?_)
  simp only [Function.comp]
  ring

/-! ## Concrete cases -/

/-- A boundary point in two dimensions with two shape functions. -/
def bpt : DPt Rat :=
  { p := { wt := 1, nor := fun a => if a = 0 then 1 else 2
           s1 := { shape := fun j => if j = 0 then 1 else 2, dshape := fun j a => j + a, adj := fun a b => if a = b then 1 else 0
                   det := 2, coef := .one, lam := 0, mu := 3 }
           s2 := { shape := fun _ => 0, dshape := fun _ _ => 0, adj := fun _ _ => 0, det := 1, coef := .one, lam := 0, mu := 0 } }
    g := fun c => if c = 0 then 5 else 11 }

/-- `u = (1, 2 | 3, 4)` takes the values 5 and 11 there. -/
example : ∀ c < 2, value 2 bpt.p.s1.shape (part 2 c (fun j => (j : Rat) + 1)) = bpt.g c := by decide +kernel

/-- `wM = 3/2`, `dn = (2, 5)`, `nor·nor = 5`. -/
example : (dirichlet 2 2 (-1) 10 [bpt]).toOption.map (fun x => (x.val 0 0, x.val 3 0)) =
    some (-(3 / 2 * 5 * 2) + 10 * (3 / 2) * 5 * 5, -(3 / 2 * 11 * 5) + 10 * (3 / 2) * 5 * 11 * 2) := by decide +kernel

/-- A degenerate element is a fault. -/
example : (dirichlet 2 2 (-1) 10 [{ bpt with p := { bpt.p with s1 := { bpt.p.s1 with det := 0 } } }]).toOption.isNone = true := by
  decide +kernel

/-- The stress is read column by column: with the stress `[[1, 3], [2, 4]]` and the normal `(1, 2)` the traction is
`(7, 10)`. -/
example : (stress 2 1 [{ wt := 1, nor := fun a => if a = 0 then (1 : Rat) else 2, g := fun i => i + 1, shape := fun _ => 1 }]).toOption.map
    (fun x => (x.val 0 0, x.val 1 0)) = some (7, 10) := by decide +kernel

end Verif.Loads
