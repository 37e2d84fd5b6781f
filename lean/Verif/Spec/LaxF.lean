import Verif.Spec.Convection
import Verif.Model.LaxF

/-!
# What the Lax-Friedrichs integrator should compute

Velocities at a point are given by their components `d < dim`.
-/

namespace Verif.LaxF.Spec

open Verif Verif.LinAlg Verif.LinAlg.Spec Verif.LaxF Finset
open Verif.Convection.Spec (coef)

variable {R : Type}

section
variable [CommRing R]

/-- Inner product of two vectors at a point. -/
def inner (dim : Nat) (a b : Nat → R) : R := ∑ d ∈ range dim, a d * b d

/-- Component `d` of the field with element coefficients `u`, for shape functions `shape`. -/
def valueAt (nd : Nat) (shape u : List R) (d : Nat) : R := ∑ k ∈ range nd, coef nd u k d * ve shape k

end

section
variable [Field R] [LinearOrder R]

/-- The numerical flux through a face with normal `n` (not normalised) between the velocities `a` and
`b`: the mean of the two fluxes `(n.u) u`, plus the jump weighted by the larger speed. -/
def laxF (sqrt : R → R) (dim : Nat) (a b n : Nat → R) (d : Nat) : R :=
  (inner dim n a * a d + inner dim n b * b d) / 2 +
    sqrt (inner dim n n) * max (sqrt (inner dim a a)) (sqrt (inner dim b b)) * (a d - b d)

/-- The flux `(n.u) u` of one velocity. -/
def outflow (dim : Nat) (a n : Nat → R) (d : Nat) : R := inner dim n a * a d

/-- The numerical flux is differentiable where the two speeds differ, and where the two velocities agree
and do not vanish. -/
def Smooth (dim : Nat) (a b : Nat → R) : Prop :=
  inner dim a a ≠ inner dim b b ∨ ((∀ d < dim, a d = b d) ∧ inner dim a a ≠ 0)

/-- Contract of the external routines at a point. -/
structure FPtOk (f : Face) (p : FPt R) : Prop where
  dim : p.dim = f.dim
  nd1 : p.nd1 = f.nd1
  n2 : p.ndofs2 = f.n2
  dof2 : 0 < p.dof2
  shape1 : p.shape1.length = f.nd1
  shape2 : p.el2 = true → p.shape2.length = f.n2
  nor : p.nor.length = f.dim
  ud : ∀ v, p.ud = some v → v.length = f.dim

/-- The flux at a point, for the velocities `a` on the first side and, if there is a second element, `b`
on the second.  On a boundary the prescribed velocity, if any, takes the place of `b`; otherwise the
flux is the outflow of `a`. -/
def pointFlux (sqrt : R → R) (p : FPt R) (a b : Nat → R) (d : Nat) : R :=
  if p.el2 then laxF sqrt p.dim a b (ve p.nor) d
  else
    match p.ud with
    | some v => laxF sqrt p.dim a (ve v) (ve p.nor) d
    | none => outflow p.dim a (ve p.nor) d

/-- The flux at a point is differentiable (in the velocities of the elements). -/
def PointSmooth (p : FPt R) (a b : Nat → R) : Prop :=
  if p.el2 then Smooth p.dim a b
  else
    match p.ud with
    | some v => Smooth p.dim a (ve v)
    | none => True

/-- The weight of a point. -/
def wq (p : FPt R) (iw : R) : R := iw * p.q.getD 1

/-- Component `d` of the flux integrated against shape function `k` of side 1: quadrature sum. -/
def sideSum (sqrt : R → R) (f : Face) (pts : List (FPt R × R)) (u1 u2 : List R)
    (shape : FPt R → List R) (k d : Nat) : R :=
  (pts.map (fun pw => wq pw.1 pw.2 * ve (shape pw.1) k *
    pointFlux sqrt pw.1 (valueAt f.nd1 pw.1.shape1 u1) (valueAt f.n2 pw.1.shape2 u2) d)).sum

end

end Verif.LaxF.Spec
