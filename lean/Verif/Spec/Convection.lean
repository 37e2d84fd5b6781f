import Verif.Spec.LinAlg
import Verif.Model.Convection

/-!
# What the convection integrators should compute

A velocity field on an element is given by its coefficients: shape function `k`, component `d`.
-/

namespace Verif.Convection.Spec

open Verif Verif.LinAlg Verif.LinAlg.Spec Verif.Convection Finset

variable {R : Type} [CommRing R]

/-- Contract of the external geometry and shape routines: the sizes, the chain rule
`dshape = dref * J^-1`, and `adj J = det(J) J^-1`. -/
structure PtOk (p : Pt R) : Prop where
  shape : p.shape.length = p.nd
  dsh : p.dshape.h = p.nd
  dsw : p.dshape.w = p.dim
  drh : p.dref.h = p.nd
  drw : p.dref.w = p.dim
  ijh : p.invJ.h = p.dim
  ijw : p.invJ.w = p.dim
  ajh : p.adjJ.h = p.dim
  ajw : p.adjJ.w = p.dim
  chain : ∀ k e, k < p.nd → e < p.dim →
    ent p.dshape k e = ∑ m ∈ range p.dim, ent p.dref k m * ent p.invJ m e
  adj : ∀ m e, m < p.dim → e < p.dim → ent p.adjJ m e = p.weight * ent p.invJ m e

/-- Coefficient of shape function `k` in component `d` of the element vector `u`. -/
def coef (nd : Nat) (u : List R) (k d : Nat) : R := ve u (k + d * nd)

/-- Component `d` of the field `u` at the point. -/
def value (p : Pt R) (u : List R) (d : Nat) : R :=
  ∑ k ∈ range p.nd, coef p.nd u k d * ve p.shape k

/-- Derivative in direction `e` of component `d` of the field `u` at the point. -/
def deriv (p : Pt R) (u : List R) (d e : Nat) : R :=
  ∑ k ∈ range p.nd, coef p.nd u k d * ent p.dshape k e

/-- Quadrature weight times Jacobian determinant times coefficient. -/
def wq (p : Pt R) (iw : R) : R := iw * p.weight * p.q.getD 1

/-- Component `e` of the advecting velocity. -/
def advection (p : Pt R) (u : List R) (e : Nat) : R :=
  match p.vq with
  | some v => ve v e
  | none => value p u e

/-- `u + h`. -/
def vadd (u h : List R) : List R := (List.range u.length).map (fun i => ve u i + ve h i)

/-- The coefficients of the field `sum_c x_c v_c` on the element whose degrees of freedom are `rows`,
for the basis vectors `v_c`. -/
def lift (b : Mat R) (rows : List Int) (x : List R) : List R :=
  (List.range rows.length).map (fun k => ∑ c ∈ range b.w, ent b (rowAt rows k) c * ve x c)

/-- Test of an element vector `q` with basis vector `c`. -/
def project (b : Mat R) (rows : List Int) (q : List R) (c : Nat) : R :=
  ∑ k ∈ range rows.length, ent b (rowAt rows k) c * ve q k

/-- Element matrix `a` restricted to basis vectors: `v_i^T a v_j`. -/
def project2 (b : Mat R) (rows : List Int) (a : Mat R) (i j : Nat) : R :=
  ∑ k ∈ range rows.length, ∑ l ∈ range rows.length,
    ent b (rowAt rows k) i * ent a k l * ent b (rowAt rows l) j

end Verif.Convection.Spec
