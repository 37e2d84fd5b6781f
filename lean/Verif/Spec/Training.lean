import Verif.Spec.Eqp
import Verif.Model.Training

/-! # What training of hyper-reduced forms should achieve -/

namespace Verif.Training.Spec

open Verif Verif.LinAlg Verif.LinAlg.Spec Verif.Convection.Spec Verif.Eqp.Spec Verif.Training Finset
open Verif.Eqp (Sample Integ Space Kind Entry Form)

variable {P R : Type}

/-- Degrees of freedom lie in vectors of length `n`, and the elements of faces exist. -/
structure SpaceOk (sp : Space) (n : Nat) : Prop where
  elems : ∀ rows ∈ sp.elems, RowsOk rows n
  faces : ∀ e1 e2, some (e1, e2) ∈ sp.faces → e1 < sp.elems.length ∧ e2 < sp.elems.length
  bdrs : ∀ attr e, (attr, some e) ∈ sp.bdrs → e < sp.elems.length

/-- The marker of a boundary integrator has an entry for each attribute. -/
def MarkerOk (sp : Space) : Kind → Prop
  | .boundary (some m) => ∀ t ∈ sp.bdrs, 1 ≤ t.1 ∧ t.1 ≤ m.length
  | _ => True

open Classical in
/-- The entities an integrator acts on, in increasing order. -/
noncomputable def entitiesOf (sp : Space) (kind : Kind) : List Nat :=
  (List.range (count sp kind)).filter fun el => Acts sp kind el ∧ rowsOf sp kind el ≠ none

/-- The samples are exactly the quadrature points of the entities `ents` whose weight in `sol`, at
position `e * nq + q`, exceeds the threshold; without repetition, in increasing order. -/
structure Extracted [LT R] (ents : List Nat) (nq : Nat) (thr : R) (sol : List R)
    (samples : List (Sample P R)) : Prop where
  mem : ∀ s, s ∈ samples ↔ ∃ e q el : Nat, q < nq ∧ ents[e]? = some el ∧ sol[e * nq + q]? = some s.qw ∧
    thr < s.qw ∧ s.el = (el : Int) ∧ s.qp = (q : Int) ∧ s.pre = none
  sorted : samples.Pairwise fun a b => a.el < b.el ∨ (a.el = b.el ∧ a.qp < b.qp)

section
variable [CommRing R]

/-- What quadrature point `q` of entity `el` contributes, with weight one, to the test with basis
vector `c`, at the field `u`. -/
def point (sp : Space) (kind : Kind) (g : Integ P R) (b : Mat R) (u : Nat → R) (el q c : Nat) : R :=
  match rowsOf sp kind el with
  | some rows => project b rows (g.vec el el q 1 (restrict u rows)) c
  | none => 0

/-- The weight of a quadrature point is a factor of its contribution. -/
def WeightLinear (sp : Space) (kind : Kind) (g : Integ P R) : Prop :=
  ∀ el rows, rowsOf sp kind el = some rows → ∀ q w u k, k < rows.length →
    ve (g.vec el el q w u) k = w * ve (g.vec el el q 1 u) k

/-- The integrator returns vectors with one entry per degree of freedom of the entity. -/
def VecOk (sp : Space) (kind : Kind) (g : Integ P R) : Prop :=
  ∀ el rows, rowsOf sp kind el = some rows → ∀ q w u, (g.vec el el q w u).length = rows.length

/-- The integrator's matrices have one row and one column per degree of freedom of the entity. -/
def GradOk (sp : Space) (kind : Kind) (g : Integ P R) : Prop :=
  ∀ el rows, rowsOf sp kind el = some rows → ∀ q w u, (g.grad el el q w u).h = rows.length ∧
    (g.grad el el q w u).w = rows.length ∧ MatOk (g.grad el el q w u)

/-- The matrices of the processes: `sizes` are the numbers of entities the processes have; the row of
point `q` of a process's entity number `e`, in the column of test `c` with snapshot `i`, has the
contribution of that point. -/
structure SystemOk (sp : Space) (kind : Kind) (g : Integ P R) (b : Mat R) (snaps : CMat R) (nq : Nat)
    (sizes : List Nat) (gts : List (CMat R)) : Prop where
  rows : gts.map CMat.rows = sizes.map (· * nq)
  cols : ∀ gt ∈ gts, gt.cols = b.w * snaps.cols
  entry : ∀ r gt, gts[r]? = some gt → ∀ e q c i, e * nq + q < gt.rows → q < nq → c < b.w →
    i < snaps.cols → cent gt (e * nq + q) (c + i * b.w) =
      point sp kind g b (fun k => cent snaps k i)
        ((entitiesOf sp kind)[(sizes.take r).sum + e]?.getD 0) q c

/-- The tested residual of one integrator with all its points, at snapshot `i`. -/
noncomputable def fullTest (sp : Space) (kind : Kind) (g : Integ P R) (b : Mat R) (snaps : CMat R)
    (nq : Nat) (w : List R) (c i : Nat) : R :=
  ((entitiesOf sp kind).map fun el => ∑ q ∈ range nq,
    ve w q * point sp kind g b (fun k => cent snaps k i) el q c).sum

end

section
variable [Field R] [LinearOrder R]

/-- What training starts from: `nq` points per entity, a basis and snapshots of the space's size. -/
structure Trainable (t : Setting R) (sp : Space) (b : Mat R) (snaps : CMat R) (w : List R) (kind : Kind)
    (e : Entry P R) (nq : Nat) : Prop where
  space : SpaceOk sp t.vsize
  marker : MarkerOk sp kind
  basis : MatOk b
  height : t.vsize ≤ b.h
  snapsOk : CMatOk snaps
  snapRows : t.vsize ≤ snaps.rows
  rule : e.integ.rule = some nq
  weights : nq ≤ w.length
  vec : VecOk sp kind e.integ
  split : ∀ m, (t.split m).sum = m

/-- The bound on the error of one integrator's tested residual `full`: the tolerance, and the
threshold times the absolute contributions of all points. -/
noncomputable def allowed (sp : Space) (kind : Kind) (g : Integ P R) (b : Mat R) (nq : Nat) (u : Nat → R)
    (tol full : R) (c : Nat) : R :=
  tol * |full| + cutoff * ((entitiesOf sp kind).map fun el =>
    ∑ q ∈ range nq, |point sp kind g b u el q c|).sum

/-- The solver returns one weight per row. -/
def OneWeightPerRow (solve : List (CMat R) → List R → List R → List (List R)) : Prop :=
  ∀ gts lb ub, (solve gts lb ub).map List.length = gts.map CMat.rows

end

section
variable [Field R] [LinearOrder R]

/-- Nonnegative weights that satisfy all bounds, one list per process. -/
structure Fits (gts : List (CMat R)) (lb ub : List R) (sols : List (List R)) : Prop where
  lengths : sols.map List.length = gts.map CMat.rows
  nonneg : ∀ s ∈ sols, ∀ v ∈ s, 0 ≤ v
  lower : ∀ c, c < lb.length →
    ve lb c ≤ ((gts.zip sols).map fun p => ∑ r ∈ range p.1.rows, cent p.1 r c * ve p.2 r).sum
  upper : ∀ c, c < ub.length →
    ((gts.zip sols).map fun p => ∑ r ∈ range p.1.rows, cent p.1 r c * ve p.2 r).sum ≤ ve ub c

/-- The solver finds nonnegative weights within the bounds whenever there are any. -/
def Solves (solve : List (CMat R) → List R → List R → List (List R)) : Prop :=
  ∀ gts lb ub, (∃ sols, Fits gts lb ub sols) → Fits gts lb ub (solve gts lb ub)

end

end Verif.Training.Spec
