import Verif.Model.RomHandler
import Mathlib.Algebra.Order.Field.Basic
import Mathlib.Algebra.Order.Group.Abs

/-!
# The CFL number reported by the unsteady solver

`UnsteadyNSSolver::ComputeCFL`, src/unsteady_ns_solver.cpp:338-386.
-/

namespace Verif.Cfl

open Verif Verif.LinAlg Verif.Blocks Verif.RomHandler

variable {R : Type}

/-- What MFEM delivers for the velocity space of one subdomain (external): the orders of its elements
(`GetElementOrder`, as many as `GetNE`), their sizes (`GetElementSize(e, 1)`), the numbers of points of
the integration rules and the values of component `c` (counted from 1) of the grid function with the given
degrees of freedom at the points of element `e` (`GridFunction::GetValues`). -/
structure VelView (R : Type) where
  orders : List Nat
  sizes : List R
  pts : Nat → Nat
  vals : List R → Nat → Nat → List R

/-- The variables of `ComputeCFL`, src/unsteady_ns_solver.cpp:341-345. -/
structure Vars (R : Type) where
  cflx : R
  cfly : R
  cflz : R
  cflm : R
  cflmax : R

section
variable [Field R] [LinearOrder R]

/-- One integration point, src/unsteady_ns_solver.cpp:367-380.  The Jacobian is computed there and not
used. -/
def pointCFL (three : Bool) (dt hmin : R) (ux uy uz : List R) (i : Nat) (s : Vars R) : Outcome (Vars R) := do
  let x ← rd ux i
  let y ← rd uy i
  let cflx := |dt * x / hmin|
  let cfly := |dt * y / hmin|
  let cflz ← if three then do
      let z ← rd uz i
      pure |dt * z / hmin|
    else pure s.cflz
  let cflm := cflx + cfly + cflz
  return ⟨cflx, cfly, cflz, cflm, max s.cflmax cflm⟩

/-- One element, src/unsteady_ns_solver.cpp:352-381. -/
def elementCFL (three : Bool) (dt : R) (v : VelView R) (blk : List R) (e : Nat) (s : Vars R) :
    Outcome (Vars R) := do
  let ux := v.vals blk e 1
  let uy := v.vals blk e 2
  let uz := if three then v.vals blk e 3 else []
  let h ← rd v.sizes e
  let p ← rd v.orders 0
  loop (v.pts e) (pointCFL three dt (h / (p : R)) ux uy uz) s

/-- `UnsteadyNSSolver::ComputeCFL`, src/unsteady_ns_solver.cpp:338-386: `three` is `vdim[0] == 3`, `views`
are the velocity spaces of the subdomains and `u` is `U_step`, whose first blocks are the velocities.
Exact arithmetic. -/
def computeCFL (three : Bool) (dt : R) (views : List (VelView R)) (u : BlockVector R) : Outcome R := do
  let s ← loop views.length (fun m s => do
    let v ← rd views m
    let blk ← readBlock u m
    loop v.orders.length (elementCFL three dt v blk) s) ⟨0, 0, 0, 0, 0⟩
  return s.cflmax

end

end Verif.Cfl
