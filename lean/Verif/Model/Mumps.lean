import Verif.Model.LinAlg

/-!
# The direct solver

`mfem::MUMPSSolver` is external.  What matters here is which matrix it factorises: `SetMatrixSymType` tells it
whether the matrix is symmetric, and for a symmetric one only the entries of one triangle are handed over.
-/

namespace Verif.Mumps

open Verif Verif.LinAlg

variable {R : Type}

/-- `MUMPSSolver::MatType` (external). -/
inductive MatType where
  | unsymmetric
  | symmetricPositiveDefinite
  | symmetricIndefinite
deriving DecidableEq, Repr

/-- The matrix that `MUMPSSolver::SetOperator` factorises (external).  In both symmetric modes the entries of
one triangle are used for the other as well; `lower` says which triangle. -/
def seen (lower : Bool) (t : MatType) (a : Blk R) : Blk R :=
  match t with
  | .unsymmetric => a
  | _ => { a with val := fun r c => if lower then a.val (max r c) (min r c) else a.val (min r c) (max r c) }

/-- The choice of the full-order solvers for a fixed problem: `PoissonSolver::SetMUMPSSolver`,
src/poisson_solver.cpp:587-593 (positive definite); `LinElastSolver::AssembleOperator`,
src/linelast_solver.cpp:291-293 (positive definite); `AdvDiffSolver::SetMUMPSSolver`,
src/advdiff_solver.cpp:230-236 (unsymmetric); `StokesSolver::SetupMUMPSSolver`,
src/stokes_solver.cpp:478-496 with the default of include/stokes_solver.hpp:182-183 (indefinite), which the
unsteady solver also uses (src/unsteady_ns_solver.cpp:167). -/
inductive Physics where
  | poisson
  | elasticity
  | advdiff
deriving DecidableEq, Repr

/-- See `Physics`. -/
def Physics.matType : Physics → MatType
  | .poisson => .symmetricPositiveDefinite
  | .elasticity => .symmetricPositiveDefinite
  | .advdiff => .unsymmetric

/-- See `Physics`. -/
def stokesType : MatType := .symmetricIndefinite

end Verif.Mumps
