import Verif.Model.FomSolve

/-!
# The Stokes solve by a Schur complement

Models `StokesSolver::Solve_obsolete` (`src/stokes_solver.cpp`) and `SchurOperator`
(`include/stokes_solver.hpp`).  The solvers of MFEM and hypre are parameters; tolerances, print levels and
messages are not modelled.
-/

namespace Verif.SchurSolve

open Verif Verif.LinAlg Verif.FomSolve
open Verif.InterfaceForm (MatArr)
open Verif.Blocks (BlockVector getVariableVector setVariableVector)
open Verif.Unsteady (mono subtractMean)

variable {R : Type} [Field R]

/-- The preconditioner of the conjugate gradient solvers, src/stokes_solver.cpp:851-868 and
include/stokes_solver.hpp:43-50. -/
def prec (amg : Bool) : Prec := if amg then .amg else .none

/-- A conjugate gradient solve with `a` from zero that aborts unless it converges,
src/stokes_solver.cpp:862-872, :924-926 and include/stokes_solver.hpp:66-70. -/
def cgSolve (x : Ext R) (amg : Bool) (a : Blk R) (f : List R) : Outcome (List R) := do
  let r ← x.cg (apply a) (prec amg) f (List.replicate f.length 0)
  require r.2
  return r.1

/-- `SchurOperator::Mult`, include/stokes_solver.hpp:61-73. -/
def schurMult (x : Ext R) (amg : Bool) (a b : Blk R) (v : List R) : Outcome (List R) := do
  let x1 ← apply (transpose b) v
  let y1 ← cgSolve x amg a x1
  apply b y1

/-- Solving for the pressure, src/stokes_solver.cpp:886-914: MINRES, or `OrthoSolver` (external) around it,
which removes the mean of the right-hand side and of the result.  Whether MINRES converged is not looked at. -/
def pressure (x : Ext R) (presDbc : Bool) (op : List R → Outcome (List R)) (f : List R) : Outcome (List R) :=
  if presDbc then do
    let r ← x.minres op .none f (List.replicate f.length 0)
    return r.1
  else do
    let g ← subtractMean 0 f.length f
    let r ← x.minres op .none g (List.replicate f.length 0)
    subtractMean 0 f.length r.1

/-- `StokesSolver::Solve_obsolete`, src/stokes_solver.cpp:817-940, for `M` and `B` as `AssembleOperatorBase`
leaves them (:448-475); `U` is the former solution vector. -/
def solveSchur (x : Ext R) (amg presDbc : Bool) (n : Nat) (u p : List Nat) (M B : MatArr R)
    (rhs U : BlockVector R) : Outcome (BlockVector R) := do
  let mm ← setBlocks n u u M
  let bm ← setBlocks n p u B
  let a := mono mm
  let b := mono bm
  let urhs ← getVariableVector n 2 0 rhs ⟨List.replicate a.h 0, u⟩
  let prhs ← getVariableVector n 2 1 rhs ⟨List.replicate b.h 0, p⟩
  let r1 ← cgSolve x amg a urhs.data
  let br ← apply b r1
  let r2 := List.zipWith (fun s t => s - t) br prhs.data
  let pvec ← pressure x presDbc (schurMult x amg a b) r2
  let bt ← apply (transpose b) pvec
  let f3 := List.zipWith (fun s t => -s + t) bt urhs.data
  let uvec ← cgSolve x amg a f3
  let U ← setVariableVector n 2 0 ⟨uvec, u⟩ U
  setVariableVector n 2 1 ⟨pvec, p⟩ U

end Verif.SchurSolve
