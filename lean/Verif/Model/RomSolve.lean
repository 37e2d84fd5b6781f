import Verif.Model.FomSolve
import Verif.Model.Online
import Verif.Model.Options

/-!
# Linear solves of a ROM

The options of `MFEMROMHandler` that choose the linear solver, and `Solve` with that solver
(`src/rom_handler.cpp:331-361, 535-632, 1013-1064`).  The operator has been set (see `Verif.Model.RomOperator` for
that); print levels and the tolerances passed to the iterative solvers are not modelled.
-/

namespace Verif.RomSolve

open Verif Verif.LinAlg Verif.Mumps
open Verif.Blocks (BlockVector)
open Verif.RomHandler (Handler)
open Verif.Unsteady (mono addMult)
open Verif.FomSolve (Ext Krylov)
open Verif.Online (view projectRHS)
open Verif.Options (Node Conv key option)

/-- `linsol_type` and, for the direct solver, `mat_type` (include/rom_handler.hpp:205-216); the options do not name
GMRES. -/
inductive LinSol where
  | direct (t : MatType)
  | cg
  | minres
deriving DecidableEq, Repr

/-- `mat_type`, src/rom_handler.cpp:350-357. -/
def matTypeOf (s : String) : Outcome MatType :=
  if s = "spd" then .ok .symmetricPositiveDefinite
  else if s = "sid" then .ok .symmetricIndefinite
  else if s = "us" then .ok .unsymmetric
  else .error .abort

/-- The options read by `MFEMROMHandler::MFEMROMHandler`, src/rom_handler.cpp:339-361. -/
def readOpts (c : Conv) (cfg : Node) : Outcome LinSol := do
  let s ← option c.str (key "model_reduction/linear_solver_type") "cg" cfg
  if s = "direct" then do
    let t ← option c.str (key "model_reduction/linear_system_type") "spd" cfg
    let m ← matTypeOf t
    return .direct m
  else if s = "cg" then return .cg
  else if s = "minres" then return .minres
  else .error .abort

variable {R : Type} [CommRing R]

/-- The operator given to the iterative solver, src/rom_handler.cpp:560-594: the monolithic matrix for `amg`, `gs`
and `none`, the block matrix for the block smoothers; other names end the program. -/
def operOf (rom : BlockMat R) (prec : String) : Outcome (List R → Outcome (List R)) :=
  if prec = "amg" ∨ prec = "gs" ∨ prec = "none" then .ok (FomSolve.apply (mono rom))
  else if prec = "block_gs" ∨ prec = "block_jacobi" then
    .ok fun v => addMult rom v (List.replicate (mono rom).h 0) 1
  else .error .abort

/-- The iterative branch, src/rom_handler.cpp:553-617: whether the solver converged is not looked at. -/
def iterate (kr : Krylov R) (prec : String) (rom : BlockMat R) (rhs x0 : List R) : Outcome (List R) := do
  let k ← operOf rom prec
  let r ← kr k (.named prec) rhs x0
  return r.1

/-- `MFEMROMHandler::Solve(rhs, sol)`, src/rom_handler.cpp:535-617, with `SetupDirectSolver` (:1046-1064) and
`SetIterativeSolver` (:1013-1044).  `prec` is `model_reduction/preconditioner`. -/
def linearSolve (x : Ext R) (l : LinSol) (prec : String) (rom : BlockMat R) (rhs x0 : List R) : Outcome (List R) :=
  match l with
  | .direct t => x.direct (seen x.lower t (mono rom)) rhs
  | .cg => iterate x.cg prec rom rhs x0
  | .minres => iterate x.minres prec rom rhs x0

/-- `MFEMROMHandler::Solve(BlockVector *U)`, src/rom_handler.cpp:619-632. -/
def solve (x : Ext R) (l : LinSol) (prec : String) (h : Handler R) (rom : BlockMat R) (rhs : Option (BlockVector R))
    (u : BlockVector R) : Outcome (BlockVector R) := do
  require (u.numBlocks == h.numBlocks)
  let rhs ← nonNull rhs
  let total ← rd h.romOffs h.numBlocks
  let y ← linearSolve x l prec rom rhs.data (List.replicate total 0)
  h.lift ⟨y, h.romOffs⟩ u

/-- The last two steps of `SingleRun`, `src/main_workflow.cpp:582-605`: project the right-hand side, solve, lift. -/
def online (x : Ext R) (c : Conv) (cfg : Node) (h : Handler R) (rom : BlockMat R) (varOffs domOffs : List Nat)
    (RHS U : List R) (junk : Nat → R) : Outcome (List R) := do
  let l ← readOpts c cfg
  let r ← projectRHS h varOffs domOffs RHS junk
  let prec ← option c.str (key "model_reduction/preconditioner") "none" cfg
  let u ← solve x l prec h rom (some r) (view h varOffs domOffs U)
  return u.data

end Verif.RomSolve
