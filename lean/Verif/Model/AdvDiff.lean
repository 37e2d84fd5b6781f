import Verif.Model.SingleRun
import Verif.Model.Options
import Verif.Model.Views

/-!
# The flow of the advection-diffusion solver

Models how `AdvDiffSolver` gets the velocity by which it convects (`src/advdiff_solver.cpp:13-28, 38-47, 157-177,
238-277`).  The Stokes solver is a parameter: `solve` gives its solution vector and whether it converged
(`Verif.Model.FomSolve` models it).  The diffusion part, the boundary conditions and the solve are those of
`PoissonSolver` and are modelled elsewhere; visualising the flow is in `Verif.Model.Visual`.
-/

namespace Verif.AdvDiff

open Verif Verif.LinAlg
open Verif.Blocks (BlockVector)
open Verif.RomHandler (readBlock)
open Verif.SingleRun (Disk saveSolution loadSolution)
open Verif.Options (Node Conv key option required)

/-- `save_flow`, `load_flow`, `flow_file`. -/
structure Opts where
  save : Bool
  load : Bool
  file : String
deriving DecidableEq, Repr

/-- The options read by the constructor, src/advdiff_solver.cpp:24-27; `bool` reads a node as a truth value. -/
def readOpts (c : Conv) (bool : Node → Outcome Bool) (cfg : Node) : Outcome Opts := do
  let save ← option bool (key "adv-diff/save_flow") false cfg
  let load ← option bool (key "adv-diff/load_flow") false cfg
  let file ← (if save || load then required c.str (key "adv-diff/flow_file") cfg else .ok "")
  return ⟨save, load, file⟩

/-- A `VectorCoefficient` of `flow_coeffs`: a given function, or the velocity grid function of subdomain `m` of the
Stokes solver (a reference, not a copy). -/
inductive Coef (F : Type) where
  | fn (f : F)
  | grid (m : Nat)

/-- The members used: number of subdomains, number of variables and offsets of the Stokes solver, `flow_coeffs`, the
solution vector of `stokes_solver`. -/
structure Solver (R F : Type) where
  numSub : Nat
  numVar : Nat
  offs : List Nat
  flow : List (Option (Coef F))
  stokes : Option (List R)

/-- The constructor, src/advdiff_solver.cpp:21-22. -/
def new {R F : Type} (numSub numVar : Nat) (offs : List Nat) : Solver R F :=
  ⟨numSub, numVar, offs, List.replicate numSub none, none⟩

variable {R F : Type}

/-- `SetFlowAtSubdomain`, src/advdiff_solver.cpp:157-169. -/
def setFlowAt (f : F) (m : Int) (s : Solver R F) : Outcome (Solver R F) := do
  require (decide (s.flow.length = s.numSub))
  require (decide (m = -1 ∨ 0 ≤ m ∧ m < s.numSub))
  if m = -1 then do
    let fl ← loop s.numSub (fun k fl => wr fl k (some (.fn f))) s.flow
    return { s with flow := fl }
  else do
    let fl ← wr s.flow m.toNat (some (.fn f))
    return { s with flow := fl }

/-- The solution vector of the new Stokes solver, src/advdiff_solver.cpp:247-265: loaded if there is a file, otherwise
computed, and stored if asked for.  Whether the solve converged is not looked at.  `junk` is the vector before. -/
def flowVector (o : Opts) (solve : Outcome (List R × Bool)) (junk : List R) (d : Disk R) : Outcome (List R × Disk R) :=
  if o.load && (d o.file).isSome then do
    let U ← loadSolution o.file d junk
    return (U, d)
  else do
    let r ← solve
    let d ← saveSolution o.save o.file r.1 d
    return (r.1, d)

/-- `GetFlowField`, src/advdiff_solver.cpp:238-277. -/
def getFlowField (o : Opts) (solve : Outcome (List R × Bool)) (junk : List R) (s : Solver R F) (d : Disk R) :
    Outcome (Solver R F × Disk R) := do
  let r ← flowVector o solve junk d
  let fl ← loop s.numSub (fun m fl => wr fl m (some (.grid m))) s.flow
  return ({ s with flow := fl, stokes := some r.1 }, r.2)

/-- `SetParameterizedProblem`, src/advdiff_solver.cpp:171-177, without the part of `PoissonSolver`. -/
def setProblem (analytic : Bool) (o : Opts) (solve : Outcome (List R × Bool)) (junk : List R) (s : Solver R F)
    (d : Disk R) : Outcome (Solver R F × Disk R) :=
  if analytic then .ok (s, d) else getFlowField o solve junk s d

/-- The velocity a coefficient stands for: a function or values. -/
inductive Velocity (R F : Type) where
  | fn (f : F)
  | values (x : List R)

/-- Evaluation of a coefficient: `GetGridFunction(m * stokes_numvar)` is a view of that block of the solution
vector. -/
def eval (s : Solver R F) : Coef F → Outcome (Velocity R F)
  | .fn f => .ok (.fn f)
  | .grid m => do
    let U ← deref s.stokes
    let x ← readBlock ⟨U, s.offs⟩ (m * s.numVar)
    return .values x

/-- `BuildDomainOperators`, src/advdiff_solver.cpp:38-47: the velocities of the convection integrators of the
subdomains. -/
def buildDomain (s : Solver R F) : Outcome (List (Velocity R F)) :=
  loop s.numSub (fun m vs => do
    let c ← rd s.flow m
    let c ← nonNull c
    let v ← eval s c
    return vs ++ [v]) []

/-- A program run (or a sample): a new solver, its problem, its operators.  Gives the velocities used. -/
structure Run (R : Type) where
  opts : Opts
  solve : Outcome (List R × Bool)
  junk : List R

/-- One run. -/
def run (numSub numVar : Nat) (offs : List Nat) (r : Run R) (d : Disk R) :
    Outcome (List (Velocity R F) × Disk R) := do
  let s ← setProblem false r.opts r.solve r.junk (new numSub numVar offs) d
  let v ← buildDomain s.1
  return (v, s.2)

/-- Runs one after the other, with the same files. -/
def runs (numSub numVar : Nat) (offs : List Nat) : List (Run R) → Disk R →
    Outcome (List (List (Velocity R F)) × Disk R)
  | [], d => .ok ([], d)
  | r :: rs, d => do
    let a ← run numSub numVar offs r d
    let b ← runs numSub numVar offs rs a.2
    return (a.1 :: b.1, b.2)

end Verif.AdvDiff
