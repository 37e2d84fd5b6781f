import Verif.Model.Basic

/-!
# Time integration of the unsteady Navier-Stokes solver

Models `UnsteadyNSSolver::Solve`, `SetupInitialCondition`, `SaveVisualization` and
`PrepareSnapshots` (`src/unsteady_ns_solver.cpp`).  One time step (`Step`), the two sorting routines
(modelled in `Verif.Model.Blocks`) and the check for invalid numbers are parameters.
-/

namespace Verif.TimeLoop

/-- What the loop uses: `V` is the solution ordered by variable (`U_step`), `U` the solution ordered
by subdomain, `T` the time. -/
structure Scheme (V U T : Type) where
  /-- `Step` (`src/unsteady_ns_solver.cpp:223-281`): the new `U_step` from time and old `U_step`. -/
  adv : T → V → V
  /-- `time += dt` (line 282). -/
  tick : T → T
  /-- `SanityCheck` passes (`include/unsteady_ns_solver.hpp`). -/
  sane : V → Bool
  /-- `SortBySubdomains`. -/
  toSub : V → U
  /-- `SortByVariables`. -/
  toVar : U → V
  /-- The initial time, `0.0`. -/
  zero : T

/-- Options read by `Solve` (lines 86-97, `src/multiblock_solver.cpp:112`); `sampling` tells whether a
sample generator is passed.  Intervals are C++ integers. -/
structure Cfg where
  nt : Nat
  visSave : Bool
  visInterval : Int
  saveSol : Bool
  restartInterval : Int
  sampling : Bool
  sampleInterval : Int
  bootstrap : Int

/-- Everything written: restart files (step, time, solution), snapshots and visualisation files. -/
inductive Event (U T : Type) where
  | restart (step : Nat) (time : T) (u : U)
  | snapshot (u : U)
  | visual (step : Nat) (time : T) (u : U)
deriving DecidableEq, Repr

/-- State of the loop. -/
structure St (V U T : Type) where
  ustep : V
  u : U
  time : T
  out : List (Event U T)

/-- Where a run starts: from the initial condition, already projected to `u`, or from a restart
file. -/
inductive Start (U T : Type) where
  | fresh (u : U)
  | restart (step : Nat) (time : T) (u : U)

section
variable {V U T : Type}

/-- `UnsteadyNSSolver::SaveVisualization` (lines 285-291) and `MultiBlockSolver::SaveVisualization`
(`src/multiblock_solver.cpp:482-493`). -/
def saveVis (sch : Scheme V U T) (cfg : Cfg) (step : Nat) (s : St V U T) : St V U T :=
  let u := sch.toSub s.ustep
  { s with u := u, out := if cfg.visSave then s.out ++ [.visual step s.time u] else s.out }

/-- The body of the time loop (lines 107-136).  The report is omitted. -/
def body (sch : Scheme V U T) (cfg : Cfg) (step : Nat) (s : St V U T) : Outcome (St V U T) := do
  let s : St V U T := { s with ustep := sch.adv s.time s.ustep, time := sch.tick s.time }
  require (sch.sane s.ustep)
  let s := if cfg.visInterval ≠ 0 ∧ ((step : Int) + 1).tmod cfg.visInterval = 0
    then saveVis sch cfg (step + 1) s else s
  let s : St V U T := if cfg.saveSol ∧ cfg.restartInterval ≠ 0 ∧
      ((step : Int) + 1).tmod cfg.restartInterval = 0
    then { s with out := s.out ++ [.restart (step + 1) s.time s.u] } else s
  let s : St V U T := if cfg.sampling ∧ cfg.sampleInterval ≠ 0 ∧ cfg.bootstrap < (step : Int) + 1 ∧
      ((step : Int) + 1).tmod cfg.sampleInterval = 0
    then { s with u := sch.toSub s.ustep, out := s.out ++ [.snapshot (sch.toSub s.ustep)] } else s
  .ok s

/-- `SetupInitialCondition` (lines 192-221): the first step, the time, the solution and what is
written. -/
def initial (sch : Scheme V U T) (cfg : Cfg) : Start U T → Nat × T × U × List (Event U T)
  | .fresh u => (0, sch.zero, u, if cfg.saveSol then [.restart 0 sch.zero u] else [])
  | .restart step time u => (step, time, u, [])

/-- `UnsteadyNSSolver::Solve` (lines 82-147). -/
def solve (sch : Scheme V U T) (cfg : Cfg) (st : Start U T) : Outcome (St V U T) := do
  let (step0, time, u, out) := initial sch cfg st
  let s : St V U T := ⟨sch.toVar u, u, time, out⟩
  let s := saveVis sch cfg 0 s
  let s ← loopFrom (body sch cfg) step0 (cfg.nt - step0) s
  .ok { s with u := sch.toSub s.ustep }

end

end Verif.TimeLoop
