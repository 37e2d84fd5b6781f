import Verif.Model.EqpPipeline
import Verif.Model.EqpCoords

/-!
# Printing the coordinates of stored samples

The mode `print_eqp` of bin/main.cpp: `PrintEQPCoords` (src/main_workflow.cpp:706-754) for the Navier-Stokes
solver, which loads the samples an earlier run trained and writes their coordinates.

Simplifications: the right-hand side and the reduced basis, which are set up and loaded on the way but not
used, and printed messages are left out; the run is on rank 0.
-/

namespace Verif.PrintEqp

open Verif Verif.LinAlg Verif.Hdf5 Verif.EqpComp
open Verif.EqpStore (Topo)
open Verif.Pipeline (Level Disk readLevel)
open Verif.Options (Node Conv key option required)

variable {R X : Type}

/-- The program run that prints: whether its solver is nonlinear (`IsNonlinear`) and uses a ROM (`UseRom`), the
topology mode, what it knows of its components and reference ports (see `Verif.EqpPipeline.Runner`), the points
of the integration rule of the domain integrator (src/steady_ns_solver.cpp:1004-1022) and, for each component,
the map of each element from points to coordinates. -/
structure Printer (R X : Type) where
  nonlinear : Bool
  useRom : Bool
  submesh : Bool
  setup : Setup
  topo : Topo
  rule : List X
  elems : List (List (X → List R))

/-- `comp_eqps[c]` as `SaveDomainEQPCoords` sees it (src/rom_nonlinearform.cpp:1521-1535). -/
def formOf (V : Printer R X) (s : Comps R) (c : Nat) : Outcome (EqpCoords.Form R X) := do
  let F ← rd s.forms c
  let v ← seen s c .domain 0
  let el ← rd V.elems c
  return ⟨F.dom.length, some V.rule, v, el⟩

/-- All of `comp_eqps`. -/
def formsOf (V : Printer R X) (s : Comps R) : Outcome (List (Option (EqpCoords.Form R X))) :=
  loop s.forms.length (fun c l => do
    let F ← formOf V s c
    return l ++ [some F]) []

/-- `PrintEQPCoords`, src/main_workflow.cpp:706-754, with `LoadROMNlinElems` (src/steady_ns_solver.cpp:847-861)
and `SaveEQPCoords`: what is on disk afterwards. -/
def printEQP [Zero R] (c : Conv) (cfg : Node) (V : Printer R X) (junk : Nat → Nat → Nat → R) (d : Disk R) :
    Outcome (Disk R) := do
  require V.useRom
  if V.nonlinear = false then return d
  else do
    let s ← option c.str (key "model_reduction/nonlinear_handling") "none" cfg
    let lp ← readLevel c cfg
    match lp.1 with
    | .component => do
      require (!V.submesh)
      require (s == "eqp")
      let f ← d.get (lp.2 ++ ".eqp.h5")
      let si ← EqpPipeline.loadEqp V.setup V.topo f
      let name ← required c.str (key "model_reduction/eqp/save_coords") cfg
      let forms ← formsOf V si.1
      let g ← EqpCoords.saveCoords (!V.submesh) (decide (V.setup.oper = .lf)) V.setup.fullDg V.setup.names
        forms junk
      return d.put name g
    | .global => .error .abort
    | .none => .error .abort

end Verif.PrintEqp
