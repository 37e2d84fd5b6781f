import Verif.Model.RomAssembly
import Verif.Model.Unsteady

/-!
# The online phase of a linear ROM

`SingleRun` (`src/main_workflow.cpp:485-611`) in ROM mode: the reduced operator is built, the right-hand
side is projected, the reduced system is solved, its solution is lifted.
-/

namespace Verif.Online

open Verif Verif.LinAlg Verif.RomAssembly
open Verif.Blocks (BlockVector)
open Verif.RomHandler (Handler)
open Verif.Unsteady (mono)
open Verif.Boundary (BC)
open Verif.CompSetup (Comp PortRow)
open Verif.Ports (PortData InterfaceInfo)

variable {R F δ : Type} [CommRing R]

/-- Block view of the entries of `U` or `RHS` (`src/multiblock_solver.cpp:672-676, 686-690`): one block
per subdomain and variable with separate bases, otherwise one per subdomain. -/
def view (h : Handler R) (varOffs domOffs : List Nat) (data : List R) : BlockVector R :=
  if h.separate then ⟨data, varOffs⟩ else ⟨data, domOffs⟩

/-- `MultiBlockSolver::ProjectRHSOnReducedBasis` (`src/multiblock_solver.cpp:669-681`) and
`MFEMROMHandler::ProjectRHSOnReducedBasis` (`include/rom_handler.hpp:263-264`).  `junk` fills the new vector. -/
def projectRHS (h : Handler R) (varOffs domOffs : List Nat) (RHS : List R) (junk : Nat → R) :
    Outcome (BlockVector R) :=
  h.project (view h varOffs domOffs RHS) junk

/-- `MultiBlockSolver::SolveROM` (`src/multiblock_solver.cpp:683-693`): the solver gets the monolithic
matrix made by `SetRomMat` (`src/rom_handler.cpp:927-928`), the reduced right-hand side and a zero initial
guess; the view shares the entries of `U`.  (The block-preconditioned iterations take the block matrix
itself, which is the same operator.) -/
def solveROM (h : Handler R) (rom : BlockMat R) (solver : Blk R → List R → List R → List R)
    (varOffs domOffs : List Nat) (rhs : Option (BlockVector R)) (U : List R) : Outcome (List R) := do
  let u ← h.solve (solver (mono rom)) rhs (view h varOffs domOffs U)
  return u.data

/-- The last two steps of `SingleRun`, `src/main_workflow.cpp:582-605`. -/
def online (h : Handler R) (rom : BlockMat R) (solver : Blk R → List R → List R → List R)
    (varOffs domOffs : List Nat) (RHS U : List R) (junk : Nat → R) : Outcome (List R) := do
  let r ← projectRHS h varOffs domOffs RHS junk
  solveROM h rom solver varOffs domOffs (some r) U

/-- `SingleRun` at the building level COMPONENT (`src/main_workflow.cpp:545-563`); the ROM elements are
those `BuildROM` saved, storage is not modelled here. -/
def componentRun (h : Handler R) (bc : BC F) (c2g : List (List Int)) (comps : List Comp)
    (ports : List PortRow) (refPorts : List PortData) (l : LocalOf R)
    (solver : Blk R → List R → List R → List R) (varOffs domOffs : List Nat) (RHS U : List R)
    (junk : Nat → R) : Outcome (List R) := do
  let el ← buildElems h comps refPorts l
  let rom ← assembleROM h bc c2g ports el
  online h rom solver varOffs domOffs RHS U junk

/-- `SingleRun` at the building level NONE (`src/main_workflow.cpp:570-578`). -/
def projectedRun (h : Handler R) (l : Nat → Nat → Outcome (Local R))
    (solver : Blk R → List R → List R → List R) (varOffs domOffs : List Nat) (RHS U : List R)
    (junk : Nat → R) : Outcome (List R) := do
  let rom ← projectFom h l
  online h rom solver varOffs domOffs RHS U junk

end Verif.Online
