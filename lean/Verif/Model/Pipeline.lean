import Verif.Model.Online
import Verif.Model.RomElems
import Verif.Model.Options

/-!
# From building a ROM to running it

`BuildROM` and the ROM mode of `SingleRun` (`src/main_workflow.cpp:417-605`) for linear problems, with
the files between them: the building level, what is stored under which name, and what a later program
run makes of it.

Simplifications: nonlinear problems, basis visualisation, timers and printed messages are left out; a
program's set-up (solver, topology, bases, right-hand side) is given as a `Prob`.
-/

namespace Verif.Pipeline

open Verif Verif.LinAlg Verif.RomAssembly Verif.Hdf5
open Verif.RomHandler (Handler)
open Verif.Boundary (BC)
open Verif.CompSetup (Comp PortRow)
open Verif.Ports (PortData)
open Verif.Options (Node Conv key option required)

/-- `ROMBuildingLevel`, include/rom_handler.hpp:18-24. -/
inductive Level where
  | none
  | component
  | global
deriving DecidableEq, Repr

/-- The building level and the operator prefix (`""` if not read), src/rom_handler.cpp:77-85. -/
def readLevel (c : Conv) (cfg : Node) : Outcome (Level × String) := do
  let s ← option c.str (key "model_reduction/save_operator/level") "none" cfg
  if s = "none" then return (.none, "")
  else if s = "global" then do
    let p ← required c.str (key "model_reduction/save_operator/prefix") cfg
    return (.global, p)
  else if s = "component" then do
    let p ← required c.str (key "model_reduction/save_operator/prefix") cfg
    return (.component, p)
  else .error .abort

variable {R F : Type}

/-- The contents of the files, by name. -/
abbrev Disk (R : Type) := String → Option (File R)

/-- A new file replaces an old one of its name (`H5F_ACC_TRUNC`). -/
def Disk.put (d : Disk R) (name : String) (f : File R) : Disk R :=
  fun n => if n = name then some f else d n

/-- `H5Fopen` of a file that must exist (src/rom_element_collection.cpp:151-156,
src/rom_handler.cpp:909-910). -/
def Disk.get (d : Disk R) (name : String) : Outcome (File R) :=
  match d name with
  | none => .error .abort
  | some f => .ok f

/-- A program run after `LoadReducedBasis`: the ROM handler, the topology (`submesh` says it is not
component-wise), boundary conditions, the local systems of the solver, its full-order operator, and the
vectors of the solver. -/
structure Prob (R F : Type) where
  h : Handler R
  submesh : Bool
  names : List String
  comps : List Comp
  refPorts : List PortData
  bc : BC F
  c2g : List (List Int)
  rows : List PortRow
  locals : LocalOf R
  fom : Outcome (Nat → Nat → Outcome (Local R))
  varOffs : List Nat
  domOffs : List Nat
  rhs : List R
  U : List R

/-- What the store of ROM elements asks of the topology handler: component names, reference ports and
numbers of boundaries. -/
def Prob.lib (P : Prob R F) : RomElems.Lib :=
  ⟨⟨P.names, P.refPorts.map fun q => ⟨q.comp1, q.comp2, q.attr1, q.attr2⟩, []⟩,
    P.comps.map fun c => c.bdrAttributes.length⟩

/-- A table of blocks as it is stored.  `fin` is `SparseMatrix::Finalize` (external). -/
def pack (fin : Blk R → Csr R) (m : MatBlocks R) : MBlocks R :=
  ⟨m.nrows, m.ncols, fun i j => (m.mats i j).map fin⟩

section
variable [CommRing R]

/-- Entry `(i, j)` of a CSR matrix: what stands under column `j` in row `i` (external). -/
def csrVal (m : Csr R) (i j : Nat) : R :=
  ∑ k ∈ Finset.Ico (m.I[i]?.getD 0).toNat (m.I[i + 1]?.getD 0).toNat,
    if m.J[k]? = some (j : Int) then m.data[k]?.getD 0 else 0

/-- A stored matrix as a block. -/
def blkOf (m : Csr R) : Blk R := ⟨m.h, m.w, csrVal m⟩

/-- A table of blocks read from a file. -/
def unpack (m : MBlocks R) : MatBlocks R := ⟨m.nrows, m.ncols, fun i j => (m.blocks i j).map blkOf⟩

/-- The ROM elements in the form they are stored; the mass matrices of a steady problem stay as the
constructor made them. -/
def packElems (fin : Blk R → Csr R) (P : Prob R F) (e : RomAssembly.RomElems R) : RomElems.Elems R :=
  ⟨e.comp.map (pack fin), P.names.map fun _ => RomElems.emptyBlocks (nvars P.h),
    e.bdr.map (·.map (pack fin)), e.port.map (pack fin)⟩

/-- The ROM elements `AssembleROMMat` uses. -/
def unpackElems (e : RomElems.Elems R) : RomAssembly.RomElems R :=
  ⟨e.comp.map unpack, e.bdr.map (·.map unpack), e.port.map unpack⟩

/-- `BuildROMLinElems` and `SaveROMLinElems`, src/main_workflow.cpp:456-457,
include/multiblock_solver.hpp:207-209. -/
def buildComponent (fin : Blk R → Csr R) (P : Prob R F) : Outcome (File R) := do
  let el ← buildElems P.h P.comps P.refPorts P.locals
  RomElems.save P.lib (packElems fin P el)

/-- `LoadROMLinElems` and `AssembleROMMat`, src/main_workflow.cpp:551-555,
include/multiblock_solver.hpp:210-212. -/
def loadComponent (P : Prob R F) (f : File R) : Outcome (BlockMat R) := do
  let e ← RomElems.load P.lib f (RomElems.init P.lib (nvars P.h))
  assembleROM P.h P.bc P.c2g P.rows (unpackElems e)

/-- The reduced operator projected from the full-order operator, src/main_workflow.cpp:444-445 and 468
or 573-576. -/
def projected (P : Prob R F) : Outcome (BlockMat R) := do
  let l ← P.fom
  projectFom P.h l

/-- `MFEMROMHandler::SaveOperator`, src/rom_handler.cpp:434-448. -/
def saveOperator (fin : Blk R → Csr R) (rom : BlockMat R) : Outcome (File R) :=
  writeBlockMatrix [] [] "ROM_matrix"
    ⟨rom.roffs.map Int.ofNat, rom.coffs.map Int.ofNat, fun i j => (rom.blk i j).map fin⟩

/-- `MFEMROMHandler::LoadOperatorFromFile`, src/rom_handler.cpp:901-917, for a handler without an
operator (see `Verif.RomOperator` for one that has one). -/
def loadOperator (h : Handler R) (f : File R) : Outcome (BlockMat R) := do
  let m ← readBlockMatrix f [] "ROM_matrix" (h.romOffs.map Int.ofNat)
  return ⟨h.romOffs, h.romOffs, true, fun i j => (m.blocks i j).map blkOf⟩

/-- `BuildROM`, src/main_workflow.cpp:440-476. -/
def buildROM (c : Conv) (cfg : Node) (fin : Blk R → Csr R) (P : Prob R F) (d : Disk R) :
    Outcome (Disk R) := do
  let lp ← readLevel c cfg
  match lp.1 with
  | .component => do
    require (!P.submesh)
    let f ← buildComponent fin P
    return d.put (lp.2 ++ ".h5") f
  | .global => do
    let rom ← projected P
    let f ← saveOperator fin rom
    return d.put (lp.2 ++ ".h5") f
  | .none => return d

/-- The reduced operator of `SingleRun`, src/main_workflow.cpp:530-580. -/
def reducedOperator (c : Conv) (cfg : Node) (P : Prob R F) (d : Disk R) : Outcome (BlockMat R) := do
  let lp ← readLevel c cfg
  match lp.1 with
  | .component => do
    require (!P.submesh)
    let f ← d.get (lp.2 ++ ".h5")
    loadComponent P f
  | .global => do
    let f ← d.get (lp.2 ++ ".h5")
    loadOperator P.h f
  | .none => projected P

/-- `SingleRun` in ROM mode, src/main_workflow.cpp:528-605: the state returned by the ROM. -/
def singleRun (c : Conv) (cfg : Node) (P : Prob R F) (solver : Blk R → List R → List R → List R)
    (junk : Nat → R) (d : Disk R) : Outcome (List R) := do
  let rom ← reducedOperator c cfg P d
  Online.online P.h rom solver P.varOffs P.domOffs P.rhs P.U junk

end

end Verif.Pipeline
