import Verif.Model.Basic

/-!
# Snapshot and port bookkeeping of the sample generator

Models the tag structures (`include/hdf5_utils.hpp`, `include/sample_generator.hpp`) and the
snapshot/port part of `src/sample_generator.cpp`.  A snapshot vector is an element of an arbitrary
type `V`; a libROM `BasisGenerator` is the list of the columns it has taken.
-/

namespace Verif.Snapshots

open Verif

/-- `BasisTag`, include/hdf5_utils.hpp:38-48. -/
structure BasisTag where
  comp : String
  var : String
deriving DecidableEq, Repr

/-- `BasisTag::print`, include/hdf5_utils.hpp:50-56. -/
def BasisTag.print (t : BasisTag) : String :=
  let tag := t.comp
  if t.var ≠ "" then tag ++ ("_" ++ t.var) else tag

/-- `BasisTag::operator==`, include/hdf5_utils.hpp:58-61. -/
def BasisTag.eqOp (a b : BasisTag) : Bool := (a.comp == b.comp) && (a.var == b.var)

/-- `BasisTag::operator<`, include/hdf5_utils.hpp:63-69.  `std::string` comparison is bytewise
lexicographic; `String` comparison is lexicographic by code points (the same order on UTF-8). -/
def BasisTag.lt (a b : BasisTag) : Bool :=
  if a.comp = b.comp then decide (a.var < b.var) else decide (a.comp < b.comp)

/-- `PortTag`, include/sample_generator.hpp:23-29. -/
structure PortTag where
  mesh1 : String
  mesh2 : String
  attr1 : Int
  attr2 : Int
deriving DecidableEq, Repr

/-- `operator<(const PortTag &, const PortTag &)`, src/sample_generator.cpp:13-25. -/
def PortTag.lt (a b : PortTag) : Bool :=
  if a.mesh1 ≠ b.mesh1 then decide (a.mesh1 < b.mesh1)
  else if a.mesh2 ≠ b.mesh2 then decide (a.mesh2 < b.mesh2)
  else if a.attr1 ≠ b.attr1 then decide (a.attr1 < b.attr1)
  else if a.attr2 = b.attr2 then false else decide (a.attr2 < b.attr2)

/-! ### `std::map<Key, int>` (external): keys are identified when neither is less than the other. -/

/-- Key equivalence of an ordered map. -/
def keyEquiv {K : Type} (lt : K → K → Bool) (a b : K) : Bool := !lt a b && !lt b a

/-- Value stored for a key. -/
def mapFind {K : Type} (lt : K → K → Bool) : List (K × Nat) → K → Option Nat
  | [], _ => none
  | (k, v) :: m, x => if keyEquiv lt k x then some v else mapFind lt m x

/-- `m[k] = v`. -/
def mapSet {K : Type} (lt : K → K → Bool) : List (K × Nat) → K → Nat → List (K × Nat)
  | [], x, v => [(x, v)]
  | (k, w) :: m, x, v => if keyEquiv lt k x then (k, v) :: m else (k, w) :: mapSet lt m x v

/-- `m[k]` as an rvalue; a missing key is value-initialised to `0` (the insertion itself is not
modelled: the code only reads keys that are present). -/
def mapGet {K : Type} (lt : K → K → Bool) (m : List (K × Nat)) (x : K) : Nat :=
  match mapFind lt m x with
  | some v => v
  | none => 0

/-- The members of `SampleGenerator` used for snapshots, include/sample_generator.hpp:57-70.
`gens[k]` is the list of columns of `snapshot_generators[k]`; `portCols[k]` the rows of
`*port_colidxs[k]`. -/
structure Store (V : Type) where
  basisTags : List BasisTag
  tag2idx : List (BasisTag × Nat)
  gens : List (List V)
  portTags : List PortTag
  port2idx : List (PortTag × Nat)
  portCols : List (List (Nat × Nat))
deriving DecidableEq

/-- "Initially no snapshot generator", src/sample_generator.cpp:64-66. -/
def Store.empty (V : Type) : Store V := ⟨[], [], [], [], [], []⟩

/-- libROM configuration: `cap` is `max_num_snapshots`; `accept u` is the outcome of libROM's own
test on a snapshot in `takeSample` (it refuses e.g. zero vectors). -/
structure Rom (V : Type) where
  cap : Nat
  accept : V → Bool

/-- `SampleGenerator::AddSnapshotGenerator`, src/sample_generator.cpp:266-281 (file name and
libROM options omitted). -/
def addSnapshotGenerator {V : Type} (st : Store V) (tag : BasisTag) : Outcome (Store V) := do
  let st := { st with
    gens := st.gens ++ [[]]
    tag2idx := mapSet BasisTag.lt st.tag2idx tag st.basisTags.length
    basisTags := st.basisTags ++ [tag] }
  let size := st.gens.length
  require (st.tag2idx.length == size)
  require (st.basisTags.length == size)
  return st

/-- "if the tag was never seen before, create a new snapshot generator",
src/sample_generator.cpp:188-193 and 400-402. -/
def ensureGenerator {V : Type} (st : Store V) (tag : BasisTag) : Outcome (Store V) :=
  match mapFind BasisTag.lt st.tag2idx tag with
  | none => addSnapshotGenerator st tag
  | some _ => .ok st

/-- "if the port was never seen, create a new collector", src/sample_generator.cpp:237-243 and
439-445. -/
def ensurePort {V : Type} (st : Store V) (tag : PortTag) : Store V :=
  match mapFind PortTag.lt st.port2idx tag with
  | none => { st with
      port2idx := mapSet PortTag.lt st.port2idx tag st.portTags.length
      portTags := st.portTags ++ [tag]
      portCols := st.portCols ++ [[]] }
  | some _ => st

/-- `BasisGenerator::takeSample` of libROM (external): refuses bad vectors by returning `false`,
which the caller asserts against; a full generator aborts; otherwise appends one column. -/
def takeSample {V : Type} (rom : Rom V) (cols : List V) (u : V) : Outcome (List V) := do
  require (decide (cols.length < rom.cap))
  require (rom.accept u)
  return cols ++ [u]

/-- Body of the loop of `SampleGenerator::SaveSnapshot`, src/sample_generator.cpp:186-203. -/
def saveSnapshotStep {V : Type} (rom : Rom V) (blocks : List V) (tags : List BasisTag) (s : Nat)
    (acc : Store V × List Nat) : Outcome (Store V × List Nat) := do
  let tag ← rd tags s
  let st ← ensureGenerator acc.1 tag
  let index := mapGet BasisTag.lt st.tag2idx tag
  let u ← rd blocks s
  let cols ← rd st.gens index
  let cols ← takeSample rom cols u
  let gens ← wr st.gens index cols
  let colIdxs ← wr acc.2 s (cols.length - 1)
  return ({ st with gens := gens }, colIdxs)

/-- `SampleGenerator::SaveSnapshot`, src/sample_generator.cpp:180-204.  Returns the new state and
`col_idxs`. -/
def saveSnapshot {V : Type} (rom : Rom V) (st : Store V) (blocks : List V) (tags : List BasisTag) :
    Outcome (Store V × List Nat) := do
  require (blocks.length == tags.length)
  loop tags.length (saveSnapshotStep rom blocks tags) (st, List.replicate blocks.length 0)

/-- The part of `PortInfo` used here, include/topology_handler.hpp. -/
structure Port where
  mesh1 : Nat
  mesh2 : Nat
  attr1 : Int
  attr2 : Int
deriving DecidableEq, Repr

/-- The part of `TopologyHandler` used here: number of subdomains = `meshType.length`, component
type of each subdomain, component names and the ports. -/
structure Topo where
  meshType : List Nat
  compNames : List String
  ports : List Port
deriving DecidableEq, Repr

/-- `topol_handler->GetComponentName(topol_handler->GetMeshType(m))`. -/
def Topo.name (t : Topo) (m : Nat) : Outcome String := do
  let c ← rd t.meshType m
  rd t.compNames c

/-- Body of the port loop of `SampleGenerator::SaveSnapshotPorts`,
src/sample_generator.cpp:216-263. -/
def savePortStep {V : Type} (topo : Topo) (numVar : Nat) (colIdxs : List Nat) (p : Nat)
    (st : Store V) : Outcome (Store V) := do
  let port ← rd topo.ports p
  let mesh1 ← topo.name port.mesh1
  let mesh2 ← topo.name port.mesh2
  let tag : PortTag := ⟨mesh1, mesh2, port.attr1, port.attr2⟩
  let st := ensurePort st tag
  let index := mapGet PortTag.lt st.port2idx tag
  let col1 ← rd colIdxs (numVar * port.mesh1)
  let col2 ← rd colIdxs (numVar * port.mesh2)
  let _ ← loop numVar (fun v (_ : Unit) => do
    let a ← rd colIdxs (v + numVar * port.mesh1)
    require (col1 == a)
    let b ← rd colIdxs (v + numVar * port.mesh2)
    require (col2 == b)) ()
  let rows ← rd st.portCols index
  let portCols ← wr st.portCols index (rows ++ [(col1, col2)])
  return { st with portCols := portCols }

/-- `SampleGenerator::SaveSnapshotPorts`, src/sample_generator.cpp:206-264. -/
def saveSnapshotPorts {V : Type} (st : Store V) (topo : Topo) (colIdxs : List Nat) :
    Outcome (Store V) := do
  let numSub := topo.meshType.length
  if numSub = 0 then .error .ub else
  require (colIdxs.length % numSub == 0)
  let numVar := colIdxs.length / numSub
  loop topo.ports.length (savePortStep topo numVar colIdxs) st

/-- `MultiBlockSolver::GetBasisTags`, src/multiblock_solver.cpp:619-634: subdomain-major, then
variable.  With `separate_variable_basis` off there is one tag per subdomain with empty variable
name, which is `vars = [""]`. -/
def getBasisTags (topo : Topo) (vars : List String) : Outcome (List BasisTag) :=
  loop topo.meshType.length (fun m acc => do
    loop vars.length (fun v acc => do
      let c ← topo.name m
      let w ← rd vars v
      return acc ++ [⟨c, w⟩]) acc) []

/-- `MultiBlockSolver::SaveSnapshots`, src/multiblock_solver.cpp:652-667: snapshots then ports.
`blocks` are the blocks of the solution, subdomain-major then variable. -/
def saveSnapshots {V : Type} (rom : Rom V) (st : Store V) (topo : Topo) (vars : List String)
    (blocks : List V) : Outcome (Store V) := do
  let tags ← getBasisTags topo vars
  require (blocks.length == tags.length)
  let r ← saveSnapshot rom st blocks tags
  saveSnapshotPorts r.1 topo r.2

/-- Index of the first element satisfying `p`, as the `break`ing search loop of
`LookUpSnapshot`. -/
def firstIdx {α : Type} (p : α → Bool) : List α → Option Nat
  | [] => none
  | x :: xs => if p x then some 0 else (firstIdx p xs).map (· + 1)

/-- `SampleGenerator::LookUpSnapshot`, src/sample_generator.cpp:335-355. -/
def lookUpSnapshot {V : Type} (st : Store V) (tag : BasisTag) : Outcome (List V) := do
  require (decide (st.gens.length > 0))
  require (st.gens.length == st.basisTags.length)
  match firstIdx (fun t => BasisTag.eqOp t tag) st.basisTags with
  | none => .error .abort
  | some idx => rd st.gens idx

/-- `SampleGenerator::LookUpSnapshotPortColOffsets`, src/sample_generator.cpp:357-370. -/
def lookUpPort {V : Type} (st : Store V) (tag : PortTag) : Outcome (List (Nat × Nat)) := do
  require (decide (st.portCols.length > 0))
  require (st.portCols.length == st.portTags.length)
  match mapFind PortTag.lt st.port2idx tag with
  | none => .error .abort
  | some idx => rd st.portCols idx

/-! ## Files -/

/-- `GetBaseFilename`, include/sample_generator.hpp:87-88. -/
def baseFilename (pfx : String) (tag : BasisTag) : String := pfx ++ "_" ++ tag.print

/-- Name of the snapshot file of a tag: libROM's `writeSnapshot` appends `_snapshot` to the base
file name; the reader does so at src/sample_generator.cpp:477. -/
def snapshotFilename (pfx : String) (tag : BasisTag) : String := baseFilename pfx tag ++ "_snapshot"

/-- Snapshot files: name to columns. -/
abbrev FS (V : Type) := String → Option (List V)

/-- Contents of a port file, written by `WriteSnapshotPorts`, src/sample_generator.cpp:293-333. -/
structure PortFile where
  samplePrefix : String
  ports : List (PortTag × List (Nat × Nat))
  basisTags : List BasisTag
deriving DecidableEq

/-- `SampleGenerator::WriteSnapshots`, src/sample_generator.cpp:283-291: each generator writes its
columns to its own file (libROM, external; an existing file is overwritten). -/
def writeSnapshots {V : Type} (st : Store V) (pfx : String) (fs : FS V) : Outcome (FS V) := do
  require (decide (st.gens.length > 0))
  loop st.gens.length (fun s fs => do
    let cols ← rd st.gens s
    let tag ← rd st.basisTags s
    return fun n => if n = snapshotFilename pfx tag then some cols else fs n) fs

/-- `SampleGenerator::WriteSnapshotPorts`, src/sample_generator.cpp:293-333. -/
def writeSnapshotPorts {V : Type} (st : Store V) (pfx : String) : Outcome PortFile := do
  let ports ← loop st.portTags.length (fun p acc => do
    let t ← rd st.portTags p
    let c ← rd st.portCols p
    return acc ++ [(t, c)]) []
  return ⟨pfx, ports, st.basisTags⟩

/-- `SampleGenerator::GetSnapshotOffset`, src/sample_generator.cpp:587-606.  State: `(offset, tmp)`;
`tmp = none` is `tmp < 0`. -/
def getSnapshotOffset {V : Type} (st : Store V) (comp : String) : Outcome Nat := do
  require (st.basisTags.length == st.gens.length)
  let r ← loop st.basisTags.length (fun b (acc : Nat × Option Nat) => do
    let t ← rd st.basisTags b
    if t.comp ≠ comp then return acc else
    let cols ← rd st.gens b
    let offset := cols.length
    let tmp := acc.2.getD offset
    if offset ≠ tmp then .error .abort else
    return (offset, some tmp)) (0, none)
  return r.1

/-- Port part of `SampleGenerator::CollectSnapshotsByPort`, src/sample_generator.cpp:428-466. -/
def collectPortStep {V : Type} (file : PortFile) (p : Nat) (st : Store V) : Outcome (Store V) := do
  let (tag, tmpCols) ← rd file.ports p
  let st := ensurePort st tag
  let idx := mapGet PortTag.lt st.port2idx tag
  let off1 ← getSnapshotOffset st tag.mesh1
  let off2 ← getSnapshotOffset st tag.mesh2
  let rows ← rd st.portCols idx
  let portCols ← wr st.portCols idx (rows ++ tmpCols.map (fun c => (c.1 + off1, c.2 + off2)))
  return { st with portCols := portCols }

/-- `BasisGenerator::loadSamples` of libROM (external): takes every column of the file. -/
def loadSamples {V : Type} (rom : Rom V) (cols new : List V) : Outcome (List V) :=
  loop new.length (fun k cols => do
    let u ← rd new k
    takeSample rom cols u) cols

/-- `SampleGenerator::CollectSnapshotsByBasis`, src/sample_generator.cpp:386-409.  The dimension
query on the first file is modelled by its failure when the file does not exist. -/
def collectSnapshotsByBasis {V : Type} (rom : Rom V) (fs : FS V) (st : Store V) (tag : BasisTag)
    (files : List String) : Outcome (Store V) := do
  let f0 ← rd files 0
  require (fs f0).isSome
  let st ← ensureGenerator st tag
  let index := mapGet BasisTag.lt st.tag2idx tag
  loop files.length (fun s st => do
    let f ← rd files s
    match fs f with
    | none => .error .abort
    | some new => do
      let cols ← rd st.gens index
      let cols ← loadSamples rom cols new
      let gens ← wr st.gens index cols
      return { st with gens := gens }) st

/-- `SampleGenerator::CollectSnapshotsByPort`, src/sample_generator.cpp:411-484. -/
def collectSnapshotsByPort {V : Type} (rom : Rom V) (fs : FS V) (st : Store V) (file : PortFile) :
    Outcome (Store V) := do
  let st ← loop file.ports.length (collectPortStep file) st
  require (decide (file.basisTags.length > 0))
  loop file.basisTags.length (fun b st => do
    let tag ← rd file.basisTags b
    collectSnapshotsByBasis rom fs st tag [snapshotFilename file.samplePrefix tag]) st

/-- `CollectSamplesByPort`, src/main_workflow.cpp:242-243: all port files in order. -/
def collectAll {V : Type} (rom : Rom V) (fs : FS V) (st : Store V) (files : List PortFile) :
    Outcome (Store V) :=
  loop files.length (fun f st => do
    let file ← rd files f
    collectSnapshotsByPort rom fs st file) st

/-- `SampleGenerator::SaveSV`, src/sample_generator.cpp:570-579: the pair (accumulated numerator,
total) before the division `coverage /= total`. -/
def coverage {R : Type} [Add R] [Zero R] (sv : List R) (refNumBasis : Int) : Outcome (R × R) := do
  let r ← loop sv.length (fun d (acc : R × R) => do
    let cov := if (d : Int) = refNumBasis then acc.2 else acc.1
    let x ← rd sv d
    return (cov, acc.2 + x)) ((0 : R), (0 : R))
  return (if (sv.length : Int) = refNumBasis then r.2 else r.1, r.2)

end Verif.Snapshots
