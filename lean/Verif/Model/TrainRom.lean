import Verif.Model.Supremizer

/-!
# Training the bases and loading them

Models `GetGlobalBasisTagList`, `CollectSamples`, `CollectSamplesByBasis`, `CollectSamplesByPort` and `TrainROM`,
src/main_workflow.cpp:93-142 and :212-284, `SampleGenerator::FormReducedBasis`, src/sample_generator.cpp:486-524,
and `ROMHandlerBase::LoadReducedBasis`, src/rom_handler.cpp:238-274.

A snapshot or basis vector is an element of an arbitrary type `V`.  libROM's singular value decomposition is
the parameter `pod`, from the columns of a generator to the columns of the basis it writes.  One process.  The
supremizer part of `TrainROM` (`AuxiliaryTrainROM`) is modelled in `Verif.Model.Supremizer`.
-/

namespace Verif.TrainRom

open Verif Verif.Snapshots
open Verif.Options (Node Conv key pieces find option required lookUpValue formatted snapshotFiles elems)
open Verif.Supremizer (refTag)

variable {V : Type}

/-! ## The tags to train -/

/-- `GetVariableNames` by the value of `main/solver`, src/main_workflow.cpp:119-123 with
include/poisson_solver.hpp:57-62, include/stokes_solver.hpp:141-147 (inherited by both Navier-Stokes solvers) and
include/linelast_solver.hpp:64-69. -/
def variableNames (solver : String) : Option (List String) :=
  if solver = "poisson" then some ["solution"]
  else if solver = "stokes" then some ["vel", "pres"]
  else if solver = "steady-ns" then some ["vel", "pres"]
  else if solver = "linelast" then some ["solution"]
  else if solver = "unsteady-ns" then some ["vel", "pres"]
  else none

/-- `var_names` of the solver made by `InitSolver`, src/main_workflow.cpp:52-69 with
src/poisson_solver.cpp:19, src/stokes_solver.cpp:28 and src/linelast_solver.cpp:19.  The advection-diffusion
solver is a Poisson solver. -/
def solverNames (solver : String) : Option (List String) :=
  if solver = "adv-diff" then some ["solution"] else variableNames solver

/-- `TopologyHandlerMode`, with the number of components the submesh handler finds in the mesh. -/
inductive Mode where
  | submesh (numComp : Nat)
  | component
  | unset
deriving DecidableEq, Repr

/-- `config.GetRequiredOptionFromDict<std::string>("name", component_dict[p])`. -/
def entryName (cv : Conv) (e : Option Node) : Outcome String :=
  match e with
  | none => .error .abort
  | some e => required cv.str (key "name") e

/-- `component_list`, src/main_workflow.cpp:97-114; the names of the submesh handler are set at
src/topology_handler.cpp:230-231. -/
def componentList (cv : Conv) (cfg : Node) : Mode → Outcome (List String)
  | .submesh n => .ok ((List.range n).map fun c => "comp" ++ toString c)
  | .component => do
    match ← find cfg (pieces '/' (key "mesh/component-wise/components")) with
    | none => .error .abort
    | some l => (elems l).mapM (entryName cv)
  | .unset => .error .abort

/-- `var_list`, src/main_workflow.cpp:116-129. -/
def variableList (cv : Conv) (cfg : Node) : Outcome (List String) := do
  let solver ← required cv.str (key "main/solver") cfg
  match variableNames solver with
  | none => .error .abort
  | some l => .ok l

/-- The tags of component `c`, src/main_workflow.cpp:133-137. -/
def tagsOfComponent (separate : Bool) (vars : List String) (c : String) (tags : List BasisTag) :
    Outcome (List BasisTag) :=
  if separate then
    loop vars.length (fun v tags => do
      let w ← rd vars v
      return tags ++ [⟨c, w⟩]) tags
  else .ok (tags ++ [⟨c, ""⟩])

/-- `GetGlobalBasisTagList`, src/main_workflow.cpp:93-142. -/
def globalTags (cv : Conv) (cfg : Node) (mode : Mode) (separate : Bool) : Outcome (List BasisTag) := do
  let names ← componentList cv cfg mode
  let vars ← if separate then variableList cv cfg else .ok []
  loop names.length (fun c tags => do
    let n ← rd names c
    tagsOfComponent separate vars n tags) []

/-! ## Collecting -/

/-- `CollectSamplesByBasis`, src/main_workflow.cpp:246-270; `pfx` is `GetSamplePrefix()`. -/
def collectByBasis (cv : Conv) (cfg : Node) (rom : Rom V) (fs : FS V) (pfx : String) (tags : List BasisTag)
    (st : Store V) : Outcome (Store V) :=
  loop tags.length (fun p st => do
    let tag ← rd tags p
    let files ← snapshotFiles cv tag.print (snapshotFilename pfx tag) cfg
    require (decide (0 < files.length))
    collectSnapshotsByBasis rom fs st tag files) st

/-- The port files named by the configuration, src/main_workflow.cpp:228-236. -/
def listedPorts (cv : Conv) (cfg : Node) : Outcome (List String) := do
  let files ← option cv.strs (key "sample_collection/port_files") [] cfg
  match ← find cfg (pieces '/' (key "sample_collection/port_fileformat")) with
  | none => .ok files
  | some f => formatted cv f files

/-- `file_list`, src/main_workflow.cpp:228-240. -/
def portFiles (cv : Conv) (cfg : Node) (pfx : String) : Outcome (List String) := do
  let l ← listedPorts cv cfg
  return (if l.length = 0 then l ++ [pfx ++ ".port.h5"] else l)

/-- `CollectSamplesByPort`, src/main_workflow.cpp:225-244; `ports` are the port files on disk. -/
def collectByPort (cv : Conv) (cfg : Node) (rom : Rom V) (fs : FS V) (ports : String → Option PortFile)
    (pfx : String) (st : Store V) : Outcome (Store V) := do
  let files ← portFiles cv cfg pfx
  loop files.length (fun k st => do
    let f ← rd files k
    match ports f with
    | none => .error .abort
    | some p => collectSnapshotsByPort rom fs st p) st

/-- `GetSamplePrefix`, include/sample_generator.hpp:85-86 with src/sample_generator.cpp:32-34. -/
def samplePrefix (cv : Conv) (cfg : Node) : Outcome String := do
  let dir ← option cv.str (key "sample_generation/file_path/directory") "." cfg
  let problem ← option cv.str (key "parameterized_problem/name") "sample" cfg
  let pre ← option cv.str (key "sample_generation/file_path/prefix") problem cfg
  return dir ++ "/" ++ pre ++ "_sample"

/-- The files on disk: snapshots, port files, and bases by name (libROM adds its own suffixes). -/
structure Disk (V : Type) where
  snaps : FS V
  ports : String → Option PortFile
  bases : FS V

/-- `CollectSamples`, src/main_workflow.cpp:212-223.  The basis prefix handed on is only the name of the file
the generator writes at `endSamples`, see `formBasis`. -/
def collect (cv : Conv) (cfg : Node) (mode : Mode) (separate : Bool) (rom : Rom V) (d : Disk V) :
    Outcome (Store V) := do
  let pfx ← samplePrefix cv cfg
  let how ← option cv.str (key "sample_collection/mode") "basis" cfg
  if how = "basis" then do
    let tags ← globalTags cv cfg mode separate
    collectByBasis cv cfg rom d.snaps pfx tags (Store.empty V)
  else if how = "port" then collectByPort cv cfg rom d.snaps d.ports pfx (Store.empty V)
  else .error .abort

/-! ## Forming the bases -/

/-- `num_basis` of a tag, src/sample_generator.cpp:504-518. -/
def numBasis (cv : Conv) (list : Option Node) (dflt : Int) (tag : BasisTag) : Outcome Int :=
  match list with
  | none => .ok dflt
  | some l => lookUpValue cv.str cv.int (key "name") tag.print (key "number_of_basis") dflt l

/-- One generator of `FormReducedBasis`, src/sample_generator.cpp:498-522: `endSamples` (libROM, external)
writes the basis to the file named when the generator was made, `GetBaseFilename(basis_prefix, tag)`
(src/sample_generator.cpp:266-271, 391-401).  `SaveSV` writes a text file only. -/
def formOne (cv : Conv) (list : Option Node) (dflt : Int) (pod : List V → List V) (pre : String) (st : Store V)
    (k : Nat) (bases : FS V) : Outcome (FS V) := do
  let cols ← rd st.gens k
  require (decide (0 < cols.length))
  let tag ← rd st.basisTags k
  let n ← numBasis cv list dflt tag
  require (decide (0 < n))
  return Function.update bases (baseFilename pre tag) (some (pod cols))

/-- `FormReducedBasis`, src/sample_generator.cpp:486-524. -/
def formBasis (cv : Conv) (cfg : Node) (pod : List V → List V) (pre : String) (st : Store V) (bases : FS V) :
    Outcome (FS V) := do
  require (decide (0 < st.gens.length))
  require (st.gens.length == st.basisTags.length)
  let dflt ← option cv.int (key "basis/number_of_basis") (-1) cfg
  let list ← find cfg (pieces '/' (key "basis/tags"))
  loop st.gens.length (formOne cv list dflt pod pre st) bases

/-- `basis_prefix`, src/main_workflow.cpp:215 and :276, src/rom_handler.cpp:75. -/
def basisPrefix (cv : Conv) (cfg : Node) : Outcome String := option cv.str (key "basis/prefix") "basis" cfg

/-- `TrainROM`, src/main_workflow.cpp:272-284, without `AuxiliaryTrainROM`. -/
def trainRom (cv : Conv) (cfg : Node) (mode : Mode) (separate : Bool) (rom : Rom V) (pod : List V → List V)
    (d : Disk V) : Outcome (Disk V) := do
  let pre ← basisPrefix cv cfg
  let st ← collect cv cfg mode separate rom d
  let bases ← formBasis cv cfg pod pre st d.bases
  return { d with bases := bases }

/-! ## Loading -/

/-- `basis_reader->getSpatialBasis(n)` (libROM, external): the first `n` columns; it is an error if there are
none or fewer. -/
def spatialBasis (cols : List V) (n : Int) : Outcome (List V) := do
  require (decide (0 < n))
  require (decide (n ≤ cols.length))
  return cols.take n.toNat

/-- One pass of `LoadReducedBasis`, src/rom_handler.cpp:247-271. -/
def loadStep (pre : String) (separate : Bool) (vars names : List String) (numRef : List Int) (bases : FS V)
    (k : Nat) (acc : List (List V)) : Outcome (List (List V)) := do
  let tag ← refTag separate vars names k
  let n ← rd numRef k
  match bases (pre ++ "_" ++ tag.print) with
  | none => .error .abort
  | some cols => do
    let b ← spatialBasis cols n
    return acc ++ [b]

/-- `ROMHandlerBase::LoadReducedBasis`, src/rom_handler.cpp:238-274: the reference bases.  `names` are the
component names, `vars` the variable names, `numRef` is `num_ref_basis`. -/
def loadBasis (pre : String) (separate : Bool) (vars names : List String) (numRef : List Int) (bases : FS V) :
    Outcome (List (List V)) :=
  loop (if separate then names.length * vars.length else names.length)
    (loadStep pre separate vars names numRef bases) []

end Verif.TrainRom
