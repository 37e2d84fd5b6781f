import Verif.Model.LinAlg
import Verif.Model.Views

/-!
# Visualisation files

Models `InitVisualization`, `SaveVisualization` and the error fields of `MultiBlockSolver`
(`src/multiblock_solver.cpp:344-493, 771-773`), `SubMeshTopologyHandler::TransferToGlobal`
(`src/topology_handler.cpp:449-457`), `AdvDiffSolver::SaveVisualization` (`src/advdiff_solver.cpp:180-228`) and
`MFEMROMHandler::SaveBasisVisualization` (`src/rom_handler.cpp:957-1010`).

Grid functions are lists of dof values.  A ParaView collection is the list of the fields registered with it, as
references: saving it writes the values they have then.  Field names are distinct.  Resolution and precision of the
files are not modelled.
-/

namespace Verif.Visual

open Verif Verif.LinAlg

/-- `MultiBlockSolver::VisualizationOption` (include/multiblock_solver.hpp:84-98) without the time interval, which
`Verif.Model.TimeLoop` models; `component` is `topol_mode == COMPONENT`. -/
structure Opts where
  save : Bool
  unified : Bool
  saveError : Bool
  dir : String
  pre : String
  offset : Int
  interval : Int
  component : Bool

/-- A registered grid function. -/
inductive Ref where
  | us (k : Nat)
  | err (k : Nat)
  | global (v : Nat)
  | globalErr (v : Nat)
  | flow (m : Nat)
  | globalFlow
deriving DecidableEq, Repr

/-- A `ParaViewDataCollection`: its name, its mesh (`none` is the parent mesh), the fields, and cycle and time if
set. -/
structure Coll (T : Type) where
  name : String
  mesh : Option Nat
  fields : List (String × Ref)
  stamp : Option (Int × T)

/-- A file that was written. -/
structure File (R T : Type) where
  name : String
  mesh : Option Nat
  stamp : Option (Int × T)
  fields : List (String × List R)
deriving DecidableEq, Repr

/-- The members used: the grid functions `us` (`num_var` per subdomain), `error_visual`, `global_us_visual`,
`global_error_visual`, the flow of the advection-diffusion solver, the collections, and what was written. -/
structure St (R T : Type) where
  us : List (List R)
  err : List (List R)
  global : List (List R)
  globalErr : List (List R)
  flow : List (List R)
  globalFlow : Option (List R)
  colls : List (Option (Coll T))
  out : List (File R T)

/-- What does not change: number of subdomains, names of the variables, numbers of dofs of the parent mesh's spaces,
and for subdomain `m` and variable `v` the dofs of the parent mesh that its dofs are (`SubMesh::Transfer`,
external). -/
structure Setup where
  numSub : Nat
  names : List String
  globalSize : Nat → Nat
  map : Nat → Nat → List Nat
  flowMap : Nat → List Nat

variable {R T : Type}

/-! ### Setting up -/

/-- The fields of a subdomain or of the parent mesh: `RegisterField` for every variable and, if wanted, for its
error, src/multiblock_solver.cpp:396-405, 445-453. -/
def fieldsOf (names : List String) (saveError : Bool) (val err : Nat → Ref) : Outcome (List (String × Ref)) :=
  loop names.length (fun v fs => do
    let n ← rd names v
    let fs := fs ++ [(n, val v)]
    return if saveError then fs ++ [(n ++ "_abs_error", err v)] else fs) []

/-- New grid functions hold whatever was in memory. -/
def fresh (n : Nat) (size : Nat → Nat) (junk : Nat → Nat → R) : List (List R) :=
  (List.range n).map fun k => (List.range (size k)).map (junk k)

/-- `if ((m < visual.domain_offset) || (m % visual.domain_interval != 0)) continue`,
src/multiblock_solver.cpp:385, 476. -/
def skips (o : Opts) (m : Nat) : Bool :=
  decide ((m : Int) < o.offset) || decide ((m : Int).tmod o.interval ≠ 0)

/-- The assertions of src/multiblock_solver.cpp:368-369, 470-471. -/
def selection (o : Opts) (n : Nat) : Outcome Unit := do
  require (decide (0 ≤ o.offset ∧ o.offset < n))
  require (decide (0 < o.interval ∧ o.interval ≤ n))

/-- `InitIndividualParaview`, src/multiblock_solver.cpp:365-409. -/
def initIndividual (su : Setup) (o : Opts) (pre : String) (junk : Nat → Nat → R) (s : St R T) :
    Outcome (St R T) := do
  selection o su.numSub
  let err := if o.saveError then fresh s.us.length (fun k => ((s.us[k]?).getD []).length) junk else s.err
  let colls ← loop su.numSub (fun m cs =>
    if skips o m then .ok cs
    else do
      let fs ← fieldsOf su.names o.saveError (fun v => .us (m * su.names.length + v))
        (fun v => .err (m * su.names.length + v))
      wr cs m (some ⟨pre ++ "_" ++ toString m, some m, fs, none⟩)) (List.replicate su.numSub none)
  return { s with err := err, colls := colls }

/-- `InitUnifiedParaview`, src/multiblock_solver.cpp:411-455; a component topology has no parent mesh
(include/component_topology_handler.hpp:140-141). -/
def initUnified (su : Setup) (o : Opts) (pre : String) (junk : Nat → Nat → R) (s : St R T) : Outcome (St R T) := do
  require (!o.component)
  let g := fresh su.names.length su.globalSize junk
  let err := if o.saveError then fresh s.us.length (fun k => ((s.us[k]?).getD []).length) junk else s.err
  let ge := if o.saveError then fresh su.names.length su.globalSize junk else s.globalErr
  let fs ← fieldsOf su.names o.saveError .global .globalErr
  return { s with err := err, global := g, globalErr := ge, colls := [some ⟨pre, none, fs, none⟩] }

/-- `InitVisualization`, src/multiblock_solver.cpp:344-363. -/
def init (su : Setup) (o : Opts) (path : String) (junk : Nat → Nat → R) (s : St R T) : Outcome (St R T) :=
  if o.save then do
    require (path != "" || (o.pre != "" && o.dir != ""))
    let pre := if path != "" then path else o.dir ++ "/" ++ o.pre
    if o.unified then initUnified su o pre junk s else initIndividual su o pre junk s
  else .ok s

/-! ### Saving -/

/-- The values a reference has now. -/
def St.read (s : St R T) : Ref → Outcome (List R)
  | .us k => rd s.us k
  | .err k => rd s.err k
  | .global v => rd s.global v
  | .globalErr v => rd s.globalErr v
  | .flow m => rd s.flow m
  | .globalFlow => deref s.globalFlow

/-- `ParaViewDataCollection::Save` (external): the values of all fields are written. -/
def St.write (s : St R T) (c : Coll T) : Outcome (St R T) := do
  let fs ← loop c.fields.length (fun i fs => do
    let f ← rd c.fields i
    let x ← s.read f.2
    return fs ++ [(f.1, x)]) []
  return { s with out := s.out ++ [⟨c.name, c.mesh, c.stamp, fs⟩] }

/-- `SubMesh::Transfer` (external): the values of a subdomain are stored at its dofs of the parent mesh. -/
def transfer (map : List Nat) (src dst : List R) : Outcome (List R) :=
  loop map.length (fun k d => do
    let p ← rd map k
    let x ← rd src k
    wr d p x) dst

/-- `SubMeshTopologyHandler::TransferToGlobal`, src/topology_handler.cpp:449-457. -/
def transferToGlobal (numSub numVar : Nat) (map : Nat → Nat → List Nat) (us g : List (List R)) :
    Outcome (List (List R)) := do
  require (decide (us.length = numVar * numSub))
  require (decide (g.length = numVar))
  loop numSub (fun m g => loop numVar (fun v g => do
    let u ← rd us (m * numVar + v)
    let d ← rd g v
    let d ← transfer (map m v) u d
    wr g v d) g) g

/-- `MultiBlockSolver::SaveVisualization()`, src/multiblock_solver.cpp:457-480. -/
def saveVis (su : Setup) (o : Opts) (s : St R T) : Outcome (St R T) :=
  if o.save then do
    let s ← (if o.unified then do
        let g ← transferToGlobal su.numSub su.names.length su.map s.us s.global
        let ge ← (if o.saveError then transferToGlobal su.numSub su.names.length su.map s.err s.globalErr
          else .ok s.globalErr)
        return { s with global := g, globalErr := ge }
      else do
        selection o su.numSub
        return s)
    loop s.colls.length (fun m s =>
      if !o.unified && skips o m then .ok s
      else do
        let c ← rd s.colls m
        let c ← nonNull c
        s.write c) s
  else .ok s

/-- `MultiBlockSolver::SaveVisualization(step, time)`, src/multiblock_solver.cpp:482-493: every collection is
dereferenced. -/
def saveVisAt (su : Setup) (o : Opts) (step : Int) (time : T) (s : St R T) : Outcome (St R T) :=
  if o.save then do
    let cs ← loop s.colls.length (fun m cs => do
      let c ← rd cs m
      let c ← deref c
      wr cs m (some { c with stamp := some (step, time) })) s.colls
    saveVis su o { s with colls := cs }
  else .ok s

/-- The error fields set by `CompareSolution`, src/multiblock_solver.cpp:771-773:
`subtract(*test_us[k], *us[k], *error_visual[k])`. -/
def compare [Sub R] (o : Opts) (test : List (List R)) (s : St R T) : Outcome (St R T) :=
  if o.saveError then do
    let e ← loop test.length (fun k e => do
      let x ← rd test k
      let y ← rd s.us k
      wr e k (List.zipWith (· - ·) x y)) s.err
    return { s with err := e }
  else .ok s

/-- What a program does between setting up and leaving. -/
inductive Event (R T : Type) where
  /-- a solution is computed: the grid functions have new values -/
  | solve (us : List (List R))
  /-- `CompareSolution` with another solution -/
  | compare (test : List (List R))
  /-- `SaveVisualization()` -/
  | save
  /-- `SaveVisualization(step, time)` -/
  | saveAt (step : Int) (time : T)

/-- One of these calls. -/
def step [Sub R] (su : Setup) (o : Opts) : Event R T → St R T → Outcome (St R T)
  | .solve us, s => .ok { s with us := us }
  | .compare test, s => compare o test s
  | .save, s => saveVis su o s
  | .saveAt n t, s => saveVisAt su o n t s

/-- These calls one after the other. -/
def run [Sub R] (su : Setup) (o : Opts) : List (Event R T) → St R T → Outcome (St R T)
  | [], s => .ok s
  | e :: es, s => do
    let s ← step su o e s
    run su o es s

/-! ### The flow of the advection-diffusion solver -/

/-- `AdvDiffSolver::SaveVisualization`, src/advdiff_solver.cpp:180-228, called once (a second call replaces the field).  `flow m` is the velocity on subdomain `m`: of
the Stokes solver, or interpolated from the given coefficient if there is one. -/
def saveAdvDiff (su : Setup) (o : Opts) (flow : Nat → Option (List R)) (flowSize : Nat) (junk : Nat → R)
    (s : St R T) : Outcome (St R T) :=
  if o.save then do
    require (decide (0 < s.colls.length))
    require (s.colls.all Option.isSome)
    let fl ← loop su.numSub (fun m fl => do
      let f ← nonNull (flow m)
      return fl ++ [f]) []
    let s := { s with flow := fl }
    if o.unified then do
      let g ← transferToGlobal su.numSub 1 (fun m _ => su.flowMap m) fl [(List.range flowSize).map junk]
      let g ← rd g 0
      let c ← rd s.colls 0
      let c ← deref c
      let cs ← wr s.colls 0 (some { c with fields := c.fields ++ [("flow", .globalFlow)] })
      saveVis su o { s with globalFlow := some g, colls := cs }
    else do
      let cs ← loop su.numSub (fun m cs => do
        let c ← rd cs m
        let c ← deref c
        wr cs m (some { c with fields := c.fields ++ [("flow", .flow m)] })) s.colls
      saveVis su o { s with colls := cs }
  else .ok s

/-! ### Basis vectors -/

/-- `GridFunction(fes, data, 0)` on a part of a buffer, when its values are read: out of bounds is undefined. -/
def part (data : List R) (off len : Nat) : Outcome (List R) :=
  if off + len ≤ data.length then .ok ((data.drop off).take len) else .error .ub

/-- `for (int m = 0; m < numSub; m++) if (topol_handler->GetMeshType(m) == c) { midx = m; break; }`,
src/rom_handler.cpp:974-977. -/
def firstOf (types : List Nat) (c : Nat) : Option Nat :=
  (List.range types.length).find? fun m => types[m]? == some c

/-- The fields of one reference basis, src/rom_handler.cpp:983-1001: `basis_view` has a block for every basis vector
and every variable. -/
def basisFields (names : List String) (sizes : List Nat) (b : Mat R) : Outcome (List (String × List R)) :=
  loop b.w (fun k fs => loop names.length (fun v fs => do
    let n ← rd names v
    let z ← rd sizes v
    let x ← part b.data (k * sizes.sum + (sizes.take v).sum) z
    return fs ++ [(n ++ "_basis_" ++ toString k, x)]) fs) []

/-- `MFEMROMHandler::SaveBasisVisualization`, src/rom_handler.cpp:957-1010.  `bases` are the reference bases (one per
component, or with separate variables one per component and variable), `types` the components of the subdomains,
`sizes` the numbers of dofs of `fes`, one after the other for the variables of each subdomain. -/
def saveBasis (enabled loaded : Bool) (pre : Outcome String) (names : List String) (types sizes : List Nat)
    (bases : List (Mat R)) : Outcome (List (File R T)) :=
  if enabled then do
    require loaded
    require (decide (sizes.length = names.length * types.length))
    let pre ← pre
    loop bases.length (fun c out => do
      let m ← nonNull (firstOf types c)
      let b ← rd bases c
      let fs ← basisFields names ((sizes.drop (m * names.length)).take names.length) b
      return out ++ [⟨pre ++ "_" ++ toString c, some m, none, fs⟩]) []
  else .ok []

end Verif.Visual
