import Verif.Model.Hdf5
import Verif.Model.Ports

/-!
# Reference ports: reading, building and writing them

Models how `ComponentTopologyHandler` (src/component_topology_handler.cpp) obtains its reference
ports: from the global configuration file, from port files, or by matching component meshes; and the
port files it writes.

A disk is a partial map from file names to HDF5 files.  `std::unordered_map` and `std::map` are lists of
key/value pairs; the order of the list stands for the unspecified iteration order.  Output to the
terminal is omitted.
-/

namespace Verif.PortFile

open Verif Verif.Hdf5

variable {R : Type}

/-- `std::map<std::string, int>` (external): `comp_name2idx`, `port_name2idx`. -/
abbrev Names := List (String × Nat)

/-- `map.count(k)` and `map[k]` of an existing key. -/
def Names.look (m : Names) (k : String) : Option Nat := (m.find? (·.1 == k)).map (·.2)

/-- `map[k] = v`. -/
def Names.set (m : Names) (k : String) (v : Nat) : Names := (k, v) :: m.filter (·.1 != k)

/-- `map[k]` as an rvalue: a missing key is inserted with value `0`. -/
def Names.at (m : Names) (k : String) : Names × Nat :=
  match m.look k with
  | some v => (m, v)
  | none => ((k, 0) :: m, 0)

/-- `std::unordered_map<int, int>` (external). -/
abbrev VMap := List (Int × Int)

/-- `map[k] = v`. -/
def VMap.set (m : VMap) (k v : Int) : VMap := (k, v) :: m.filter (·.1 != k)

/-- `PortData` (include/component_topology_handler.hpp:80-86), with the vertices as the `int`s the files
hold. -/
structure Port where
  comp1 : Nat
  comp2 : Nat
  attr1 : Int
  attr2 : Int
  vtx : VMap
  pairs : List (Int × Int)
deriving DecidableEq, Repr

/-- The port built by `Ports.buildPort`. -/
def ofBuilt (p : Ports.PortData) : Port :=
  ⟨p.comp1, p.comp2, p.attr1, p.attr2, p.vtx2to1.map fun x => ((x.1 : Int), (x.2 : Int)),
    p.bePairs⟩

/-- The members of `ComponentTopologyHandler` used here: `comp_names`, `comp_name2idx`,
`port_name2idx` and `ref_ports` (`none` is a null pointer). -/
structure Handler where
  compNames : List String
  compIdx : Names
  portIdx : Names
  refs : List (Option Port)
deriving DecidableEq, Repr

/-! ## Port files -/

/-- The arrays of vertices, src/component_topology_handler.cpp:548-553. -/
def splitPairs (l : List (Int × Int)) : List Int × List Int := (l.map (·.1), l.map (·.2))

/-- `WritePortDataToFile`, src/component_topology_handler.cpp:523-577: the new contents of the file
(`H5F_ACC_TRUNC` discards the old ones). -/
def writePort (names : List String) (p : Port) (name : String) : Outcome (File R) := do
  let f ← writeAttr ([] : File R) [] "number_of_ports" 1
  let f ← create f ⟨[], "0", false⟩ .group
  let f ← writeStr f ["0"] "name" name
  let f ← writeAttr f ["0"] "bdr_attr1" p.attr1
  let f ← writeAttr f ["0"] "bdr_attr2" p.attr2
  let n1 ← rd names p.comp1
  let n2 ← rd names p.comp2
  let f ← writeStr f ["0"] "component1" n1
  let f ← writeStr f ["0"] "component2" n2
  let f ← writeArray f ["0"] "vtx1" (splitPairs p.vtx).2
  let f ← writeArray f ["0"] "vtx2" (splitPairs p.vtx).1
  let f ← writeArray f ["0"] "be1" (splitPairs p.pairs).1
  writeArray f ["0"] "be2" (splitPairs p.pairs).2

/-- The body of the loop of `ReadPortDatasFromFile` for a port that is wanted,
src/component_topology_handler.cpp:459-512: the new `comp_name2idx` and the port. -/
def readPort (f : File R) (g : Loc) (ci : Names) : Outcome (Names × Port) := do
  let a1 ← readAttr f g "bdr_attr1"
  let a2 ← readAttr f g "bdr_attr2"
  let n1 ← readStr f g "component1"
  let n2 ← readStr f g "component2"
  let r1 := ci.at n1
  let r2 := r1.1.at n2
  let v1 : List Int ← readArray f g "vtx1"
  let v2 : List Int ← readArray f g "vtx2"
  require (v1.length == v2.length)
  let b1 : List Int ← readArray f g "be1"
  let b2 : List Int ← readArray f g "be2"
  require (b1.length == b2.length)
  let vtx ← loop v1.length (fun v (m : VMap) => do
    let k ← rd v2 v
    let x ← rd v1 v
    return m.set k x) []
  let pairs ← loop b1.length (fun v l => do
    let x ← rd b1 v
    let y ← rd b2 v
    return l ++ [(x, y)]) []
  return (r2.1, ⟨r1.2, r2.2, a1, a2, vtx, pairs⟩)

/-- One iteration of `ReadPortDatasFromFile`, src/component_topology_handler.cpp:440-516. -/
def readGroup (f : File R) (k : Nat) (s : Handler) : Outcome Handler := do
  let g ← openGroup f [] (toString k)
  let name ← readStr f g "name"
  match s.portIdx.look name with
  | none => return s
  | some i => do
    let r ← rd s.refs i
    if r.isSome then return s
    else do
      let q ← readPort f g s.compIdx
      let refs ← wr s.refs i (some q.2)
      return { s with compIdx := q.1, refs := refs }

/-- `ReadPortDatasFromFile`, src/component_topology_handler.cpp:428-521. -/
def readFile (f : File R) (s : Handler) : Outcome Handler := do
  let n ← readAttr f [] "number_of_ports"
  require (decide (0 < n))
  loop n.toNat (readGroup f) s

/-! ## Port descriptions -/

/-- A port description in YAML, as far as `SetupReferencePorts` and `BuildPortDataFromInput` look into
it; `none` is an absent option. -/
structure Entry (R : Type) where
  file : Option String := none
  name : Option String := none
  comp1 : Option String := none
  comp2 : Option String := none
  attr1 : Option Int := none
  attr2 : Option Int := none
  conf : Option (List R) := none
deriving DecidableEq, Repr

/-- `GetRequiredOptionFromDict`: a missing option is an error. -/
def need {α : Type} : Option α → Outcome α
  | some a => .ok a
  | none => .error .abort

/-- `ReadPortDict`, src/component_topology_handler.cpp:349-382. -/
def readDict (f : File R) (g : Loc) (name : String) : Outcome (Entry R) := do
  let l ← openGroup f g name
  let c1 ← readStr f l "comp1"
  let c2 ← readStr f l "comp2"
  let a1 ← readAttr f l "attr1"
  let a2 ← readAttr f l "attr2"
  let t : List (Dbl R) ← readArray f l "comp2_configuration"
  return { name := some name, comp1 := some c1, comp2 := some c2, attr1 := some a1,
           attr2 := some a2, conf := some (t.map Dbl.val) }

/-- `port_dicts[p]`, src/component_topology_handler.cpp:283-284. -/
def dictOf (f : File R) (g : Loc) (name : String) : Outcome (Option (Entry R)) :=
  if pathExists f g name then do
    let d ← readDict f g name
    return some d
  else .ok none

/-- The port list of `ReadPortsFromFile`, src/component_topology_handler.cpp:270-285: `port_names`,
`port_name2idx` and `port_dicts`. -/
def readNames (f : File R) (idx : Names) :
    Outcome (List String × Names × List (Option (Entry R))) := do
  let g ← openGroup f [] "ports"
  let n ← readAttr f g "number_of_references"
  loop n.toNat (fun p s => do
    let tmp ← readStr f g (toString p)
    let d ← dictOf f g tmp
    return (s.1 ++ [tmp], s.2.1.set tmp p, s.2.2 ++ [d])) ([], idx, [])

/-- What port building takes from the handler and the options: `vtx_gap_thrs`, `dim`, the component
transformation with its configuration as first argument, the component meshes and `write_ports`. -/
structure Env (R : Type) where
  thr : R
  dim : Nat
  tf : List R → List R → Outcome (List R)
  comps : List (Ports.CMesh R)
  writePorts : Bool

/-- The disk. -/
abbrev Disk (R : Type) := String → Option (File R)

/-- The handler and the disk. -/
structure World (R : Type) where
  h : Handler
  disk : Disk R

variable [Field R] [LinearOrder R]

/-- `BuildPortDataFromInput`, src/component_topology_handler.cpp:745-935, with `Ports.buildPort` for the
lines after the look-up of the names.  `H5Fcreate` on an empty file name fails. -/
def buildInput (e : Env R) (d : Entry R) (w : World R) : Outcome (World R) := do
  let name ← need d.name
  match w.h.portIdx.look name with
  | none => return w
  | some i => do
    let r ← rd w.h.refs i
    if r.isSome then return w
    else do
      let n1 ← need d.comp1
      let n2 ← need d.comp2
      let c1 ← need (w.h.compIdx.look n1)
      let c2 ← need (w.h.compIdx.look n2)
      let a1 ← need d.attr1
      let a2 ← need d.attr2
      let conf ← need d.conf
      require (conf.length == 6)
      let p ← Ports.buildPort e.thr e.dim (e.tf conf) e.comps c1 c2 a1 a2
      let refs ← wr w.h.refs i (some (ofBuilt p))
      let h := { w.h with refs := refs }
      if e.writePorts then do
        let file ← need d.file
        require (file != "")
        let f ← writePort h.compNames (ofBuilt p) name
        return ⟨h, Function.update w.disk file (some f)⟩
      else return ⟨h, w.disk⟩

/-- One entry of the port list, src/component_topology_handler.cpp:180-187. -/
def entry (e : Env R) (d : Entry R) (w : World R) : Outcome (World R) :=
  match d.file with
  | none => buildInput e d w
  | some file =>
    if file = "" then buildInput e d w
    else match w.disk file with
      | none => buildInput e d w
      | some f => do
        let h ← readFile f w.h
        return ⟨h, w.disk⟩

/-- One entry of `port_dicts`, src/component_topology_handler.cpp:169-173. -/
def dictEntry (e : Env R) (d : Option (Entry R)) (w : World R) : Outcome (World R) :=
  match d with
  | none => .ok w
  | some d => buildInput e d w

/-- `SetupReferencePorts`, src/component_topology_handler.cpp:160-197, for `dicts` read by
`readNames` and the list of the option `mesh/component-wise/ports` (empty if absent).  `num_ref_ports` is
the size of `port_dicts`. -/
def setupRefs (e : Env R) (dicts : List (Option (Entry R))) (list : List (Entry R)) (w : World R) :
    Outcome (World R) := do
  require (decide (0 < dicts.length))
  let w : World R := ⟨{ w.h with refs := List.replicate dicts.length none }, w.disk⟩
  let w ← loop dicts.length (fun p w => do
    let d ← rd dicts p
    dictEntry e d w) w
  let w ← loop list.length (fun p w => do
    let d ← rd list p
    entry e d w) w
  require (w.h.refs.all Option.isSome)
  return w

end Verif.PortFile
