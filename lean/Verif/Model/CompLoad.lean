import Verif.Model.Topology
import Verif.Model.PortFile
import Verif.Model.Options

/-!
# The meshes of a component-wise topology

Models how `ComponentTopologyHandler` (`src/component_topology_handler.cpp`) reads the global
configuration file and the component meshes, and places a copy of a component mesh for every
subdomain.  Boundary attributes and ports come afterwards (`Verif.CompSetup`, `Verif.PortFile`).

Simplifications: real numbers instead of `double`; of a mesh only what is used here is kept: its
dimension, the name of its nodal finite element collection and its nodes.  Messages, the options read
for later use and the result of `ComponentBdrAttrCheck`, which the code ignores, are left out.
-/

namespace Verif.CompLoad

open Verif Verif.Topology Verif.Options
open Verif.PortFile (Names)
open Verif.Hdf5 (File Loc Arr2 Dbl openGroup readAttr readStr readArray readArray2)

/-- A mesh (external): `Dimension()`, `GetNodalFESpace()->FEColl()->Name()` (`none` if the mesh has no
nodal space, a null pointer), the nodes, and everything else. -/
structure Mesh (α : Type) where
  dim : Nat
  coll : Option String
  nodes : List (List ℝ)
  rest : α

/-- `comp_names`, `comp_name2idx`, `mesh_types`, `sub_composition` and `mesh_comp_idx`, `mesh_configs`
(`include/component_topology_handler.hpp:95-111`, `include/topology_handler.hpp`). -/
structure Layout where
  names : List String
  idx : Names
  types : List Int
  composition : Composition
  configs : List MeshConfig

/-- The names of the components, `src/component_topology_handler.cpp:213-221`. -/
def readNames (f : File ℝ) (g : Loc) (n : Nat) : Outcome (List String × Names) :=
  loop n (fun c s => do
    let tmp ← readStr f g (toString c)
    return (s.1 ++ [tmp], s.2.set tmp c)) ([], [])

/-- The configuration of one subdomain, `src/component_topology_handler.cpp:245-250`: `GetRow` is a
pointer to the first entry of the row. -/
def readRow (a : Arr2 (Dbl ℝ)) (m : Nat) : Outcome MeshConfig := do
  let t0 ← a.get m 0
  let r0 ← a.get m (0 + 3)
  let t1 ← a.get m 1
  let r1 ← a.get m (1 + 3)
  let t2 ← a.get m 2
  let r2 ← a.get m (2 + 3)
  return ⟨fun d => [t0.val, t1.val, t2.val].getD d 0, fun d => [r0.val, r1.val, r2.val].getD d 0⟩

/-- `ReadComponentsFromFile`, `src/component_topology_handler.cpp:199-258`, on an open file.  A negative
number of components makes `resize` throw. -/
def readComponents (f : File ℝ) (junk : Int) : Outcome Layout := do
  let g ← openGroup f [] "components"
  let n ← readAttr f g "number_of_components"
  require (decide (0 ≤ n))
  let nm ← readNames f g n.toNat
  let types : List Int ← readArray f g "meshes"
  let tmp : Arr2 (Dbl ℝ) ← readArray2 f g "configuration"
  require (types.length == tmp.rows)
  let comp ← countComponents n.toNat types junk
  let configs ← loop types.length (fun m acc => do
    let c ← readRow tmp m
    return acc ++ [c]) []
  return ⟨nm.1, nm.2, types, comp, configs⟩

variable {α : Type}

/-- The external operations on meshes: reading a mesh file (`Mesh(filename)` stops the program if it
cannot) and `UniformRefinement`. -/
structure Meshes (α : Type) where
  load : String → Outcome (Mesh α)
  refine : Mesh α → Mesh α

/-- One entry of the component list, `src/component_topology_handler.cpp:123-134`; an undefined entry
(a list written as a map without that key) stops the program when it is read. -/
def readEntry (c : Conv) (x : Meshes α) (idx : Names) (e : Option Node)
    (comps : List (Option (Mesh α))) : Outcome (List (Option (Mesh α))) :=
  match e with
  | none => .error .abort
  | some e => do
    let name ← required c.str (key "name") e
    match idx.look name with
    | none => return comps
    | some i => do
      let file ← required c.str (key "file") e
      let mesh ← x.load file
      wr comps i (some mesh)

/-- `*p` for a pointer that may be null. -/
def ptr {β : Type} : Option β → Outcome β
  | some b => .ok b
  | none => .error .ub

/-- `components[c]->GetNodalFESpace()->FEColl()->Name()`, `src/component_topology_handler.cpp:139-141`. -/
def collName (comps : List (Option (Mesh α))) (c : Nat) : Outcome String := do
  let p ← rd comps c
  let m ← ptr p
  ptr m.coll

/-- `num_refinement` times `UniformRefinement`, `src/component_topology_handler.cpp:151-157`. -/
def refineN (x : Meshes α) (k : Int) (m : Mesh α) : Mesh α := x.refine^[k.toNat] m

/-- `SetupComponents`, `src/component_topology_handler.cpp:113-158`. -/
def setupComponents (c : Conv) (x : Meshes α) (l : Layout) (cfg : Node) : Outcome (List (Mesh α)) := do
  require (decide (0 < l.names.length))
  match ← find cfg (pieces '/' (key "mesh/component-wise/components")) with
  | none => .error .abort
  | some list => do
    let comps ← loop (elems list).length (fun k comps => do
      let e ← rd (elems list) k
      readEntry c x l.idx e comps) (List.replicate l.names.length none)
    let name ← collName comps 0
    let _ ← loop l.names.length (fun k (_ : Unit) => do
      let n ← collName comps k
      require (decide (name = n))) ()
    let comps ← loop comps.length (fun k acc => do
      let p ← rd comps k
      let m ← nonNull p
      return acc ++ [m]) []
    let k ← option c.int (key "mesh/uniform_refinement") 0 cfg
    return comps.map (refineN x k)
where
  /-- `assert(p != NULL)`. -/
  nonNull : Option (Mesh α) → Outcome (Mesh α)
    | some m => .ok m
    | none => .error .abort

/-- `tf_ptr`, `src/component_topology_handler.cpp:28-48`: null unless the dimension is two or three. -/
noncomputable def transform (dim : Nat) : Option (MeshConfig → List ℝ → Outcome (List ℝ)) :=
  match dim with
  | 2 => some transform2D
  | 3 => some transform3D
  | _ => none

/-- `Mesh::Transform` (external) with the static configuration set to that of the subdomain,
`src/component_topology_handler.cpp:591-596`. -/
noncomputable def place (dim : Nat) (cf : MeshConfig) (m : Mesh α) : Outcome (Mesh α) := do
  let tf ← ptr (transform dim)
  let nodes ← m.nodes.mapM (tf cf)
  return { m with nodes := nodes }

/-- The loop of `SetupMeshes`, `src/component_topology_handler.cpp:579-599`. -/
noncomputable def setupMeshes (dim : Nat) (l : Layout) (comps : List (Mesh α)) :
    Outcome (List (Mesh α)) := do
  require (decide (0 < l.types.length))
  require (l.configs.length == l.types.length)
  loop l.types.length (fun m acc => do
    let t ← rd l.types m
    let comp ← rdI comps t
    let cf ← rd l.configs m
    let mesh ← place dim cf comp
    return acc ++ [mesh]) []

/-- What the constructor has set up when it comes to boundaries and ports. -/
structure Topo (α : Type) where
  layout : Layout
  dim : Nat
  comps : List (Mesh α)
  meshes : List (Mesh α)

/-- The first part of the constructor, `src/component_topology_handler.cpp:22-51`.  `disk` gives the
HDF5 files; a file that cannot be opened fails an assertion. -/
noncomputable def load (c : Conv) (x : Meshes α) (disk : String → Option (File ℝ)) (junk : Int)
    (cfg : Node) : Outcome (Topo α) := do
  let name ← required c.str (key "mesh/component-wise/global_config") cfg
  match disk name with
  | none => .error .abort
  | some f => do
    let l ← readComponents f junk
    let comps ← setupComponents c x l cfg
    let c0 ← rd comps 0
    let meshes ← setupMeshes c0.dim l comps
    return ⟨l, c0.dim, comps, meshes⟩

end Verif.CompLoad
