import Verif.Model.Basic
import Mathlib.Analysis.SpecialFunctions.Trigonometric.Basic

/-!
# Attribute lists, component transforms and component bookkeeping

Models parts of `src/topology_handler.cpp`, `include/component_topology_handler.hpp` and
`src/component_topology_handler.cpp`.
-/

namespace Verif.Topology

/-- MFEM `Array<int>::Find` (used at `src/topology_handler.cpp:106,117`,
`src/component_topology_handler.cpp:339,340,410,418`): the first position of `v`, or `-1`. -/
def arrFind (a : List Int) (v : Int) : Int :=
  match a.findIdx? (· == v) with
  | some i => (i : Int)
  | none => -1

/-- `TopologyHandler::UpdateAttributes` and `UpdateBdrAttributes`
(`src/topology_handler.cpp:100-120`).  `elemAttr` lists the attribute of every (boundary) element
of the mesh, in element order; the result is the new `m.attributes` (`m.bdr_attributes`).  The old
content of the list is discarded by `DeleteAll` and is therefore not an argument. -/
def updateAttributes (elemAttr : List Int) : Outcome (List Int) :=
  loop elemAttr.length (fun k attrs => do
    let attr ← rd elemAttr k
    if arrFind attrs attr < 0 then .ok (attrs ++ [attr]) else .ok attrs) []

/-- The loop of `ComponentTopologyHandler::ComponentBdrAttrCheck`
(`src/component_topology_handler.cpp:987-1011`), returning `success`.  `break` is the early return
of `false`; printing is omitted. -/
def bdrAttrCheckGo (tmp : List Int) : List Int → Bool
  | [] => true
  | a :: rest => if arrFind tmp a < 0 then bdrAttrCheckGo (tmp ++ [a]) rest else false

/-- `ComponentTopologyHandler::ComponentBdrAttrCheck`
(`src/component_topology_handler.cpp:987-1011`). -/
def bdrAttrCheck (bdrAttributes : List Int) : Bool := bdrAttrCheckGo [] bdrAttributes

/-- The file-static `mesh_config::trans` and `mesh_config::rotate`
(`include/component_topology_handler.hpp:17`). -/
structure MeshConfig where
  trans : Nat → ℝ
  rotate : Nat → ℝ

/-- `mesh_config::Transform2D` (`include/component_topology_handler.hpp:20-31`), over the reals
instead of `double`. -/
noncomputable def transform2D (c : MeshConfig) (x : List ℝ) : Outcome (List ℝ) := do
  require (x.length == 2)
  let x0 ← rd x 0
  let x1 ← rd x 1
  let sint := Real.sin (c.rotate 0)
  let cost := Real.cos (c.rotate 0)
  .ok [cost * x0 - sint * x1 + c.trans 0, sint * x0 + cost * x1 + c.trans 1]

/-- `mesh_config::InverseTransform2D` (`include/component_topology_handler.hpp:33-44`), over the
reals. -/
noncomputable def inverseTransform2D (c : MeshConfig) (x : List ℝ) : Outcome (List ℝ) := do
  require (x.length == 2)
  let x0 ← rd x 0
  let x1 ← rd x 1
  let tmp0 := x0 - c.trans 0
  let tmp1 := x1 - c.trans 1
  let sint := Real.sin (- c.rotate 0)
  let cost := Real.cos (- c.rotate 0)
  .ok [cost * tmp0 - sint * tmp1, sint * tmp0 + cost * tmp1]

/-- `mesh_config::Transform3D` (`include/component_topology_handler.hpp:46-53`), over the reals.
The rotation angles are not used by the code. -/
def transform3D (c : MeshConfig) (x : List ℝ) : Outcome (List ℝ) := do
  require (x.length == 3)
  loop 3 (fun d y => do
    let xd ← rd x d
    wr y d (xd + c.trans d)) [0, 0, 0]

/-- `mesh_config::InverseTransform3D` (`include/component_topology_handler.hpp:55-62`), over the
reals. -/
def inverseTransform3D (c : MeshConfig) (x : List ℝ) : Outcome (List ℝ) := do
  require (x.length == 3)
  loop 3 (fun d y => do
    let xd ← rd x d
    wr y d (xd - c.trans d)) [0, 0, 0]

/-- Component bookkeeping of `ComponentTopologyHandler` / `TopologyHandler`
(`include/topology_handler.hpp`): how many subdomains each component has and the local index of
each subdomain within its component. -/
structure Composition where
  subComposition : List Int
  meshCompIdx : List Int
deriving DecidableEq, Repr

/-- The counting loop of `ComponentTopologyHandler::ReadComponentsFromFile`
(`src/component_topology_handler.cpp:231-240`).  `meshTypes` is the data set `meshes`; a component
index outside `0 .. num_comp-1` is an out-of-bounds access. `SetSize` leaves `mesh_comp_idx`
uninitialised; the initial value `junk` stands for whatever it holds. -/
def countComponents (numComp : Nat) (meshTypes : List Int) (junk : Int) : Outcome Composition :=
  loop meshTypes.length (fun m s => do
    let t ← rd meshTypes m
    let c ← rdI s.subComposition t
    let idx ← wr s.meshCompIdx m c
    let comp ← wrI s.subComposition t (c + 1)
    .ok ⟨comp, idx⟩)
    ⟨List.replicate numComp 0, List.replicate meshTypes.length junk⟩

/-- The rows of the data set `configuration` (`src/component_topology_handler.cpp:242-251`):
columns 0-2 are the translation, columns 3-5 the rotation. A row shorter than six is read out of
bounds. -/
def readConfig (row : List ℝ) : Outcome MeshConfig := do
  let t0 ← rd row 0
  let t1 ← rd row 1
  let t2 ← rd row 2
  let r0 ← rd row 3
  let r1 ← rd row 4
  let r2 ← rd row 5
  .ok ⟨fun d => [t0, t1, t2].getD d 0, fun d => [r0, r1, r2].getD d 0⟩

end Verif.Topology
