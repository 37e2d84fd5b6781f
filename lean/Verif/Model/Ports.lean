import Verif.Model.Topology
import Mathlib.Algebra.Order.Group.Abs
import Mathlib.Algebra.Order.Ring.Defs
import Mathlib.Data.List.Sort

/-!
# Ports between component meshes

Models the detection of ports and of reference interfaces in
`src/component_topology_handler.cpp`.  Coordinates are elements of an ordered field instead of
`double`.
-/

namespace Verif.Ports

open Verif.Topology

/-- `std::unordered_map<int,int>` (external): a list of key/value pairs. -/
abbrev IMap := List (Nat × Nat)

/-- `map.count(k)`. -/
def IMap.count (m : IMap) (k : Nat) : Bool := m.any (·.1 == k)

/-- `map[k] = v`. -/
def IMap.set (m : IMap) (k v : Nat) : IMap := (k, v) :: m.filter (·.1 != k)

/-- `map[k]` as an rvalue.  On a missing key C++ inserts and returns `0`; all modelled reads follow
a `count` check, so the missing case is a failure of the model. -/
def IMap.get (m : IMap) (k : Nat) : Outcome Nat :=
  match m.find? (·.1 == k) with
  | some p => .ok p.2
  | none => .error .ub

/-- A component mesh: boundary elements (attribute, vertices), list of boundary attributes and
vertex coordinates (`Mesh::GetBdrAttribute`, `GetBdrElementVertices`, `bdr_attributes`,
`GetVertex`). -/
structure CMesh (K : Type) where
  bes : List (Int × List Nat)
  bdrAttributes : List Int
  verts : List (List K)

/-- `PortData` (`include/component_topology_handler.hpp:80-86`). -/
structure PortData where
  comp1 : Nat
  comp2 : Nat
  attr1 : Int
  attr2 : Int
  vtx2to1 : IMap
  bePairs : List (Int × Int)
deriving DecidableEq, Repr

section
variable {K : Type}

/-- The boundary elements with a given attribute
(`src/component_topology_handler.cpp:789-793`). -/
def attrElems (m : CMesh K) (attr : Int) : Outcome (List Nat) :=
  loop m.bes.length (fun b acc => do
    let be ← rd m.bes b
    if be.1 = attr then .ok (acc ++ [b]) else .ok acc) []

/-- Vertices of a boundary element (`Mesh::GetBdrElementVertices`). -/
def beVertices (m : CMesh K) (b : Nat) : Outcome (List Nat) := do
  let be ← rd m.bes b
  .ok be.2

/-- Collecting the distinct vertices of a list of boundary elements
(`src/component_topology_handler.cpp:798-813`). -/
def portVertices (m : CMesh K) (be : List Nat) : Outcome (List Nat) :=
  loop be.length (fun k acc => do
    let b ← rd be k
    let vs ← beVertices m b
    loop vs.length (fun v acc => do
      let x ← rd vs v
      if x ∈ acc then .ok acc else .ok (acc ++ [x])) acc) []

variable [Field K] [LinearOrder K]

/-- The coordinate comparison loop (`src/component_topology_handler.cpp:847-855`) from coordinate
`d` on, `k` coordinates left; `mtch` is the current value of `match`.  The gap is only printed on
failure and is omitted. -/
def closeFrom (thr : K) (x1 x2 : List K) : Nat → Nat → Bool → Outcome Bool
  | _, 0, mtch => .ok mtch
  | d, k + 1, _ => do
    let a ← rd x1 d
    let b ← rd x2 d
    let mtch := decide (|a - b| < thr)
    if !mtch then .ok false else closeFrom thr x1 x2 (d + 1) k mtch

/-- `match` at the end of the comparison of two vertices. -/
def close (thr : K) (dim : Nat) (x1 x2 : List K) : Outcome Bool := closeFrom thr x1 x2 0 dim true

/-- The search for the partner of one vertex of component 1
(`src/component_topology_handler.cpp:839-864`) among the vertices of component 2 that are not yet
mapped; `break` at the first match. -/
def findPartner (thr : K) (dim : Nat) (x1 : List K) (m : IMap) :
    List (Nat × List K) → Outcome (Option Nat)
  | [] => .ok none
  | (v2, x2) :: rest =>
    if m.count v2 then findPartner thr dim x1 m rest
    else do
      let mtch ← close thr dim x1 x2
      if mtch then .ok (some v2) else findPartner thr dim x1 m rest

/-- Matching all vertices (`src/component_topology_handler.cpp:833-871`); a vertex without partner
is an error. -/
def matchVertices (thr : K) (dim : Nat) (m1 : CMesh K) (vtx1 : List Nat)
    (x2s : List (Nat × List K)) : Outcome IMap :=
  loop vtx1.length (fun k m => do
    let v1 ← rd vtx1 k
    let x1 ← rd m1.verts v1
    match ← findPartner thr dim x1 m x2s with
    | some v2 => .ok (m.set v2 v1)
    | none => .error .abort) []

/-- `Array<int>::Sort` (external). -/
def sort (l : List Nat) : List Nat := l.insertionSort (· ≤ ·)

/-- The search for the partner of a boundary element of component 2
(`src/component_topology_handler.cpp:887-911`): the first boundary element of component 1 with the
same sorted vertices. -/
def findElement (m1 : CMesh K) (key : List Nat) : List Nat → Outcome (Option Nat)
  | [] => .ok none
  | b1 :: rest => do
    let vs ← beVertices m1 b1
    require (key.length == vs.length)
    if sort vs = key then .ok (some b1) else findElement m1 key rest

/-- Translating the vertices of a boundary element of component 2
(`src/component_topology_handler.cpp:878-884`). -/
def translate (m : IMap) (vs : List Nat) : Outcome (List Nat) :=
  loop vs.length (fun v acc => do
    let x ← rd vs v
    require (m.count x)
    let y ← m.get x
    .ok (acc ++ [y])) []

/-- Pairing the boundary elements (`src/component_topology_handler.cpp:873-915`). -/
def pairElements (m1 m2 : CMesh K) (vmap : IMap) (be1 be2 : List Nat) :
    Outcome (List (Int × Int)) := do
  let pairs ← loop be2.length (fun k pairs => do
    let b2 ← rd be2 k
    let vs ← beVertices m2 b2
    let key ← translate vmap vs
    match ← findElement m1 (sort key) be1 with
    | some b1 => wr pairs k ((b1 : Int), (b2 : Int))
    | none => .ok pairs) (List.replicate be1.length (-1, -1))
  loop pairs.length (fun i (_ : Unit) => do
    let p ← rd pairs i
    require (decide (0 ≤ p.1))
    require (decide (0 ≤ p.2))) ()
  .ok pairs

/-- Transforming the port vertices of component 2 (`src/component_topology_handler.cpp:820-831`).
`tf` is the component transformation selected by the dimension. -/
def transformVertices (tf : List K → Outcome (List K)) (dim : Nat) (m2 : CMesh K)
    (vtx2 : List Nat) : Outcome (List (Nat × List K)) :=
  loop vtx2.length (fun k acc => do
    let v ← rd vtx2 k
    let x ← rd m2.verts v
    let y ← tf (x.take dim)
    .ok (acc ++ [(v, y)])) []

/-- `ComponentTopologyHandler::BuildPortDataFromInput`
(`src/component_topology_handler.cpp:745-935`) after the names have been looked up and the port has
been found not to be set: `c1`, `c2` are the component indices.  `tf` is the transformation with
`mesh_config` already set from `comp2_configuration`; verbose output and `write_ports` are
omitted. -/
def buildPort (thr : K) (dim : Nat) (tf : List K → Outcome (List K)) (comps : List (CMesh K))
    (c1 c2 : Nat) (attr1 attr2 : Int) : Outcome PortData := do
  let m1 ← rd comps c1
  let m2 ← rd comps c2
  require (!decide (arrFind m1.bdrAttributes attr1 < 0))
  require (!decide (arrFind m2.bdrAttributes attr2 < 0))
  let be1 ← attrElems m1 attr1
  let be2 ← attrElems m2 attr2
  require (be1.length == be2.length)
  let vtx1 ← portVertices m1 be1
  let vtx2 ← portVertices m2 be2
  require (vtx1.length == vtx2.length)
  let x2s ← transformVertices tf dim m2 vtx2
  let vmap ← matchVertices thr dim m1 vtx1 x2s
  let pairs ← pairElements m1 m2 vmap be1 be2
  .ok ⟨c1, c2, attr1, attr2, vmap, pairs⟩

end

/-- `Element::Type` of a boundary element as far as `GetOrientation` distinguishes it. -/
inductive BEType where
  | point
  | segment
  | triangle
  | quadrilateral
  | other
deriving DecidableEq, Repr

/-- `ComponentTopologyHandler::GetOrientation` (`src/component_topology_handler.cpp:937-985`).  `tri`
and `quad` stand for MFEM's `Mesh::GetTriOrientation` and `GetQuadOrientation` (external).
`mfem_error` aborts. -/
def getOrientation (tri quad : List Nat → List Nat → Outcome Int) (ty : BEType)
    (vtx1 vtx2 : List Nat) : Outcome Int := do
  require (vtx1.length == vtx2.length)
  match ty with
  | .point => .error .abort
  | .segment => do
    let a0 ← rd vtx1 0
    let a1 ← rd vtx1 1
    let b0 ← rd vtx2 0
    let b1 ← rd vtx2 1
    if a1 = b0 ∧ a0 = b1 then .ok 1
    else if a0 = b0 ∧ a1 = b1 then .ok 0
    else .error .abort
  | .triangle => tri vtx1 vtx2
  | .quadrilateral => quad vtx1 vtx2
  | .other => .error .abort

/-- What `SetupReferenceInterfaces` reads from a component mesh about each boundary element: type,
face information of its face (`GetFaceInfos(GetBdrFace(be))`) and the vertices of the face. -/
structure BEFace where
  ty : BEType
  inf : Int
  vtx : List Nat
deriving DecidableEq, Repr

/-- `InterfaceInfo` (`include/topology_handler.hpp:37-46`). -/
structure InterfaceInfo where
  be1 : Nat
  be2 : Nat
  inf1 : Int
  inf2 : Int
deriving DecidableEq, Repr

/-- One iteration of the loop over `be_pairs` in `SetupReferenceInterfaces`
(`src/component_topology_handler.cpp:655-695`).  C++ integer division truncates, hence `Int.tdiv`. -/
def refInterface (tri quad : List Nat → List Nat → Outcome Int) (f1 f2 : List BEFace) (vmap : IMap)
    (p : Nat × Nat) : Outcome InterfaceInfo := do
  let b1 ← rd f1 p.1
  let b2 ← rd f2 p.2
  require (decide (b1.ty = b2.ty))
  let vtx2 ← loop b2.vtx.length (fun v acc => do
    let x ← rd b2.vtx v
    require (vmap.count x)
    let y ← vmap.get x
    .ok (acc ++ [y])) []
  let ori2 ← getOrientation tri quad b1.ty b1.vtx vtx2
  .ok ⟨p.1, p.2, b1.inf, 64 * (b2.inf.tdiv 64) + ori2⟩

/-- `SetupReferenceInterfaces` for one reference port
(`src/component_topology_handler.cpp:641-696`). -/
def refInterfaces (tri quad : List Nat → List Nat → Outcome Int) (f1 f2 : List BEFace) (vmap : IMap)
    (bePairs : List (Nat × Nat)) : Outcome (List InterfaceInfo) :=
  loop bePairs.length (fun k acc => do
    let p ← rd bePairs k
    let I ← refInterface tri quad f1 f2 vmap p
    .ok (acc ++ [I])) []

end Verif.Ports
