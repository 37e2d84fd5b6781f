import Verif.Model.SubMesh
import Verif.Model.Options

/-!
# The decomposition of a mesh into submeshes

Models `SetTopologyHandlerMode` and the constructors of `TopologyHandler` and `SubMeshTopologyHandler`
(`src/topology_handler.cpp:11-52, 166-227`).  A mesh is represented by the attributes of its elements.  MFEM's
`UniformRefinement` and `SubMesh::CreateFromDomain` are external; the interfaces are those of `Verif.Model.SubMesh`.
-/

namespace Verif.Decompose

open Verif Verif.Topology Verif.LinAlg Verif.Options

/-- `TopologyHandlerMode`, include/topology_handler.hpp:22-27. -/
inductive Mode where
  | submesh
  | component
deriving DecidableEq, Repr

/-- `SetTopologyHandlerMode`, src/topology_handler.cpp:11-25. -/
def topologyMode (c : Conv) (cfg : Node) : Outcome Mode := do
  let s ← option c.str (key "mesh/type") "submesh" cfg
  if s = "submesh" then return .submesh
  else if s = "component-wise" then return .component
  else .error .abort

/-- `DecompositionMode` without the one that is not implemented. -/
inductive DdMode where
  | ip
  | nodd
deriving DecidableEq, Repr

/-- `TopologyHandler::TopologyHandler`, src/topology_handler.cpp:31-51. -/
def ddMode (c : Conv) (cfg : Node) : Outcome DdMode := do
  let s ← option c.str (key "domain-decomposition/type") "interior_penalty" cfg
  if s = "interior_penalty" then return .ip
  else if s = "feti" then .error .abort
  else if s = "none" then return .nodd
  else .error .abort

/-- `Mesh::UniformRefinement` (MFEM, external): `kids n` lists for every element of the refined mesh which of the
`n` elements it came from; the attribute is that of the parent. -/
def refineOnce (kids : Nat → List Nat) (attr : List Int) : Outcome (List Int) :=
  (kids attr.length).foldlM (fun acc p => do
    let a ← rd attr p
    return acc ++ [a]) []

/-- src/topology_handler.cpp:176-178; no refinement for a negative number. -/
def refine (kids : Nat → List Nat) (num : Int) (attr : List Int) : Outcome (List Int) :=
  loop num.toNat (fun _ a => refineOnce kids a) attr

/-- `SubMesh::CreateFromDomain(...)` and `GetParentElementIDMap` (MFEM, external): the elements with one of the
attributes, in the order of the parent mesh. -/
def fromDomain (attr dom : List Int) : List Nat :=
  (List.range attr.length).filter fun e => match attr[e]? with
    | some a => decide (0 ≤ arrFind dom a)
    | none => false

/-- What the constructor leaves behind. -/
structure Topo where
  /-- attributes of the elements of the refined mesh -/
  attr : List Int
  numSub : Nat
  /-- `parent_elem_map` -/
  elemMap : List (List Nat)
  numComp : Nat
  meshTypes : List Nat
  subComposition : List Nat
  meshCompIdx : List Nat
  compNames : List String
deriving DecidableEq, Repr

/-- src/topology_handler.cpp:185-206: the parent elements of the submeshes.  A negative number of submeshes makes
`resize` throw. -/
def submeshes (dd : DdMode) (attributes attr : List Int) : Outcome (List (List Nat)) :=
  match dd with
  | .nodd => do
    let mx ← arrMax attributes
    let dom ← loop mx.toNat (fun k dom => wr dom k ((k : Int) + 1)) (List.replicate mx.toNat 0)
    return [fromDomain attr dom]
  | .ip => do
    let mx ← arrMax attributes
    require (decide (0 ≤ mx))
    loop mx.toNat (fun k acc => return acc ++ [fromDomain attr [(k : Int) + 1]]) []

/-- `SubMeshTopologyHandler::SubMeshTopologyHandler`, src/topology_handler.cpp:166-227; the rest of the constructor is
`Verif.SubMesh.buildSubMeshes2D`.  `attributes` is computed before the refinement. -/
def decompose (kids : Nat → List Nat) (dd : DdMode) (num : Int) (attr : List Int) : Outcome Topo := do
  let attributes ← updateAttributes attr
  let fine ← refine kids num attr
  let maps ← submeshes dd attributes fine
  let n := maps.length
  let types ← loop n (fun m l => wr l m m) (List.replicate n 0)
  let names ← loop n (fun k l => wr l k ("comp" ++ toString k)) (List.replicate n "")
  return ⟨fine, n, maps, n, types, List.replicate n 1, List.replicate n 0, names⟩

/-- The options and the constructor, src/topology_handler.cpp:31-51, 166-227. -/
def run (c : Conv) (cfg : Node) (kids : Nat → List Nat) (attr : List Int) : Outcome Topo := do
  let dd ← ddMode c cfg
  let num ← option c.int (key "mesh/uniform_refinement") 0 cfg
  decompose kids dd num attr

end Verif.Decompose
