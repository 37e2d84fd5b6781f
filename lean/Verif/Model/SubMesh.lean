import Verif.Model.Topology
import Verif.Model.LinAlg

/-!
# Interfaces between submeshes of a parent mesh

Models `SubMeshTopologyHandler` (`src/topology_handler.cpp`): the face map, the boundary attributes
of the submeshes and the search for interfaces.  MFEM's `Mesh` and `SubMesh` are represented by the
data this code reads from them.
-/

namespace Verif.SubMesh

open Verif.Topology Verif.LinAlg

/-- What `Mesh::GetFaceInformation` and `Mesh::GetFaceInfos` (MFEM, external) report about a face of
the parent mesh: the adjacent elements (`e1 = -1` on the boundary) and the encoded local face
information of each side. -/
structure Face where
  e0 : Int
  e1 : Int
  inf0 : Int
  inf1 : Int
deriving DecidableEq, Repr

/-- The parent mesh (`pmesh`): faces, edges of each element, and boundary elements as pairs of face
index (`GetBdrElementEdgeIndex`) and attribute. -/
structure Parent where
  faces : List Face
  elemEdges : List (List Nat)
  bdr : List (Nat × Int)
  bdrAttributes : List Int
deriving DecidableEq, Repr

/-- A boundary element of a submesh: face index (`GetBdrFace`), attribute and adjacent element
(`GetBdrElementAdjacentElement`). -/
structure BE where
  face : Nat
  attr : Int
  elem : Nat
deriving DecidableEq, Repr

/-- A submesh: edges of each element, parent element of each element (`GetParentElementIDMap`),
number of faces and boundary elements. -/
structure Sub where
  elemEdges : List (List Nat)
  elemMap : List Nat
  numFaces : Nat
  bes : List BE
deriving DecidableEq, Repr

/-- `SubMeshTopologyHandler::BuildFaceMap2D` (`src/topology_handler.cpp:286-314`).  The
`MFEM_ASSERT`s are active in debug builds of MFEM only and are left out. -/
def buildFaceMap2D (pm : Parent) (sm : Sub) : Outcome (List Int) :=
  loop sm.elemEdges.length (fun i pfids => do
    let peid ← rd sm.elemMap i
    let sel ← rd sm.elemEdges i
    let pel ← rd pm.elemEdges peid
    loop sel.length (fun j pfids => do
      let s ← rd sel j
      let p ← rd pel j
      wr pfids s (p : Int)) pfids) (List.replicate sm.numFaces (-1))

/-- The face-to-boundary-element table built at `src/topology_handler.cpp:330-335`. -/
def parentFaceToBe (pm : Parent) : Outcome (List Int) :=
  loop pm.bdr.length (fun i a => do
    let b ← rd pm.bdr i
    wr a b.1 (i : Int)) (List.replicate pm.faces.length (-1))

/-- `SubMeshTopologyHandler::BuildSubMeshBoundary2D` (`src/topology_handler.cpp:316-355`): the
boundary elements with their new attributes.  The update of `bdr_attributes` at line 354 is
`updateAttributes` and is overwritten at line 419. -/
def buildSubMeshBoundary2D (pm : Parent) (sm : Sub) (faceMap : List Int) : Outcome (List BE) := do
  let mx ← arrMax pm.bdrAttributes
  let generated := mx + 1
  let ftb ← parentFaceToBe pm
  loop sm.bes.length (fun k bes => do
    let be ← rd bes k
    let pf ← rd faceMap be.face
    let pbeid ← rdI ftb pf
    if pbeid ≠ -1 then do
      let b ← rdI pm.bdr pbeid
      wr bes k { be with attr := b.2 }
    else
      wr bes k { be with attr := generated }) sm.bes

/-- `PortInfo` (`include/topology_handler.hpp:30-34`). -/
structure PortInfo where
  portAttr : Int
  mesh1 : Nat
  mesh2 : Nat
  attr1 : Int
  attr2 : Int
deriving DecidableEq, Repr

/-- `InterfaceInfo` (`include/topology_handler.hpp:37-46`). -/
structure InterfaceInfo where
  be1 : Nat
  be2 : Nat
  inf1 : Int
  inf2 : Int
deriving DecidableEq, Repr

/-- The variables that change during `BuildInterfaceInfos`: boundary elements of all submeshes, next
interface attribute, the two `numSub × numSub` tables and the two result lists.  `interface_map` is
never initialised by the code (line 362 initialises the other table a second time), so its entries
are `none` until written. -/
structure IState where
  bes : List (List BE)
  ifAttr : Int
  attrs : List Int
  map : List (Option Nat)
  ports : List PortInfo
  infos : List (List InterfaceInfo)
deriving DecidableEq, Repr

/-- Reading an entry of the uninitialised table `interface_map` is undefined behaviour. -/
def rdInit (a : List (Option Nat)) (i : Nat) : Outcome Nat := do
  match ← rd a i with
  | some v => .ok v
  | none => .error .ub

/-- `SubMeshTopologyHandler::FindParentInterfaceInfo` (`src/topology_handler.cpp:422-447`).
`bei`, `bej` are the boundary elements `ibe` of submesh `imesh` and `jbe` of `jmesh`. -/
def findParentInterfaceInfo (pm : Parent) (subs : List Sub) (pface : Int) (imesh : Nat) (bei : BE)
    (jmesh : Nat) (bej : BE) : Outcome (Int × Int) := do
  let f ← rdI pm.faces pface
  let si ← rd subs imesh
  let eli ← rd si.elemMap bei.elem
  let sj ← rd subs jmesh
  let _elj ← rd sj.elemMap bej.elem
  if (eli : Int) = f.e0 then .ok (f.inf0, f.inf1) else .ok (f.inf1, f.inf0)

/-- The part of the innermost loop body before the attributes are set: creating the port of the
pair if needed (`src/topology_handler.cpp:390-402`). -/
def ensurePort (numSub i j : Nat) (st : IState) : Outcome IState := do
  let a ← rd st.attrs (i * numSub + j)
  if a ≤ 0 then do
    let attrs ← wr st.attrs (i * numSub + j) st.ifAttr
    let map ← wr st.map (i * numSub + j) (some st.ports.length)
    .ok { st with
      attrs := attrs, map := map,
      ports := st.ports ++ [⟨st.ifAttr, i, j, st.ifAttr, st.ifAttr⟩],
      infos := st.infos ++ [[]],
      ifAttr := st.ifAttr + 1 }
  else .ok st

/-- `Mesh::SetBdrAttribute(be, attr)` of submesh `m`. -/
def setBdrAttribute (bes : List (List BE)) (m b : Nat) (attr : Int) : Outcome (List (List BE)) := do
  let l ← rd bes m
  let be ← rd l b
  let l' ← wr l b { be with attr := attr }
  wr bes m l'

/-- Body of the loop over `jb` (`src/topology_handler.cpp:382-414`). -/
def matchBody (pm : Parent) (subs : List Sub) (faceMaps : List (List Int)) (numSub : Nat)
    (generated : Int) (i ib : Nat) (parentFaceI : Int) (j jb : Nat) (st : IState) :
    Outcome IState := do
  let fmj ← rd faceMaps j
  let besj ← rd st.bes j
  let bej ← rd besj jb
  let parentFaceJ ← rd fmj bej.face
  if parentFaceI ≠ parentFaceJ then .ok st
  else do
    require (bej.attr == generated)
    let st ← ensurePort numSub i j st
    let p ← rdInit st.map (i * numSub + j)
    let besi ← rd st.bes i
    let bei ← rd besi ib
    let infs ← findParentInterfaceInfo pm subs parentFaceI i bei j bej
    let a ← rd st.attrs (i * numSub + j)
    let bes ← setBdrAttribute st.bes i ib a
    let a ← rd st.attrs (i * numSub + j)
    let bes ← setBdrAttribute bes j jb a
    let l ← rd st.infos p
    let infos ← wr st.infos p (l ++ [⟨ib, jb, infs.1, infs.2⟩])
    .ok { st with bes := bes, infos := infos }

/-- Body of the loop over `ib` (`src/topology_handler.cpp:372-416`). -/
def faceBody (pm : Parent) (subs : List Sub) (faceMaps : List (List Int)) (numSub : Nat)
    (generated : Int) (i ib : Nat) (st : IState) : Outcome IState := do
  let besi ← rd st.bes i
  let bei ← rd besi ib
  if bei.attr ≠ generated then .ok st
  else do
    let fmi ← rd faceMaps i
    let parentFaceI ← rd fmi bei.face
    loop (numSub - (i + 1)) (fun k st => do
      let besj ← rd st.bes (i + 1 + k)
      loop besj.length (fun jb st =>
        matchBody pm subs faceMaps numSub generated i ib parentFaceI (i + 1 + k) jb st) st) st

/-- `SubMeshTopologyHandler::BuildInterfaceInfos` (`src/topology_handler.cpp:357-420`), without the
final update of `bdr_attributes` (`updateAttributes`).  `bes` are the boundary elements of the
submeshes on entry. -/
def buildInterfaceInfos (pm : Parent) (subs : List Sub) (faceMaps : List (List Int))
    (bes : List (List BE)) : Outcome IState := do
  let mx ← arrMax pm.bdrAttributes
  let numSub := subs.length
  loop numSub (fun i st => do
    let besi ← rd st.bes i
    loop besi.length (fun ib st => faceBody pm subs faceMaps numSub (mx + 1) i ib st) st)
    ⟨bes, mx + 2, List.replicate (numSub * numSub) (-1), List.replicate (numSub * numSub) none,
      [], []⟩

/-- The part of the constructor that prepares every submesh in two dimensions and builds the
interfaces (`src/topology_handler.cpp:228-243`).  In three dimensions MFEM supplies face map and
attributes. -/
def buildSubMeshes2D (pm : Parent) (subs : List Sub) : Outcome (IState × List (List Int)) := do
  let r ← loop subs.length (fun k (r : List (List Int) × List (List BE)) => do
    let sm ← rd subs k
    let fm ← buildFaceMap2D pm sm
    let bes ← buildSubMeshBoundary2D pm sm fm
    .ok (r.1 ++ [fm], r.2 ++ [bes])) ([], [])
  let st ← buildInterfaceInfos pm subs r.1 r.2
  .ok (st, r.1)

end Verif.SubMesh
