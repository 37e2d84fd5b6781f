import Verif.Model.Ports

/-!
# Building a component-wise topology

Models how `ComponentTopologyHandler` (`src/component_topology_handler.cpp`) assigns boundary
attributes to the boundary elements of every subdomain and attaches ports.
-/

namespace Verif.CompSetup

open Verif Verif.Topology Verif.Ports

/-- What the set-up uses of a component mesh: `Mesh::bdr_attributes` and `GetBdrAttribute(be)` of every
boundary element. -/
structure Comp where
  bdrAttributes : List Int
  beAttr : List Int
deriving DecidableEq, Repr

/-- A row of the data set `boundary` (src/component_topology_handler.cpp:407): global attribute,
subdomain, component boundary attribute. -/
structure BdrRow where
  gattr : Int
  mesh : Int
  cattr : Int
deriving DecidableEq, Repr

/-- A row of the data set `interface` (src/component_topology_handler.cpp:303-308). -/
structure PortRow where
  mesh1 : Int
  mesh2 : Int
  attr1 : Int
  attr2 : Int
  type : Int
deriving DecidableEq, Repr

/-- `PortInfo` (include/topology_handler.hpp:30-34). -/
structure PortInfo where
  portAttr : Int
  mesh1 : Int
  mesh2 : Int
  attr1 : Int
  attr2 : Int
deriving DecidableEq, Repr

/-- `bdr_c2g` and `bdr_attributes` of the handler. -/
structure Global where
  c2g : List (List Int)
  battrs : List Int
deriving DecidableEq, Repr

/-- The initialisation of `bdr_c2g` in `SetupMeshes`, src/component_topology_handler.cpp:602-609.  A
subdomain mesh is a copy of its component, so the boundary attribute lists have the same size. -/
def initC2g (comps : List Comp) (meshTypes : List Int) : Outcome (List (List Int)) :=
  loop meshTypes.length (fun m acc => do
    let c ← rd meshTypes m
    let comp ← rdI comps c
    return acc ++ [List.replicate comp.bdrAttributes.length (-1)]) []

/-- `(*bdr_c2g[m])[idx] = v`. -/
def setC2g (c2g : List (List Int)) (m idx v : Int) : Outcome (List (List Int)) := do
  let row ← rdI c2g m
  let row ← wrI row idx v
  wrI c2g m row

/-- The position of a component boundary attribute of a subdomain,
src/component_topology_handler.cpp:409-410 and :335-340. -/
def attrIndex (comps : List Comp) (meshTypes : List Int) (m attr : Int) : Outcome Int := do
  let c ← rdI meshTypes m
  let comp ← rdI comps c
  return arrFind comp.bdrAttributes attr

/-- One iteration of src/component_topology_handler.cpp:405-420. -/
def boundaryStep (comps : List Comp) (meshTypes : List Int) (rows : List BdrRow) (b : Nat)
    (s : Global) : Outcome Global := do
  let r ← rd rows b
  let idx ← attrIndex comps meshTypes r.mesh r.cattr
  require (decide (0 ≤ idx))
  let c2g ← setC2g s.c2g r.mesh idx r.gattr
  return ⟨c2g, if arrFind s.battrs r.gattr < 0 then s.battrs ++ [r.gattr] else s.battrs⟩

/-- `ReadBoundariesFromFile`, src/component_topology_handler.cpp:386-426 (opening the file and
falling back to a second file are not modelled). -/
def readBoundaries (comps : List Comp) (meshTypes : List Int) (rows : List BdrRow)
    (c2g : List (List Int)) : Outcome Global :=
  loop rows.length (boundaryStep comps meshTypes rows) ⟨c2g, []⟩

/-- `mfem::Array<int>::Max` (external); on an empty array it reads element 0. -/
def arrMax (l : List Int) : Outcome Int :=
  match l with
  | [] => .error .ub
  | a :: l => .ok (l.foldl max a)

/-- The first port attribute, src/component_topology_handler.cpp:319-327. -/
def attrOffset (comps : List Comp) (battrs : List Int) : Outcome Int := do
  let o ← loop comps.length (fun c o => do
    let comp ← rd comps c
    let m ← arrMax comp.bdrAttributes
    return max o m) 0
  require (decide (0 < battrs.length))
  let m ← arrMax battrs
  return max o (m + 1) + 1

/-- One iteration of src/component_topology_handler.cpp:329-347. -/
def portStep (comps : List Comp) (meshTypes : List Int) (rows : List PortRow) (p : Nat)
    (s : Int × List (List Int) × List PortInfo) :
    Outcome (Int × List (List Int) × List PortInfo) := do
  let r ← rd rows p
  let idx1 ← attrIndex comps meshTypes r.mesh1 r.attr1
  let idx2 ← attrIndex comps meshTypes r.mesh2 r.attr2
  require (decide (0 ≤ idx1) && decide (0 ≤ idx2))
  let c2g ← setC2g s.2.1 r.mesh1 idx1 s.1
  let c2g ← setC2g c2g r.mesh2 idx2 s.1
  return (s.1 + 1, c2g, s.2.2 ++ [⟨s.1, r.mesh1, r.mesh2, r.attr1, r.attr2⟩])

/-- `ReadPortsFromFile`, src/component_topology_handler.cpp:261-348, after the data set has been
read. -/
def readPorts (comps : List Comp) (meshTypes : List Int) (rows : List PortRow) (g : Global) :
    Outcome (List (List Int) × List PortInfo) := do
  let o ← attrOffset comps g.battrs
  let s ← loop rows.length (portStep comps meshTypes rows) (o, g.c2g, [])
  return s.2

/-- One iteration of `SetupPorts`, src/component_topology_handler.cpp:726-740. -/
def attachPort (meshTypes : List Int) (refPorts : List PortData)
    (refItfs : List (List InterfaceInfo)) (rows : List PortRow) (p : Nat)
    (acc : List (List InterfaceInfo)) : Outcome (List (List InterfaceInfo)) := do
  let r ← rd rows p
  let q ← rdI refPorts r.type
  let c1 ← rdI meshTypes r.mesh1
  require (decide (c1 = (q.comp1 : Int)))
  let c2 ← rdI meshTypes r.mesh2
  require (decide (c2 = (q.comp2 : Int)))
  require (decide (r.attr1 = q.attr1))
  require (decide (r.attr2 = q.attr2))
  require (!(decide (q.comp1 = q.comp2) && decide (r.mesh1 = r.mesh2)))
  let infos ← rdI refItfs r.type
  return acc ++ [infos]

/-- `SetupPorts`, src/component_topology_handler.cpp:720-743. -/
def setupPorts (meshTypes : List Int) (refPorts : List PortData)
    (refItfs : List (List InterfaceInfo)) (rows : List PortRow) :
    Outcome (List (List InterfaceInfo)) :=
  loop rows.length (attachPort meshTypes refPorts refItfs rows) []

/-- The new attribute of boundary element `be` in `SetupBdrAttributes`,
src/component_topology_handler.cpp:625-630. -/
def bdrElemAttr (comp : Comp) (row : List Int) (be : Nat) : Outcome Int := do
  let a ← rd comp.beAttr be
  let idx := arrFind comp.bdrAttributes a
  require (decide (0 ≤ idx))
  let g ← rdI row idx
  require (decide (0 ≤ g))
  return g

/-- One subdomain of `SetupBdrAttributes`, src/component_topology_handler.cpp:616-634: the attributes
of its boundary elements (initially those of the component) and the updated list
`bdr_attributes`. -/
def meshBdr (comps : List Comp) (meshTypes : List Int) (c2g : List (List Int)) (m : Nat)
    (acc : List (List Int × List Int)) : Outcome (List (List Int × List Int)) := do
  let c ← rd meshTypes m
  let comp ← rdI comps c
  let row ← rd c2g m
  let attrs ← loop comp.beAttr.length (fun be l => do
    let g ← bdrElemAttr comp row be
    wr l be g) comp.beAttr
  let l ← updateAttributes attrs
  return acc ++ [(attrs, l)]

/-- The topology after construction: `bdr_c2g`, `bdr_attributes`, `port_infos`, `interface_infos`, and
for every subdomain the attributes of its boundary elements and `meshes[m]->bdr_attributes`. -/
structure Topo where
  c2g : List (List Int)
  battrs : List Int
  ports : List PortInfo
  infos : List (List InterfaceInfo)
  mesh : List (List Int × List Int)
deriving DecidableEq, Repr

/-- The constructor of `ComponentTopologyHandler`, src/component_topology_handler.cpp:14-72, from
`SetupMeshes` on.  `refPorts` and `refItfs` are the results of `SetupReferencePorts` and
`SetupReferenceInterfaces` (see `Ports.buildPort` and `Ports.refInterfaces`), which do not depend on the
attributes set here.  Without reference ports the port table is not read
(src/component_topology_handler.cpp:290-296). -/
def setup (comps : List Comp) (meshTypes : List Int) (bdr : List BdrRow) (ports : List PortRow)
    (refPorts : List PortData) (refItfs : List (List InterfaceInfo)) : Outcome Topo := do
  require (decide (0 < meshTypes.length))
  let c2g ← initC2g comps meshTypes
  let g ← readBoundaries comps meshTypes bdr c2g
  let rows := if refPorts.length = 0 then [] else ports
  let r ← readPorts comps meshTypes rows g
  let infos ← setupPorts meshTypes refPorts refItfs rows
  let mesh ← loop meshTypes.length (meshBdr comps meshTypes r.1) []
  return ⟨r.1, g.battrs, r.2, infos, mesh⟩

end Verif.CompSetup
