import Verif.Model.InterfaceForm
import Verif.Model.CompSetup
import Verif.Model.Boundary

/-!
# Component-wise assembly of the ROM operator

Models how the full-order operators are assembled (`src/poisson_solver.cpp`, `src/stokes_solver.cpp`),
how ROM elements are built from components, and how `MultiBlockSolver::AssembleROMMat`
(`src/multiblock_solver.cpp`) puts them together.
-/

namespace Verif.RomAssembly

open Verif Verif.LinAlg Verif.Topology
open Verif.Blocks (Order getBlockIndex)
open Verif.RomHandler (Handler)
open Verif.InterfaceForm (Form MatArr Port Space FMesh Integ side assembleAtPort)
open Verif.Ports (InterfaceInfo PortData)
open Verif.Boundary (BC BdrType lhsBC romBC bcExists)
open Verif.CompSetup (PortRow Topo Comp)

variable {R δ F : Type}

/-! ## Forms with boundary integrators -/

/-- The face matrix of a boundary element with its test and trial degrees of freedom. -/
structure BFace (R : Type) where
  rows : List Int
  cols : List Int
  mat : Mat R

/-- A `BilinearForm` or `MixedBilinearFormDGExtension`: the matrix of its domain and interior face
integrators, and for every boundary element the face matrix of the boundary integrator (`none` if
`GetBdrFaceTransformations` returns null).  All boundary integrators of a form are of the same kind and
differ only in their markers (src/poisson_solver.cpp:251, src/stokes_solver.cpp:364-365), so there is
one face matrix per boundary element.  The element matrices are external (MFEM quadrature). -/
structure BForm (R : Type) where
  base : Sp R
  bel : List (Option (BFace R))

/-- `mesh->bdr_attributes.Size() ? mesh->bdr_attributes.Max() : 0`, src/dg_mixed_bilin.cpp:110-111. -/
def maxOr (l : List Int) : Int :=
  match l with
  | [] => 0
  | a :: l => l.foldl max a

/-- `bdr_attr_marker[i] |= bdr_marker[i]`, src/dg_mixed_bilin.cpp:112-128. -/
def unionMarker (n : Nat) (mks : List (List Int)) : Outcome (List Bool) :=
  loop mks.length (fun k u => do
    let mk ← rd mks k
    loop n (fun i u => do
      let x ← rd mk i
      let o ← rd u i
      wr u i (o || x != 0)) u) (List.replicate n false)

section
variable [CommRing R]

/-- The loop over integrators on one boundary element, src/dg_mixed_bilin.cpp:147-157. -/
def addMarked (mks : List (List Int)) (attr : Int) (f : BFace R) (s : Sp R) : Outcome (Sp R) :=
  loop mks.length (fun k s => do
    let mk ← rd mks k
    let x ← rdI mk (attr - 1)
    if x = 0 then .ok s else addSubMatrix f.rows f.cols f.mat s) s

/-- `if (tr) { ... }`, src/dg_mixed_bilin.cpp:135-158. -/
def addFace (mks : List (List Int)) (attr : Int) (f : Option (BFace R)) (s : Sp R) :
    Outcome (Sp R) :=
  match f with
  | none => .ok s
  | some f => addMarked mks attr f s

/-- One boundary element, src/dg_mixed_bilin.cpp:130-159. -/
def addBdrElem (mks : List (List Int)) (u : List Bool) (attrs : List Int)
    (bel : List (Option (BFace R))) (i : Nat) (s : Sp R) : Outcome (Sp R) := do
  let a ← rd attrs i
  let x ← rdI u (a - 1)
  let f ← rd bel i
  if x then addFace mks a f s else .ok s

/-- The boundary part of `Assemble`, src/dg_mixed_bilin.cpp:103-160 (`MixedBilinearFormDGExtension`;
`mfem::BilinearForm::Assemble`, external, has the same loop).  `attrList` is `mesh->bdr_attributes`,
`attrs` are the attributes of the boundary elements.  The size check on markers is an `MFEM_ASSERT`,
active only in MFEM debug builds, and is not modelled: markers may be longer than the mesh needs. -/
def assembleBdr (attrList attrs : List Int) (mks : List (List Int)) (bel : List (Option (BFace R)))
    (s : Sp R) : Outcome (Sp R) :=
  if mks.length = 0 then .ok s else do
    let u ← unionMarker (maxOr attrList).toNat mks
    loop attrs.length (addBdrElem mks u attrs bel) s

/-! ## The full-order operator -/

/-- `SetupBCVariables`, src/multiblock_solver.cpp:205-224: markers as long as the largest boundary
attribute of any subdomain. -/
def bdrMarkers (battrs : List Int) (mesh : List (List Int × List Int)) :
    Outcome (List (List Int)) := do
  let mx ← loop mesh.length (fun m x => do
    let e ← rd mesh m
    let a ← CompSetup.arrMax e.2
    return max x a) (-1)
  Boundary.markers battrs mx

/-- `*bdr_markers[b]` for every boundary integrator added. -/
def pickMarkers (act : List (Nat × Unit)) (mks : List (List Int)) : Outcome (List (List Int)) :=
  loop act.length (fun k acc => do
    let a ← rd act k
    let mk ← rd mks a.1
    return acc ++ [mk]) []

/-- The form of one subdomain after `SetupDomainBCOperators` (src/poisson_solver.cpp:234-254,
src/stokes_solver.cpp:344-368) and `Assemble` (src/poisson_solver.cpp:285-289, src/stokes_solver.cpp:413-418). -/
def domainMatrix (bc : BC F) (mks : List (List Int)) (e : List Int × List Int) (f : BForm R) :
    Outcome (Sp R) := do
  let act ← lhsBC bc e.2
  let ms ← pickMarkers act mks
  assembleBdr e.2 e.1 ms f.bel f.base

/-- One subdomain of the assembly loop. -/
def domainStep (bc : BC F) (mks : List (List Int)) (mesh : List (List Int × List Int))
    (forms : List (BForm R)) (m : Nat) (acc : List (Sp R)) : Outcome (List (Sp R)) := do
  let e ← rd mesh m
  let f ← rd forms m
  let s ← domainMatrix bc mks e f
  return acc ++ [s]

/-- The array `mats` before the interface terms, src/poisson_solver.cpp:285-303,
src/stokes_solver.cpp:413-434: assembled forms on the diagonal, empty matrices elsewhere. -/
def fomArray (bc : BC F) (mks : List (List Int)) (mesh : List (List Int × List Int))
    (forms : List (BForm R)) (test trial : List Space) : Outcome (MatArr R) := do
  let ds ← loop forms.length (domainStep bc mks mesh forms) []
  return ⟨forms.length, forms.length, fun i j => if i = j then ds[i]? else
    some ⟨(test[i]?.getD ⟨0, []⟩).vsize, (trial[j]?.getD ⟨0, []⟩).vsize, []⟩⟩

/-- `PoissonSolver::AssembleOperator`, src/poisson_solver.cpp:279-305, and the velocity part of
`StokesSolver::AssembleOperatorBase`, src/stokes_solver.cpp:406-436: the blocks of the operator. -/
def fomMats (bc : BC F) (mks : List (List Int)) (mesh : List (List Int × List Int))
    (forms : List (BForm R)) (itf : Form R δ) : Outcome (MatArr R) := do
  let mats ← fomArray bc mks mesh forms itf.test itf.trial
  itf.assemble mats

/-- The divergence part of `StokesSolver::AssembleOperatorBase`, src/stokes_solver.cpp:406-436. -/
def fomMixed (bc : BC F) (mks : List (List Int)) (mesh : List (List Int × List Int))
    (forms : List (BForm R)) (itf : Form R δ) : Outcome (MatArr R) := do
  let mats ← fomArray bc mks mesh forms itf.test itf.trial
  itf.assembleMixed mats

/-! ## Local systems -/

/-- A sparse matrix as an operator. -/
def spOp (s : Sp R) : Op R :=
  ⟨s.h, s.w, fun x => (List.range s.h).map fun r =>
    ∑ c ∈ Finset.range s.w, s.get r c * x[c]?.getD 0⟩

/-- `mfem::Transpose` (external). -/
def spTranspose (s : Sp R) : Sp R := ⟨s.w, s.h, s.ents.map fun e => ((e.1.2, e.1.1), e.2)⟩

/-- `StokesSolver::FormBlockMatrix`, src/stokes_solver.cpp:1148-1179: `[m bt; b 0]`.  (The offsets are
owned by the callers and outlive the use of the operator.) -/
def formBlockMatrix (m b bt : Sp R) : Outcome (Op R) := do
  require (b.w == m.w)
  require (bt.h == m.h)
  return ⟨m.h + b.h, m.w + bt.w, fun x =>
    List.zipWith (· + ·) ((spOp m).mult (x.take m.w)) ((spOp bt).mult (x.drop m.w)) ++
      (spOp b).mult (x.take m.w)⟩

/-- The operators between the variables of two subdomains; `none` is null. -/
abbrev Local (R : Type) := Nat → Nat → Option (Op R)

/-- A system with one operator for all variables. -/
def oneLocal (a : Op R) : Local R := fun v w => if v = 0 ∧ w = 0 then some a else none

/-- The four combinations of velocity (0) and pressure (1), src/stokes_solver.cpp:560-562,
:617-619, :685-690 and :1035-1037. -/
def splitLocal (m b bt : Sp R) : Local R := fun v w =>
  if v = 0 ∧ w = 0 then some (spOp m)
  else if v = 1 ∧ w = 0 then some (spOp b)
  else if v = 0 ∧ w = 1 then some (spOp bt)
  else none

/-- The local system of a Stokes solver with or without separate bases, src/stokes_solver.cpp:558-570,
:615-627, :683-699 and :1028-1045. -/
def stokesLocal (separate : Bool) (m b bt : Sp R) : Outcome (Local R) :=
  if separate then .ok (splitLocal m b bt) else do
    let a ← formBlockMatrix m b bt
    return oneLocal a

/-- The four pairs of sides of a reference port, src/poisson_solver.cpp:421-423,
src/stokes_solver.cpp:672-675 and :679-699. -/
def pairs (f : Nat → Nat → Outcome (Local R)) : Outcome (Nat → Nat → Local R) :=
  loop 2 (fun i l => loop 2 (fun j l => do
    let x ← f i j
    return fun i' j' => if i' = i ∧ j' = j then x else l i' j') l) (fun _ _ _ _ => none)

/-! ## ROM elements -/

/-- `ROMLinearElement` (include/rom_element_collection.hpp): matrices of components, component
boundaries and reference ports. -/
structure RomElems (R : Type) where
  comp : List (MatBlocks R)
  bdr : List (List (MatBlocks R))
  port : List (MatBlocks R)

/-- `separate_variable_basis ? num_var : 1`, src/multiblock_solver.cpp:294. -/
def nvars (h : Handler R) : Nat := if h.separate then h.numVar else 1

/-- `mats(i, j) = rom_handler->ProjectToRefBasis(ri, ci, a)`; null operators are skipped. -/
def putBlock (h : Handler R) (ri ci : Int) (i j : Nat) (a : Option (Op R)) (b : MatBlocks R) :
    Outcome (MatBlocks R) :=
  match a with
  | none => .ok b
  | some a => do
    let s ← h.projectRefMat ri ci (some a)
    return { b with mats := fun i' j' => if i' = i ∧ j' = j then some ⟨s.h, s.w, s.get⟩ else b.mats i' j' }

/-- The blocks of one local system, projected on the bases of components `c1` and `c2` and stored from
position `(i0, j0)` on. -/
def putLocal (h : Handler R) (c1 c2 i0 j0 : Nat) (l : Local R) (b : MatBlocks R) :
    Outcome (MatBlocks R) :=
  loop (nvars h) (fun v b => loop (nvars h) (fun w b =>
    putBlock h (h.refIndex c1 v) (h.refIndex c2 w) (i0 + v) (j0 + w) (l v w) b) b) b

/-- The ROM matrix of a component or of a component boundary, src/poisson_solver.cpp:361-362 and
:388-390, src/stokes_solver.cpp:557-570 and :613-627. -/
def compElem (h : Handler R) (c : Nat) (l : Local R) : Outcome (MatBlocks R) :=
  putLocal h c c 0 0 l ⟨nvars h, nvars h, fun _ _ => none⟩

/-- The ROM matrix of a reference port, src/poisson_solver.cpp:401-423,
src/stokes_solver.cpp:649-699; `l i j` is the local system of side `i` and side `j`. -/
def portElem (h : Handler R) (c1 c2 : Nat) (l : Nat → Nat → Local R) : Outcome (MatBlocks R) :=
  loop 2 (fun i b => loop 2 (fun j b =>
    putLocal h (side c1 c2 i) (side c1 c2 j) (i * nvars h) (j * nvars h) (l i j) b) b)
    ⟨2 * nvars h, 2 * nvars h, fun _ _ => none⟩

/-- `bdr_marker = 0; bdr_marker[comp->bdr_attributes[b] - 1] = 1`, src/poisson_solver.cpp:379-381,
src/stokes_solver.cpp:594-596. -/
def compMarker (comp : Comp) (b : Nat) : Outcome (List Int) := do
  let a ← rd comp.bdrAttributes b
  wrI (List.replicate (maxOr comp.bdrAttributes).toNat (0 : Int)) (a - 1) 1

/-- The matrix of boundary `b` of a component, src/poisson_solver.cpp:382-386,
src/stokes_solver.cpp:598-607: a form with the boundary integrator only. -/
def compBdrMatrix (comp : Comp) (f : BForm R) (b : Nat) : Outcome (Sp R) := do
  let mk ← compMarker comp b
  assembleBdr comp.bdrAttributes comp.beAttr [mk] f.bel ⟨f.base.h, f.base.w, []⟩

/-- How a solver combines its matrices into a local system: the data of component `c`, boundary `b` of
component `c`, and sides `i`, `j` of reference port `p`. -/
structure LocalOf (R : Type) where
  comp : Nat → Outcome (Local R)
  bdr : Nat → Nat → Outcome (Local R)
  port : Nat → Outcome (Nat → Nat → Local R)

/-- `BuildCompROMLinElems`, src/poisson_solver.cpp:343-364, src/stokes_solver.cpp:522-574. -/
def buildComp (h : Handler R) (comps : List Comp) (l : LocalOf R) : Outcome (List (MatBlocks R)) :=
  loop comps.length (fun c acc => do
    let x ← l.comp c
    let e ← compElem h c x
    return acc ++ [e]) []

/-- `BuildBdrROMLinElems`, src/poisson_solver.cpp:366-393, src/stokes_solver.cpp:576-632. -/
def buildBdr (h : Handler R) (comps : List Comp) (l : LocalOf R) :
    Outcome (List (List (MatBlocks R))) :=
  loop comps.length (fun c acc => do
    let comp ← rd comps c
    let es ← loop comp.bdrAttributes.length (fun b acc => do
      let x ← l.bdr c b
      let e ← compElem h c x
      return acc ++ [e]) []
    return acc ++ [es]) []

/-- `BuildItfaceROMLinElems`, src/poisson_solver.cpp:395-429, src/stokes_solver.cpp:634-704. -/
def buildPorts (h : Handler R) (refPorts : List PortData) (l : LocalOf R) :
    Outcome (List (MatBlocks R)) :=
  loop refPorts.length (fun p acc => do
    let q ← rd refPorts p
    let x ← l.port p
    let e ← portElem h q.comp1 q.comp2 x
    return acc ++ [e]) []

/-- `MultiBlockSolver::BuildROMLinElems`, src/multiblock_solver.cpp:259-271. -/
def buildElems (h : Handler R) (comps : List Comp) (refPorts : List PortData) (l : LocalOf R) :
    Outcome (RomElems R) := do
  let c ← buildComp h comps l
  let b ← buildBdr h comps l
  let p ← buildPorts h refPorts l
  return ⟨c, b, p⟩

/-! ## Assembling the ROM operator -/

/-- `midx[v] = rom_handler->GetBlockIndex(m, v)`, src/multiblock_solver.cpp:296-298 and :333-339. -/
def subIdx (h : Handler R) (m : Nat) (acc : List Int) : Outcome (List Int) :=
  loop (nvars h) (fun v acc => do
    let k ← getBlockIndex h.separate h.ord h.numSub h.numVar m v
    return acc ++ [k]) acc

/-- One subdomain of `AssembleROMMat`, src/multiblock_solver.cpp:291-319; `romBC` lists the boundaries
that are not skipped. -/
def addSubdomain (h : Handler R) (bc : BC F) (c2g : List (List Int)) (el : RomElems R) (m : Nat)
    (rom : BlockMat R) : Outcome (BlockMat R) := do
  let c ← rd h.meshType m
  let idx ← subIdx h m []
  let a ← rd el.comp c
  let rom ← addToBlockMatrix idx idx a rom
  let row ← rd c2g m
  let act ← romBC bc row
  loop act.length (fun k rom => do
    let b ← rd act k
    let bs ← rd el.bdr c
    let x ← rd bs b
    addToBlockMatrix idx idx x rom) rom

/-- One port of `AssembleROMMat`, src/multiblock_solver.cpp:322-342. -/
def addPort (h : Handler R) (ports : List PortRow) (el : RomElems R) (p : Nat) (rom : BlockMat R) :
    Outcome (BlockMat R) := do
  let r ← rd ports p
  let x ← rdI el.port r.type
  let idx ← subIdx h r.mesh1.toNat []
  let idx ← subIdx h r.mesh2.toNat idx
  addToBlockMatrix idx idx x rom

/-- `MultiBlockSolver::AssembleROMMat`, src/multiblock_solver.cpp:273-343. -/
def assembleROM (h : Handler R) (bc : BC F) (c2g : List (List Int)) (ports : List PortRow)
    (el : RomElems R) : Outcome (BlockMat R) := do
  let rom ← loop h.numSub (addSubdomain h bc c2g el)
    ⟨h.romOffs, h.romOffs, true, fun _ _ => none⟩
  loop ports.length (addPort h ports el) rom

/-! ## Projecting the full-order operator -/

/-- The array `tmp` of operators, src/poisson_solver.cpp:513-516, src/stokes_solver.cpp:1012-1047:
`tmp(GetBlockIndex(i, v), GetBlockIndex(j, w))` is operator `(v, w)` of subdomains `i`, `j`.  (With one
variable the block index is the subdomain.) -/
def putOps (h : Handler R) (i j : Nat) (l : Local R) (tmp : Nat → Nat → Option (Op R)) :
    Outcome (Nat → Nat → Option (Op R)) :=
  loop (nvars h) (fun v tmp => loop (nvars h) (fun w tmp => do
    let r ← getBlockIndex h.separate h.ord h.numSub h.numVar i v
    let c ← getBlockIndex h.separate h.ord h.numSub h.numVar j w
    return fun a b => if (a : Int) = r ∧ (b : Int) = c then l v w else tmp a b) tmp) tmp

/-- All subdomain pairs. -/
def opArray (h : Handler R) (l : Nat → Nat → Outcome (Local R)) :
    Outcome (Nat → Nat → Option (Op R)) :=
  loop h.numSub (fun i tmp => loop h.numSub (fun j tmp => do
    let x ← l i j
    putOps h i j x tmp) tmp) (fun _ _ => none)

/-- `MFEMROMHandler::ProjectOperatorOnReducedBasis`, src/rom_handler.cpp:416-432: every block of the
array is projected, null blocks give empty matrices. -/
def projectArray (h : Handler R) (tmp : Nat → Nat → Option (Op R)) : Outcome (BlockMat R) :=
  loop h.numBlocks (fun a rom => loop h.numBlocks (fun b rom => do
    let s ← h.projectDomainMat a b (tmp a b)
    return { rom with blk := fun a' b' => if a' = a ∧ b' = b then some ⟨s.h, s.w, s.get⟩ else rom.blk a' b' })
    rom) ⟨h.romOffs, h.romOffs, true, fun _ _ => none⟩

/-- `ProjectOperatorOnReducedBasis` of a solver, src/poisson_solver.cpp:511-519,
src/stokes_solver.cpp:1010-1054. -/
def projectFom (h : Handler R) (l : Nat → Nat → Outcome (Local R)) : Outcome (BlockMat R) := do
  let tmp ← opArray h l
  projectArray h tmp

/-! ## Poisson -/

/-- The forms of a solver variable pair on components and on subdomains, with its interface form, and
the component meshes and spaces its reference ports use. -/
structure Forms (R δ : Type) where
  comp : List (BForm R)
  sub : List (BForm R)
  itf : Form R δ
  cmeshes : List (FMesh δ)
  ctest : List Space
  ctrial : List Space

/-- `AssembleInterfaceMatrixAtPort(p, ...)` of the interface form: the reference port joins components
`GetComponentPair(p)` with the interfaces of the reference port. -/
def Forms.atPort (f : Forms R δ) (refPorts : List PortData) (refItfs : List (List InterfaceInfo))
    (p : Nat) : Outcome (MatArr R) := do
  let q ← rd refPorts p
  let infos ← rd refItfs p
  assembleAtPort f.cmeshes f.ctest f.ctrial f.itf.fnfi q.comp1 q.comp2 infos

/-- `*spmats(i, j)` as an operator; null stays null. -/
def MatArr.op (m : MatArr R) (i j : Nat) : Option (Op R) := (m.at_ i j).map spOp

/-- The operator of sides `i`, `j` of a reference port, src/poisson_solver.cpp:421-423; a null matrix
would be dereferenced by `ProjectToRefBasis`. -/
def poissonPair (a : MatArr R) (i j : Nat) : Outcome (Local R) := do
  let x ← deref (a.at_ i j)
  return oneLocal (spOp x)

/-- The ROM elements of a Poisson solver, src/poisson_solver.cpp:343-429. -/
def poissonLocals (f : Forms R δ) (comps : List Comp) (refPorts : List PortData)
    (refItfs : List (List InterfaceInfo)) : LocalOf R where
  comp c := do
    let b ← rd f.comp c
    return oneLocal (spOp b.base)
  bdr c b := do
    let comp ← rd comps c
    let g ← rd f.comp c
    let s ← compBdrMatrix comp g b
    return oneLocal (spOp s)
  port p := do
    let a ← f.atPort refPorts refItfs p
    pairs (poissonPair a)

/-- The operators of the full-order Poisson operator, src/poisson_solver.cpp:513-516. -/
def poissonFom (a : MatArr R) (i j : Nat) : Outcome (Local R) :=
  .ok fun v w => if v = 0 ∧ w = 0 then MatArr.op a i j else none

/-! ## Stokes -/

/-- The local system of sides `i`, `j` of a reference port, src/stokes_solver.cpp:669-699:
`bt_mats_p(j, i) = Transpose(*b_mats_p(i, j))`. -/
def stokesPair (separate : Bool) (m b : MatArr R) (i j : Nat) : Outcome (Local R) := do
  let x ← deref (m.at_ i j)
  let y ← deref (b.at_ i j)
  let z ← deref (b.at_ j i)
  stokesLocal separate x y (spTranspose z)

/-- The ROM elements of a Stokes solver, src/stokes_solver.cpp:522-704. -/
def stokesLocals (separate : Bool) (fm fb : Forms R δ) (comps : List Comp) (refPorts : List PortData)
    (refItfs : List (List InterfaceInfo)) : LocalOf R where
  comp c := do
    let m ← rd fm.comp c
    let b ← rd fb.comp c
    stokesLocal separate m.base b.base (spTranspose b.base)
  bdr c b := do
    let comp ← rd comps c
    let g ← rd fm.comp c
    let k ← rd fb.comp c
    let m ← compBdrMatrix comp g b
    let b ← compBdrMatrix comp k b
    stokesLocal separate m b (spTranspose b)
  port p := do
    let m ← fm.atPort refPorts refItfs p
    let b ← fb.atPort refPorts refItfs p
    pairs (stokesPair separate m b)

/-- The operators of the full-order Stokes operator, src/stokes_solver.cpp:1022-1046. -/
def stokesFom (separate : Bool) (m b : MatArr R) (i j : Nat) : Outcome (Local R) :=
  stokesPair separate m b i j

end

end Verif.RomAssembly
