import Verif.Model.Views
import Verif.Model.Blocks
import Verif.Model.Ports
import Verif.Model.RomHandler

/-!
# Interface forms

Models `InterfaceForm` and `MixedInterfaceForm` of `src/interface_form.cpp`.
-/

namespace Verif.InterfaceForm

open Verif Verif.LinAlg
open Verif.Blocks (BlockVector)
open Verif.Ports (InterfaceInfo)

variable {R δ : Type}

/-- `FaceElementTransformations` (external): the adjacent element `Elem1No` and whatever else an
integrator reads (geometry, finite element). -/
structure Tr (δ : Type) where
  elem : Nat
  data : δ
deriving DecidableEq, Repr

/-- What `GetInterfaceTransformations` uses of a mesh (external): `GetBdrFaceTransformations(be)`
(may be null), the face information of boundary element `be`, and `GetLocalFaceTransformation`. -/
structure FMesh (δ : Type) where
  face : Nat → Option (Tr δ)
  inf : Nat → Int
  fix : Tr δ → Int → Tr δ

/-- One side of `TopologyHandler::GetInterfaceTransformations`, src/topology_handler.cpp:61-78 and
:80-95: the local transformation is replaced when the stored orientation differs. -/
def sideTr (m : FMesh δ) (be : Nat) (inf : Int) : Outcome (Option (Tr δ)) :=
  if m.inf be = inf then .ok (m.face be) else do
    let t ← deref (m.face be)
    return some (m.fix t inf)

/-- `TopologyHandler::GetInterfaceTransformations`, src/topology_handler.cpp:53-96.  `same` is the
pointer comparison `m1 == m2`. -/
def transformations (same : Bool) (m1 m2 : FMesh δ) (i : InterfaceInfo) :
    Outcome (Option (Tr δ) × Option (Tr δ)) := do
  require (!same)
  let t1 ← sideTr m1 i.be1 i.inf1
  let t2 ← sideTr m2 i.be2 i.inf2
  return (t1, t2)

/-- `FiniteElementSpace` (external): `GetTrueVSize` and `GetElementVDofs`. -/
structure Space where
  vsize : Nat
  vdofs : List (List Int)
deriving DecidableEq, Repr

/-- `InterfaceNonlinearFormIntegrator` (include/interfaceinteg.hpp): element matrices, element
vectors and element gradients of an interface face.  The index of a block is the side, 0 or 1. -/
structure Integ (R δ : Type) where
  mat : Tr δ → Tr δ → Nat → Nat → Mat R
  vec : Tr δ → Tr δ → List R → List R → Nat → List R
  grad : Tr δ → Tr δ → List R → List R → Nat → Nat → Mat R

/-- `Array2D<SparseMatrix *>`. -/
structure MatArr (R : Type) where
  nr : Nat
  nc : Nat
  at_ : Nat → Nat → Option (Sp R)

/-- Modifying `*mats(i, j)` through its pointer. -/
def MatArr.modify (a : MatArr R) (i j : Nat) (f : Sp R → Outcome (Sp R)) : Outcome (MatArr R) :=
  if i < a.nr ∧ j < a.nc then do
    let s ← deref (a.at_ i j)
    let s' ← f s
    return { a with at_ := fun i' j' => if i' = i ∧ j' = j then some s' else a.at_ i' j' }
  else .error .ub

/-- Reading the pointers `mats(midx[i], midx[j])`, src/interface_form.cpp:52-53 and :411-413: all four
must lie inside the array. -/
def MatArr.view (a : MatArr R) (m1 m2 : Nat) : Outcome Unit :=
  if m1 < a.nr ∧ m1 < a.nc ∧ m2 < a.nr ∧ m2 < a.nc then .ok () else .error .ub

/-- `topol_handler->GetPortInfo(p)` and `GetInterfaceInfos(p)`. -/
structure Port where
  mesh1 : Nat
  mesh2 : Nat
  infos : List InterfaceInfo
deriving DecidableEq, Repr

/-- `midx[0] = pInfo->Mesh1; midx[1] = pInfo->Mesh2;`. -/
def side (a b : Nat) (i : Nat) : Nat := if i = 0 then a else b

section
variable [CommRing R]

/-- `for i < 2, for j < 2: mats(i, j)->AddSubMatrix(*test_vdofs[i], *trial_vdofs[j], *elemmats(i,j))`,
src/interface_form.cpp:193-197 and :486-490, with `mats(i, j)` the matrix at `(ri i, ci j)`. -/
def addBlocks (a b : Nat) (rows cols : Nat → List Int) (em : Nat → Nat → Mat R)
    (mats : MatArr R) : Outcome (MatArr R) :=
  loop 2 (fun i mats => loop 2 (fun j mats =>
    mats.modify (side a b i) (side a b j) (addSubMatrix (rows i) (cols j) (em i j))) mats) mats

/-- The loop over integrators, src/interface_form.cpp:188-198 and :480-491; `em k` gives the element
matrices of integrator `k`. -/
def addIntegs (a b : Nat) (rows cols : Nat → List Int) (fnfi : List (Option (Integ R δ)))
    (em : Integ R δ → Nat → Nat → Mat R) (mats : MatArr R) : Outcome (MatArr R) :=
  loop fnfi.length (fun k mats => do
    let f ← rd fnfi k
    let f ← nonNull f
    addBlocks a b rows cols (em f) mats) mats

/-- The body of `if ((tr1 != NULL) && (tr2 != NULL))`, src/interface_form.cpp:180-199 and :463-492.
For `InterfaceForm` the test and trial spaces coincide. -/
def faceMatrix (a b : Nat) (test1 test2 trial1 trial2 : Space) (fnfi : List (Option (Integ R δ)))
    (mats : MatArr R) : Option (Tr δ) × Option (Tr δ) → Outcome (MatArr R)
  | (some t1, some t2) => do
    let c1 ← rd trial1.vdofs t1.elem
    let c2 ← rd trial2.vdofs t2.elem
    let r1 ← rd test1.vdofs t1.elem
    let r2 ← rd test2.vdofs t2.elem
    addIntegs a b (fun i => if i = 0 then r1 else r2) (fun i => if i = 0 then c1 else c2) fnfi
      (fun f => f.mat t1 t2) mats
  | _ => .ok mats

/-- `AssembleInterfaceMatrix`, src/interface_form.cpp:163-206 (`InterfaceForm`) and :436-500
(`MixedInterfaceForm`); matrix `(i, j)` of the port is entry `(side a b i, side a b j)` of `mats`. -/
def assembleMatrix (same : Bool) (a b : Nat) (m1 m2 : FMesh δ) (test1 test2 trial1 trial2 : Space)
    (fnfi : List (Option (Integ R δ))) (infos : List InterfaceInfo) (mats : MatArr R) :
    Outcome (MatArr R) :=
  loop infos.length (fun k mats => do
    let i ← rd infos k
    let t ← transformations same m1 m2 i
    faceMatrix a b test1 test2 trial1 trial2 fnfi mats t) mats

/-- The members of an interface form: subdomain meshes, spaces and integrators, and the ports of the
topology.  For `InterfaceForm` the test and trial spaces are the same list. -/
structure Form (R δ : Type) where
  meshes : List (FMesh δ)
  test : List Space
  trial : List Space
  fnfi : List (Option (Integ R δ))
  ports : List Port

/-- One port of `AssembleInterfaceMatrices`, src/interface_form.cpp:46-64 and :404-430. -/
def Form.portMatrix (f : Form R δ) (k : Nat) (mats : MatArr R) : Outcome (MatArr R) := do
  let p ← rd f.ports k
  mats.view p.mesh1 p.mesh2
  let m1 ← rd f.meshes p.mesh1
  let m2 ← rd f.meshes p.mesh2
  let c1 ← rd f.trial p.mesh1
  let c2 ← rd f.trial p.mesh2
  let r1 ← rd f.test p.mesh1
  let r2 ← rd f.test p.mesh2
  assembleMatrix (p.mesh1 == p.mesh2) p.mesh1 p.mesh2 m1 m2 r1 r2 c1 c2 f.fnfi p.infos mats

/-- `MixedInterfaceForm::AssembleInterfaceMatrices`, src/interface_form.cpp:397-434. -/
def Form.assembleMixed (f : Form R δ) (mats : MatArr R) : Outcome (MatArr R) :=
  loop f.ports.length f.portMatrix mats

/-- `for (i, j) assert(mats(i, j))`, src/interface_form.cpp:36-37. -/
def allSet (mats : MatArr R) : Outcome Unit :=
  loop mats.nr (fun i _ => loop mats.nc (fun j _ => do
    let _ ← nonNull (mats.at_ i j)
    return ()) ()) ()

/-- `InterfaceForm::AssembleInterfaceMatrices`, src/interface_form.cpp:32-65. -/
def Form.assemble (f : Form R δ) (mats : MatArr R) : Outcome (MatArr R) := do
  require (mats.nr == f.meshes.length)
  require (mats.nc == f.meshes.length)
  allSet mats
  f.assembleMixed mats

/-- `AssembleInterfaceMatrixAtPort`, src/interface_form.cpp:208-249 and :502-548: four new matrices
for the pair of components of a reference port.  The second mesh is a copy when the components
coincide, so the meshes are never the same object.  (In the code of `MixedInterfaceForm` both meshes
are copied.) -/
def assembleAtPort (meshes : List (FMesh δ)) (test trial : List Space)
    (fnfi : List (Option (Integ R δ))) (c1 c2 : Nat) (infos : List InterfaceInfo) :
    Outcome (MatArr R) := do
  let m1 ← rd meshes c1
  let m2 ← rd meshes c2
  let r1 ← rd test c1
  let r2 ← rd test c2
  let q1 ← rd trial c1
  let q2 ← rd trial c2
  assembleMatrix false 0 1 m1 m2 r1 r2 q1 q2 fnfi infos
    ⟨2, 2, fun i j => some ⟨(if i = 0 then r1 else r2).vsize, (if j = 0 then q1 else q2).vsize, []⟩⟩

/-! ## Matrix-free action -/

/-- One integrator of `AssembleInterfaceVector`, src/interface_form.cpp:288-297; `o1`, `o2` are the
starts of the blocks of `y`. -/
def addVecs (o1 o2 : Nat) (d1 d2 : List Int) (e1 e2 : List R) (y : List R) : Outcome (List R) := do
  let y ← addElementVector y o1 d1 e1
  addElementVector y o2 d2 e2

/-- The body of `if ((tr1 != NULL) && (tr2 != NULL))`, src/interface_form.cpp:276-299. -/
def faceVector (o1 o2 : Nat) (s1 s2 : Space) (fnfi : List (Option (Integ R δ))) (x1 x2 : List R)
    (y : List R) : Option (Tr δ) × Option (Tr δ) → Outcome (List R)
  | (some t1, some t2) => do
    let d1 ← rd s1.vdofs t1.elem
    let d2 ← rd s2.vdofs t2.elem
    let e1 ← getSubVector x1 d1
    let e2 ← getSubVector x2 d2
    loop fnfi.length (fun k y => do
      let f ← rd fnfi k
      let f ← nonNull f
      addVecs o1 o2 d1 d2 (f.vec t1 t2 e1 e2 0) (f.vec t1 t2 e1 e2 1) y) y
  | _ => .ok y

/-- One port of `InterfaceForm::InterfaceAddMult`, src/interface_form.cpp:81-103, with
`AssembleInterfaceVector`, :251-304, inlined. -/
def Form.portVector (f : Form R δ) (x : BlockVector R) (k : Nat) (y : BlockVector R) :
    Outcome (BlockVector R) := do
  let p ← rd f.ports k
  let m1 ← rd f.meshes p.mesh1
  let m2 ← rd f.meshes p.mesh2
  let s1 ← rd f.test p.mesh1
  let s2 ← rd f.test p.mesh2
  let x1 ← RomHandler.readBlock x p.mesh1
  let x2 ← RomHandler.readBlock x p.mesh2
  require (x1.length == s1.vsize)
  require (x2.length == s2.vsize)
  let n1 ← y.blockSize p.mesh1
  let n2 ← y.blockSize p.mesh2
  require (n1 == x1.length)
  require (n2 == x2.length)
  let o1 ← rd y.offsets p.mesh1
  let o2 ← rd y.offsets p.mesh2
  let d ← loop p.infos.length (fun k d => do
    let i ← rd p.infos k
    let t ← transformations (p.mesh1 == p.mesh2) m1 m2 i
    faceVector o1 o2 s1 s2 f.fnfi x1 x2 d t) y.data
  return { y with data := d }

/-- `InterfaceForm::InterfaceAddMult`, src/interface_form.cpp:67-112: `x` and `y` are viewed with the
block offsets of the form. -/
def Form.addMult (f : Form R δ) (x y : BlockVector R) : Outcome (BlockVector R) :=
  loop f.ports.length (f.portVector x) y

/-! ## Gradient -/

/-- The body of `if ((tr1 != NULL) && (tr2 != NULL))` of `AssembleInterfaceGrad`,
src/interface_form.cpp:334-360. -/
def faceGrad (a b : Nat) (s1 s2 : Space) (fnfi : List (Option (Integ R δ))) (x1 x2 : List R)
    (mats : MatArr R) : Option (Tr δ) × Option (Tr δ) → Outcome (MatArr R)
  | (some t1, some t2) => do
    let d1 ← rd s1.vdofs t1.elem
    let d2 ← rd s2.vdofs t2.elem
    let e1 ← getSubVector x1 d1
    let e2 ← getSubVector x2 d2
    addIntegs a b (fun i => if i = 0 then d1 else d2) (fun i => if i = 0 then d1 else d2) fnfi
      (fun f => f.grad t1 t2 e1 e2) mats
  | _ => .ok mats

/-- One port of `InterfaceForm::InterfaceGetGradient`, src/interface_form.cpp:134-158, with
`AssembleInterfaceGrad`, :306-366, inlined. -/
def Form.portGrad (f : Form R δ) (x : BlockVector R) (k : Nat) (mats : MatArr R) :
    Outcome (MatArr R) := do
  let p ← rd f.ports k
  mats.view p.mesh1 p.mesh2
  let m1 ← rd f.meshes p.mesh1
  let m2 ← rd f.meshes p.mesh2
  let s1 ← rd f.test p.mesh1
  let s2 ← rd f.test p.mesh2
  let x1 ← RomHandler.readBlock x p.mesh1
  let x2 ← RomHandler.readBlock x p.mesh2
  require (x1.length == s1.vsize)
  require (x2.length == s2.vsize)
  loop p.infos.length (fun k mats => do
    let i ← rd p.infos k
    let t ← transformations (p.mesh1 == p.mesh2) m1 m2 i
    faceGrad p.mesh1 p.mesh2 s1 s2 f.fnfi x1 x2 mats t) mats

/-- `InterfaceForm::InterfaceGetGradient`, src/interface_form.cpp:114-161. -/
def Form.gradient (f : Form R δ) (x : BlockVector R) (mats : MatArr R) : Outcome (MatArr R) := do
  require (mats.nr == f.meshes.length)
  require (mats.nc == f.meshes.length)
  allSet mats
  loop f.ports.length (f.portGrad x) mats

end

end Verif.InterfaceForm
