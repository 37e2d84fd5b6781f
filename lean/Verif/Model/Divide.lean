import Verif.Model.SubMesh
import Verif.Model.RomAssembly

/-!
# The operator of a divided mesh

Puts together the division of a mesh (`SubMeshTopologyHandler`, `src/topology_handler.cpp`), the forms of
the subdomains (`MixedBilinearFormDGExtension::Assemble`, `src/dg_mixed_bilin.cpp`) and the interface
forms (`src/interface_form.cpp`) into the operator that the solvers assemble.
-/

namespace Verif.Divide

open Verif Verif.LinAlg Verif.Topology
open Verif.SubMesh (Parent Sub IState buildSubMeshes2D)
open Verif.RomAssembly (BForm BFace bdrMarkers fomMats fomMixed)
open Verif.InterfaceForm (Form MatArr Port Space FMesh Integ)
open Verif.Boundary (BC)

variable {R δ F : Type}

/-- What `Mesh::GetInteriorFaceTransformations` (MFEM, external) returns for a face between two elements:
`Elem1No`, `Elem2No` and whatever an integrator reads. -/
structure ITr (δ : Type) where
  elem1 : Nat
  elem2 : Nat
  data : δ

/-- What the assembly reads of a subdomain: test and trial space, the element matrices of the domain
integrators, `GetInteriorFaceTransformations` of every face (`none` is null), the face matrices of the
boundary integrator, and the faces as seen by the interface form.  All of it comes from MFEM. -/
structure View (R δ : Type) where
  test : Space
  trial : Space
  vols : List (Mat R)
  faces : List (Option (ITr δ))
  bel : List (Option (BFace R))
  fmesh : FMesh δ

section
variable [CommRing R]

/-- `MixedBilinearForm::Assemble` or `BilinearForm::Assemble` (MFEM, external), called at
src/dg_mixed_bilin.cpp:57: every element matrix is added at the degrees of freedom of its element. -/
def addElems (v : View R δ) (s : Sp R) : Outcome (Sp R) :=
  loop v.vols.length (fun i s => do
    let m ← rd v.vols i
    let r ← rd v.test.vdofs i
    let c ← rd v.trial.vdofs i
    addSubMatrix r c m s) s

/-- The loop over integrators on one face, src/dg_mixed_bilin.cpp:93-98. -/
def addInts (rows cols : List Int) (ints : List (ITr δ → Mat R)) (t : ITr δ) (s : Sp R) :
    Outcome (Sp R) :=
  loop ints.length (fun k s => do
    let g ← rd ints k
    addSubMatrix rows cols (g t) s) s

/-- `if (tr != NULL) { ... }`, src/dg_mixed_bilin.cpp:77-99: the degrees of freedom of the second element
are appended to those of the first. -/
def addFace (v : View R δ) (ints : List (ITr δ → Mat R)) (t : Option (ITr δ)) (s : Sp R) :
    Outcome (Sp R) :=
  match t with
  | none => .ok s
  | some t => do
    let c1 ← rd v.trial.vdofs t.elem1
    let r1 ← rd v.test.vdofs t.elem1
    let c2 ← rd v.trial.vdofs t.elem2
    let r2 ← rd v.test.vdofs t.elem2
    addInts (r1 ++ r2) (c1 ++ c2) ints t s

/-- The interior face part of `MixedBilinearFormDGExtension::Assemble`, src/dg_mixed_bilin.cpp:65-101
(`mfem::BilinearForm::Assemble`, external, has the same loop). -/
def addInterior (v : View R δ) (ints : List (ITr δ → Mat R)) (s : Sp R) : Outcome (Sp R) :=
  if ints.length = 0 then .ok s else
    loop v.faces.length (fun i s => do
      let t ← rd v.faces i
      addFace v ints t s) s

/-- The form of a subdomain before its boundary part, src/dg_mixed_bilin.cpp:55-101. -/
def base (v : View R δ) (ints : List (ITr δ → Mat R)) : Outcome (Sp R) := do
  let s ← addElems v ⟨v.test.vsize, v.trial.vsize, []⟩
  addInterior v ints s

/-- The boundary elements' attributes and `bdr_attributes` of every submesh after `UpdateBdrAttributes`,
src/topology_handler.cpp:419. -/
def attributes (numSub : Nat) (st : IState) : Outcome (List (List Int × List Int)) :=
  loop numSub (fun k acc => do
    let l ← rd st.bes k
    let u ← updateAttributes (l.map fun b => b.attr)
    return acc ++ [(l.map fun b => b.attr, u)]) []

/-- The forms of the subdomains: `BuildDomainOperators` without boundary conditions
(src/poisson_solver.cpp:174-206, src/stokes_solver.cpp:218-285) followed by the first part of
`Assemble`.  (In the code the boundary part follows form by form; the forms do not share data.) -/
def forms (views : List (View R δ)) (ints : List (ITr δ → Mat R)) : Outcome (List (BForm R)) :=
  loop views.length (fun k acc => do
    let v ← rd views k
    let s ← base v ints
    return acc ++ [⟨s, v.bel⟩]) []

/-- The interface form with the ports of the divided mesh. -/
def itf (views : List (View R δ)) (fnfi : List (Option (Integ R δ))) (st : IState) : Form R δ :=
  ⟨views.map (·.fmesh), views.map (·.test), views.map (·.trial), fnfi,
    List.zipWith (fun p l => ⟨p.mesh1, p.mesh2, l.map fun i => ⟨i.be1, i.be2, i.inf1, i.inf2⟩⟩)
      st.ports st.infos⟩

/-- From the parent mesh to the blocks of an operator: `SubMeshTopologyHandler`
(src/topology_handler.cpp:228-243), `SetupBCVariables` (src/multiblock_solver.cpp:205-224) and
`AssembleOperator` (src/poisson_solver.cpp:279-305, src/stokes_solver.cpp:406-436); `mixed` selects the
form with different test and trial spaces. -/
def operator (mixed : Bool) (bc : BC F) (pm : Parent) (subs : List Sub) (views : List (View R δ))
    (ints : List (ITr δ → Mat R)) (fnfi : List (Option (Integ R δ))) : Outcome (MatArr R) := do
  let (st, _) ← buildSubMeshes2D pm subs
  let mesh ← attributes subs.length st
  let mks ← bdrMarkers bc.attrs mesh
  let fs ← forms views ints
  if mixed then fomMixed bc mks mesh fs (itf views fnfi st)
  else fomMats bc mks mesh fs (itf views fnfi st)

end

end Verif.Divide
