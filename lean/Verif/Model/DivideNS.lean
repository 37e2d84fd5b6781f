import Verif.Model.DivideRhs

/-!
# The convective terms on a divided mesh

The nonlinear part of `SteadyNSOperator::Mult` (`src/steady_ns_solver.cpp:65-91`): the nonlinear forms of
the subdomains, with their boundary conditions, and the nonlinear interface form.
-/

namespace Verif.Divide

open Verif Verif.LinAlg
open Verif.SubMesh (Parent Sub IState buildSubMeshes2D)
open Verif.RomAssembly (bdrMarkers pickMarkers unionMarker maxOr)
open Verif.InterfaceForm (Form Space FMesh Integ)
open Verif.Boundary (BC forBoundaries bcExists)
open Verif.Blocks (BlockVector)
open Verif.RomHandler (readBlock writeBlock)

variable {R δ F : Type}

/-- What a boundary face integrator of a nonlinear form delivers on a boundary element: the degrees of
freedom of the adjacent element, and the element vector at given element values, with a prescribed
velocity or without (the two constructors of `DGLaxFriedrichsFluxIntegrator`,
include/hyperreduction_integ.hpp). -/
structure NBdr (R F : Type) where
  rows : List Int
  vec : Option F → List R → List R

/-- A `NonlinearForm` on a subdomain: its space, the element vectors of its domain integrators,
`GetInteriorFaceTransformations` of every face, the boundary elements (`none` if
`GetBdrFaceTransformations` returns null), and the faces as seen by the interface form.  All of it comes
from MFEM and the integrators. -/
structure NView (R δ F : Type) where
  space : Space
  dom : List (Nat → List R → List R)
  faces : List (Option (ITr δ))
  bel : List (Option (NBdr R F))
  fmesh : FMesh δ

section
variable [CommRing R]

/-- One element of `NonlinearForm::Mult` (MFEM, external). -/
def nlElem (v : NView R δ F) (x : List R) (i : Nat) (y : List R) : Outcome (List R) := do
  let d ← rd v.space.vdofs i
  let el ← getSubVector x d
  loop v.dom.length (fun r y => do
    let g ← rd v.dom r
    addElementVector y 0 d (g i el)) y

/-- The domain part of `NonlinearForm::Mult` (MFEM, external). -/
def nlElems (v : NView R δ F) (x y : List R) : Outcome (List R) :=
  loop v.space.vdofs.length (nlElem v x) y

/-- One face of `NonlinearForm::Mult` (MFEM, external): the degrees of freedom of the second element are
appended to those of the first. -/
def nlFace (v : NView R δ F) (ints : List (ITr δ → List R → List R)) (x : List R)
    (t : Option (ITr δ)) (y : List R) : Outcome (List R) :=
  match t with
  | none => .ok y
  | some t => do
    let d1 ← rd v.space.vdofs t.elem1
    let d2 ← rd v.space.vdofs t.elem2
    let el ← getSubVector x (d1 ++ d2)
    loop ints.length (fun r y => do
      let g ← rd ints r
      addElementVector y 0 (d1 ++ d2) (g t el)) y

/-- The interior face part of `NonlinearForm::Mult` (MFEM, external). -/
def nlInterior (v : NView R δ F) (ints : List (ITr δ → List R → List R)) (x y : List R) :
    Outcome (List R) :=
  if ints.length = 0 then .ok y else
    loop v.faces.length (fun i y => do
      let t ← rd v.faces i
      nlFace v ints x t y) y

/-- The boundary integrators on one boundary element (MFEM, external). -/
def nlMarked (act : List (Nat × Option F)) (ms : List (List Int)) (a : Int) (b : NBdr R F)
    (x y : List R) : Outcome (List R) := do
  let el ← getSubVector x b.rows
  loop act.length (fun k y => do
    let mk ← rd ms k
    let z ← rdI mk (a - 1)
    if z = 0 then .ok y else do
      let c ← rd act k
      addElementVector y 0 b.rows (b.vec c.2 el)) y

/-- One boundary element of `NonlinearForm::Mult` (MFEM, external). -/
def nlBdrElem (act : List (Nat × Option F)) (ms : List (List Int)) (u : List Bool) (attrs : List Int)
    (bel : List (Option (NBdr R F))) (x : List R) (i : Nat) (y : List R) : Outcome (List R) := do
  let a ← rd attrs i
  let z ← rdI u (a - 1)
  let b ← rd bel i
  if z then
    match b with
    | none => .ok y
    | some b => nlMarked act ms a b x y
  else .ok y

/-- The boundary part of `NonlinearForm::Mult` (MFEM, external). -/
def nlBdr (attrList attrs : List Int) (act : List (Nat × Option F)) (ms : List (List Int))
    (bel : List (Option (NBdr R F))) (x y : List R) : Outcome (List R) :=
  if ms.length = 0 then .ok y else do
    let u ← unionMarker (maxOr attrList).toNat ms
    loop attrs.length (nlBdrElem act ms u attrs bel x) y

/-- `NonlinearForm::Mult` (MFEM, external) for the form of one subdomain. -/
def nlForm (v : NView R δ F) (ints : List (ITr δ → List R → List R)) (e : List Int × List Int)
    (t : List (Nat × Option F) × List (List Int)) (x : List R) : Outcome (List R) := do
  require (x.length == v.space.vsize)
  let y ← nlElems v x (List.replicate v.space.vsize 0)
  let y ← nlInterior v ints x y
  nlBdr e.2 e.1 t.1 t.2 v.bel x y

/-- `SteadyNSSolver::SetupDomainBCOperators`, src/steady_ns_solver.cpp:539-561, for one subdomain: the
boundaries that get an integrator, with the prescribed velocity; none on Neumann boundaries. -/
def nlBC (s : BC F) (meshAttrs : List Int) : Outcome (List (Nat × Option F)) :=
  forBoundaries s meshAttrs (fun b => do
    let t ← rd s.types b
    if t = .neumann then .ok (some none)
    else do
      let ex ← bcExists s b
      require ex
      let c ← rd s.coeffs b
      .ok (some c))

/-- `SteadyNSSolver::SetupDomainBCOperators`, src/steady_ns_solver.cpp:532-563: the boundary integrators
and their markers on every subdomain; nothing unless the operator is of the Lax-Friedrichs type. -/
def nlTerms (lf : Bool) (bc : BC F) (mks : List (List Int)) (mesh : List (List Int × List Int)) :
    Outcome (List (List (Nat × Option F) × List (List Int))) :=
  loop mesh.length (fun k acc => do
    let e ← rd mesh k
    let act ← if lf then nlBC bc e.2 else .ok []
    let ms ← pickMarkers (act.map fun c => (c.1, ())) mks
    return acc ++ [(act, ms)]) []

/-- `Hop->Mult(x_u, y_u)`, src/steady_ns_solver.cpp:76: the block diagonal operator of the nonlinear
forms, every block of the result is overwritten. -/
def hopMult (views : List (NView R δ F)) (ints : List (ITr δ → List R → List R))
    (mesh : List (List Int × List Int)) (ts : List (List (Nat × Option F) × List (List Int)))
    (x y : BlockVector R) : Outcome (BlockVector R) :=
  loop views.length (fun k y => do
    let v ← rd views k
    let e ← rd mesh k
    let t ← rd ts k
    let xk ← readBlock x k
    let yk ← nlForm v ints e t xk
    writeBlock y k yk) y

/-- A nonlinear view as seen by the interface form, which has one space only. -/
def asView (v : NView R δ F) : View R δ := ⟨v.space, v.space, [], [], [], v.fmesh⟩

/-- The nonlinear part of `SteadyNSOperator::Mult`, src/steady_ns_solver.cpp:69-83, on a divided mesh,
with the forms of `SteadyNSSolver::BuildDomainOperators` (src/steady_ns_solver.cpp:487-530): with the
Lax-Friedrichs operator (`lf`) the interior face integrators are added if `full_dg` is set, and the
interface form exists. -/
def convection (lf fullDg : Bool) (bc : BC F) (pm : Parent) (subs : List Sub)
    (views : List (NView R δ F)) (ints : List (ITr δ → List R → List R))
    (fnfi : List (Option (Integ R δ))) (x : BlockVector R) : Outcome (BlockVector R) := do
  let (st, _) ← buildSubMeshes2D pm subs
  let mesh ← attributes subs.length st
  let mks ← bdrMarkers bc.attrs mesh
  let ts ← nlTerms lf bc mks mesh
  let y ← hopMult views (if lf && fullDg then ints else []) mesh ts x
    ⟨List.replicate x.data.length 0, x.offsets⟩
  if lf then (itf (views.map asView) fnfi st).addMult x y else .ok y

end

end Verif.Divide
