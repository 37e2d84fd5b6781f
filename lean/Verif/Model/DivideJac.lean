import Verif.Model.DivideNS

/-!
# The Newton matrix on a divided mesh

The convective part of `SteadyNSOperator::GetGradient` (`src/steady_ns_solver.cpp:93-156`): the gradients of
the nonlinear forms of the subdomains, with their boundary conditions, and of the nonlinear interface form.
-/

namespace Verif.Divide

open Verif Verif.LinAlg
open Verif.SubMesh (Parent Sub IState buildSubMeshes2D)
open Verif.RomAssembly (bdrMarkers pickMarkers unionMarker maxOr)
open Verif.InterfaceForm (Form Space FMesh Integ MatArr)
open Verif.Boundary (BC)
open Verif.Blocks (BlockVector)
open Verif.RomHandler (readBlock)

variable {R δ F : Type}

/-- What a boundary face integrator of a nonlinear form delivers on a boundary element: the degrees of
freedom of the adjacent element, and the element gradient at given element values
(`DGLaxFriedrichsFluxIntegrator::AssembleFaceGrad`, with a prescribed velocity or without). -/
structure GBdr (R F : Type) where
  rows : List Int
  mat : Option F → List R → Mat R

/-- The gradient side of a `NonlinearForm` on a subdomain: its space, the element gradients of its domain
integrator (there is one, src/steady_ns_solver.cpp:499-515), the faces and the boundary elements as in
`NView`.  All of it comes from MFEM and the integrators. -/
structure GView (R δ F : Type) where
  space : Space
  dom : Nat → List R → Mat R
  faces : List (Option (ITr δ))
  bel : List (Option (GBdr R F))
  fmesh : FMesh δ

section
variable [CommRing R]

/-- One element of `NonlinearForm::GetGradient` (MFEM, external). -/
def gElem (v : GView R δ F) (x : List R) (i : Nat) (s : Sp R) : Outcome (Sp R) := do
  let d ← rd v.space.vdofs i
  let el ← getSubVector x d
  addSubMatrix d d (v.dom i el) s

/-- The domain part of `NonlinearForm::GetGradient` (MFEM, external). -/
def gElems (v : GView R δ F) (x : List R) (s : Sp R) : Outcome (Sp R) :=
  loop v.space.vdofs.length (gElem v x) s

/-- One face of `NonlinearForm::GetGradient` (MFEM, external). -/
def gFace (v : GView R δ F) (ints : List (ITr δ → List R → Mat R)) (x : List R)
    (t : Option (ITr δ)) (s : Sp R) : Outcome (Sp R) :=
  match t with
  | none => .ok s
  | some t => do
    let d1 ← rd v.space.vdofs t.elem1
    let d2 ← rd v.space.vdofs t.elem2
    let el ← getSubVector x (d1 ++ d2)
    loop ints.length (fun r s => do
      let g ← rd ints r
      addSubMatrix (d1 ++ d2) (d1 ++ d2) (g t el) s) s

/-- The interior face part of `NonlinearForm::GetGradient` (MFEM, external). -/
def gInterior (v : GView R δ F) (ints : List (ITr δ → List R → Mat R)) (x : List R) (s : Sp R) :
    Outcome (Sp R) :=
  if ints.length = 0 then .ok s else
    loop v.faces.length (fun i s => do
      let t ← rd v.faces i
      gFace v ints x t s) s

/-- The boundary integrators on one boundary element (MFEM, external). -/
def gMarked (act : List (Nat × Option F)) (ms : List (List Int)) (a : Int) (b : GBdr R F)
    (x : List R) (s : Sp R) : Outcome (Sp R) := do
  let el ← getSubVector x b.rows
  loop act.length (fun k s => do
    let mk ← rd ms k
    let z ← rdI mk (a - 1)
    if z = 0 then .ok s else do
      let c ← rd act k
      addSubMatrix b.rows b.rows (b.mat c.2 el) s) s

/-- One boundary element of `NonlinearForm::GetGradient` (MFEM, external). -/
def gBdrElem (act : List (Nat × Option F)) (ms : List (List Int)) (u : List Bool) (attrs : List Int)
    (bel : List (Option (GBdr R F))) (x : List R) (i : Nat) (s : Sp R) : Outcome (Sp R) := do
  let a ← rd attrs i
  let z ← rdI u (a - 1)
  let b ← rd bel i
  if z then
    match b with
    | none => .ok s
    | some b => gMarked act ms a b x s
  else .ok s

/-- The boundary part of `NonlinearForm::GetGradient` (MFEM, external). -/
def gBdr (attrList attrs : List Int) (act : List (Nat × Option F)) (ms : List (List Int))
    (bel : List (Option (GBdr R F))) (x : List R) (s : Sp R) : Outcome (Sp R) :=
  if ms.length = 0 then .ok s else do
    let u ← unionMarker (maxOr attrList).toNat ms
    loop attrs.length (gBdrElem act ms u attrs bel x) s

/-- `NonlinearForm::GetGradient` (MFEM, external) for the form of one subdomain.  The matrix the form owns
is set to zero before; see `SteadyNS.gradOf` for that history. -/
def gForm (v : GView R δ F) (ints : List (ITr δ → List R → Mat R)) (e : List Int × List Int)
    (t : List (Nat × Option F) × List (List Int)) (x : List R) : Outcome (Sp R) := do
  require (x.length == v.space.vsize)
  let s ← gElems v x ⟨v.space.vsize, v.space.vsize, []⟩
  let s ← gInterior v ints x s
  gBdr e.2 e.1 t.1 t.2 v.bel x s

/-- `u_offsets[k+1] - u_offsets[k]`. -/
def blockLen (x : BlockVector R) (k : Nat) : Nat :=
  x.offsets[k + 1]?.getD 0 - x.offsets[k]?.getD 0

/-- `hs_mats` before the interface terms, src/steady_ns_solver.cpp:105-119: gradients of the forms on the
diagonal, empty matrices elsewhere. -/
def hopGrad (views : List (GView R δ F)) (ints : List (ITr δ → List R → Mat R))
    (mesh : List (List Int × List Int)) (ts : List (List (Nat × Option F) × List (List Int)))
    (x : BlockVector R) : Outcome (MatArr R) := do
  let ds ← loop views.length (fun k acc => do
    let v ← rd views k
    let e ← rd mesh k
    let t ← rd ts k
    let xk ← readBlock x k
    let s ← gForm v ints e t xk
    return acc ++ [s]) []
  return ⟨views.length, views.length, fun i j => if i = j then ds[i]? else
    some ⟨blockLen x i, blockLen x j, []⟩⟩

/-- The gradient side as seen by the interface form, which has one space only. -/
def gAsView (v : GView R δ F) : View R δ := ⟨v.space, v.space, [], [], [], v.fmesh⟩

/-- The convective part of `SteadyNSOperator::GetGradient`, src/steady_ns_solver.cpp:105-125, on a divided
mesh, with the forms of `SteadyNSSolver::BuildDomainOperators` (src/steady_ns_solver.cpp:487-530) and their
boundary integrators (:532-563). -/
def convGrad (lf fullDg : Bool) (bc : BC F) (pm : Parent) (subs : List Sub)
    (views : List (GView R δ F)) (ints : List (ITr δ → List R → Mat R))
    (fnfi : List (Option (Integ R δ))) (x : BlockVector R) : Outcome (MatArr R) := do
  let (st, _) ← buildSubMeshes2D pm subs
  let mesh ← attributes subs.length st
  let mks ← bdrMarkers bc.attrs mesh
  let ts ← nlTerms lf bc mks mesh
  let m ← hopGrad views (if lf && fullDg then ints else []) mesh ts x
  if lf then (itf (views.map gAsView) fnfi st).gradient x m else .ok m

end

end Verif.Divide
