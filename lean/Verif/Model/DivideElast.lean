import Verif.Model.DivideRhs
import Verif.Model.ElastRom

/-!
# Elasticity on a divided mesh

`LinElastSolver` (`src/linelast_solver.cpp`) on the subdomains of a divided mesh.  It differs from the Poisson
solver in what a boundary condition does: a prescribed displacement has a term in the operator and one in the
right-hand side, a traction one in the right-hand side only, and boundaries without a type none.
-/

namespace Verif.Divide

open Verif Verif.LinAlg
open Verif.SubMesh (Parent Sub IState buildSubMeshes2D)
open Verif.RomAssembly (BForm bdrMarkers pickMarkers)
open Verif.InterfaceForm (MatArr Space Integ)
open Verif.Boundary (BC ElastRhs rhsElast)
open Verif.ElastRom (Material setProblem)

variable {R δ F α : Type}

/-- What the solver integrates, as functions of the two material coefficients: on every subdomain the domain and
boundary integrators of the operator and the linear form, `DGElasticityIntegrator` on interior faces and
`InterfaceDGElasticityIntegrator` on interfaces. -/
structure ElastParts (R δ F α : Type) where
  views : List (α → α → View R δ)
  inner : α → α → ITr δ → Mat R
  itf : α → α → Integ R δ
  loads : List (α → α → LView R (ElastRhs F))

section
variable [CommRing R]

/-- The right-hand side of one subdomain: `BuildRHSOperators` (src/linelast_solver.cpp:151-162),
`SetupRHSBCOperators` (src/linelast_solver.cpp:164-196) and `AssembleRHS` (src/linelast_solver.cpp:225-237). -/
def elastLoad (bc : BC F) (mks : List (List Int)) (e : List Int × List Int) (L : LView R (ElastRhs F)) :
    Outcome (List R) := do
  let y ← loadElems L (List.replicate L.space.vsize 0)
  let act ← rhsElast bc e.2
  let ms ← pickMarkers (act.map fun c => (c.1, ())) mks
  loadBdr e.2 e.1 act ms L.bel y

/-- The blocks of the right-hand side; subdomain `k` has its own coefficients, src/linelast_solver.cpp:183. -/
def elastLoads (mat : Material α) (bc : BC F) (mks : List (List Int)) (mesh : List (List Int × List Int))
    (p : ElastParts R δ F α) : Outcome (List (List R)) :=
  loop p.loads.length (fun k acc => do
    let e ← rd mesh k
    let x ← mat.at_ k
    let L ← rd p.loads k
    let y ← elastLoad bc mks e (L x.1 x.2)
    return acc ++ [y]) []

/-- `BuildDomainOperators`, src/linelast_solver.cpp:198-216: face terms inside a subdomain only with discontinuous
elements. -/
def elastForms (fullDg : Bool) (mat : Material α) (p : ElastParts R δ F α) : Outcome (List (BForm R)) :=
  loop p.views.length (fun k acc => do
    let x ← mat.at_ k
    let v ← rd p.views k
    let s ← base (v x.1 x.2) (if fullDg then [p.inner x.1 x.2] else [])
    return acc ++ [⟨s, (v x.1 x.2).bel⟩]) []

/-- `AssembleOperator`, src/linelast_solver.cpp:239-262: the interface integrator has the material of
subdomain 0 (src/linelast_solver.cpp:214-215). -/
def elastOperator (fullDg : Bool) (mat : Material α) (bc : BC F) (mks : List (List Int))
    (mesh : List (List Int × List Int)) (st : IState) (p : ElastParts R δ F α) : Outcome (MatArr R) := do
  let fs ← elastForms fullDg mat p
  let x ← mat.at_ 0
  let form := Divide.itf (p.views.map fun v => v x.1 x.2) [some (p.itf x.1 x.2)] st
  let ds ← loop fs.length (ElastRom.domainStep fullDg bc mks mesh fs) []
  form.assemble ⟨fs.length, fs.length, fun i j => if i = j then ds[i]? else
    some ⟨(form.test[i]?.getD ⟨0, []⟩).vsize, (form.trial[j]?.getD ⟨0, []⟩).vsize, []⟩⟩

/-- `LinElastSolver::Assemble`, src/linelast_solver.cpp:219-223, from the parent mesh and the scalars of the problem
(src/linelast_solver.cpp:448-464). -/
def elastEquations (fullDg : Bool) (scalars : List α) (bc : BC F) (pm : Parent) (subs : List Sub)
    (p : ElastParts R δ F α) : Outcome (List (List R) × MatArr R) := do
  let (st, _) ← buildSubMeshes2D pm subs
  let mesh ← attributes subs.length st
  let mks ← bdrMarkers bc.attrs mesh
  let mat ← setProblem subs.length scalars
  let f ← elastLoads mat bc mks mesh p
  let M ← elastOperator fullDg mat bc mks mesh st p
  return (f, M)

end

end Verif.Divide
