import Verif.Model.DivideNS
import Verif.Model.FomSolve

/-!
# The unsteady Navier-Stokes solver on a divided mesh

From the parent mesh to the members that `UnsteadyNSSolver::InitializeTimeIntegration` and `Step` use
(`Verif.Model.Unsteady`), and the steps of a run.
-/

namespace Verif.Divide

open Verif Verif.LinAlg
open Verif.SubMesh (Parent Sub IState buildSubMeshes2D)
open Verif.RomAssembly (bdrMarkers)
open Verif.InterfaceForm (Integ)
open Verif.Boundary (BC)
open Verif.Blocks (BlockVector)
open Verif.Sampling (partialSum)
open Verif.Unsteady (Fom Init mono)
open Verif.FomSolve (setBlocks blkOf transpose)

variable {R δ F : Type}

section
variable [CommRing R]

/-- The mass forms, src/unsteady_ns_solver.cpp:58-63 and :70-74: a `BilinearForm` on the velocity space of
every subdomain, whose only integrator is the domain integrator with the element matrices `mvols`. -/
def massForms (views : List (View R δ)) (mvols : List (List (Mat R))) : Outcome (List (Sp R)) :=
  loop views.length (fun k acc => do
    let v ← rd views k
    let l ← rd mvols k
    let s ← addElems { v with vols := l } ⟨v.test.vsize, v.trial.vsize, []⟩
    return acc ++ [s]) []

/-- `Hop` and `nl_itf` with the coefficients at a given time (`SetTime`,
src/unsteady_ns_solver.cpp:390-401): only what the integrators deliver (`nviews t`) depends on the time,
the boundary integrators and their markers (`ts`) are set up once, `SetupDomainBCOperators`. -/
def flowConv (fullDg : Bool) (offs : List Nat) (st : IState) (mesh : List (List Int × List Int))
    (ts : List (List (Nat × Option F) × List (List Int))) (nviews : R → List (NView R δ F))
    (nints : List (ITr δ → List R → List R)) (nfnfi : List (Option (Integ R δ))) : Unsteady.Conv R where
  dom t m x _ := do
    let v ← rd (nviews t) m
    let e ← rd mesh m
    let b ← rd ts m
    nlForm v (if fullDg then nints else []) e b x
  itf t x y := do
    let z ← (itf ((nviews t).map asView) nfnfi st).addMult ⟨x, offs⟩ ⟨y, offs⟩
    return z.data

/-- `RHS`, a block vector by `var_offsets`: velocity and pressure of the first subdomain, then of the
second (src/stokes_solver.cpp:376-393; `fs[m]`, `gs[m]` are views of it). -/
def rhsVec (f h : List (List R)) : BlockVector R :=
  ⟨(List.zip f h).flatMap fun x => x.1 ++ x.2,
    partialSum (0 :: (List.zip f h).flatMap fun x => [x.1.length, x.2.length])⟩

end

section
variable [Field R]

/-- What MFEM delivers on the submeshes: for the viscous form, the divergence (primed), the right-hand sides,
the mass forms and, at every time, the convective terms. -/
structure FlowInput (R δ F : Type) where
  views : List (View R δ)
  views' : List (View R δ)
  ints : List (ITr δ → Mat R)
  ints' : List (ITr δ → Mat R)
  fnfi : List (Option (Integ R δ))
  fnfi' : List (Option (Integ R δ))
  Ls : List (LView R F)
  Ls' : List (LView R F)
  mvols : List (List (Mat R))
  nviews : R → List (NView R δ F)
  nints : List (ITr δ → List R → List R)
  nfnfi : List (Option (Integ R δ))

/-- From the parent mesh to an `UnsteadyNSSolver` and its right-hand side: `BuildOperators`,
`SetupBCOperators` and `Assemble` (src/stokes_solver.cpp:370-475, src/steady_ns_solver.cpp:487-563,
src/unsteady_ns_solver.cpp:54-80); `bc` has the boundary functions at setup. -/
def flowSetup (fullDg : Bool) (bc : BC F) (pm : Parent) (subs : List Sub) (I : FlowInput R δ F)
    (presDbc : Bool) (dt : R) : Outcome (Fom R × BlockVector R) := do
  let (st, _) ← buildSubMeshes2D pm subs
  let mesh ← attributes subs.length st
  let mks ← bdrMarkers bc.attrs mesh
  let ts ← nlTerms true bc mks mesh
  let ((f, h), (M, B)) ← stokesEquations bc pm subs I.views I.views' I.ints I.ints' I.fnfi I.fnfi' I.Ls I.Ls'
  let mass ← massForms I.views I.mvols
  let u := partialSum (0 :: I.views'.map fun v => v.trial.vsize)
  let p := partialSum (0 :: I.views'.map fun v => v.test.vsize)
  let mm ← setBlocks subs.length u u M
  let bm ← setBlocks subs.length p u B
  return (⟨subs.length, u, p, mass.map blkOf, mono mm, mono bm, transpose (mono bm),
    flowConv fullDg u st mesh ts I.nviews I.nints I.nfnfi, presDbc, dt⟩, rhsVec f h)

/-- `n` steps of `UnsteadyNSSolver::Solve` (src/unsteady_ns_solver.cpp:107-113), without output and checks,
which `Verif.Model.TimeLoop` models; `old j` is the former data of `RHS_step`. -/
def steps (f : Fom R) (i : Init R) (lower : Bool) (solver : Blk R → List R → Outcome (List R))
    (rhs : BlockVector R) (old : Nat → List R) (n : Nat) (time : R) (x : List R) : Outcome (List R × R) :=
  loop n (fun j s => do
    let x ← Unsteady.step f i lower solver rhs (old j) s.2 s.1
    return (x, s.2 + f.dt)) (x, time)

end

end Verif.Divide
