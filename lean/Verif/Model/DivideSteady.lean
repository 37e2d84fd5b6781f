import Verif.Model.DivideJac
import Verif.Model.DivideSolve
import Verif.Model.SteadyNS

/-!
# The steady Navier-Stokes solver on a divided mesh

From the parent mesh to the solution of `SteadyNSSolver::Solve` with the Lax-Friedrichs operator.  The parts
are those of `Verif.Model.DivideRhs`, `Verif.Model.DivideNS`, `Verif.Model.DivideJac` and
`Verif.Model.SteadyNS`.
-/

namespace Verif.Divide

open Verif Verif.LinAlg
open Verif.SubMesh (Parent Sub IState buildSubMeshes2D)
open Verif.RomAssembly (bdrMarkers)
open Verif.InterfaceForm (Form Space Integ MatArr)
open Verif.Boundary (BC)
open Verif.Blocks (BlockVector)
open Verif.Unsteady (mono)
open Verif.FomSolve (setBlocks transpose)
open Verif.SteadyNS (Forms Oper Solver Newton Guess Sol)

variable {R δ F : Type}

/-- What MFEM delivers on the submeshes: for the viscous form, the divergence (primed), the right-hand sides,
the convective terms (`n`) and their gradients (`g`).  The convective terms and the gradients come from the same
integrators; vectors and matrices are given separately. -/
structure SteadyInput (R δ F : Type) where
  views : List (View R δ)
  views' : List (View R δ)
  ints : List (ITr δ → Mat R)
  ints' : List (ITr δ → Mat R)
  fnfi : List (Option (Integ R δ))
  fnfi' : List (Option (Integ R δ))
  Ls : List (LView R F)
  Ls' : List (LView R F)
  nviews : List (NView R δ F)
  nints : List (ITr δ → List R → List R)
  nfnfi : List (Option (Integ R δ))
  gviews : List (GView R δ F)
  gints : List (ITr δ → List R → Mat R)
  gfnfi : List (Option (Integ R δ))

section
variable [CommRing R]

/-- The assembly part of `hs[m]->GetGradient` (MFEM, external), which adds to the matrix `g`. -/
def addGrad (I : SteadyInput R δ F) (mesh : List (List Int × List Int))
    (ts : List (List (Nat × Option F) × List (List Int))) (m : Nat) (x : List R) (g : Blk R) :
    Outcome (Blk R) := do
  let v ← rd I.gviews m
  let e ← rd mesh m
  let b ← rd ts m
  let s ← gForm v I.gints e b x
  return ⟨g.h, g.w, fun r c => g.val r c + s.get r c⟩

/-- `nl_itf->InterfaceGetGradient(x_u, hs_mats)`, src/steady_ns_solver.cpp:124.  It adds to the matrices; here
the terms are collected in empty matrices of the same shapes and then added. -/
def addItfGrad (I : SteadyInput R δ F) (offs : List Nat) (st : IState) (n : Nat) (x : List R)
    (mats : Nat → Nat → Blk R) : Outcome (Nat → Nat → Blk R) := do
  let m ← (itf (I.gviews.map gAsView) I.gfnfi st).gradient ⟨x, offs⟩
    ⟨n, n, fun i j => some ⟨(mats i j).h, (mats i j).w, []⟩⟩
  return fun i j => match m.at_ i j with
    | none => mats i j
    | some s => ⟨(mats i j).h, (mats i j).w, fun r c => (mats i j).val r c + s.get r c⟩

/-- `hs` and `nl_itf` as the nonlinear operator uses them, src/steady_ns_solver.cpp:487-563, with `full_dg` and
the Lax-Friedrichs operator. -/
def steadyForms (I : SteadyInput R δ F) (offs : List Nat) (n : Nat) (st : IState)
    (mesh : List (List Int × List Int)) (ts : List (List (Nat × Option F) × List (List Int))) : Forms R where
  mult m x k := (flowConv true offs st mesh ts (fun _ => I.nviews) I.nints I.nfnfi).dom 0 m x k
  asm := addGrad I mesh ts
  itf := some fun x y => (flowConv true offs st mesh ts (fun _ => I.nviews) I.nints I.nfnfi).itf 0 x y
  itfGrad := some (addItfGrad I offs st n)

end

section
variable [Field R]

/-- `systemOp`, src/stokes_solver.cpp:472-475: viscous operator, gradient and divergence. -/
def saddleOp (nu np : Nat) (m bt b : Blk R) : BlockMat R :=
  ⟨[0, nu, nu + np], [0, nu, nu + np], false, fun i j =>
    if i = 0 ∧ j = 0 then some m else if i = 0 ∧ j = 1 then some bt else if i = 1 ∧ j = 0 then some b else none⟩

/-- From the parent mesh to the members that `SteadyNSSolver::Solve` uses, and the right-hand side:
`BuildOperators`, `SetupBCOperators` and `Assemble` (src/stokes_solver.cpp:370-523,
src/steady_ns_solver.cpp:487-575). -/
def steadySetup (bc : BC F) (pm : Parent) (subs : List Sub) (uspaces pspaces : List Space)
    (I : SteadyInput R δ F) (presDbc : Bool) : Outcome (Solver R × BlockVector R) := do
  let (st, _) ← buildSubMeshes2D pm subs
  let mesh ← attributes subs.length st
  let mks ← bdrMarkers bc.attrs mesh
  let ts ← nlTerms true bc mks mesh
  let ((f, h), (M, B)) ← stokesEquations bc pm subs I.views I.views' I.ints I.ints' I.fnfi I.fnfi' I.Ls I.Ls'
  let u := offsetsOf uspaces
  let p := offsetsOf pspaces
  let mm ← setBlocks subs.length u u M
  let bm ← setBlocks subs.length p u B
  return (⟨⟨subs.length, u, saddleOp (uspaces.map (·.vsize)).sum (pspaces.map (·.vsize)).sum (mono mm)
    (transpose (mono bm)) (mono bm), steadyForms I u subs.length st mesh ts⟩, p, presDbc⟩, rhsVec f h)

/-- `Assemble` and `SteadyNSSolver::Solve`, src/steady_ns_solver.cpp:645-736; the forms are new and own no
matrices. -/
def steadyRun (newton : Newton R) (bc : BC F) (pm : Parent) (subs : List Sub) (uspaces pspaces : List Space)
    (I : SteadyInput R δ F) (presDbc : Bool) (guess : Guess R) (gen : Bool) (st : Sol R) :
    Outcome (Bool × Sol R) := do
  let (s, rhs) ← steadySetup bc pm subs uspaces pspaces I presDbc
  s.solve newton (fun _ => none) rhs guess gen st

end

end Verif.Divide
