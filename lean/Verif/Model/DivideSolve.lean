import Verif.Model.DivideElast
import Verif.Model.DivideFlow
import Verif.Model.FomSolve

/-!
# Solving on a divided mesh

`Assemble` followed by `Solve`, from the parent mesh to the solution, for the Poisson, elasticity and Stokes
solvers.  The parts are those of `Verif.Model.DivideRhs`, `Verif.Model.DivideElast` and `Verif.Model.FomSolve`.
-/

namespace Verif.Divide

open Verif Verif.LinAlg
open Verif.SubMesh (Parent Sub)
open Verif.InterfaceForm (MatArr Space Integ)
open Verif.Boundary (BC)
open Verif.Blocks (BlockVector)
open Verif.Sampling (partialSum)
open Verif.FomSolve (Ext Opts)
open Verif.SteadyNS (Sol)

variable {R δ F α : Type}

/-- `u_offsets`, `p_offsets` and, with one variable, `var_offsets`: src/poisson_solver.cpp:109-125,
src/linelast_solver.cpp:81-97, src/stokes_solver.cpp:146-180. -/
def offsetsOf (spaces : List Space) : List Nat := partialSum (0 :: spaces.map (·.vsize))

section
variable [CommRing R]

/-- `PoissonSolver::Assemble` (src/poisson_solver.cpp:256-260) and `Solve` (src/poisson_solver.cpp:430-508).  The
blocks of `RHS` are stored one after the other (src/poisson_solver.cpp:132, 162-177). -/
def poissonRun (x : Ext R) (o : Opts) (bc : BC F) (pm : Parent) (subs : List Sub) (spaces : List Space)
    (views : List (View R δ)) (ints : List (ITr δ → Mat R)) (fnfi : List (Option (Integ R δ)))
    (Ls : List (LView R F)) (gen : Bool) (st : Sol R) : Outcome (Bool × Sol R) := do
  let (f, M) ← equations bc pm subs views ints fnfi Ls
  FomSolve.run .poisson x o subs.length (offsetsOf spaces) M ⟨f.flatten, offsetsOf spaces⟩ gen st

/-- `LinElastSolver::Assemble` (src/linelast_solver.cpp:219-223) and `Solve` (src/linelast_solver.cpp:306-386). -/
def elastRun (x : Ext R) (o : Opts) (scalars : List α) (bc : BC F) (pm : Parent) (subs : List Sub)
    (spaces : List Space) (p : ElastParts R δ F α) (gen : Bool) (st : Sol R) : Outcome (Bool × Sol R) := do
  let (f, M) ← elastEquations true scalars bc pm subs p
  FomSolve.run .elasticity x o subs.length (offsetsOf spaces) M ⟨f.flatten, offsetsOf spaces⟩ gen st

end

section
variable [Field R]

/-- `StokesSolver::Assemble` (src/stokes_solver.cpp:370-374) and `Solve` (src/stokes_solver.cpp:706-816);
`vblock_offsets` as in src/stokes_solver.cpp:184-187. -/
def stokesRun (x : Ext R) (o : Opts) (presDbc : Bool) (bc : BC F) (pm : Parent) (subs : List Sub)
    (uspaces pspaces : List Space) (views views' : List (View R δ)) (ints ints' : List (ITr δ → Mat R))
    (fnfi fnfi' : List (Option (Integ R δ))) (Ls Ls' : List (LView R F)) (gen : Bool) (st : Sol R) :
    Outcome (Bool × Sol R) := do
  let ((f, h), (M, B)) ← stokesEquations bc pm subs views views' ints ints' fnfi fnfi' Ls Ls'
  let nu := (uspaces.map (·.vsize)).sum
  let np := (pspaces.map (·.vsize)).sum
  FomSolve.runStokes x o presDbc subs.length (offsetsOf uspaces) (offsetsOf pspaces) [0, nu, nu + np] M B
    (rhsVec f h) gen st

end

end Verif.Divide
