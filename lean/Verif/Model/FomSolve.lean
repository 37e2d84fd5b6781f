import Verif.Model.Mumps
import Verif.Model.RomAssembly
import Verif.Model.Unsteady
import Verif.Model.SteadyNS

/-!
# Assembling and solving full-order linear systems

Models the second half of `AssembleOperator` and `Solve` of the Poisson, elasticity, advection-diffusion and
Stokes solvers (`src/poisson_solver.cpp`, `src/linelast_solver.cpp`, `src/advdiff_solver.cpp`,
`src/stokes_solver.cpp`): from the array of assembled matrices and the right-hand side to the solution and the
snapshots.  How the array is assembled is modelled in `Verif.Model.RomAssembly`.  The solvers of MFEM, hypre and
MUMPS are parameters; print levels, the tolerances passed to them and MPI communicators are not modelled.
-/

namespace Verif.FomSolve

open Verif Verif.LinAlg Verif.Mumps
open Verif.InterfaceForm (MatArr)
open Verif.Blocks (BlockVector sortByVariables sortBySubdomains stokesOffsetsByVar)
open Verif.Unsteady (setBlock mono addMult subtractMean blkAddMult)
open Verif.SteadyNS (Sol)

variable {R : Type}

section
variable [CommRing R]

/-! ### External solvers -/

/-- The preconditioner given to an iterative solver. -/
inductive Prec where
  | none
  /-- `BlockDiagonalPreconditioner(var_offsets)`, of which no block is ever set. -/
  | blockDiag
  /-- `HypreBoomerAMG` of the matrix. -/
  | amg
  /-- Stokes: AMG for the velocity, Gauss-Seidel on the pressure mass matrix; `ortho` if wrapped in an
  `OrthoSolver`. -/
  | stokes (ortho : Bool)
  /-- `model_reduction/preconditioner`, src/rom_handler.cpp:543. -/
  | named (s : String)
deriving DecidableEq, Repr

/-- `Mult(b, x)` of an iterative solver: the operator, the preconditioner, the right-hand side and the initial
guess; the last iterate and `GetConverged()`. -/
abbrev Krylov (R : Type) := (List R → Outcome (List R)) → Prec → List R → List R → Outcome (List R × Bool)

/-- The external solvers: `lower` is the triangle MUMPS reads in symmetric mode. -/
structure Ext (R : Type) where
  lower : Bool
  direct : Blk R → List R → Outcome (List R)
  cg : Krylov R
  gmres : Krylov R
  minres : Krylov R

/-- `A x` of a matrix. -/
def apply (a : Blk R) (x : List R) : Outcome (List R) := blkAddMult a x (List.replicate a.h 0) 1

/-! ### Poisson, elasticity, advection-diffusion -/

/-- A finalised sparse matrix as a block. -/
def blkOf (s : Sp R) : Blk R := ⟨s.h, s.w, s.get⟩

/-- `globalMat->SetBlock(i, j, mats(i, j))` for all blocks: src/poisson_solver.cpp:313-322,
src/linelast_solver.cpp:268-278, and for Stokes src/stokes_solver.cpp:448-463. -/
def setBlocks (n : Nat) (roffs coffs : List Nat) (mats : MatArr R) : Outcome (BlockMat R) :=
  loop n (fun i b => loop n (fun j b => do
    let s ← deref (mats.at_ i j)
    setBlock b i j (blkOf s)) b) ⟨roffs, coffs, false, fun _ _ => none⟩

/-- The options `direct_solve` and `use_amg`, and `solver/block_diagonal_preconditioner`. -/
structure Opts where
  direct : Bool
  amg : Bool
  blockDiag : Bool
deriving DecidableEq, Repr

/-- What `AssembleOperator` leaves: `globalMat`, `globalMat_mono` with `globalMat_hypre`, and the matrix that
`mumps` has factorised. -/
structure Global (R : Type) where
  mat : BlockMat R
  mono : Option (Blk R)
  mumps : Option (Blk R)

/-- Nothing assembled yet. -/
def Global.start : Global R := ⟨⟨[], [], false, fun _ _ => none⟩, none, none⟩

/-- Whether `mumps` is set up once the monolithic matrix is: `if (direct_solve) SetMUMPSSolver()`,
src/poisson_solver.cpp:334; the elasticity solver always does, src/linelast_solver.cpp:291-293. -/
def setsMumps (ph : Physics) (o : Opts) : Bool :=
  match ph with
  | .elasticity => true
  | _ => o.direct

/-- The second half of `PoissonSolver::AssembleOperator` (src/poisson_solver.cpp:309-336, inherited by
`AdvDiffSolver`) and `LinElastSolver::AssembleOperator` (src/linelast_solver.cpp:264-295). -/
def assembleGlobal (ph : Physics) (x : Ext R) (o : Opts) (n : Nat) (offs : List Nat) (mats : MatArr R) :
    Outcome (Global R) := do
  let g ← setBlocks n offs offs mats
  if o.amg || o.direct then
    let a := mono g
    return ⟨g, some a, if setsMumps ph o then some (seen x.lower ph.matType a) else none⟩
  return ⟨g, none, none⟩

/-- The iterative solver: `CGSolver`, src/poisson_solver.cpp:449-478 and src/linelast_solver.cpp:325-354;
`GMRESSolver`, src/advdiff_solver.cpp:96-124. -/
def Physics.krylov (ph : Physics) (x : Ext R) : Krylov R :=
  match ph with
  | .advdiff => x.gmres
  | _ => x.cg

/-- `mumps->Mult(*RHS, *U)` or the iterative solver started from zero. -/
def solveSystem (ph : Physics) (x : Ext R) (o : Opts) (g : Global R) (rhs : List R) (size : Nat) :
    Outcome (List R × Bool) :=
  if o.direct then do
    let a ← nonNull g.mumps
    let u ← x.direct a rhs
    return (u, true)
  else if o.amg then do
    let a ← nonNull g.mono
    Physics.krylov ph x (apply a) .amg rhs (List.replicate size 0)
  else
    Physics.krylov ph x (fun v => addMult g.mat v (List.replicate size 0) 1)
      (if o.blockDiag then .blockDiag else .none) rhs (List.replicate size 0)

/-- `PoissonSolver::Solve` (src/poisson_solver.cpp:430-508), `LinElastSolver::Solve`
(src/linelast_solver.cpp:306-386) and `AdvDiffSolver::Solve` (src/advdiff_solver.cpp:77-156).  `gen` says whether
a sample generator is given; `SaveSnapshots` is recorded by the saved solution. -/
def solve (ph : Physics) (x : Ext R) (o : Opts) (g : Global R) (rhs : BlockVector R) (gen : Bool) (st : Sol R) :
    Outcome (Bool × Sol R) := do
  let r ← solveSystem ph x o g rhs.data st.U.data.length
  let U : BlockVector R := ⟨r.1, st.U.offsets⟩
  return (r.2, ⟨U, if r.2 && gen then st.saved ++ [U] else st.saved⟩)

/-- `Assemble` and `Solve`. -/
def run (ph : Physics) (x : Ext R) (o : Opts) (n : Nat) (offs : List Nat) (mats : MatArr R) (rhs : BlockVector R)
    (gen : Bool) (st : Sol R) : Outcome (Bool × Sol R) := do
  let g ← assembleGlobal ph x o n offs mats
  solve ph x o g rhs gen st

end

/-! ### Stokes -/

section
variable [Field R]

/-- The members of `StokesSolver` used by `Solve`: `systemOp`, the matrix that `mumps` has factorised, and
whether the pressure mass matrix `pM` exists. -/
structure StokesSys (R : Type) where
  op : BlockMat R
  mumps : Option (Blk R)
  pM : Bool

/-- `mfem::Transpose` (external). -/
def transpose (a : Blk R) : Blk R := ⟨a.w, a.h, fun r c => a.val c r⟩

/-- `StokesSolver::AssembleOperatorBase` from the assembled arrays on, src/stokes_solver.cpp:448-475, and
`AssembleOperator`, src/stokes_solver.cpp:395-404, with `SetupMUMPSSolver(true)` (:478-496) or
`SetupPressureMassMatrix` (:498-514, whose matrix only preconditions). -/
def assembleStokes (x : Ext R) (o : Opts) (n : Nat) (u p vblock : List Nat) (M B : MatArr R) :
    Outcome (StokesSys R) := do
  let mm ← setBlocks n u u M
  let bm ← setBlocks n p u B
  let a := mono mm
  let b := mono bm
  let s : BlockMat R := ⟨vblock, vblock, false, fun _ _ => none⟩
  let s ← setBlock s 0 0 a
  let s ← setBlock s 0 1 (transpose b)
  let s ← setBlock s 1 0 b
  if o.direct then
    return ⟨s, some (seen x.lower stokesType (mono s)), false⟩
  return ⟨s, none, true⟩

/-- The solution ordered by variable, src/stokes_solver.cpp:729-795. -/
def solveSaddle (x : Ext R) (o : Opts) (presDbc : Bool) (s : StokesSys R) (rhs : List R) (size : Nat) :
    Outcome (List R × Bool) :=
  if o.direct then do
    let a ← nonNull s.mumps
    let u ← x.direct a rhs
    return (u, true)
  else if o.amg then do
    require s.pM
    x.minres (fun v => addMult s.op v (List.replicate size 0) 1) (.stokes !presDbc) rhs (List.replicate size 0)
  else
    x.minres (fun v => addMult s.op v (List.replicate size 0) 1) .none rhs (List.replicate size 0)

/-- "orthogonalize the pressure", src/stokes_solver.cpp:797-805. -/
def orthogonalize (presDbc : Bool) (v1 v2 : Nat) (y : List R) : Outcome (List R) :=
  if presDbc then .ok y else subtractMean v1 (v2 - v1) y

/-- `StokesSolver::Solve`, src/stokes_solver.cpp:707-815. -/
def solveStokes (x : Ext R) (o : Opts) (presDbc : Bool) (n : Nat) (u p vblock : List Nat) (s : StokesSys R)
    (rhs : BlockVector R) (gen : Bool) (st : Sol R) : Outcome (Bool × Sol R) := do
  let byVar ← stokesOffsetsByVar n u p
  let l ← rd byVar (2 * n)
  let zero : BlockVector R := ⟨List.replicate l 0, byVar⟩
  let b ← sortByVariables n 2 rhs zero
  let r ← solveSaddle x o presDbc s b.data l
  let v1 ← rd vblock 1
  let v2 ← rd vblock 2
  let y ← orthogonalize presDbc v1 v2 r.1
  let U ← sortBySubdomains n 2 ⟨y, byVar⟩ st.U
  return (r.2, ⟨U, if r.2 && gen then st.saved ++ [U] else st.saved⟩)

/-- `Assemble` and `Solve`. -/
def runStokes (x : Ext R) (o : Opts) (presDbc : Bool) (n : Nat) (u p vblock : List Nat) (M B : MatArr R)
    (rhs : BlockVector R) (gen : Bool) (st : Sol R) : Outcome (Bool × Sol R) := do
  let s ← assembleStokes x o n u p vblock M B
  solveStokes x o presDbc n u p vblock s rhs gen st

end

end Verif.FomSolve
