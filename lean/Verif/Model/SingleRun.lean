import Verif.Model.RomHandler
import Verif.Model.Penalty
import Verif.Model.Hdf5

/-!
# Saving, loading and comparing solutions

Models the second half of `SingleRun` (src/main_workflow.cpp:590-704) and what it calls in
src/multiblock_solver.cpp: saving and loading the solution, comparing a reduced solution with a full-order
one, and reporting the error.

The solvers and the finite element spaces are parameters.  Not modelled: timings, visualisation, the text
files written by `SaveRomSystem` and `SaveReducedSolution`.
-/

namespace Verif.SingleRun

open Verif Verif.Hdf5
open Verif.Blocks (BlockVector)
open Verif.RomHandler (Handler readBlock)

variable {R : Type}

/-! ## Numbers that may be infinite or NaN -/

/-- A nonnegative `double` quotient, or -1. -/
inductive Num (R : Type) where
  | fin (x : R)
  | inf
  | nan
deriving DecidableEq, Repr

/-- `a > b`; comparisons with NaN are false. -/
def Num.gt [LinearOrder R] : Num R → Num R → Bool
  | .fin a, .fin b => decide (b < a)
  | .inf, .fin _ => true
  | _, _ => false

/-- `a / b` for nonnegative numbers. -/
def ndiv [Field R] [DecidableEq R] (a b : R) : Num R :=
  if b = 0 then (if a = 0 then .nan else .inf) else .fin (a / b)

/-- `mfem::Vector::Max` (external): starts with the first entry and takes an entry that is greater than
the maximum so far.  (An empty vector gives minus infinity; there is at least one variable.) -/
def vmax [LinearOrder R] : List (Num R) → Outcome (Num R)
  | [] => .error .ub
  | x :: l => .ok (l.foldl (fun m y => if y.gt m then y else m) x)

/-! ## Errors -/

/-- A quadrature point of a finite element space: the weight, and the value of component `d` of basis
function `j`. -/
structure QPt (R : Type) where
  w : R
  val : Nat → Nat → R

/-- What `ComputeLpError` uses of a `GridFunction`'s space: the number of components and the quadrature
points of all elements. -/
structure Space (R : Type) where
  vdim : Nat
  pts : List (QPt R)

variable [Field R] [LinearOrder R]

/-- Component `d` of the function with degrees of freedom `x` at a quadrature point. -/
def evalAt (q : QPt R) (d : Nat) (x : List R) : R :=
  Penalty.dot x.length (q.val d) (fun j => x[j]?.getD 0)

/-- `x.ComputeLpError(2, y)` (external): the root of the weighted sum of the squared differences.
`sqrt` is the square root. -/
def lpError (sqrt : R → R) (s : Space R) (x y : List R) : R :=
  sqrt (s.pts.foldl (fun a q =>
    a + q.w * Penalty.dot s.vdim (fun d => evalAt q d x - evalAt q d y)
      (fun d => evalAt q d x - evalAt q d y)) 0)

/-- The accumulation of `ComputeRelativeError`, src/multiblock_solver.cpp:723-736, with
`ComputeSubdomainErrorAndNorm`, src/multiblock_solver.cpp:695-719; `norm` and `error` of one variable of
one subdomain.  The zero coefficient has the values of the zero function. -/
def accStep (sqrt : R → R) (spaces : List (Space R)) (numVar : Nat) (fom rom : List (List R)) (m v : Nat)
    (s : List R × List R) : Outcome (List R × List R) := do
  let sp ← rd spaces (m * numVar + v)
  let f ← rd fom (m * numVar + v)
  let r ← rd rom (m * numVar + v)
  let n := lpError sqrt sp f []
  let e := lpError sqrt sp f r
  let a ← rd s.1 v
  let norm ← wr s.1 v (a + n * n)
  let b ← rd s.2 v
  let error ← wr s.2 v (b + e * e)
  return (norm, error)

/-- `ComputeRelativeError`, src/multiblock_solver.cpp:721-750. -/
def relativeError (sqrt : R → R) (spaces : List (Space R)) (numSub numVar : Nat)
    (fom rom : List (List R)) : Outcome (List (Num R)) := do
  require (fom.length == numVar * numSub)
  require (rom.length == numVar * numSub)
  let s ← loop numSub (fun m s => loop numVar (accStep sqrt spaces numVar fom rom m) s)
    (List.replicate numVar 0, List.replicate numVar 0)
  loop numVar (fun v l => do
    let n ← rd s.1 v
    let e ← rd s.2 v
    return l ++ [ndiv (sqrt e) (sqrt n)]) []

/-- The blocks of a block vector. -/
def blocksOf (b : BlockVector R) : Outcome (List (List R)) :=
  loop b.numBlocks (fun k l => do
    let x ← readBlock b k
    return l ++ [x]) []

/-- The assertions that two block vectors have the same blocks, src/multiblock_solver.cpp:602-604 and
:754-756. -/
def sameBlocks (a b : BlockVector R) : Outcome Unit := do
  require (a.numBlocks == b.numBlocks)
  loop b.numBlocks (fun k _ => do
    let x ← a.blockSize k
    let y ← b.blockSize k
    require (x == y)) ()

/-- `CompareSolution`, src/multiblock_solver.cpp:752-776; `us` are the blocks of `U`. -/
def compareSolution (sqrt : R → R) (spaces : List (Space R)) (numSub numVar : Nat)
    (U test : BlockVector R) : Outcome (List (Num R)) := do
  sameBlocks test U
  let fom ← blocksOf U
  let rom ← blocksOf test
  relativeError sqrt spaces numSub numVar fom rom

/-! ## Files -/

/-- A file on disk: an HDF5 file with a solution, or the report of a run (`rel_error`). -/
inductive DiskFile (R : Type) where
  | sol (f : File R)
  | report (error : List (Num R))

/-- The files by name. -/
abbrev Disk (R : Type) := String → Option (DiskFile R)

/-- `SaveSolution`, src/multiblock_solver.cpp:507-528. -/
def saveSolution (on : Bool) (file : String) (U : List R) (d : Disk R) : Outcome (Disk R) :=
  if on then do
    let f ← writeVector [] [] "solution" U
    return Function.update d file (some (.sol f))
  else .ok d

/-- `LoadSolution`, src/multiblock_solver.cpp:549-579, with `GetDatasetSize`, src/hdf5_utils.cpp:27-46:
returns the new `U`. -/
def loadSolution (file : String) (d : Disk R) (U : List R) : Outcome (List R) :=
  match d file with
  | some (.sol f) =>
    match find f ⟨[], "solution", false⟩ with
    | some (.dset dims _) => do
      require (decide (0 < dims.length))
      require (dims.length == 1 && dims[0]?.getD 0 == U.length)
      readVector f [] "solution"
    | _ => .error .abort
  | _ => .error .abort

/-! ## The run -/

/-- The options `SingleRun` reads after the solve, and the names of its files. -/
structure Cfg where
  useRom : Bool
  saveRom : Bool
  compare : Bool
  loadSol : Bool
  fomFile : String
  saveReduced : Bool
  saveSol : Bool
  solFile : String
  outFile : String

/-- Everything external: the solver classes' own work (assembly and solve, reduced and full order, from
the current contents of `U`), spaces, offsets and the ROM handler. -/
structure Ext (R : Type) where
  numSub : Nat
  numVar : Nat
  varOffs : List Nat
  spaces : List (Space R)
  rom : List R → Outcome (List R)
  fom : List R → Outcome (List R)
  handler : Handler R
  junk : Nat → R

/-- The full-order solution for the comparison, src/main_workflow.cpp:633-656. -/
def fomSolution (c : Cfg) (x : Ext R) (d : Disk R) (U : List R) : Outcome (List R) :=
  if c.loadSol then loadSolution c.fomFile d U else x.fom U

/-- src/main_workflow.cpp:660-669: the solution is passed to the ROM handler with the blocks of `U`.
Only success or failure is kept. -/
def reducedSolution (c : Cfg) (x : Ext R) (U : List R) : Outcome Unit :=
  if c.saveReduced then do
    let _ ← x.handler.project ⟨U, x.varOffs⟩ x.junk
    return ()
  else .ok ()

/-- The comparison, src/main_workflow.cpp:631-675: returns `U` and `error`. -/
def comparison (sqrt : R → R) (c : Cfg) (x : Ext R) (d : Disk R) (U : List R) :
    Outcome (List R × List (Num R)) := do
  let romU := U
  let fomU ← fomSolution c x d U
  let error ← compareSolution sqrt x.spaces x.numSub x.numVar ⟨fomU, x.varOffs⟩ ⟨romU, x.varOffs⟩
  reducedSolution c x fomU
  sameBlocks ⟨romU, x.varOffs⟩ ⟨fomU, x.varOffs⟩
  return (romU, error)

/-- src/main_workflow.cpp:629-676. -/
def maybeCompare (sqrt : R → R) (c : Cfg) (x : Ext R) (d : Disk R) (U : List R) :
    Outcome (List R × List (Num R)) :=
  if c.useRom && c.compare then comparison sqrt c x d U
  else .ok (U, List.replicate x.numVar (.fin (-1)))

/-- src/main_workflow.cpp:678-694. -/
def report (c : Cfg) (error : List (Num R)) (d : Disk R) : Outcome (Disk R) :=
  if 0 < c.outFile.length then do
    require (decide (0 < error.length))
    return Function.update d c.outFile (some (.report error))
  else .ok d

/-- src/main_workflow.cpp:619-625: without a reduced model the ROM handler is a null pointer. -/
def saveSystem (c : Cfg) : Outcome Unit :=
  if c.saveRom && !c.useRom then .error .ub else .ok ()

/-- `SingleRun` from the solve on, src/main_workflow.cpp:590-704; `U` is zero at first. -/
def singleRun (sqrt : R → R) (c : Cfg) (x : Ext R) (d : Disk R) : Outcome (Disk R × Num R) := do
  let n ← rd x.varOffs (x.varOffs.length - 1)
  let U ← (if c.useRom then x.rom else x.fom) (List.replicate n 0)
  saveSystem c
  let r ← maybeCompare sqrt c x d U
  let d ← report c r.2 d
  let d ← saveSolution c.saveSol c.solFile r.1 d
  let m ← vmax r.2
  return (d, m)

end Verif.SingleRun
