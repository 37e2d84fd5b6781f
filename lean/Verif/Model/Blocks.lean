import Verif.Model.Basic
import Verif.Model.Sampling

/-!
# Block indices, block offsets and block vectors

Models the block bookkeeping of `src/rom_handler.cpp`, `src/multiblock_solver.cpp`,
`src/stokes_solver.cpp` and `src/poisson_solver.cpp`.
-/

namespace Verif.Blocks

open Verif
open Verif.Sampling (partialSum)

/-! ## ROM block indices -/

/-- `ROMOrderBy`, include/rom_handler.hpp. -/
inductive Order where
  | domain
  | variable
deriving DecidableEq, Repr

/-- `ROMHandlerBase::GetBlockIndex`, src/rom_handler.cpp:198-215. -/
def getBlockIndex (separate : Bool) (ord : Order) (numSub numVar : Int) (m v : Int) : Outcome Int := do
  if v < 0 then
    require separate
    return m
  if !separate then return m
  match ord with
  | .domain => return v + m * numVar
  | .variable => return m + v * numSub

/-- `ROMHandlerBase::GetDomainAndVariableIndex`, src/rom_handler.cpp:217-236 (C++ division truncates
towards zero; division by zero is undefined behaviour). -/
def getDomainAndVariableIndex (separate : Bool) (ord : Order) (numSub numVar : Int) (b : Int) :
    Outcome (Int × Int) :=
  if !separate then .ok (b, -1) else
  match ord with
  | .domain => if numVar = 0 then .error .ub else .ok (b.tdiv numVar, b.tmod numVar)
  | .variable => if numSub = 0 then .error .ub else .ok (b.tmod numSub, b.tdiv numSub)

/-- `ROMHandlerBase::SetBlockSizes`, src/rom_handler.cpp:283-325.  Returns `num_basis`,
`rom_block_offsets` and `rom_comp_block_offsets`.  The basis counts are nonnegative
(checked in `ParseInputs`, src/rom_handler.cpp:117-121). -/
def setBlockSizes (separate : Bool) (ord : Order) (numVar numComp : Nat) (meshType : List Nat)
    (numRefBasis : List Nat) : Outcome (List Nat × List Nat × List Nat) := do
  let numSub := meshType.length
  let numBlocks := if separate then numSub * numVar else numSub
  let numRefBlocks := if separate then numComp * numVar else numComp
  let offs := List.replicate (numBlocks + 1) 0
  let compOffs := List.replicate (numRefBlocks + 1) 0
  let (offs, compOffs) ← (if separate then do
      let compOffs ← loop numComp (fun c st => loop numVar (fun v st => do
        let n ← rd numRefBasis (c * numVar + v)
        wr st (c * numVar + v + 1) n) st) compOffs
      let offs ← loop numSub (fun k st => do
        let c ← rd meshType k
        loop numVar (fun v st => do
          let idx ← getBlockIndex separate ord numSub numVar k v
          let n ← rd numRefBasis (c * numVar + v)
          wrI st (idx + 1) n) st) offs
      return (offs, compOffs)
    else do
      let compOffs ← loop numComp (fun c st => do
        let n ← rd numRefBasis c
        wr st (c + 1) n) compOffs
      let offs ← loop numSub (fun k st => do
        let c ← rd meshType k
        let n ← rd numRefBasis c
        wr st (k + 1) n) offs
      return (offs, compOffs))
  return (offs.drop 1, partialSum offs, partialSum compOffs)

/-! ## Block vectors -/

/-- MFEM's `BlockVector` (external): one buffer and the block offsets. -/
structure BlockVector (R : Type) where
  data : List R
  offsets : List Nat
deriving DecidableEq, Repr

variable {R : Type}

/-- `BlockVector::NumBlocks`. -/
def BlockVector.numBlocks (b : BlockVector R) : Nat := b.offsets.length - 1

/-- `BlockVector::BlockSize`. -/
def BlockVector.blockSize (b : BlockVector R) (i : Nat) : Outcome Nat := do
  let hi ← rd b.offsets (i + 1)
  let lo ← rd b.offsets i
  return hi - lo

/-- `dst.GetBlockView(d, tmp); tmp = src.GetBlock(s);` after `assert` of equal block sizes: an
entrywise copy (MFEM, external). -/
def copyBlock (dst : BlockVector R) (d : Nat) (src : BlockVector R) (s : Nat) :
    Outcome (BlockVector R) := do
  let n ← dst.blockSize d
  let n' ← src.blockSize s
  require (n == n')
  let od ← rd dst.offsets d
  let os ← rd src.offsets s
  let data ← loop n (fun k data => do
    let x ← rd src.data (os + k)
    wr data (od + k) x) dst.data
  return { dst with data := data }

/-- `MultiBlockSolver::GetVariableVector`, src/multiblock_solver.cpp:135-150; returns the new
`var`. -/
def getVariableVector (numSub numVar : Nat) (varIdx : Int) (glob var : BlockVector R) :
    Outcome (BlockVector R) := do
  require (decide (0 ≤ varIdx) && decide (varIdx < numVar))
  require (glob.numBlocks == numVar * numSub)
  require (var.numBlocks == numSub)
  loop numSub (fun m var => copyBlock var m glob (numVar * m + varIdx.toNat)) var

/-- `MultiBlockSolver::SetVariableVector`, src/multiblock_solver.cpp:152-167; returns the new
`global`. -/
def setVariableVector (numSub numVar : Nat) (varIdx : Int) (var glob : BlockVector R) :
    Outcome (BlockVector R) := do
  require (decide (0 ≤ varIdx) && decide (varIdx < numVar))
  require (glob.numBlocks == numVar * numSub)
  require (var.numBlocks == numSub)
  loop numSub (fun m glob => copyBlock glob (numVar * m + varIdx.toNat) var m) glob

/-- `MultiBlockSolver::SortBySubdomains`, src/multiblock_solver.cpp:169-185; returns the new
`by_sub`. -/
def sortBySubdomains (numSub numVar : Nat) (byVar bySub : BlockVector R) :
    Outcome (BlockVector R) := do
  require (byVar.numBlocks == numVar * numSub)
  require (bySub.numBlocks == numVar * numSub)
  loop numSub (fun m bySub => loop numVar (fun v bySub =>
    copyBlock bySub (numVar * m + v) byVar (numSub * v + m)) bySub) bySub

/-- `MultiBlockSolver::SortByVariables`, src/multiblock_solver.cpp:187-203; returns the new
`by_var`. -/
def sortByVariables (numSub numVar : Nat) (bySub byVar : BlockVector R) :
    Outcome (BlockVector R) := do
  require (byVar.numBlocks == numVar * numSub)
  require (bySub.numBlocks == numVar * numSub)
  loop numSub (fun m byVar => loop numVar (fun v byVar =>
    copyBlock byVar (numSub * v + m) bySub (numVar * m + v)) byVar) byVar

/-! ## Solution offsets -/

/-- The offsets set up by a solver. -/
structure Offsets where
  block : List Nat
  var : List Nat
  domain : List Nat
  u : List Nat
  p : List Nat
  vblock : List Nat
  numVdofs : List Nat
deriving DecidableEq, Repr

/-- `StokesSolver::InitVariables`, src/stokes_solver.cpp:144-183.  `nu[m]`, `np[m]` are the numbers of
scalar dofs (`GetNDofs`) of the velocity and pressure spaces of subdomain `m`; the velocity space
has `dim` components, so its `GetVSize` is `dim * nu[m]` (MFEM, external). -/
def stokesInitVariables (dim : Nat) (nu np : List Nat) : Outcome Offsets := do
  let numSub := nu.length
  let udim := dim + 1
  let numVar := 2
  let zero := fun n => List.replicate n 0
  let st ← loop numSub (fun m (st : List Nat × List Nat × List Nat × List Nat × List Nat) => do
      let (block, var, domain, u, p) := st
      let a ← rd nu m
      let b ← rd np m
      -- v = 0: velocity, vdim[0] = dim
      let var ← wr var (m * numVar + 0 + 1) (dim * a)
      let block ← loop dim (fun d block => wr block (m * udim + d + 1) a) block
      let x ← rd domain (m + 1)
      let domain ← wr domain (m + 1) (x + dim * a)
      -- v = 1: pressure, vdim[1] = 1
      let var ← wr var (m * numVar + 1 + 1) b
      let block ← wr block (m * udim + dim + 1) b
      let x ← rd domain (m + 1)
      let domain ← wr domain (m + 1) (x + b)
      let u ← wr u (m + 1) (dim * a)
      let p ← wr p (m + 1) b
      return (block, var, domain, u, p))
    (zero (udim * numSub + 1), zero (numVar * numSub + 1), zero (numSub + 1), zero (numSub + 1),
      zero (numSub + 1))
  let (block, var, domain, u, p) := st
  let numVdofs := domain.drop 1
  let u := partialSum u
  let p := partialSum p
  let lu ← rd u numSub
  let lp ← rd p numSub
  return ⟨partialSum block, partialSum var, partialSum domain, u, p, [0, lu, lu + lp], numVdofs⟩

/-- Offsets sorted by variable in `StokesSolver::Solve`, src/stokes_solver.cpp:717-724. -/
def stokesOffsetsByVar (numSub : Nat) (u p : List Nat) : Outcome (List Nat) :=
  loop numSub (fun k offs => do
    let a ← rd u (k + 1)
    let offs ← wr offs (k + 1) a
    let b ← rd p (k + 1)
    let lu ← rd u numSub
    wr offs (k + 1 + numSub) (b + lu)) (List.replicate (2 * numSub + 1) 0)

/-- `PoissonSolver::InitVariables`, src/poisson_solver.cpp:107-126.  `nd[m]` is the number of scalar
dofs; the space has `udim` components.  Returns block, var and domain offsets and `num_vdofs`. -/
def poissonInitVariables (udim : Nat) (nd : List Nat) :
    Outcome (List Nat × List Nat × List Nat × List Nat) := do
  let numSub := nd.length
  let st ← loop numSub (fun i (st : List Nat × List Nat × List Nat) => do
      let (block, var, vdofs) := st
      let a ← rd nd i
      let var ← wr var (i + 1) (udim * a)
      let vdofs ← wr vdofs i (udim * a)
      let block ← loop udim (fun d block => wr block (d + i * udim + 1) a) block
      return (block, var, vdofs))
    (List.replicate (udim * numSub + 1) 0, List.replicate (numSub + 1) 0, List.replicate numSub 0)
  let (block, var, vdofs) := st
  let block := partialSum block
  let var := partialSum var
  return (block, var, var, vdofs)

end Verif.Blocks
