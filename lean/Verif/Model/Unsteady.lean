import Verif.Model.RomHandler
import Verif.Model.EqpRom
import Verif.Model.Mumps
import Mathlib.Algebra.Field.Basic
import Mathlib.Algebra.Order.Ring.Defs

/-!
# One time step of the unsteady Navier-Stokes solver, full order and reduced

Models `UnsteadyNSSolver::InitializeTimeIntegration`, `Step`, `BuildCompROMLinElems`, `AssembleROMMat`
and `SolveROM` (src/unsteady_ns_solver.cpp).  The loop of `Solve` around `Step` is modelled in
`Verif.Model.TimeLoop`.  Reals are elements of an ordered field; timers, the lifetime of the temporary
vectors and restart files of `SolveROM` are not modelled.
-/

namespace Verif.Unsteady

open Verif Verif.LinAlg
open Verif.Blocks (Order BlockVector getBlockIndex sortByVariables stokesOffsetsByVar)
open Verif.RomHandler (Handler writeBlock)
open Verif.EqpRom (addFrom)

variable {R : Type}

section
variable [CommRing R]

/-! ### MFEM block matrices (external) -/

/-- `SparseMatrix::AddMult(x, y, a)`: `y += a A x`. -/
def blkAddMult (m : Blk R) (x y : List R) (a : R) : Outcome (List R) :=
  if x.length = m.w ∧ y.length = m.h then
    .ok ((List.range m.h).map fun r =>
      y[r]?.getD 0 + a * ∑ c ∈ Finset.range m.w, m.val r c * x[c]?.getD 0)
  else .error .ub

/-- One block of `BlockMatrix::AddMult`. -/
def addMultBlock (b : BlockMat R) (x : List R) (a : R) (i j : Nat) (y : List R) : Outcome (List R) :=
  match b.blk i j with
  | none => .ok y
  | some m => do
    let ro ← rd b.roffs i
    let ro1 ← rd b.roffs (i + 1)
    let co ← rd b.coffs j
    let co1 ← rd b.coffs (j + 1)
    let xs ← getSeg x co (co1 - co)
    let ys ← getSeg y ro (ro1 - ro)
    let z ← blkAddMult m xs ys a
    setSeg y ro z

/-- `BlockMatrix::AddMult(x, y, a)`. -/
def addMult (b : BlockMat R) (x y : List R) (a : R) : Outcome (List R) :=
  loop (b.roffs.length - 1) (fun i y =>
    loop (b.coffs.length - 1) (fun j y => addMultBlock b x a i j y) y) y

/-- `BlockMatrix::CreateMonolithic()`: every block at its offsets. -/
def mono (b : BlockMat R) : Blk R :=
  ⟨(b.roffs.getLast?).getD 0, (b.coffs.getLast?).getD 0, fun r c =>
    ∑ i ∈ Finset.range (b.roffs.length - 1), ∑ j ∈ Finset.range (b.coffs.length - 1),
      match b.blk i j with
      | none => 0
      | some m =>
        if (b.roffs[i]?.getD 0 ≤ r ∧ r < b.roffs[i]?.getD 0 + m.h) ∧
            b.coffs[j]?.getD 0 ≤ c ∧ c < b.coffs[j]?.getD 0 + m.w then
          m.val (r - b.roffs[i]?.getD 0) (c - b.coffs[j]?.getD 0) else 0⟩

/-- `BlockMatrix::SetBlock(i, j, m)`: the shape is verified. -/
def setBlock (b : BlockMat R) (i j : Nat) (m : Blk R) : Outcome (BlockMat R) := do
  let ro ← rd b.roffs i
  let ro1 ← rd b.roffs (i + 1)
  let co ← rd b.coffs j
  let co1 ← rd b.coffs (j + 1)
  require (ro1 - ro == m.h)
  require (co1 - co == m.w)
  return { b with blk := fun i' j' => if i' = i ∧ j' = j then some m else b.blk i' j' }

/-- `Vector::Add(a, v)` on the view of `y` of size `n` that starts at `o`. -/
def addScaled (y : List R) (o n : Nat) (a : R) (v : List R) : Outcome (List R) :=
  loop n (fun i y => do
    let s ← rd y (o + i)
    let t ← rd v i
    wr y (o + i) (s + a * t)) y

/-! ### Convection -/

/-- The nonlinear operators with their time-dependent coefficients, set by `SetTime`
(src/unsteady_ns_solver.cpp:390-401): `dom t m x k` is `Mult` of the form of subdomain `m` at time `t`
into a vector of size `k`; `itf t x y` is `InterfaceAddMult`. -/
structure Conv (R : Type) where
  dom : R → Nat → List R → Nat → Outcome (List R)
  itf : R → List R → List R → Outcome (List R)

/-- The body of `BlockOperator::Mult` (external) for the diagonal block of subdomain `m`: `Mult` into a
new vector, which is then added to the block of the result. -/
def hopBlock (offs : List Nat) (c : Conv R) (t : R) (x : List R) (m : Nat) (y : List R) :
    Outcome (List R) := do
  let o ← rd offs m
  let o1 ← rd offs (m + 1)
  let xs ← getSeg x o (o1 - o)
  let z ← c.dom t m xs (o1 - o)
  addFrom y o (o1 - o) z 0

/-- `Hop->Mult(u1, Cu1); itf->InterfaceAddMult(u1, Cu1)`, src/unsteady_ns_solver.cpp:237-242 and
:546-551.  `BlockOperator::Mult` starts from zero. -/
def convect (offs : List Nat) (n : Nat) (c : Conv R) (t : R) (u1 : List R) : Outcome (List R) := do
  let y ← loop n (fun m y => hopBlock offs c t u1 m y) (List.replicate u1.length 0)
  c.itf t u1 y

end

section
variable [Field R]

/-- `bd0`, include/unsteady_ns_solver.hpp:37. -/
def bd0 : R := 1
/-- `bd1`, include/unsteady_ns_solver.hpp:38. -/
def bd1 : R := -1
/-- `ab1`, include/unsteady_ns_solver.hpp:41. -/
def ab1 : R := 1

/-! ### Full order -/

/-- The members of `UnsteadyNSSolver` used by a time step; `u`, `p` are `u_offsets`, `p_offsets`,
`mass` the assembled mass matrices. -/
structure Fom (R : Type) where
  n : Nat
  u : List Nat
  p : List Nat
  mass : List (Blk R)
  M : Blk R
  B : Blk R
  Bt : Blk R
  conv : Conv R
  presDbc : Bool
  dt : R

/-- `massMat`, src/unsteady_ns_solver.cpp:77-79. -/
def massMat (f : Fom R) : Outcome (BlockMat R) :=
  loop f.n (fun i b => do
    let m ← rd f.mass i
    setBlock b i i m) ⟨f.u, f.u, false, fun _ _ => none⟩

/-- What `InitializeTimeIntegration` sets up. -/
structure Init (R : Type) where
  mass : BlockMat R
  sys : BlockMat R
  vblock : List Nat
  byVar : List Nat

/-- `uu`, src/unsteady_ns_solver.cpp:153-158.  Adding matrices of other shapes is undefined. -/
def uuMat (nu : Nat) (mass : BlockMat R) (m : Blk R) (dt : R) : Outcome (Blk R) :=
  let t := mono mass
  if t.h = nu ∧ t.w = nu ∧ m.h = nu ∧ m.w = nu then
    .ok ⟨nu, nu, fun r c => t.val r c * (bd0 / dt) + m.val r c⟩
  else .error .ub

/-- `UnsteadyNSSolver::InitializeTimeIntegration`, src/unsteady_ns_solver.cpp:149-190;
`vblock_offsets` is set in `StokesSolver::InitVariables`. -/
def initTime [LinearOrder R] (f : Fom R) : Outcome (Init R) := do
  require (decide (0 < f.dt))
  let lu ← rd f.u f.n
  let lp ← rd f.p f.n
  let mass ← massMat f
  let uu ← uuMat lu mass f.M f.dt
  let sys : BlockMat R := ⟨[0, lu, lu + lp], [0, lu, lu + lp], false, fun _ _ => none⟩
  let sys ← setBlock sys 0 0 uu
  let sys ← setBlock sys 0 1 f.Bt
  let sys ← setBlock sys 1 0 f.B
  let byVar ← stokesOffsetsByVar f.n f.u f.p
  return ⟨mass, sys, [0, lu, lu + lp], byVar⟩

/-- `massMat->AddMult(u1, view, a)` for the view of `y` of size `n` that starts at `0`. -/
def addMass (b : BlockMat R) (u1 : List R) (n : Nat) (a : R) (y : List R) : Outcome (List R) := do
  let v ← getSeg y 0 n
  let v ← addMult b u1 v a
  setSeg y 0 v

/-- `p_const = p.Sum() / p.Size(); p -= p_const`, src/unsteady_ns_solver.cpp:275-277, for the view of
size `n` that starts at `o`. -/
def subtractMean (o n : Nat) (x : List R) : Outcome (List R) := do
  let p ← getSeg x o n
  setSeg x o (p.map fun a => a - p.sum / n)

/-- `UnsteadyNSSolver::Step`, src/unsteady_ns_solver.cpp:223-283.  `x` is `U_step`, `old` the former
data of `RHS_step`, `solver A b` the direct solver (external) for what it sees of the monolithic matrix: one
triangle (`SetupMUMPSSolver`, :167, with the default type). -/
def step (f : Fom R) (i : Init R) (lower : Bool) (solver : Blk R → List R → Outcome (List R)) (rhs : BlockVector R)
    (old : List R) (time : R) (x : List R) : Outcome (List R) := do
  let lu ← rd i.vblock 1
  let l ← rd i.vblock 2
  let u1 ← getSeg x 0 lu
  let cu ← convect f.u f.n f.conv time u1
  let r ← sortByVariables f.n 2 rhs ⟨old, i.byVar⟩
  let y ← addScaled r.data 0 lu (-ab1) cu
  let y ← addMass i.mass u1 lu (-bd1 / f.dt) y
  let x ← solver (Mumps.seen lower Mumps.stokesType (mono i.sys)) y
  if f.presDbc then return x else subtractMean lu (l - lu) x

/-! ### Reduced order -/

/-- `UnsteadyNSSolver::BuildCompROMLinElems`, src/unsteady_ns_solver.cpp:418-438: the reduced velocity
mass of each component; `m c` is the assembled mass matrix of the component mesh. -/
def buildMass (h : Handler R) (m : List (Op R)) : Outcome (List (Option (Blk R))) :=
  loop m.length (fun c acc => do
    let a ← rd m c
    if !h.separate then return acc ++ [none]
    let s ← h.projectRefMat (c * h.numVar : Nat) (c * h.numVar : Nat) (some a)
    return acc ++ [some ⟨s.h, s.w, fun r c => s.get r c⟩]) []

/-- A 1x1 array of blocks. -/
def single (m : Blk R) : MatBlocks R := ⟨1, 1, fun _ _ => some m⟩

/-- `*m *= a`. -/
def scaleBlk (a : R) (m : Blk R) : Blk R := { m with val := fun r c => m.val r c * a }

/-- The body of the loop of `AssembleROMMat`, src/unsteady_ns_solver.cpp:453-466. -/
def addMassStep (h : Handler R) (mass : List (Option (Blk R))) (dt : R) (m : Nat)
    (s : BlockMat R × BlockMat R) : Outcome (BlockMat R × BlockMat R) := do
  let c ← rd h.meshType m
  let idx ← getBlockIndex h.separate h.ord h.numSub h.numVar m 0
  let e ← rd mass c
  let e ← deref e
  let romMass ← addToBlockMatrix [idx] [idx] (single e) s.2
  let rom ← addToBlockMatrix [idx] [idx] (single (scaleBlk (bd0 / dt) e)) s.1
  return (rom, romMass)

/-- `UnsteadyNSSolver::AssembleROMMat`, src/unsteady_ns_solver.cpp:441-468, given the matrix of
`SteadyNSSolver::AssembleROMMat`: the new matrix and `rom_mass`. -/
def assembleROMMat (h : Handler R) (mass : List (Option (Blk R))) (dt : R) (rom : BlockMat R) :
    Outcome (BlockMat R × BlockMat R) := do
  require (h.ord == .variable)
  let u ← getSeg h.romOffs 0 (h.numSub + 1)
  loop h.numSub (fun m s => addMassStep h mass dt m s) (rom, ⟨u, u, true, fun _ _ => none⟩)

/-- The offsets of `SolveROM`, src/unsteady_ns_solver.cpp:488-496: `rom_u_offsets`, `rom_p_offsets`,
`rom_var_offsets`. -/
def romOffsets (romOffs : List Nat) (n : Nat) : Outcome (List Nat × List Nat × List Nat) := do
  let u ← getSeg romOffs 0 (n + 1)
  let p ← getSeg romOffs n (n + 1)
  let p ← loop (n + 1) (fun i p => do
    let a ← rd p (n - i)
    let b ← rd p 0
    wr p (n - i) (a - b)) p
  let o1 ← rd romOffs n
  let o2 ← rd romOffs (2 * n)
  return (u, p, [0, o1, o2])

/-- `rom_ones`, src/unsteady_ns_solver.cpp:513-525; `poffs` is `p_offsets`. -/
def romOnes (h : Handler R) (poffs romP : List Nat) (presDbc : Bool) : Outcome (List R) := do
  let l ← rd romP h.numSub
  let z : BlockVector R := ⟨List.replicate l 0, romP⟩
  if presDbc then return z.data
  let r ← loop h.numSub (fun m z => do
    let idx ← getBlockIndex h.separate h.ord h.numSub h.numVar m 1
    let o ← rd poffs m
    let o1 ← rd poffs (m + 1)
    let k ← z.blockSize m
    let v ← h.projectDomain idx.toNat (List.replicate (o1 - o) 1) k
    writeBlock z m v) z
  return r.data

/-- The data of `SolveROM`: `romMat` is the loaded operator, `rhs` the reduced right-hand side. -/
structure Rom (R : Type) where
  h : Handler R
  romMat : BlockMat R
  romMass : BlockMat R
  rhs : List R
  poffs : List Nat
  conv : Conv R
  presDbc : Bool
  dt : R

/-- `p_const = (rom_ones * p) / pN; p.Add(-p_const, rom_ones)`, src/unsteady_ns_solver.cpp:584-586, for the
view of size `n` that starts at `o`.  The dot product reads as many entries as `rom_ones` has. -/
def subtractOnes (ones : List R) (pN : Nat) (o n : Nat) (x : List R) : Outcome (List R) := do
  let p ← getSeg x o ones.length
  let c := (List.zipWith (fun a b => a * b) ones p).sum / (pN : R)
  addScaled x o n (-c) ones

/-- The body of the time loop of `SolveROM`, src/unsteady_ns_solver.cpp:531-591; `uoffs` and `var` are
`rom_u_offsets` and `rom_var_offsets`. -/
def romStep (r : Rom R) (uoffs var : List Nat) (ones : List R)
    (solver : Blk R → List R → Outcome (List R)) (time : R) (x : List R) : Outcome (List R) := do
  let lu ← rd var 1
  let l ← rd var 2
  let u1 ← getSeg x 0 lu
  let cu ← convect uoffs r.h.numSub r.conv time u1
  let y ← addScaled r.rhs 0 lu (-ab1) cu
  let y ← addMass r.romMass u1 lu (-bd1 / r.dt) y
  let x ← solver (mono r.romMat) y
  if r.presDbc then return x
  let pN ← rd r.poffs (r.poffs.length - 1)
  subtractOnes ones pN lu (l - lu) x

/-- `UnsteadyNSSolver::SolveROM`, src/unsteady_ns_solver.cpp:470-605, from the initial condition `u` at
step `step0` and time `t0`; returns the lifted solution and the last time. -/
def solveRom (r : Rom R) (solver : Blk R → List R → Outcome (List R)) (nt step0 : Nat) (t0 : R)
    (u : BlockVector R) (junk : Nat → R) : Outcome (BlockVector R × R) := do
  require (r.h.ord == .variable)
  let o ← romOffsets r.h.romOffs r.h.numSub
  let x ← r.h.project u junk
  let ones ← romOnes r.h r.poffs o.2.1 r.presDbc
  let s ← loopFrom (fun _ (s : List R × R) => do
    let x ← romStep r o.1 o.2.2 ones solver s.2 s.1
    return (x, s.2 + r.dt)) step0 (nt - step0) (x.data, t0)
  let u ← r.h.lift ⟨s.1, x.offsets⟩ u
  return (u, s.2)

end

end Verif.Unsteady
