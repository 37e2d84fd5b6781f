import Verif.Model.Views

/-!
# Block smoothers (`src/block_smoother.cpp`)

Entries live in a commutative ring, so the checks for NaN always pass and are omitted.
`DenseMatrix::Invert` (external) is a parameter.
-/

namespace Verif.Smoother

open Verif Verif.LinAlg

variable {R : Type} [CommRing R]

/-- `mfem::BlockMatrix` (external): offsets and blocks, `none` for a zero block. -/
structure BlockMat (R : Type) where
  roffs : List Nat
  coffs : List Nat
  blk : Nat → Nat → Option (Sp R)

/-- Members of `BlockSmoother` and of its subclasses (`include/block_smoother.hpp:15-81`). -/
structure BlockSmoother (R : Type) where
  oper : Option (BlockMat R)
  nrow : Int
  ncol : Int
  roffs : List Nat
  coffs : List Nat
  diagInv : List (Mat R)
  type : Int
  iterations : Nat
  /-- `iterative_mode` of `mfem::Solver` (external), initially false. -/
  iterative : Bool

/-- `BlockGSSmoother(t, it)` and `BlockDSmoother(t, it)` (`include/block_smoother.hpp:25, 46, 72-73`). -/
def default (type : Int) (it : Nat) : BlockSmoother R :=
  ⟨none, -1, -1, [], [], [], type, it, false⟩

/-- `BlockSmoother(a)` (lines 18-35).  `GetBlock` of a zero block aborts (external). -/
def construct (invert : Mat R → Outcome (Mat R)) (a : BlockMat R) (type : Int) (it : Nat) :
    Outcome (BlockSmoother R) := do
  let nrow := a.roffs.length - 1
  let ncol := a.coffs.length - 1
  require (nrow == ncol)
  let inv ← loop nrow (fun b l => do
    match a.blk b b with
    | none => .error .abort
    | some s => do
      let m ← invert s.toDense
      .ok (l ++ [m])) []
  .ok ⟨some a, nrow, ncol, a.roffs, a.coffs, inv, type, it, false⟩

/-- `BlockSmoother::SetOperator` (lines 42-51); `none` stands for an operator that is no block matrix.
The sizes of the base class do not matter here. -/
def setOperator (s : BlockSmoother R) : Option (BlockMat R) → Outcome (BlockSmoother R)
  | none => .error .abort
  | some a => .ok { s with oper := some a }

/-- Start and size of a block. -/
def span (offs : List Nat) (i : Nat) : Outcome (Nat × Nat) := do
  let e ← rd offs (i + 1)
  let b ← rd offs i
  .ok (b, e - b)

/-- One iteration of the inner loop of a sweep (lines 99-112 and 140-153): subtract `A_ij y_j`. -/
def offDiag (a : BlockMat R) (coffs : List Nat) (y : List R) (i j : Nat) (tmp : List R) :
    Outcome (List R) :=
  if i = j then .ok tmp
  else
    match a.blk i j with
    | none => .ok tmp
    | some m => do
      let (co, cn) ← span coffs j
      let yj ← getSeg y co cn
      m.addMult yj tmp (-1)

/-- The update of block `i` in a sweep (lines 94-126 and 135-167); `cols` is the order of the inner
loop. -/
def relax (s : BlockSmoother R) (x : List R) (cols : Nat → Nat) (i : Nat) (y : List R) :
    Outcome (List R) := do
  let a ← deref s.oper
  let (ro, rn) ← span s.roffs i
  let tmp ← loop s.ncol.toNat (fun k tmp => offDiag a s.coffs y i (cols k) tmp) (List.replicate rn 0)
  let xi ← getSeg x ro rn
  let tmp := tmp.zipWith (· + ·) xi
  let inv ← rd s.diagInv i
  let z ← inv.mult tmp
  setSeg y ro z

/-- `BlockGaussSeidelForw` (lines 89-128). -/
def forw (s : BlockSmoother R) (x y : List R) : Outcome (List R) :=
  loop s.nrow.toNat (fun i y => relax s x (fun k => k) i y) y

/-- `BlockGaussSeidelBack` (lines 130-169). -/
def back (s : BlockSmoother R) (x y : List R) : Outcome (List R) :=
  loop s.nrow.toNat (fun k y =>
    relax s x (fun k => s.ncol.toNat - 1 - k) (s.nrow.toNat - 1 - k) y) y

/-- One iteration of `BlockGSSmoother::Mult`, forward half (lines 78-81). -/
def forwHalf (s : BlockSmoother R) (x y : List R) : Outcome (List R) :=
  if s.type ≠ 2 then forw s x y else .ok y

/-- One iteration of `BlockGSSmoother::Mult`, backward half (lines 82-85). -/
def backHalf (s : BlockSmoother R) (x y : List R) : Outcome (List R) :=
  if s.type ≠ 1 then back s x y else .ok y

/-- `BlockGSSmoother::Mult` (lines 70-87). -/
def multGS (s : BlockSmoother R) (x y : List R) : Outcome (List R) :=
  loop s.iterations (fun _ y => do
    let y ← forwHalf s x y
    backHalf s x y)
    (if s.iterative then y else List.replicate y.length 0)

/-- `BlockDSmoother::Mult` (lines 185-201). -/
def multD (s : BlockSmoother R) (x y : List R) : Outcome (List R) :=
  if s.iterative = false ∧ s.type = 0 ∧ s.iterations = 1 then
    loop s.nrow.toNat (fun i y => do
      let (ro, rn) ← span s.roffs i
      let xi ← getSeg x ro rn
      let inv ← rd s.diagInv i
      let z ← inv.mult xi
      setSeg y ro z) y
  else .error .abort

end Verif.Smoother
