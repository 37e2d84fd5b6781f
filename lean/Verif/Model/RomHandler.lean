import Verif.Model.Blocks
import Verif.Model.Views

/-!
# The ROM handler: loading bases, projecting and lifting

Models `MFEMROMHandler` of `src/rom_handler.cpp`.
-/

namespace Verif.RomHandler

open Verif Verif.LinAlg
open Verif.Blocks (Order BlockVector getDomainAndVariableIndex)

variable {R : Type}

/-- The members of `ROMHandlerBase`/`MFEMROMHandler` (include/rom_handler.hpp) used here.
`meshType` is `topol_handler->GetMeshType`.  `domBasis` holds pointers into `refBasis`; no code
writes through them, so they are modelled by value. -/
structure Handler (R : Type) where
  separate : Bool
  ord : Order
  numVar : Nat
  meshType : List Nat
  romOffs : List Nat
  refBasis : List (Mat R)
  domBasis : List (Mat R)
  loaded : Bool

/-- `numSub`. -/
def Handler.numSub (h : Handler R) : Nat := h.meshType.length

/-- `num_rom_blocks`, src/rom_handler.cpp:84-96. -/
def Handler.numBlocks (h : Handler R) : Nat := if h.separate then h.numSub * h.numVar else h.numSub

section
variable [CommRing R]

/-- `mfem::DenseMatrix::MultTranspose(x, y)` (external): `A^T x`. -/
def multTranspose (m : Mat R) (x : List R) : Outcome (List R) :=
  if x.length = m.h then
    .ok ((List.range m.w).map (fun c =>
      ∑ r ∈ Finset.range m.h, m.data[r + c * m.h]?.getD 0 * x[r]?.getD 0))
  else .error .ub

/-- One iteration of src/rom_handler.cpp:379-384: a new dense matrix holding the libROM basis. -/
def copyBasis (carom : List (Option (CMat R))) (k : Nat) (acc : List (Mat R)) :
    Outcome (List (Mat R)) := do
  let c ← rd carom k
  let c ← nonNull c
  let m ← copyMatrix c ⟨c.rows, c.cols, List.replicate (c.rows * c.cols) 0⟩
  return acc ++ [m]

/-- `idx = (separate_variable) ? c * num_var + v : c`, src/rom_handler.cpp:393. -/
def Handler.refIndex (h : Handler R) (c : Nat) (v : Int) : Int :=
  if h.separate then (c : Int) * h.numVar + v else c

/-- One iteration of src/rom_handler.cpp:388-395. -/
def Handler.pickBasis (h : Handler R) (ref : List (Mat R)) (k : Nat) (acc : List (Mat R)) :
    Outcome (List (Mat R)) := do
  let mv ← getDomainAndVariableIndex h.separate h.ord h.numSub h.numVar k
  let c ← rdI h.meshType mv.1
  let b ← rdI ref (h.refIndex c mv.2)
  return acc ++ [b]

/-- `MFEMROMHandler::LoadReducedBasis`, src/rom_handler.cpp:373-398 (reading the libROM bases from
files, `ROMHandlerBase::LoadReducedBasis`, is external: `carom` is the result). -/
def Handler.load (h : Handler R) (carom : List (Option (CMat R))) : Outcome (Handler R) := do
  let ref ← loop carom.length (copyBasis carom) []
  let dom ← loop h.numBlocks (h.pickBasis ref) []
  return { h with refBasis := ref, domBasis := dom, loaded := true }

/-- `BlockVector::GetBlock(i)` (external), read. -/
def readBlock (b : BlockVector R) (i : Nat) : Outcome (List R) := do
  let lo ← rd b.offsets i
  let n ← b.blockSize i
  getSeg b.data lo n

/-- `BlockVector::GetBlock(i)` (external), all of whose entries are overwritten by `l`; `l` has the
size of the block. -/
def writeBlock (b : BlockVector R) (i : Nat) (l : List R) : Outcome (BlockVector R) := do
  let lo ← rd b.offsets i
  let d ← setSeg b.data lo l
  return { b with data := d }

/-- `MFEMROMHandler::GetDomainBasis`, src/rom_handler.cpp:408-414. -/
def Handler.domainBasis (h : Handler R) (i : Nat) : Outcome (Mat R) := do
  require h.loaded
  require (decide (i < h.numBlocks))
  rd h.domBasis i

/-- `MFEMROMHandler::ProjectToDomainBasis` (vector), src/rom_handler.cpp:463-474; `n` is the size
of the target. -/
def Handler.projectDomain (h : Handler R) (i : Nat) (vec : List R) (n : Nat) : Outcome (List R) := do
  let b ← h.domainBasis i
  require (vec.length == b.h)
  require (n == b.w)
  multTranspose b vec

/-- `MFEMROMHandler::LiftUpFromDomainBasis`, src/rom_handler.cpp:507-518; `n` is the size of the
target. -/
def Handler.liftDomain (h : Handler R) (i : Nat) (rom : List R) (n : Nat) : Outcome (List R) := do
  let b ← h.domainBasis i
  require (n == b.h)
  require (rom.length == b.w)
  b.mult rom

/-- `GetDomainAndVariableIndex(i, m, v); fom_idx = (separate_variable)? v + m * num_var : m;`,
src/rom_handler.cpp:487-488 and :528-529. -/
def Handler.fomIndex (h : Handler R) (i : Nat) : Outcome Nat := do
  let mv ← getDomainAndVariableIndex h.separate h.ord h.numSub h.numVar i
  return (if h.separate then mv.2 + mv.1 * h.numVar else mv.1).toNat

/-- One iteration of src/rom_handler.cpp:485-491. -/
def Handler.projectStep (h : Handler R) (vec : BlockVector R) (i : Nat) (rom : BlockVector R) :
    Outcome (BlockVector R) := do
  let f ← h.fomIndex i
  let x ← readBlock vec f
  let n ← rom.blockSize i
  let y ← h.projectDomain i x n
  writeBlock rom i y

/-- `MFEMROMHandler::ProjectGlobalToDomainBasis` (vector), src/rom_handler.cpp:476-492.  The new
`BlockVector(rom_block_offsets)` starts with arbitrary contents `junk`. -/
def Handler.project (h : Handler R) (vec : BlockVector R) (junk : Nat → R) :
    Outcome (BlockVector R) := do
  require (vec.numBlocks == h.numBlocks)
  let total ← rd h.romOffs h.numBlocks
  loop h.numBlocks (h.projectStep vec) ⟨(List.range total).map junk, h.romOffs⟩

/-- One iteration of src/rom_handler.cpp:526-532. -/
def Handler.liftStep (h : Handler R) (rom : BlockVector R) (i : Nat) (vec : BlockVector R) :
    Outcome (BlockVector R) := do
  let f ← h.fomIndex i
  let x ← readBlock rom i
  let n ← vec.blockSize f
  let y ← h.liftDomain i x n
  writeBlock vec f y

/-- `MFEMROMHandler::LiftUpGlobal`, src/rom_handler.cpp:520-533. -/
def Handler.lift (h : Handler R) (rom vec : BlockVector R) : Outcome (BlockVector R) := do
  require (rom.numBlocks == h.numBlocks)
  require (vec.numBlocks == h.numBlocks)
  loop h.numBlocks (h.liftStep rom) vec

/-- `MFEMROMHandler::Solve(BlockVector *U)`, src/rom_handler.cpp:619-632.  `solver b x0` is the
linear solver of `Solve(rhs, sol)` (external). -/
def Handler.solve (h : Handler R) (solver : List R → List R → List R) (rhs : Option (BlockVector R))
    (u : BlockVector R) : Outcome (BlockVector R) := do
  require (u.numBlocks == h.numBlocks)
  let rhs ← nonNull rhs
  let total ← rd h.romOffs h.numBlocks
  h.lift ⟨solver rhs.data (List.replicate total 0), h.romOffs⟩ u

/-! ## Matrices -/

/-- The two dimension checks and the product of src/rom_handler.cpp:723-727 and :745-747. -/
def projectMat (bi bj : Mat R) (a : Op R) : Outcome (Sp R) := do
  require (bi.h == a.h)
  require (bj.h == a.w)
  sparseRtAP bi a bj

/-- Null handling of `ProjectToDomainBasis`, src/rom_handler.cpp:743-750: a null matrix projects to
an empty sparse matrix. -/
def projectMatOr (bi bj : Mat R) : Option (Op R) → Outcome (Sp R)
  | some a => projectMat bi bj a
  | none => .ok ⟨bi.w, bj.w, []⟩

/-- `MFEMROMHandler::ProjectToDomainBasis` (matrix), src/rom_handler.cpp:732-751. -/
def Handler.projectDomainMat (h : Handler R) (i j : Int) (a : Option (Op R)) : Outcome (Sp R) := do
  require (decide (0 ≤ i) && decide (i < h.numBlocks))
  require (decide (0 ≤ j) && decide (j < h.numBlocks))
  require h.loaded
  let bi ← h.domainBasis i.toNat
  let bj ← h.domainBasis j.toNat
  projectMatOr bi bj a

/-- `MFEMROMHandler::ProjectToRefBasis` (matrix), src/rom_handler.cpp:712-730: the dimension checks
dereference the matrix before the null test.  `num_rom_ref_blocks` is the number of loaded bases. -/
def Handler.projectRefMat (h : Handler R) (i j : Int) (a : Option (Op R)) : Outcome (Sp R) := do
  require (decide (0 ≤ i) && decide (i < h.refBasis.length))
  require (decide (0 ≤ j) && decide (j < h.refBasis.length))
  require h.loaded
  let bi ← rd h.refBasis i.toNat
  let bj ← rd h.refBasis j.toNat
  let a ← deref a
  projectMat bi bj a

end

end Verif.RomHandler
