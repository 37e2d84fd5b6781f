import Verif.Model.RomHandler
import Verif.Model.Hdf5

/-!
# Projections of arrays of blocks (`src/rom_handler.cpp`)

The projections of `MFEMROMHandler` that take arrays of operators, and those of vectors to the bases of
components. The result is a new array; the matrices it held before are deleted first and play no role.
-/

namespace Verif.BlockProj

open Verif Verif.LinAlg Verif.RomHandler
open Verif.Hdf5 (Arr2)

variable {R : Type} [CommRing R]

/-- `ProjectToRefBasis` for vectors (`src/rom_handler.cpp:450-461`); `n` is the size of the target. -/
def projectRef (h : Handler R) (i : Int) (vec : List R) (n : Nat) : Outcome (List R) := do
  require h.loaded
  require (decide (0 ≤ i) && decide (i < h.refBasis.length))
  let b ← rd h.refBasis i.toNat
  require (vec.length == b.h)
  require (n == b.w)
  multTranspose b vec

/-- `LiftUpFromRefBasis` (`src/rom_handler.cpp:494-505`); `n` is the size of the target. -/
def liftRef (h : Handler R) (i : Int) (rom : List R) (n : Nat) : Outcome (List R) := do
  require h.loaded
  require (decide (0 ≤ i) && decide (i < h.refBasis.length))
  let b ← rd h.refBasis i.toNat
  require (n == b.h)
  require (rom.length == b.w)
  b.mult rom

/-- `assert((idx.Min() >= 0) && (idx.Max() < n))`; `Min` and `Max` read the first entry. -/
def inRange (idx : List Int) (n : Nat) : Outcome Unit := do
  let _ ← rd idx 0
  require (idx.all fun i => decide (0 ≤ i) && decide (i < n))

/-- `ProjectToRefBasis` and `ProjectToDomainBasis` for arrays (`src/rom_handler.cpp:752-791`): `proj` is the
projection of one block, `n` the number of bases. -/
def projectMats (h : Handler R) (n : Nat) (proj : Int → Int → Option (Op R) → Outcome (Sp R))
    (idxI idxJ : List Int) (mats : Arr2 (Option (Op R))) : Outcome (Arr2 (Sp R)) := do
  require h.loaded
  inRange idxI n
  inRange idxJ n
  require (idxI.length == mats.rows)
  require (idxJ.length == mats.cols)
  let d ← loop mats.rows (fun i d => loop mats.cols (fun j d => do
    let x ← rd idxI i
    let y ← rd idxJ j
    let a ← mats.get i j
    let s ← proj x y a
    .ok (d ++ [s])) d) []
  .ok ⟨mats.rows, mats.cols, d⟩

/-- `ProjectToRefBasis` for arrays (`src/rom_handler.cpp:752-771`). -/
def projectRefMats (h : Handler R) (idxI idxJ : List Int) (mats : Arr2 (Option (Op R))) :
    Outcome (Arr2 (Sp R)) :=
  projectMats h h.refBasis.length h.projectRefMat idxI idxJ mats

/-- `ProjectToDomainBasis` for arrays (`src/rom_handler.cpp:773-791`). -/
def projectDomainMats (h : Handler R) (idxI idxJ : List Int) (mats : Arr2 (Option (Op R))) :
    Outcome (Arr2 (Sp R)) :=
  projectMats h h.numBlocks h.projectDomainMat idxI idxJ mats

/-- The indices of `ProjectComponentToRefBasis` and `ProjectComponentToDomainBasis`
(`src/rom_handler.cpp:796-804`, `814-822`). -/
def componentIdx (h : Handler R) (c : Int) : List Int :=
  if h.separate then (List.range h.numVar).map fun (v : Nat) => c * h.numVar + (v : Int) else [c]

/-- The indices of `ProjectInterfaceToRefBasis` and `ProjectInterfaceToDomainBasis`
(`src/rom_handler.cpp:832-844`, `854-866`). -/
def interfaceIdx (h : Handler R) (c1 c2 : Int) : List Int :=
  if h.separate then ((List.range h.numVar).map fun (v : Nat) => c1 * h.numVar + (v : Int)) ++
    (List.range h.numVar).map fun (v : Nat) => c2 * h.numVar + (v : Int)
  else [c1, c2]

/-- `assert((mats.NumRows() == size) && (mats.NumCols() == size))`. -/
def isSquare (mats : Arr2 (Option (Op R))) (n : Nat) : Outcome Unit :=
  require (mats.rows == n && mats.cols == n)

/-- `ProjectComponentToRefBasis` (`src/rom_handler.cpp:793-809`). -/
def componentRef (h : Handler R) (c : Int) (mats : Arr2 (Option (Op R))) : Outcome (Arr2 (Sp R)) := do
  isSquare mats (if h.separate then h.numVar else 1)
  projectRefMats h (componentIdx h c) (componentIdx h c) mats

/-- `ProjectComponentToDomainBasis` (`src/rom_handler.cpp:811-827`). -/
def componentDomain (h : Handler R) (c : Int) (mats : Arr2 (Option (Op R))) : Outcome (Arr2 (Sp R)) := do
  isSquare mats (if h.separate then h.numVar else 1)
  projectDomainMats h (componentIdx h c) (componentIdx h c) mats

/-- `ProjectInterfaceToRefBasis` (`src/rom_handler.cpp:829-849`). -/
def interfaceRef (h : Handler R) (c1 c2 : Int) (mats : Arr2 (Option (Op R))) :
    Outcome (Arr2 (Sp R)) := do
  isSquare mats (if h.separate then 2 * h.numVar else 2)
  projectRefMats h (interfaceIdx h c1 c2) (interfaceIdx h c1 c2) mats

/-- `ProjectInterfaceToDomainBasis` (`src/rom_handler.cpp:851-871`). -/
def interfaceDomain (h : Handler R) (c1 c2 : Int) (mats : Arr2 (Option (Op R))) :
    Outcome (Arr2 (Sp R)) := do
  isSquare mats (if h.separate then 2 * h.numVar else 2)
  projectDomainMats h (interfaceIdx h c1 c2) (interfaceIdx h c1 c2) mats

/-- `ProjectVariableToDomainBasis` (`src/rom_handler.cpp:873-889`). -/
def variableDomain (h : Handler R) (vi vj : Int) (mats : Arr2 (Option (Op R))) :
    Outcome (Arr2 (Sp R)) := do
  require h.separate
  isSquare mats h.numSub
  projectDomainMats h ((List.range h.numSub).map fun (m : Nat) => (m : Int) * h.numVar + vi)
    ((List.range h.numSub).map fun (m : Nat) => (m : Int) * h.numVar + vj) mats

/-- `ProjectGlobalToDomainBasis` for arrays (`src/rom_handler.cpp:891-899`). -/
def globalDomain (h : Handler R) (mats : Arr2 (Option (Op R))) : Outcome (Arr2 (Sp R)) := do
  isSquare mats h.numBlocks
  projectDomainMats h ((List.range h.numBlocks).map fun (k : Nat) => (k : Int))
    ((List.range h.numBlocks).map fun (k : Nat) => (k : Int)) mats

end Verif.BlockProj
