import Verif.Model.Smoother
import Verif.Spec.Blocks
import Verif.Spec.LinAlg

/-! # Specification vocabulary for block systems -/

namespace Verif.Smoother.Spec

open Verif Verif.LinAlg Verif.LinAlg.Spec Verif.Smoother Verif.Blocks.Spec

variable {R : Type} [CommRing R]

/-- Size of block `i`. -/
def size (sizes : List Nat) (i : Nat) : Nat := sizes[i]?.getD 0

/-- Entry `r` of block `i` of a vector made of consecutive blocks of the given sizes. -/
def comp (sizes : List Nat) (y : List R) (i r : Nat) : R := ve y ((sizes.take i).sum + r)

/-- Entry `(r, c)` of block `(i, j)`; blocks not present are zero. -/
def entry (a : BlockMat R) (i j r c : Nat) : R :=
  match a.blk i j with
  | none => 0
  | some m => m.get r c

/-- A square block matrix with blocks of the given sizes. -/
structure Shape (a : BlockMat R) (sizes : List Nat) : Prop where
  roffs : IsOffsets a.roffs sizes
  coffs : IsOffsets a.coffs sizes
  blk : ∀ i j m, a.blk i j = some m → m.h = size sizes i ∧ m.w = size sizes j

/-- `(A_ij y_j)_r`. -/
def part (a : BlockMat R) (sizes : List Nat) (y : List R) (i j r : Nat) : R :=
  ∑ c ∈ Finset.range (size sizes j), entry a i j r c * comp sizes y j c

/-- `A y = x`. -/
def Solves (a : BlockMat R) (sizes : List Nat) (y x : List R) : Prop :=
  ∀ i r, i < sizes.length → r < size sizes i →
    ∑ j ∈ Finset.range sizes.length, part a sizes y i j r = comp sizes x i r

/-- What MFEM promises of `DenseMatrix::Invert`: it returns a two-sided inverse. -/
def Inverts (invert : Mat R → Outcome (Mat R)) : Prop :=
  ∀ m n : Mat R, m.h = m.w → invert m = .ok n → n.h = m.h ∧ n.w = m.w ∧
    ∀ i k, i < m.h → k < m.h →
      (∑ j ∈ Finset.range m.h, ent n i j * ent m j k = if i = k then 1 else 0) ∧
      (∑ j ∈ Finset.range m.h, ent m i j * ent n j k = if i = k then 1 else 0)

/-- All vectors have the length of the block system. -/
def Fits (sizes : List Nat) (y : List R) : Prop := y.length = sizes.sum

/-- Inner product of two block vectors. -/
def inner (sizes : List Nat) (x y : List R) : R :=
  ∑ i ∈ Finset.range sizes.length, ∑ r ∈ Finset.range (size sizes i),
    comp sizes x i r * comp sizes y i r

/-- The matrix is symmetric. -/
def Symmetric (a : BlockMat R) (sizes : List Nat) : Prop :=
  ∀ i j r c, i < sizes.length → j < sizes.length → r < size sizes i → c < size sizes j →
    entry a i j r c = entry a j i c r

end Verif.Smoother.Spec
