import Verif.Model.LinAlg

/-! # Specification vocabulary: entries of vectors, matrices and tensors -/

namespace Verif.LinAlg.Spec

open Verif Verif.LinAlg

variable {R : Type} [Zero R]

/-- Entry of a vector (zero outside). -/
def ve (x : List R) (i : Nat) : R := x[i]?.getD 0

/-- Entry `(i, j)` of a column-major matrix. -/
def ent (m : Mat R) (i j : Nat) : R := ve m.data (i + j * m.h)

/-- Entry `(i, j)` of a row-major libROM matrix. -/
def cent (m : CMat R) (i j : Nat) : R := ve m.data (i * m.cols + j)

/-- Entry `(i, j, k)` of a tensor. -/
def tent (t : Tensor R) (i j k : Nat) : R := ve t.data (i + j * t.nI + k * (t.nI * t.nJ))

/-- The buffer holds all entries. -/
def MatOk (m : Mat R) : Prop := m.h * m.w ≤ m.data.length

def CMatOk (m : CMat R) : Prop := m.data.length = m.rows * m.cols

def TensorOk (t : Tensor R) : Prop := t.nI * t.nJ * t.nK ≤ t.data.length

/-- All row indices are rows of a matrix of height `h`, and there is at least one. -/
def RowsOk (rows : List Int) (h : Nat) : Prop := rows ≠ [] ∧ ∀ r ∈ rows, 0 ≤ r ∧ r < h

/-- The `k`-th row index. -/
def rowAt (rows : List Int) (k : Nat) : Nat := (rows[k]?.getD 0).toNat

/-- The operator maps vectors of its width to vectors of its height. -/
def OpOk (a : Op R) : Prop := ∀ x : List R, x.length = a.w → (a.mult x).length = a.h

end Verif.LinAlg.Spec
