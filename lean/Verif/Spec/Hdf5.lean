import Verif.Model.Hdf5
import Mathlib.Algebra.BigOperators.Group.Finset.Basic
import Mathlib.Order.Interval.Finset.Nat

/-! Specification vocabulary for the HDF5 round trips. -/

namespace Verif.Hdf5.Spec

open Verif

variable {R : Type}

/-- A proper HDF5 file: everything lies in the file itself or in an existing group. -/
def Valid (f : File R) : Prop := ∀ k, find f k ≠ none → isOpen f k.loc = true

/-- `f'` is `f` after any number of further objects were written. -/
def Later (f f' : File R) : Prop := ∀ k o, find f k = some o → find f' k = some o

/-- Only the object `name` of the group `loc`, and what lies below it, differs. -/
def OnlyBelow (f f' : File R) (loc : Loc) (name : String) : Prop :=
  ∀ k : Key, k ≠ ⟨loc, name, false⟩ → ¬ ((name :: loc) <:+ k.loc) → find f' k = find f k

/-- The handle is usable and the name is free in it. -/
def CanWrite (f : File R) (loc : Loc) (name : String) : Prop :=
  Valid f ∧ isOpen f loc = true ∧ find f ⟨loc, name, false⟩ = none

/-- Two arrays of rank two agree in shape and in every entry. -/
def SameArr2 {α : Type} (a b : Arr2 α) : Prop :=
  a.rows = b.rows ∧ a.cols = b.cols ∧
    ∀ i j, i < a.rows → j < a.cols → b.get i j = a.get i j

/-- Two dense matrices agree in shape and in every entry (whatever their buffers' capacities). -/
def SameMat (a b : LinAlg.Mat R) : Prop :=
  a.h = b.h ∧ a.w = b.w ∧
    ∀ i j, i < a.h → j < a.w → b.data[i + j * b.h]? = a.data[i + j * a.h]?

/-- Two tensors agree in shape and in every entry. -/
def SameTens (a b : Tens R) : Prop :=
  a.si = b.si ∧ a.sj = b.sj ∧ a.sk = b.sk ∧
    ∀ i j k, i < a.si → j < a.sj → k < a.sk →
      b.data[i + b.si * (j + b.sj * k)]? = a.data[i + a.si * (j + a.sj * k)]?

/-- Number of stored entries of a CSR matrix. -/
def nnz (m : Csr R) : Nat := (m.I[m.h]?.getD 0).toNat

/-- A proper CSR matrix: row pointers start at 0, never decrease, and the entries they delimit are
inside the buffers and name existing columns. -/
structure CsrOk (m : Csr R) : Prop where
  fin : m.finalized = true
  lenI : m.h + 1 ≤ m.I.length
  start : m.I[0]? = some 0
  mono : ∀ i, i < m.h → m.I[i]?.getD 0 ≤ m.I[i + 1]?.getD 0
  lenJ : nnz m ≤ m.J.length
  lenD : nnz m ≤ m.data.length
  cols : ∀ k, k < nnz m → 0 ≤ m.J[k]?.getD 0 ∧ m.J[k]?.getD 0 < m.w

/-- Entry `(i, j)` of the matrix a CSR structure represents. -/
def csrEntry [AddCommMonoid R] (m : Csr R) (i j : Nat) : R :=
  ∑ k ∈ Finset.Ico (m.I[i]?.getD 0).toNat (m.I[i + 1]?.getD 0).toNat,
    if m.J[k]? = some (j : Int) then m.data[k]?.getD 0 else 0

/-- Two CSR matrices agree in shape, row pointers and stored entries. -/
def SameCsr (a b : Csr R) : Prop :=
  a.h = b.h ∧ a.w = b.w ∧ a.finalized = b.finalized ∧
    (∀ i, i ≤ a.h → b.I[i]? = a.I[i]?) ∧
    (∀ k, k < nnz a → b.J[k]? = a.J[k]? ∧ b.data[k]? = a.data[k]?)

/-- Entry `(r, c)` of an optional block; a missing block is zero. -/
def blockEntry [AddCommMonoid R] (b : Option (Csr R)) (r c : Nat) : R :=
  match b with
  | none => 0
  | some m => csrEntry m r c

/-- A block table whose present blocks are proper. -/
def BlocksOk (nr nc : Nat) (blocks : Nat → Nat → Option (Csr R)) : Prop :=
  ∀ i j, i < nr → j < nc → ∀ m, blocks i j = some m → CsrOk m

/-- Reading back gives the same blocks, except that blocks without entries come back as missing. -/
def SameBlocks (nr nc : Nat) (a b : Nat → Nat → Option (Csr R)) : Prop :=
  ∀ i j, i < nr → j < nc →
    match a i j with
    | none => b i j = none
    | some m => if nnz m = 0 then b i j = none else ∃ m', b i j = some m' ∧ SameCsr m m'

end Verif.Hdf5.Spec
