import Verif.Model.LinAlg
import Mathlib.Algebra.BigOperators.Group.Finset.Basic

/-!
# Views into vectors and matrix-vector products

MFEM facilities (external) shared by the block smoother, the ROM handler and the interface forms.
-/

namespace Verif.LinAlg

open Verif

variable {R : Type}

/-- `*p`; dereferencing a null pointer is undefined behaviour. -/
def deref {α : Type} : Option α → Outcome α
  | none => .error .ub
  | some a => .ok a

/-- `assert(p)` (or `assert(p != NULL)`) followed by `*p`. -/
def nonNull {α : Type} : Option α → Outcome α
  | none => .error .abort
  | some a => .ok a

/-- `Vector::SetDataAndSize(y.GetData() + off, len)` used as a source: the entries seen by the view. -/
def getSeg (y : List R) (off len : Nat) : Outcome (List R) :=
  if off + len ≤ y.length then .ok ((y.drop off).take len) else .error .ub

/-- Writing all entries `l` of a view starting at `off`. -/
def setSeg (y : List R) (off : Nat) (l : List R) : Outcome (List R) :=
  if off + l.length ≤ y.length then .ok (y.take off ++ l ++ y.drop (off + l.length))
  else .error .ub

section
variable [CommRing R]

/-- `mfem::SparseMatrix::AddMult(x, y, a)` (external): `y += a * A x`. -/
def Sp.addMult (s : Sp R) (x y : List R) (a : R) : Outcome (List R) :=
  if x.length = s.w ∧ y.length = s.h then
    .ok ((List.range s.h).map (fun r =>
      y[r]?.getD 0 + a * ∑ c ∈ Finset.range s.w, s.get r c * x[c]?.getD 0))
  else .error .ub

/-- `mfem::SparseMatrix::ToDenseMatrix` (external). -/
def Sp.toDense (s : Sp R) : Mat R :=
  ⟨s.h, s.w, (List.range (s.h * s.w)).map (fun t => s.get (t % s.h) (t / s.h))⟩

/-- `mfem::DenseMatrix::Mult(x, y)` (external): `A x`. -/
def Mat.mult (m : Mat R) (x : List R) : Outcome (List R) :=
  if x.length = m.w then
    .ok ((List.range m.h).map (fun r =>
      ∑ c ∈ Finset.range m.w, m.data[r + c * m.h]?.getD 0 * x[c]?.getD 0))
  else .error .ub

/-! ### Sub-vectors and sub-matrices (MFEM, external)

A degree-of-freedom index `d < 0` stands for index `-1 - d` with a flipped sign. -/

/-- Index of a degree of freedom. -/
def dofIdx (d : Int) : Nat := if d < 0 then (-1 - d).toNat else d.toNat

/-- Sign of a degree of freedom. -/
def dofSgn (d : Int) : R := if d < 0 then -1 else 1

/-- `mfem::Vector::GetSubVector(dofs, el)`. -/
def getSubVector (x : List R) (dofs : List Int) : Outcome (List R) :=
  loop dofs.length (fun k acc => do
    let d ← rd dofs k
    let v ← rd x (dofIdx d)
    return acc ++ [dofSgn d * v]) []

/-- `mfem::Vector::AddElementVector(dofs, el)` on the view of `y` that starts at `off`. -/
def addElementVector (y : List R) (off : Nat) (dofs : List Int) (el : List R) : Outcome (List R) :=
  loop dofs.length (fun k y => do
    let d ← rd dofs k
    let v ← rd el k
    upd y (off + dofIdx d) (fun z => z + dofSgn d * v)) y

/-- `mfem::SparseMatrix::AddSubMatrix(rows, cols, a, skip_zeros)`; skipping zero entries does not
change the values and is not modelled. -/
def addSubMatrix (rows cols : List Int) (a : Mat R) (s : Sp R) : Outcome (Sp R) :=
  loop rows.length (fun i s => loop cols.length (fun j s => do
    let r ← rd rows i
    let c ← rd cols j
    let v ← rd a.data (i + j * a.h)
    s.add (dofIdx r) (dofIdx c) (dofSgn r * dofSgn c * v)) s) s

end

end Verif.LinAlg
