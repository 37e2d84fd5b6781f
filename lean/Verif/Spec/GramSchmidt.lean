import Verif.Model.GramSchmidt
import Mathlib.LinearAlgebra.Span.Basic
import Mathlib.LinearAlgebra.LinearIndependent.Basic

/-! # Specification vocabulary: orthonormal columns and their spans -/

namespace Verif.GramSchmidt.Spec

open Verif.GramSchmidt

variable {n : Nat}

/-- Column `i` (zero outside). -/
def colAt (cols : List (Col n)) (i : Nat) : Col n := cols[i]?.getD 0

/-- The columns have unit length and are pairwise orthogonal. -/
def OrthonormalCols (cols : List (Col n)) : Prop :=
  ∀ i j, i < cols.length → j < cols.length → colAt cols i ⬝ᵥ colAt cols j = if i = j then 1 else 0

/-- The span of the first `m` columns. -/
def prefixSpan (cols : List (Col n)) (m : Nat) : Submodule ℝ (Col n) :=
  Submodule.span ℝ {v | ∃ i, i < m ∧ i < cols.length ∧ colAt cols i = v}

/-- The columns are linearly independent. -/
def IndependentCols (cols : List (Col n)) : Prop :=
  LinearIndependent ℝ (fun i : Fin cols.length => colAt cols i)

/-- Pairwise orthogonal nonzero columns. -/
def OrthogonalCols (cols : List (Col n)) : Prop :=
  ∀ i j, i < cols.length → j < cols.length → (colAt cols i ⬝ᵥ colAt cols j = 0 ↔ i ≠ j)

end Verif.GramSchmidt.Spec
