import Mathlib.Analysis.SpecialFunctions.Pow.Real
import Mathlib.Analysis.Calculus.Deriv.Basic
import Mathlib.Data.Matrix.Mul

/-!
# What a line search and a nonlinear solve should do
-/

namespace Verif.Optimizer.Spec

open Matrix

/-- The squared residual of `F x = rhs`. -/
def residualSq {n m : Nat} (F : (Fin n → ℝ) → Fin m → ℝ) (rhs : Fin m → ℝ) (x : Fin n → ℝ) : ℝ :=
  ∑ i, (F x i - rhs i) ^ 2

/-- The norm of the residual. -/
noncomputable def residualNorm {n m : Nat} (F : (Fin n → ℝ) → Fin m → ℝ) (rhs : Fin m → ℝ) (x : Fin n → ℝ) : ℝ :=
  √(residualSq F rhs x)

/-- `b` is between `a` and `c`, and `J` is at least as large at both as at `b`. -/
structure Bracketed (J : ℝ → ℝ) (a b c : ℝ) : Prop where
  nonneg : 0 ≤ a
  left : a < b
  right : b ≤ c
  leftValue : J b ≤ J a
  rightValue : J b ≤ J c

/-- The `k`-th enlargement of a step: `b` times the `k`-th power of the golden ratio. -/
noncomputable def enlarged (b : ℝ) (k : Nat) : ℝ := b * ((1 + √5) / 2) ^ k

/-- The `k`-th reduction of a step. -/
noncomputable def reduced (b : ℝ) (k : Nat) : ℝ := b / ((1 + √5) / 2) ^ k

/-- `G` is the gradient of `f` at `x`, in the sense of partial derivatives along every direction: the
derivative of `t ↦ f (x + t v)` at zero is `G ⬝ v`. -/
def IsGradient {n : Nat} (f : (Fin n → ℝ) → ℝ) (x G : Fin n → ℝ) : Prop :=
  ∀ v : Fin n → ℝ, HasDerivAt (fun t : ℝ => f (x + t • v)) (∑ k, G k * v k) 0

/-- `D` holds the derivatives of the components of `F` at `x`, in the same sense. -/
def IsJacobian {n m : Nat} (F : (Fin n → ℝ) → Fin m → ℝ) (x : Fin n → ℝ) (D : Matrix (Fin m) (Fin n) ℝ) :
    Prop :=
  ∀ (i : Fin m) (v : Fin n → ℝ), HasDerivAt (fun t : ℝ => F (x + t • v) i) (∑ k, D i k * v k) 0

end Verif.Optimizer.Spec
