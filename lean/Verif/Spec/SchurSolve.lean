import Verif.Spec.FomSolve
import Verif.Model.SchurSolve

/-!
# What the Stokes solve by a Schur complement should do

The equations are those of `Verif.FomSolve.Spec.StokesSolves`.
-/

namespace Verif.SchurSolve.Spec

open Verif Verif.LinAlg Verif.LinAlg.Spec Verif.FomSolve Verif.FomSolve.Spec Finset
open Verif.InterfaceForm (MatArr)
open Verif.Unsteady.Spec (first)

variable {R : Type} [CommRing R]

/-- Whenever `op` returns, it has multiplied by the matrix `A`. -/
def Applies (op : List R → Outcome (List R)) (N : Nat) (A : Nat → Nat → R) : Prop :=
  ∀ v y : List R, v.length = N → op v = .ok y → y.length = N ∧
    ∀ t, t < N → ve y t = ∑ c ∈ range N, A t c * ve v c

/-- An iterative solver for symmetric matrices in exact arithmetic (external): it keeps the size of the vector,
and what it reports as converged solves the system. -/
def Exact (kr : Krylov R) : Prop :=
  ∀ op prec N A (b x0 x : List R) conv, Applies op N A → (∀ r c, r < N → c < N → A r c = A c r) →
    b.length = N → x0.length = N → kr op prec b x0 = .ok (x, conv) →
    x.length = N ∧ (conv = true → ∀ t, t < N → ∑ c ∈ range N, A t c * ve x c = ve b t)

/-- The solver always reports convergence. -/
def Always (kr : Krylov R) : Prop := ∀ op prec b x0 r, kr op prec b x0 = .ok r → r.2 = true

/-- No velocity but zero exerts no viscous force. -/
def Nonsingular (n : Nat) (nu : Nat → Nat) (M : MatArr R) : Prop :=
  ∀ x : Nat → R, (∀ m k, m < n → k < nu m → lhs n nu M x m k = 0) → ∀ t, t < first nu n → x t = 0

/-- The right-hand sides of the pressure equations sum to zero. -/
def Compatible (n : Nat) (nu np : Nat → Nat) (rhs : Nat → R) : Prop :=
  ∑ m ∈ range n, ∑ l ∈ range (np m), rhs (at_ nu np m 1 l) = 0

/-- The equations of variable `v` (0 momentum, 1 continuity) hold. -/
def Holds (n : Nat) (nu np : Nat → Nat) (M B : MatArr R) (rhs x : Nat → R) (v : Nat) : Prop :=
  ∀ m k, m < n → k < dofs nu np m v → stokesLhs n nu np M B x m v k = rhs (at_ nu np m v k)

end Verif.SchurSolve.Spec
