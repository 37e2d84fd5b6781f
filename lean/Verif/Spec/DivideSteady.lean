import Verif.Spec.DivideJac
import Verif.Spec.DivideSolve
import Verif.Spec.DivideFlow
import Verif.Spec.SteadyNS
import Verif.Model.DivideSteady
import Mathlib.Algebra.Order.Group.Abs

/-!
# Specification: the steady Navier-Stokes equations on the undivided mesh
-/

namespace Verif.Divide.Spec

open Verif Verif.LinAlg Verif.LinAlg.Spec Verif.Divide Verif.SubMesh Verif.SubMesh.Spec Finset
open Verif.InterfaceForm (Space)
open Verif.InterfaceForm.Spec (sizeIn)
open Verif.Boundary (BC)
open Verif.Blocks.Spec (HasSizes)
open Verif.Unsteady.Spec (first)
open Verif.SteadyNS (Guess Newton)

variable {R δ F : Type}

/-- The discrete problem on the parent mesh: integrals of the viscous operator (`W`), the divergence (`W'`), the
convective terms (`N`), and of the right-hand sides. -/
structure SteadyEq (R F : Type) where
  W : Whole R
  W' : Whole R
  N : Conv R F
  Ld : Loads R F
  Ld' : Loads R F

/-- Velocities have the same degrees of freedom wherever they occur. -/
structure SteadyEq.Consistent (E : SteadyEq R F) : Prop where
  viscous : E.W.ns = E.W.nt
  divergence : E.W'.ns = E.W.nt
  convection : E.N.n = E.W.nt

section
variable [CommRing R]

/-- What MFEM delivers on a division is that of the undivided mesh. -/
structure SteadyForms (E : SteadyEq R F) (pm : Parent) (subs : List Sub) (φ : Nat → Nat → Nat)
    (uspaces pspaces : List Space) (I : SteadyInput R δ F) : Prop where
  stokes : StokesForms E.W E.W' E.Ld E.Ld' pm subs φ uspaces pspaces I.views I.views' I.ints I.ints' I.fnfi
    I.fnfi' I.Ls I.Ls'
  convection : NFits E.N pm subs φ I.nviews I.nints I.nfnfi
  space : I.nviews.map (·.space) = uspaces

/-- Residual of the momentum equation for degree of freedom `a` of element `e`: convection, viscosity, pressure
gradient, load. -/
noncomputable def SteadyEq.momentum (E : SteadyEq R F) (pm : Parent) (bc : BC F) (υ π : Nat → Nat → R) (e a : Nat) : R :=
  convAt true E.N pm bc υ e a + (applied E.W pm bc υ e a + appliedT E.W' pm bc π e a) - loadAt E.Ld pm bc e a

/-- Residual of the mass equation. -/
noncomputable def SteadyEq.mass (E : SteadyEq R F) (pm : Parent) (bc : BC F) (υ : Nat → Nat → R) (e a : Nat) : R :=
  applied E.W' pm bc υ e a - loadAt E.Ld' pm bc e a

/-- Sum of the squares of all residuals on the undivided mesh. -/
noncomputable def SteadyEq.residual (E : SteadyEq R F) (pm : Parent) (bc : BC F) (υ π : Nat → Nat → R) : R :=
  ∑ e ∈ range pm.elemEdges.length, ∑ a ∈ range (E.W.nt e), E.momentum pm bc υ π e a ^ 2 +
    ∑ e ∈ range pm.elemEdges.length, ∑ a ∈ range (E.W'.nt e), E.mass pm bc υ e a ^ 2

/-- Velocity and pressure solve the steady Navier-Stokes equations of the undivided mesh. -/
def SteadyEq.Solution (E : SteadyEq R F) (pm : Parent) (bc : BC F) (υ π : Nat → Nat → R) : Prop :=
  (∀ e a, e < pm.elemEdges.length → a < E.W.nt e → E.momentum pm bc υ π e a = 0) ∧
  ∀ e a, e < pm.elemEdges.length → a < E.W'.nt e → E.mass pm bc υ e a = 0

/-- They determine the velocity, and the pressure up to a constant, which is zero if a pressure is prescribed. -/
def SteadyEq.Unique (E : SteadyEq R F) (pm : Parent) (bc : BC F) (presDbc : Bool) : Prop :=
  ∀ υ₁ π₁ υ₂ π₂, E.Solution pm bc υ₁ π₁ → E.Solution pm bc υ₂ π₂ →
    (∀ e a, e < pm.elemEdges.length → a < E.W.nt e → υ₁ e a = υ₂ e a) ∧
    ∃ c, (presDbc = true → c = 0) ∧ ∀ e a, e < pm.elemEdges.length → a < E.W'.nt e → π₁ e a = π₂ e a + c

/-- They determine them stably: where the squared residual is at most `ε`, velocities differ by at most `η`, and so
do pressures up to a constant, which is zero if a pressure is prescribed. -/
def SteadyEq.Stable [Lattice R] (E : SteadyEq R F) (pm : Parent) (bc : BC F) (presDbc : Bool) (ε η : R) : Prop :=
  ∀ υ₁ π₁ υ₂ π₂, E.residual pm bc υ₁ π₁ ≤ ε → E.residual pm bc υ₂ π₂ ≤ ε →
    (∀ e a, e < pm.elemEdges.length → a < E.W.nt e → |υ₁ e a - υ₂ e a| ≤ η) ∧
    ∃ c, (presDbc = true → c = 0) ∧
      ∀ e a, e < pm.elemEdges.length → a < E.W'.nt e → |π₁ e a - (π₂ e a + c)| ≤ η

/-- Two block vectors for two divisions have values that differ by at most `η` at the degrees of freedom of every
element of the mesh. -/
def Near [Lattice R] (n : Nat → Nat) (η : R) (subs : List Sub) (spaces : List Space) (x : Nat → Nat → R)
    (subs₂ : List Sub) (spaces₂ : List Space) (x₂ : Nat → Nat → R) : Prop :=
  ∀ (k i l j e b : Nat) sm s sm₂ s₂, subs[k]? = some sm → spaces[k]? = some s →
    sm.elemMap[i]? = some e → subs₂[l]? = some sm₂ → spaces₂[l]? = some s₂ →
    sm₂.elemMap[j]? = some e → b < n e → |x k (pos s i b) - x₂ l (pos s₂ j b)| ≤ η

/-- The layout of the solution: velocity and pressure of the first subdomain, then of the second. -/
def flowSizes (subs : List Sub) (uspaces pspaces : List Space) : List Nat :=
  (List.range subs.length).flatMap fun m => [sizeIn uspaces m, sizeIn pspaces m]

/-- The initial guess is the velocity `υ` with the pressure `π`: a loaded solution is stored subdomain by
subdomain, small random numbers are ordered by variable. -/
def StartsAt (n n' : Nat → Nat) (subs : List Sub) (uspaces pspaces : List Space) (υ π : Nat → Nat → R) :
    Guess R → Prop
  | .restart u => HasSizes u (flowSizes subs uspaces pspaces) ∧
      Represents subs uspaces n (flowPart (sizeIn uspaces) (sizeIn pspaces) u.data 0) υ ∧
      Represents subs pspaces n' (flowPart (sizeIn uspaces) (sizeIn pspaces) u.data 1) π
  | .random v => v.length = first (sizeIn uspaces) subs.length + first (sizeIn pspaces) subs.length ∧
      Represents subs uspaces n (velocity (sizeIn uspaces) v) υ ∧
      Represents subs pspaces n' (pressure subs.length (sizeIn uspaces) (sizeIn pspaces) v) π

end

section
variable [Field R]

/-- Mean of the pressure degrees of freedom of the whole mesh. -/
def SteadyEq.mean (E : SteadyEq R F) (pm : Parent) (q : Nat → Nat → R) : R :=
  (∑ e ∈ range pm.elemEdges.length, ∑ a ∈ range (E.W'.nt e), q e a) /
    ((∑ e ∈ range pm.elemEdges.length, E.W'.nt e : Nat) : R)

/-- Sum of the squares of `y - b`. -/
def distance (y b : List R) : R := ∑ t ∈ range b.length, (ve y t - ve b t) ^ 2

/-- The contract of the nonlinear solver (MFEM, external): it keeps the size of the vector, and it reports
convergence only if the squared norm of the residual at the last iterate is at most `goal` of the one at the
initial guess.  `NewtonSolver` compares the norm with `max(rel_tol * initial, abs_tol)`. -/
def ConvergesBelow [LE R] (newton : Newton R) (goal : R → R) : Prop :=
  ∀ o gs b x0 x conv, newton o gs b x0 = .ok (x, conv) → x.length = x0.length ∧
    (conv = true → ∃ y0 y, o.mult x0 = .ok y0 ∧ o.mult x = .ok y ∧ distance y b ≤ goal (distance y0 b))

/-- A nonlinear solver that reports convergence whenever some vector has a squared residual of at most `ε`. -/
def Finds [LE R] (newton : Newton R) (ε : R) : Prop :=
  ∀ o gs b x0, (∃ y0, o.mult x0 = .ok y0) → (∃ x y, x.length = x0.length ∧ o.mult x = .ok y ∧ distance y b ≤ ε) →
    ∃ x, newton o gs b x0 = .ok (x, true)

end

end Verif.Divide.Spec
