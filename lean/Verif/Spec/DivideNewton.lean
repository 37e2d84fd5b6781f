import Verif.Model.DivideNewton
import Verif.Spec.DivideSteady
import Verif.Spec.DivideJac

/-!
# Newton's method on the undivided mesh
-/

namespace Verif.Divide.Spec

open Verif Verif.LinAlg Verif.LinAlg.Spec Verif.SubMesh Verif.SubMesh.Spec Verif.Divide Finset
open Verif.Boundary (BC)
open Verif.InterfaceForm (Space)

variable {R δ F : Type}

section
variable [CommRing R]

/-- What MFEM delivers for the gradients of the convective terms on a division. -/
structure GradForms (E : SteadyEq R F) (G : Grad R F) (pm : Parent) (subs : List Sub) (φ : Nat → Nat → Nat)
    (uspaces : List Space) (I : SteadyInput R δ F) : Prop where
  fits : GFits G pm subs φ I.gviews I.gints I.gfnfi
  space : I.gviews.map (·.space) = uspaces
  sizes : G.n = E.W.nt

/-- The momentum equation of the undivided mesh, linearised at the velocity `υ`, for the increments `ζ` and `κ`. -/
noncomputable def SteadyEq.linMomentum (E : SteadyEq R F) (G : Grad R F) (pm : Parent) (bc : BC F)
    (υ ζ κ : Nat → Nat → R) (e a : Nat) : R :=
  gradApplied true G pm bc υ ζ e a + (applied E.W pm bc ζ e a + appliedT E.W' pm bc κ e a)

/-- `(υ', π')` is the state after one step of Newton's method on the undivided mesh from `(υ, π)`: the increments
solve the linearised equations with the residuals as right-hand sides. -/
structure SteadyEq.NewtonStep (E : SteadyEq R F) (G : Grad R F) (pm : Parent) (bc : BC F)
    (υ π υ' π' : Nat → Nat → R) : Prop where
  momentum : ∀ e a, e < pm.elemEdges.length → a < E.W.nt e →
    E.linMomentum G pm bc υ (fun e a => υ e a - υ' e a) (fun e a => π e a - π' e a) e a = E.momentum pm bc υ π e a
  mass : ∀ e a, e < pm.elemEdges.length → a < E.W'.nt e →
    applied E.W' pm bc (fun e a => υ e a - υ' e a) e a = E.mass pm bc υ e a

/-- The linearised equations of the undivided mesh have only the solution zero for the right-hand side zero,
whatever velocity they are linearised at. -/
def SteadyEq.Regular (E : SteadyEq R F) (G : Grad R F) (pm : Parent) (bc : BC F) : Prop :=
  ∀ υ ζ κ, (∀ e a, e < pm.elemEdges.length → a < E.W.nt e → E.linMomentum G pm bc υ ζ κ e a = 0) →
    (∀ e a, e < pm.elemEdges.length → a < E.W'.nt e → applied E.W' pm bc ζ e a = 0) →
    (∀ e a, e < pm.elemEdges.length → a < E.W.nt e → ζ e a = 0) ∧
    ∀ e a, e < pm.elemEdges.length → a < E.W'.nt e → κ e a = 0

/-- Newton's method on the undivided mesh, with `left` more steps allowed: it goes from `(υ, π)` to `(υ', π')` and
stops there, with success (`conv`) if the squared residual is at most `goal`. -/
inductive SteadyEq.NewtonRun [LE R] (E : SteadyEq R F) (G : Grad R F) (pm : Parent) (bc : BC F) (goal : R) :
    (left : Nat) → (υ π : Nat → Nat → R) → (conv : Bool) → (υ' π' : Nat → Nat → R) → Prop
  | done {left υ π} : E.residual pm bc υ π ≤ goal → NewtonRun E G pm bc goal left υ π true υ π
  | stop {υ π} : ¬ E.residual pm bc υ π ≤ goal → NewtonRun E G pm bc goal 0 υ π false υ π
  | step {left υ π υ₁ π₁ conv υ' π'} : ¬ E.residual pm bc υ π ≤ goal → E.NewtonStep G pm bc υ π υ₁ π₁ →
      NewtonRun E G pm bc goal left υ₁ π₁ conv υ' π' → NewtonRun E G pm bc goal (left + 1) υ π conv υ' π'

end

/-- The contract of the direct solver (MUMPS, external): it solves systems with a nonsingular matrix. -/
def SolvesRegular [CommRing R] (lin : LinSolver R) : Prop :=
  ∀ (J : Blk R) (r : List R) n, J.h = n → J.w = n → r.length = n →
    (∀ z : Nat → R, (∀ i, i < n → ∑ j ∈ range n, J.val i j * z j = 0) → ∀ j, j < n → z j = 0) →
    ∃ c, lin J r = .ok c ∧ c.length = n ∧ ∀ i, i < n → ∑ j ∈ range n, J.val i j * ve c j = ve r i

end Verif.Divide.Spec
