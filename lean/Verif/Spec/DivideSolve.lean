import Verif.Spec.DivideElast
import Verif.Spec.FomSolve
import Verif.Model.DivideSolve

/-!
# Specification: solving on the undivided mesh
-/

namespace Verif.Divide.Spec

open Verif Verif.LinAlg Verif.LinAlg.Spec Verif.Divide Verif.SubMesh Verif.SubMesh.Spec
open Verif.InterfaceForm (Space Integ)
open Verif.InterfaceForm.Spec (sizeIn)
open Verif.Boundary (BC)
open Verif.Unsteady.Spec (first)
open Verif.FomSolve.Spec (at_)

variable {R δ F : Type}

section
variable [CommRing R]

/-- `A e a e' b` is the coefficient of degree of freedom `b` of element `e'` in the equation of degree of freedom
`a` of element `e`, for `m` elements with `n e` degrees of freedom: the equations with right-hand side zero have
only the solution zero. -/
def Nonsingular (m : Nat) (n : Nat → Nat) (A : Nat → Nat → Nat → Nat → R) : Prop :=
  ∀ ξ : Nat → Nat → R,
    (∀ e a, e < m → a < n e → ∑ e' ∈ Finset.range m, ∑ b ∈ Finset.range (n e'), A e a e' b * ξ e' b = 0) →
    ∀ e a, e < m → a < n e → ξ e a = 0

/-- The coefficients are symmetric. -/
def SymmetricForm (m : Nat) (n : Nat → Nat) (A : Nat → Nat → Nat → Nat → R) : Prop :=
  ∀ e a e' b, e < m → a < n e → e' < m → b < n e' → A e a e' b = A e' b e a

/-- What MFEM delivers to the Poisson solver on a division; `spaces` are its finite element spaces. -/
structure PoissonFits (W : Whole R) (L : Loads R F) (pm : Parent) (subs : List Sub) (φ : Nat → Nat → Nat)
    (spaces : List Space) (views : List (View R δ)) (ints : List (ITr δ → Mat R))
    (fnfi : List (Option (Integ R δ))) (Ls : List (LView R F)) : Prop where
  form : Fits W pm subs φ views ints fnfi
  load : LoadsFit L W.nt pm subs φ Ls
  test : views.map (·.test) = spaces
  trial : views.map (·.trial) = spaces
  loads : Ls.map (·.space) = spaces
  complete : ∀ s ∈ spaces, Complete s

/-- Entry `r` of the part of subdomain `k` in a vector stored one subdomain after the other; `sz` are the sizes of
the parts. -/
def part (sz : Nat → Nat) (x : List R) (k r : Nat) : R := ve x (first sz k + r)

/-- Velocity (`v = 0`) or pressure (`v = 1`) of subdomain `k` in a vector stored one subdomain after the other,
each with its velocity and then its pressure. -/
def flowPart (uz pz : Nat → Nat) (x : List R) (v k r : Nat) : R := ve x (at_ uz pz k v r)

/-- The discrete Stokes equations on the undivided mesh. -/
def StokesSolution (W W' : Whole R) (L L' : Loads R F) (pm : Parent) (bc : BC F) (υ π : Nat → Nat → R) : Prop :=
  (∀ e a, e < pm.elemEdges.length → a < W.nt e →
    applied W pm bc υ e a + appliedT W' pm bc π e a = loadAt L pm bc e a) ∧
  ∀ e a, e < pm.elemEdges.length → a < W'.nt e → applied W' pm bc υ e a = loadAt L' pm bc e a

/-- They determine the velocity, and the pressure up to a constant, which is zero if a pressure is prescribed. -/
def StokesUnique (W W' : Whole R) (L L' : Loads R F) (pm : Parent) (bc : BC F) (presDbc : Bool) : Prop :=
  ∀ υ₁ π₁ υ₂ π₂, StokesSolution W W' L L' pm bc υ₁ π₁ → StokesSolution W W' L L' pm bc υ₂ π₂ →
    (∀ e a, e < pm.elemEdges.length → a < W.nt e → υ₁ e a = υ₂ e a) ∧
    ∃ c, (presDbc = true → c = 0) ∧ ∀ e a, e < pm.elemEdges.length → a < W'.nt e → π₁ e a = π₂ e a + c

/-- A constant pressure exerts no force. -/
def Enclosed (W W' : Whole R) (pm : Parent) (bc : BC F) : Prop :=
  ∀ e a, e < pm.elemEdges.length → a < W.nt e → appliedT W' pm bc (fun _ _ => 1) e a = 0

/-- The pressure has mean zero. -/
def ZeroMeanOn (W' : Whole R) (pm : Parent) (π : Nat → Nat → R) : Prop :=
  ∑ e ∈ Finset.range pm.elemEdges.length, ∑ a ∈ Finset.range (W'.nt e), π e a = 0

end

end Verif.Divide.Spec
