import Verif.Spec.DivideNS
import Verif.Spec.Unsteady
import Verif.Model.DivideFlow

/-!
# Specification: flow in time on the undivided mesh
-/

namespace Verif.Divide.Spec

open Verif Verif.LinAlg Verif.LinAlg.Spec Verif.Divide Verif.SubMesh
open Verif.Boundary (BC)
open Verif.Unsteady.Spec (first)
open Verif.InterfaceForm (Space)

variable {R δ F : Type}

/-- The discrete problem on the parent mesh: `mass e a b` are the entries of the velocity mass matrix of
element `e`, `W` and `W'` the integrals of the viscous operator and of the divergence, `N t` those of the
convective terms at time `t`, `Ld` and `Ld'` those of the right-hand sides; `dt` is the length of a step. -/
structure FlowEq (R F : Type) where
  mass : Nat → Nat → Nat → R
  W : Whole R
  W' : Whole R
  N : R → Conv R F
  Ld : Loads R F
  Ld' : Loads R F
  dt : R

/-- Velocities have the same degrees of freedom wherever they occur. -/
structure FlowEq.Consistent (E : FlowEq R F) : Prop where
  viscous : E.W.ns = E.W.nt
  divergence : E.W'.ns = E.W.nt
  convection : ∀ t, (E.N t).n = E.W.nt

section
variable [Field R]

/-- One step on the undivided mesh from the velocity `υ` at time `t` to the velocity `υ'` with pressure `q`:
`mass (υ' - υ) / dt + viscous υ' + gradient q = load - convection at time t of υ` and
`divergence υ' = load'`. -/
def FlowEq.Step (E : FlowEq R F) (pm : Parent) (bc : BC F) (t : R) (υ υ' q : Nat → Nat → R) : Prop :=
  (∀ e a, e < pm.elemEdges.length → a < E.W.nt e →
    ∑ b ∈ Finset.range (E.W.nt e), E.mass e a b * ((υ' e b - υ e b) / E.dt) + applied E.W pm bc υ' e a +
      appliedT E.W' pm bc q e a = loadAt E.Ld pm bc e a - convAt true (E.N t) pm bc υ e a) ∧
  ∀ e a, e < pm.elemEdges.length → a < E.W'.nt e → applied E.W' pm bc υ' e a = loadAt E.Ld' pm bc e a

/-- Mean of the pressure degrees of freedom of the whole mesh. -/
def FlowEq.mean (E : FlowEq R F) (pm : Parent) (q : Nat → Nat → R) : R :=
  (∑ e ∈ Finset.range pm.elemEdges.length, ∑ a ∈ Finset.range (E.W'.nt e), q e a) /
    ((∑ e ∈ Finset.range pm.elemEdges.length, E.W'.nt e : Nat) : R)

/-- `n` steps from time `t`: velocities `υ 0, ..., υ n` and pressures `π 1, ..., π n`.  Unless a pressure is
prescribed its mean is subtracted. -/
def FlowEq.Flow (E : FlowEq R F) (pm : Parent) (bc : BC F) (presDbc : Bool) (t : R) (n : Nat)
    (υ π : Nat → Nat → Nat → R) : Prop :=
  ∀ j < n, ∃ q, E.Step pm bc (t + j * E.dt) (υ j) (υ (j + 1)) q ∧
    ∀ e a, e < pm.elemEdges.length → a < E.W'.nt e →
      π (j + 1) e a = if presDbc then q e a else q e a - E.mean pm q

/-- The equations of a step on the undivided mesh have a solution. -/
def FlowEq.Solvable (E : FlowEq R F) (pm : Parent) (bc : BC F) : Prop :=
  ∀ t υ, ∃ υ' q, E.Step pm bc t υ υ' q

/-- They determine the velocity, and the pressure up to a constant, which is zero if a pressure is
prescribed. -/
def FlowEq.Unique (E : FlowEq R F) (pm : Parent) (bc : BC F) (presDbc : Bool) : Prop :=
  ∀ t υ υ₁ q₁ υ₂ q₂, E.Step pm bc t υ υ₁ q₁ → E.Step pm bc t υ υ₂ q₂ →
    (∀ e a, e < pm.elemEdges.length → a < E.W.nt e → υ₁ e a = υ₂ e a) ∧
    ∃ c, (presDbc = true → c = 0) ∧ ∀ e a, e < pm.elemEdges.length → a < E.W'.nt e → q₁ e a = q₂ e a + c

/-- Mass matrix and viscous operator of the undivided mesh are symmetric. -/
def FlowEq.Symmetric (E : FlowEq R F) (pm : Parent) (bc : BC F) : Prop :=
  (∀ e a b, a < E.W.nt e → b < E.W.nt e → E.mass e a b = E.mass e b a) ∧
  ∀ e a e' b, a < E.W.nt e → b < E.W.nt e' → entry E.W pm bc e a e' b = entry E.W pm bc e' b e a

end

section
variable [CommRing R]

/-- The element matrices of the mass forms on a division. -/
structure MassFits (n : Nat → Nat) (mass : Nat → Nat → Nat → R) (subs : List Sub)
    (mvols : List (List (Mat R))) : Prop where
  count : mvols.length = subs.length
  each : ∀ (k : Nat) sm l, subs[k]? = some sm → mvols[k]? = some l → l.length = sm.elemMap.length ∧
    ∀ (i e : Nat) m, sm.elemMap[i]? = some e → l[i]? = some m → MatIs m (n e) (n e) (mass e)

/-- What MFEM delivers on a division is that of the undivided mesh, at every time. -/
structure FlowForms (E : FlowEq R F) (pm : Parent) (subs : List Sub) (φ : Nat → Nat → Nat)
    (uspaces pspaces : List Space) (I : FlowInput R δ F) : Prop where
  stokes : StokesForms E.W E.W' E.Ld E.Ld' pm subs φ uspaces pspaces I.views I.views' I.ints I.ints' I.fnfi
    I.fnfi' I.Ls I.Ls'
  mass : MassFits E.W.nt E.mass subs I.mvols
  convection : ∀ t, NFits (E.N t) pm subs φ (I.nviews t) I.nints I.nfnfi
  space : ∀ t, (I.nviews t).map (·.space) = uspaces

/-- Velocity of subdomain `k` in a vector ordered by variable; `uz` are the numbers of velocity degrees of
freedom. -/
def velocity (uz : Nat → Nat) (x : List R) (k r : Nat) : R := ve x (first uz k + r)

/-- Pressure of subdomain `k` of `n`. -/
def pressure (n : Nat) (uz pz : Nat → Nat) (x : List R) (k r : Nat) : R :=
  ve x (first uz n + (first pz k + r))

end

end Verif.Divide.Spec
