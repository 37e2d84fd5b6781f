import Verif.Model.Supremizer
import Verif.Spec.GramSchmidt
import Verif.Spec.Options
import Mathlib.Algebra.BigOperators.Group.Finset.Basic

/-! Specification vocabulary for supremizer enrichment. -/

namespace Verif.Supremizer.Spec

open Verif Verif.Supremizer Verif.GramSchmidt.Spec
open Verif.LinAlg (Mat)
open Verif.GramSchmidt (Col)

/-! ## Numbers of basis vectors -/

section Numbers
open Verif.Options (Node Conv Str key pieces)
open Verif.Options.Spec (At Blocked FirstNamed NotNamed)

/-- The integer option `path` has the value `n`; `dflt` is its value if it is not given. -/
def Setting (cv : Conv) (t : Node) (path : String) (dflt n : Int) : Prop :=
  (∃ x, At t (pieces '/' (key path)) x ∧ cv.int x = .ok n) ∨
    (¬ Options.Spec.Exists t (pieces '/' (key path)) ∧ ¬ Blocked t (pieces '/' (key path)) ∧ n = dflt)

/-- `rows` is the list `basis/tags`, empty if it is not given. -/
def Rows (cfg : Node) (rows : List Node) : Prop :=
  At cfg (pieces '/' (key "basis/tags")) (.seq rows) ∨
    (¬ Options.Spec.Exists cfg (pieces '/' (key "basis/tags")) ∧ ¬ Blocked cfg (pieces '/' (key "basis/tags")) ∧
      rows = [])

/-- `n` is the setting `field` of the first row named `tag`; `dflt` if there is no such row. -/
def RowValue (cv : Conv) (rows : List Node) (tag field : String) (dflt n : Int) : Prop :=
  (∃ e, FirstNamed cv.str (key "name") tag rows e ∧ Setting cv e field dflt n) ∨
    ((∀ e ∈ rows, NotNamed cv.str (key "name") tag e) ∧ n = dflt)

/-- The tag of a component, or of a variable of a component. -/
def tagText (name var : String) : String := if var = "" then name else name ++ ("_" ++ var)

/-- `m` is the first subdomain that is an instance of component `c`. -/
def FirstSub (meshType : List Nat) (c m : Nat) : Prop :=
  meshType[m]? = some c ∧ ∀ m', m' < m → meshType[m']? ≠ some c

/-- Block `k` of the full-order vector has `n` entries. -/
def BlockSize (offs : List Nat) (k n : Nat) : Prop :=
  ∃ a b, offs[k]? = some a ∧ offs[k + 1]? = some b ∧ n = b - a

end Numbers

/-! ## Bases -/

/-- Column `k` of a matrix with `n` rows. -/
noncomputable def column (n : Nat) (m : Mat ℝ) (k : Nat) : Col n := fun i => m.data[k * m.h + i]?.getD 0

/-- The discrete gradient `B^T p_k` of pressure mode `k`. -/
noncomputable def modeGrad (c : Comp) (p : Mat ℝ) (k : Nat) : Col c.nu := fun i =>
  ∑ j ∈ Finset.range c.np, c.B j i * p.data[k * p.h + j]?.getD 0

/-- The discrete gradient of the combination `q` of the first `n` pressure modes. -/
noncomputable def pressureGrad (c : Comp) (p : Mat ℝ) (n : Nat) (q : Nat → ℝ) : Col c.nu :=
  ∑ k ∈ Finset.range n, q k • modeGrad c p k

/-- A matrix with `n` rows whose buffer holds all its entries. -/
def Shape (n : Nat) (m : Mat ℝ) : Prop := m.h = n ∧ n * m.w ≤ m.data.length

/-- The velocity modes are orthonormal. -/
def Orthonormal (n : Nat) (u : Mat ℝ) : Prop :=
  ∀ i j, i < u.w → j < u.w → column n u i ⬝ᵥ column n u j = if i = j then 1 else 0

/-- What the training of a component needs: bases of the right size, orthonormal velocity modes, between one
and all of the pressure modes used, and gradients that are independent of each other and of the velocity
modes. -/
structure Ready (c : Comp) (nsup : Nat) (u p : Mat ℝ) : Prop where
  rows : 0 < c.nu
  vel : Shape c.nu u
  prs : Shape c.np p
  pos : 0 < nsup
  enough : nsup ≤ p.w
  ortho : Orthonormal c.nu u
  indep : LinearIndependent ℝ (Sum.elim (fun i : Fin u.w => column c.nu u i)
    (fun k : Fin nsup => modeGrad c p k))

/-- The space spanned by all columns of a matrix. -/
def colSpan (n : Nat) (m : Mat ℝ) : Submodule ℝ (Col n) :=
  Submodule.span ℝ {v | ∃ i, i < m.w ∧ column n m i = v}

/-- The space spanned by the gradients of the first `k` pressure modes. -/
def gradSpan (c : Comp) (p : Mat ℝ) (k : Nat) : Submodule ℝ (Col c.nu) :=
  Submodule.span ℝ {v | ∃ i, i < k ∧ modeGrad c p i = v}

/-- The data of a training run for the component with index `m`. -/
structure Trained (comps : List Comp) (nsup : List Int) (numRef : List Nat) (ref : List (Mat ℝ)) (m : Nat)
    (c : Comp) (n : Nat) (u p : Mat ℝ) : Prop where
  comp : comps[m]? = some c
  number : nsup[m]? = some (n : Int)
  vel : ref[m * 2]? = some u
  prs : ref[m * 2 + 1]? = some p
  count : numRef[m * 2]? = some u.w
  ready : Ready c n u p

/-- An online velocity basis `v` that consists of the first modes of the basis `u` used in training, and a
number `k` of supremizers that is available. -/
structure Usable (c : Comp) (n : Nat) (u v : Mat ℝ) (k : Nat) : Prop where
  shape : Shape c.nu v
  le : v.w ≤ u.w
  cols : ∀ i, i < v.w → column c.nu v i = column c.nu u i
  avail : k ≤ n

/-- The enriched basis `r` of velocity modes `v` and `k` supremizers. -/
structure Enriched (c : Comp) (u p v : Mat ℝ) (k : Nat) (r : Mat ℝ) : Prop where
  shape : Shape c.nu r
  width : r.w = v.w + k
  keep : ∀ i, i < v.w → column c.nu r i = column c.nu v i
  ortho : Orthonormal c.nu r
  span : v.w = u.w → colSpan c.nu r = colSpan c.nu u ⊔ gradSpan c p k

end Verif.Supremizer.Spec
