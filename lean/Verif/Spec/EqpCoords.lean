import Verif.Model.EqpCoords
import Verif.Spec.Hdf5
import Verif.Spec.LinAlg

/-!
# Specification: the table of sample coordinates
-/

namespace Verif.EqpCoords.Spec

open Verif Verif.LinAlg Verif.Hdf5 Verif.Hdf5.Spec Verif.EqpCoords

variable {R P : Type}

/-- Sample `s` of a component is at the point with coordinates `x`. -/
def IsAt (c : Form R P) (s : Sample R) (x : List R) : Prop :=
  ∃ (el qp : Nat) (t : P → List R) (ir : List P) (ip : P), s.el = el ∧ s.qp = qp ∧ c.elems[el]? = some t ∧
    c.rule = some ir ∧ ir[qp]? = some ip ∧ x = t ip

/-- A component with samples on existing elements and points, in `d` dimensions. -/
structure Ready (d : Nat) (c : Form R P) (l : List (Sample R)) : Prop where
  integ : 0 < c.numInteg
  samples : c.samples = some l
  some_ : l ≠ []
  at_ : ∀ s ∈ l, ∃ x, IsAt c s x ∧ x.length = d

/-- A library of components with distinct names. -/
structure Library (d : Nat) (names : List String) (forms : List (Option (Form R P)))
    (samples : List (List (Sample R))) : Prop where
  distinct : names.Nodup
  formCount : forms.length = names.length
  sampleCount : samples.length = names.length
  ready : ∀ (c : Nat) form l, forms[c]? = some form → samples[c]? = some l → ∃ F, form = some F ∧ Ready d F l

/-- The table stored in a file under the name of a component: it has a row for each of `n` samples and three
columns with the given entries. -/
def HoldsTable [Zero R] (f : File R) (name : String) (n : Nat) (entry : Nat → Nat → R) : Prop :=
  ∀ target : Mat R, target.h * target.w ≤ target.data.length →
    ∃ m, readDense f [name ++ "_integ0", "components"] "coords" target = .ok m ∧ m.h = n ∧ m.w = 3 ∧
      ∀ i j, i < n → j < 3 → m.data[i + j * n]? = some (entry i j)

end Verif.EqpCoords.Spec
