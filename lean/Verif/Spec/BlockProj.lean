import Verif.Model.BlockProj
import Verif.Spec.RomHandler
import Verif.Spec.RomAssembly

/-! # Specification vocabulary for projections of arrays of blocks -/

namespace Verif.BlockProj.Spec

open Verif Verif.LinAlg Verif.LinAlg.Spec Verif.RomHandler Verif.RomHandler.Spec Verif.RomAssembly.Spec
open Verif.Hdf5 (Arr2)

variable {R : Type} [CommRing R]

/-- `s` is the projection `Vᵀ a W`; a missing operator is zero. -/
def IsProjection (V W : Mat R) (a : Option (Op R)) (s : Sp R) : Prop :=
  s.h = V.w ∧ s.w = W.w ∧ ∀ p q, p < V.w → q < W.w → s.get p q = match a with
    | none => 0
    | some a => ∑ k ∈ Finset.range V.h, ∑ l ∈ Finset.range W.h, ent V k p * opEnt a k l * ent W l q

/-- `mats` is an `n` by `n` array of linear operators; that at `(i, j)` maps the space of `W j` to that
of `V i`. -/
structure Fits (n : Nat) (V W : Nat → Mat R) (mats : Arr2 (Option (Op R))) : Prop where
  rows : mats.rows = n
  cols : mats.cols = n
  data : mats.data.length = n * n
  ops : ∀ i j a, i < n → j < n → mats.get i j = .ok (some a) →
    IsLinear a ∧ a.h = (V i).h ∧ a.w = (W j).h

/-- Every entry of the array `r` is the projection of the entry of `mats` at its place. -/
def Projected (n : Nat) (V W : Nat → Mat R) (mats : Arr2 (Option (Op R))) (r : Arr2 (Sp R)) : Prop :=
  r.rows = n ∧ r.cols = n ∧ ∀ i j, i < n → j < n → ∃ a s, mats.get i j = .ok a ∧ r.get i j = .ok s ∧
    IsProjection (V i) (W j) a s

/-- The bases of the two sides of an interface, `n` for each. -/
def sides (n : Nat) (V W : Nat → Mat R) (i : Nat) : Mat R := if i < n then V i else W (i - n)

end Verif.BlockProj.Spec
