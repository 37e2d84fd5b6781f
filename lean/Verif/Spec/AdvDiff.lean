import Verif.Model.AdvDiff
import Verif.Spec.Blocks
import Mathlib.Data.Real.Basic

/-! # What the advection-diffusion solver should convect by -/

namespace Verif.AdvDiff.Spec

open Verif Verif.AdvDiff
open Verif.Blocks.Spec (IsOffsets blockOf)

variable {R F : Type}

/-- The velocity part of a solution vector on subdomain `m`. -/
def velocityOf (offs : List Nat) (numVar : Nat) (U : List R) (m : Nat) : List R := blockOf ⟨U, offs⟩ (m * numVar)

/-- The velocities of all subdomains. -/
def velocities (numSub numVar : Nat) (offs : List Nat) (U : List R) : List (Velocity R F) :=
  (List.range numSub).map fun m => .values (velocityOf offs numVar U m)

/-- The layout of the Stokes solution vector. -/
structure Layout (numSub numVar : Nat) (offs sizes : List Nat) : Prop where
  offs : IsOffsets offs sizes
  num : sizes.length = numSub * numVar
  var : 0 < numVar
  pos : 0 < sizes.sum

end Verif.AdvDiff.Spec
