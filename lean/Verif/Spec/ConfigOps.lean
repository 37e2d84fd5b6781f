import Verif.Model.ConfigOps

/-!
# What the calls of a script say
-/

namespace Verif.Config.Spec

open Verif Verif.Config

/-- The faces a call names: pairs of mesh and face. -/
def named : Call → List (Nat × Int)
  | .mesh _ _ => []
  | .boundary _ m f => [(m, f)]
  | .interface m1 m2 f1 f2 => [(m1, f1), (m2, f2)]

/-- The faces a script names, as often as it names them. -/
def allNamed (calls : List Call) : List (Nat × Int) := calls.flatMap named

/-- The components of the meshes a script adds. -/
def added (calls : List Call) : List Nat :=
  calls.filterMap fun c => match c with | .mesh c _ => some c | _ => none

/-- The faces of a component: four outer ones, and the surface of its object. -/
def facesOf (p : Part) : List Int := [1, 2, 3, 4] ++ if p.object then [5] else []

/-- Every face of every mesh of the script is named exactly once. -/
def ClosedOnce (comps : List Part) (calls : List Call) : Prop :=
  ∀ (m c : Nat) (p : Part), (added calls)[m]? = some c → comps[c]? = some p →
    ∀ f ∈ facesOf p, (allNamed calls).count (m, f) = 1

end Verif.Config.Spec
