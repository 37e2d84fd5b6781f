import Mathlib.Data.List.Nodup
import Mathlib.Data.Real.Basic

/-!
# Specification of attribute lists and component bookkeeping
-/

namespace Verif.Topology.Spec

/-- `l` lists every attribute that occurs in `occurring` exactly once, in order of first
occurrence (as a sublist), and nothing else. -/
structure AttributeList (occurring l : List Int) : Prop where
  nodup : l.Nodup
  complete : ∀ a, a ∈ l ↔ a ∈ occurring
  ordered : l.Sublist occurring

/-- Subdomain `m` is the `k`-th (counting from 0) subdomain of component `c`. -/
def IsNth (meshTypes : List Int) (m : Nat) (c : Int) (k : Nat) : Prop :=
  meshTypes[m]? = some c ∧ (meshTypes.take m).count c = k

/-- The squared Euclidean distance of two points of the plane. -/
def dist2 (p q : ℝ × ℝ) : ℝ := (p.1 - q.1) ^ 2 + (p.2 - q.2) ^ 2

end Verif.Topology.Spec
