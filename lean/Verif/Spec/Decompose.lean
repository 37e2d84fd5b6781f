import Verif.Model.Decompose
import Verif.Spec.Options
import Verif.Spec.SubMesh

/-!
# Specification: every element belongs to exactly one subdomain
-/

namespace Verif.Decompose.Spec

open Verif Verif.Options Verif.Options.Spec
open Verif.SubMesh (Parent Sub)
open Verif.SubMesh.Spec (Owns Between FaceCorrespondence)

/-- The option is set to `v`, or it is absent and `v` is the default. -/
def Chosen {T : Type} (as : Node → Outcome T) (k : Str) (default v : T) (cfg : Node) : Prop :=
  Named as k v cfg ∨
    (¬ Options.Spec.Exists cfg (pieces '/' k) ∧ ¬ Blocked cfg (pieces '/' k) ∧ v = default)

/-- Refinement splits every element, and makes nothing else. -/
def Refines (kids : Nat → List Nat) : Prop := ∀ n p, p ∈ kids n ↔ p < n

/-- The attributes `b` after `n` refinements of a mesh with attributes `a`: every element has the attribute of the one
it came from. -/
inductive Refined (kids : Nat → List Nat) : Nat → List Int → List Int → Prop where
  | zero (a : List Int) : Refined kids 0 a a
  | succ {n : Nat} {a b c : List Int} (h : Refined kids n a b)
      (hc : c.map some = (kids b.length).map fun p => b[p]?) : Refined kids (n + 1) a c

/-- Element `i` of subdomain `k` is element `e` of the (refined) mesh. -/
def In (t : Topo) (k i e : Nat) : Prop := ∃ l, t.elemMap[k]? = some l ∧ l[i]? = some e

/-- The largest attribute of a mesh. -/
def Largest (attr : List Int) (g : Int) : Prop := g ∈ attr ∧ ∀ a ∈ attr, a ≤ g

/-- A mesh with the given attributes is properly refined and divided. -/
structure Decomposed (kids : Nat → List Nat) (dd : DdMode) (num : Int) (attr : List Int) (t : Topo) : Prop where
  /-- refined as often as asked for -/
  refined : Refined kids num.toNat attr t.attr
  /-- the refined mesh has the attributes of the mesh -/
  attrs : ∀ a, a ∈ t.attr ↔ a ∈ attr
  /-- one subdomain for every attribute up to the largest, or a single one -/
  number : (dd = .ip → Largest attr t.numSub) ∧ (dd = .nodd → t.numSub = 1) ∧ t.elemMap.length = t.numSub
  /-- every element is in exactly one subdomain, once -/
  once : ∀ e, e < t.attr.length → ∃ k i, In t k i e ∧ ∀ k' i', In t k' i' e → k' = k ∧ i' = i
  /-- and there is nothing else in the subdomains -/
  only : ∀ k i e, In t k i e → e < t.attr.length
  /-- subdomain `k` has the elements with attribute `k + 1` -/
  own : dd = .ip → ∀ k i e, In t k i e → t.attr[e]? = some ((k : Int) + 1)
  /-- a subdomain is empty only if no element has its attribute -/
  full : ∀ k, k < t.numSub → (dd = .ip → (k : Int) + 1 ∈ attr) → ∃ i e, In t k i e
  /-- elements keep their order -/
  order : ∀ k i i' e e', In t k i e → In t k i' e' → i < i' → e < e'
  /-- every subdomain is the only copy of a component of its own, with a name of its own -/
  comps : t.numComp = t.numSub ∧ ∀ k, k < t.numSub → t.meshTypes[k]? = some k ∧
    t.subComposition[k]? = some 1 ∧ t.meshCompIdx[k]? = some 0 ∧
    t.compNames[k]? = some ("comp" ++ toString k)
  sizes : t.meshTypes.length = t.numSub ∧ t.subComposition.length = t.numSub ∧ t.meshCompIdx.length = t.numSub ∧
    t.compNames.length = t.numSub
  names : t.compNames.Nodup

/-- What MFEM delivers about the faces of the submeshes `subs` of a two-dimensional mesh: the conditions of
`SubMesh.Spec.WellFormed2D` that do not concern which elements the submeshes have. -/
structure Geometry (pm : Parent) (subs : List Sub) (φ : Nat → Nat → Nat) (g : Int) : Prop where
  correspondence : ∀ (k : Nat) sm, subs[k]? = some sm → FaceCorrespondence pm sm (φ k)
  parent_bdr : ∀ q ∈ pm.bdr, q.1 < pm.faces.length ∧ q.2 ≤ g
  onFace : ∀ (m b : Nat) sm be, subs[m]? = some sm → sm.bes[b]? = some be →
    ∃ fc x, be.face < sm.numFaces ∧ pm.faces[φ m be.face]? = some fc ∧
      sm.elemMap[be.elem]? = some x ∧
      (((x : Int) = fc.e0 ∧ ¬ Owns subs m fc.e1) ∨ ((x : Int) = fc.e1 ∧ ¬ Owns subs m fc.e0))
  onceFace : ∀ (m b b' : Nat) sm be be', subs[m]? = some sm → sm.bes[b]? = some be →
    sm.bes[b']? = some be' → φ m be.face = φ m be'.face → b = b'
  covered : ∀ f i j, Between pm subs f i j →
    ∃ sm be, subs[i]? = some sm ∧ be ∈ sm.bes ∧ φ i be.face = f

end Verif.Decompose.Spec
