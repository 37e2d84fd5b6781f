import Verif.Model.Ports
import Mathlib.Data.List.Perm.Basic

/-!
# Specification of ports between component meshes
-/

namespace Verif.Ports.Spec

open Verif.Ports

section
variable {K : Type}

/-- Boundary element `b` of mesh `m` has attribute `attr` and vertices `vs`. -/
def Elem (m : CMesh K) (attr : Int) (b : Nat) (vs : List Nat) : Prop :=
  m.bes[b]? = some (attr, vs)

/-- `v` is a vertex of the part of the boundary of `m` with attribute `attr`. -/
def Vertex (m : CMesh K) (attr : Int) (v : Nat) : Prop := ∃ b vs, Elem m attr b vs ∧ v ∈ vs

/-- `v2` is mapped to `v1`. -/
def Maps (m : IMap) (v2 v1 : Nat) : Prop := (v2, v1) ∈ m

variable [Field K] [LinearOrder K]

/-- Vertex `v1` of `m1` and the transformed vertex `v2` of `m2` agree to within `thr` in each of the
first `dim` coordinates. -/
def Near (thr : K) (dim : Nat) (tf : List K → Outcome (List K)) (m1 m2 : CMesh K) (v1 v2 : Nat) :
    Prop :=
  ∃ x1 x2 y2, m1.verts[v1]? = some x1 ∧ m2.verts[v2]? = some x2 ∧ tf (x2.take dim) = .ok y2 ∧
    ∀ d, d < dim → ∃ a b, x1[d]? = some a ∧ y2[d]? = some b ∧ |a - b| < thr

/-- The port joins the parts of the two boundaries vertex by vertex and element by element. -/
structure Joins (thr : K) (dim : Nat) (tf : List K → Outcome (List K)) (m1 m2 : CMesh K)
    (attr1 attr2 : Int) (vmap : IMap) (pairs : List (Int × Int)) : Prop where
  /-- the vertex map is a one-to-one map from the vertices of side 2 onto the vertices of side 1 -/
  total : ∀ v2, Vertex m2 attr2 v2 ↔ ∃ v1, Maps vmap v2 v1
  onto : ∀ v1, Vertex m1 attr1 v1 ↔ ∃ v2, Maps vmap v2 v1
  functional : ∀ v2 v1 v1', Maps vmap v2 v1 → Maps vmap v2 v1' → v1 = v1'
  injective : ∀ v2 v2' v1, Maps vmap v2 v1 → Maps vmap v2' v1 → v2 = v2'
  /-- mapped vertices coincide up to the threshold -/
  near : ∀ v2 v1, Maps vmap v2 v1 → Near thr dim tf m1 m2 v1 v2
  /-- every boundary element of side 2 is paired exactly once -/
  paired : ∀ b2 : Nat, (∃ vs, Elem m2 attr2 b2 vs) → (pairs.filter (·.2 == (b2 : Int))).length = 1
  /-- paired boundary elements have the same vertices -/
  same : ∀ p ∈ pairs, ∃ (b1 b2 : Nat) (vs1 vs2 : List Nat), p = ((b1 : Int), (b2 : Int)) ∧
    Elem m1 attr1 b1 vs1 ∧ Elem m2 attr2 b2 vs2 ∧
    ∃ img, List.Forall₂ (Maps vmap) vs2 img ∧ img.Perm vs1

/-- The two parts of the boundaries are congruent: the vertices of side 2 correspond one-to-one to
the vertices of side 1 under `σ`, a vertex is near its partner and near no other vertex of the other
side, and elements correspond to elements. -/
structure Congruent (thr : K) (dim : Nat) (tf : List K → Outcome (List K)) (m1 m2 : CMesh K)
    (attr1 attr2 : Int) (σ : Nat → Nat) : Prop where
  listed1 : attr1 ∈ m1.bdrAttributes
  listed2 : attr2 ∈ m2.bdrAttributes
  sameNumber : (m1.bes.filter (·.1 == attr1)).length = (m2.bes.filter (·.1 == attr2)).length
  coords1 : ∀ v, Vertex m1 attr1 v → ∃ x, m1.verts[v]? = some x ∧ dim ≤ x.length
  coords2 : ∀ v, Vertex m2 attr2 v →
    ∃ x y, m2.verts[v]? = some x ∧ tf (x.take dim) = .ok y ∧ dim ≤ y.length
  maps : ∀ v2, Vertex m2 attr2 v2 → Vertex m1 attr1 (σ v2)
  inj : ∀ v2 v2', Vertex m2 attr2 v2 → Vertex m2 attr2 v2' → σ v2 = σ v2' → v2 = v2'
  surj : ∀ v1, Vertex m1 attr1 v1 → ∃ v2, Vertex m2 attr2 v2 ∧ σ v2 = v1
  near : ∀ v1 v2, Vertex m1 attr1 v1 → Vertex m2 attr2 v2 →
    (Near thr dim tf m1 m2 v1 v2 ↔ v1 = σ v2)
  elements : ∀ b2 vs2, Elem m2 attr2 b2 vs2 → ∃ b1 vs1, Elem m1 attr1 b1 vs1 ∧ (vs2.map σ).Perm vs1
  sameSize : ∀ b1 vs1 b2 vs2, Elem m1 attr1 b1 vs1 → Elem m2 attr2 b2 vs2 → vs1.length = vs2.length

end

/-- An interface of a port between segments: boundary elements and local face of side 1 are those of
the pair and of its face; side 2 keeps its local face number (`Inf / 64`) and its orientation
(`Inf % 64`) tells which vertex of the face of side 1 each vertex of the face of side 2 meets. -/
structure SegmentInterface (f1 f2 : List BEFace) (vmap : IMap) (p : Nat × Nat) (I : InterfaceInfo) :
    Prop where
  be1 : I.be1 = p.1
  be2 : I.be2 = p.2
  inf1 : ∀ b1, f1[p.1]? = some b1 → I.inf1 = b1.inf
  face2 : ∀ b2, f2[p.2]? = some b2 → I.inf2 / 64 = b2.inf / 64
  meets : ∀ b1 b2, f1[p.1]? = some b1 → f2[p.2]? = some b2 → ∀ j : Nat, j < 2 →
    ∃ v w, b2.vtx[j]? = some v ∧ Maps vmap v w ∧ b1.vtx[(j + (I.inf2 % 64).toNat) % 2]? = some w

end Verif.Ports.Spec
