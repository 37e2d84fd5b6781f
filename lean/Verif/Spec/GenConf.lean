import Verif.Model.GenConf
import Verif.Spec.CompSetup

/-!
# What a generated configuration should be

A configuration lays out rectangles.  Face `1` of a rectangle is its lower side, `2` the right one, `3` the
upper one and `4` the left one.
-/

namespace Verif.GenConf.Spec

open Verif.CompSetup Verif.GenConf

variable {R : Type}

/-- The faces the tables mention, as pairs of mesh and face: those of the boundary rows and both sides of
the interfaces. -/
def mentioned (L : Layout R) : List (Int × Int) :=
  L.bdr.map (fun r => (r.mesh, r.cattr)) ++
    L.ports.flatMap (fun r => [(r.mesh1, r.attr1), (r.mesh2, r.attr2)])

/-- All the faces of all the meshes, given the faces of every component. -/
def allFaces (faces : Int → List Int) (types : List Int) : List (Int × Int) :=
  types.zipIdx.flatMap fun c => (faces c.1).map fun a => ((c.2 : Int), a)

/-- Every face of every mesh is mentioned exactly once, and nothing else is. -/
def Covers (faces : Int → List Int) (L : Layout R) : Prop :=
  (mentioned L).Perm (allFaces faces L.types)

/-- Mesh `m` is a rectangle with lower left corner `p` and size `s`. -/
def Placed (size : Int → R × R) (L : Layout R) (m : Int) (p s : R × R) : Prop :=
  ∃ (k : Nat) (c : Int), m = k ∧ L.types[k]? = some c ∧ L.pos[k]? = some p ∧ size c = s

/-- Face `a` of the rectangle at `p` of size `s` is face `b` of the rectangle at `q` of size `t`, seen from
the other side. -/
def Touch [Add R] (a b : Int) (p s q t : R × R) : Prop :=
  (a = 2 ∧ b = 4 ∧ p.1 + s.1 = q.1 ∧ p.2 = q.2 ∧ s.2 = t.2) ∨
  (a = 4 ∧ b = 2 ∧ q.1 + t.1 = p.1 ∧ p.2 = q.2 ∧ s.2 = t.2) ∨
  (a = 3 ∧ b = 1 ∧ p.2 + s.2 = q.2 ∧ p.1 = q.1 ∧ s.1 = t.1) ∨
  (a = 1 ∧ b = 3 ∧ q.2 + t.2 = p.2 ∧ p.1 = q.1 ∧ s.1 = t.1)

/-- The side of the domain `[0, W] × [0, H]` face `a` of a rectangle lies on, `5` if it lies inside. -/
def sideOf [Field R] [DecidableEq R] (W H : R) (a : Int) (p s : R × R) : Int :=
  if a = 1 ∧ p.2 = 0 then 1
  else if a = 2 ∧ p.1 + s.1 = W then 2
  else if a = 3 ∧ p.2 + s.2 = H then 3
  else if a = 4 ∧ p.1 = 0 then 4
  else 5

/-- The configuration describes the domain `[0, W] × [0, H]` built from rectangles: every interface joins
two faces at the same place and its reference port has the right components, faces and shift; any two faces
at the same place are joined; every boundary row has the attribute of the side it lies on. -/
structure Geometry [Field R] [DecidableEq R] (size : Int → R × R) (refs : List (RefPort R)) (W H : R)
    (L : Layout R) : Prop where
  placed : L.pos.length = L.types.length
  joined : ∀ r ∈ L.ports, ∃ p s q t, Placed size L r.mesh1 p s ∧ Placed size L r.mesh2 q t ∧
    Touch r.attr1 r.attr2 p s q t
  ports : ∀ r ∈ L.ports, ∃ (k m1 m2 : Nat) (f : RefPort R) (p q : R × R), r.type = k ∧ r.mesh1 = m1 ∧
    r.mesh2 = m2 ∧ m1 ≠ m2 ∧ refs[k]? = some f ∧ L.types[m1]? = some (f.comp1 : Int) ∧
    L.types[m2]? = some (f.comp2 : Int) ∧ r.attr1 = f.attr1 ∧ r.attr2 = f.attr2 ∧
    L.pos[m1]? = some p ∧ L.pos[m2]? = some q ∧ f.shift = q - p
  complete : ∀ {m n : Int} {p s q t : R × R} {a b : Int}, Placed size L m p s → Placed size L n q t →
    Touch a b p s q t →
    (∃ k, (⟨m, n, a, b, k⟩ : PortRow) ∈ L.ports) ∨ (∃ k, (⟨n, m, b, a, k⟩ : PortRow) ∈ L.ports)
  sides : ∀ r ∈ L.bdr, ∃ p s, Placed size L r.mesh p s ∧ r.gattr = sideOf W H r.cattr p s

/-- The four faces of a rectangle. -/
def fourFaces : Int → List Int := fun _ => [1, 2, 3, 4]

/-- The unit square. -/
def unitSize [One R] : Int → R × R := fun _ => (1, 1)

/-- The sizes of joints, horizontal rods and vertical rods. -/
def latticeSize (s : Sizes R) : Int → R × R :=
  fun c => if c = 0 then (s.wv, s.wh) else if c = 1 then (s.lh, s.wh) else (s.wv, s.lv)

/-- The reference ports of the unit square, as the samples describe them
(`utils/python/sample_comp.py:178-206`): `port1` upwards, `port2` to the right. -/
def squareRefs [Field R] : List (RefPort R) := [⟨0, 0, 3, 1, (0, 1)⟩, ⟨0, 0, 2, 4, (1, 0)⟩]

end Verif.GenConf.Spec
