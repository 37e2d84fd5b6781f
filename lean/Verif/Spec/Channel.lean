import Verif.Model.Channel
import Verif.Spec.Config

/-!
# What the configuration of a channel should be

A channel is a walk on the cells of the plane that starts at the origin, coming from the left, and does not
visit a cell twice.  Faces of a cell are numbered as in `Verif.Spec.Config`.
-/

namespace Verif.Config.Spec

open Verif Verif.CompSetup Verif.GenConf Verif.Config

/-- `q` lies across face `f` of `p`. -/
def Next (f : Int) (p q : Int × Int) : Prop :=
  (f = 1 ∧ q.1 = p.1 ∧ q.2 = p.2 - 1) ∨ (f = 2 ∧ q.1 = p.1 + 1 ∧ q.2 = p.2) ∨
  (f = 3 ∧ q.1 = p.1 ∧ q.2 = p.2 + 1) ∨ (f = 4 ∧ q.1 = p.1 - 1 ∧ q.2 = p.2)

/-- A walk that starts at the origin, does not visit a cell twice and does not begin with a step back. -/
structure Walk (path : List (Int × Int)) : Prop where
  start : path[0]? = some (0, 0)
  once : path.Nodup
  steps : ∀ (m : Nat) (p q : Int × Int), path[m]? = some p → path[m + 1]? = some q → ∃ f, Next f p q
  forward : path[1]? ≠ some (-1, 0)

/-- The walk with the cell it comes from and the cell straight ahead of its end. -/
def route (path : List (Int × Int)) : List (Int × Int) :=
  let last := path.getD (path.length - 1) (0, 0)
  let prev := path.getD (path.length - 2) (0, 0)
  (-1, 0) :: path ++ [(2 * last.1 - prev.1, 2 * last.2 - prev.2)]

/-- The face on the right hand of one who leaves through face `f`. -/
def rightHand (f : Int) : Int := if f = 1 then 4 else if f = 2 then 1 else if f = 3 then 2 else 3

/-- The file describes the channel along the walk: the meshes are on the walk; interfaces join each mesh to
the next one and nothing else, at the faces between them and with a fitting reference port; the inlet
(attribute 4) is the left face of the first mesh and only that; the outlet (2) is the face of the last mesh
straight ahead and only that; objects have attribute 5; the other boundary rows are walls, and the two walls
of a mesh have the attributes 1 and 3, in straight parts 1 at the right hand and 3 at the left hand. -/
structure Channel (path : List (Int × Int)) (F : File) : Prop where
  pos : F.tables.pos = path
  count : F.tables.types.length = path.length
  joined : ∀ (m : Nat) (p q : Int × Int) (f : Int), path[m]? = some p → path[m + 1]? = some q → Next f p q →
    (∃ k, (⟨m, m + 1, f, opposite f, k⟩ : PortRow) ∈ F.tables.ports) ∨
    (∃ k, (⟨m + 1, m, opposite f, f, k⟩ : PortRow) ∈ F.tables.ports)
  only : ∀ r ∈ F.tables.ports, ∃ (m n : Nat) (p q : Int × Int), r.mesh1 = m ∧ r.mesh2 = n ∧
    (n = m + 1 ∨ m = n + 1) ∧ path[m]? = some p ∧ path[n]? = some q ∧ Next r.attr1 p q ∧
    r.attr2 = opposite r.attr1
  refs : ∀ r ∈ F.tables.ports, ∃ (k m n c d : Nat) (g : PortGroup), r.type = k ∧ r.mesh1 = m ∧ r.mesh2 = n ∧
    F.refs[k]? = some g ∧ F.tables.types[m]? = some (c : Int) ∧ F.tables.types[n]? = some (d : Int) ∧
    F.comps[c]? = some g.comp1 ∧ F.comps[d]? = some g.comp2 ∧ r.attr1 = g.attr1 ∧ r.attr2 = g.attr2 ∧
    g.shift = step g.attr1
  inlet : ∀ r : BdrRow, r ∈ F.tables.bdr ∧ r.gattr = 4 ↔ r = ⟨4, 0, 4⟩
  outlet : ∃ f, (∀ r : BdrRow, r ∈ F.tables.bdr ∧ r.gattr = 2 ↔ r = ⟨2, (path.length : Int) - 1, f⟩) ∧
    ∀ q s, (route path)[path.length]? = some q → (route path)[path.length + 1]? = some s → Next f q s
  walls : ∀ r ∈ F.tables.bdr, r.gattr = 4 ∨ r.gattr = 2 ∨ (r.gattr = 5 ∧ r.cattr = 5) ∨
    ((r.gattr = 1 ∨ r.gattr = 3) ∧ r.cattr ≠ 5)
  differ : ∀ r ∈ F.tables.bdr, ∀ r' ∈ F.tables.bdr, r.mesh = r'.mesh → r.gattr = r'.gattr → r = r'
  hands : ∀ (m : Nat) (p q s : Int × Int) (f : Int), (route path)[m]? = some p → (route path)[m + 1]? = some q →
    (route path)[m + 2]? = some s → Next f p q → Next f q s →
    (⟨1, m, rightHand f⟩ : BdrRow) ∈ F.tables.bdr ∧ (⟨3, m, opposite (rightHand f)⟩ : BdrRow) ∈ F.tables.bdr

/-- All neighbours of the last cell have been visited, the first step back counting as visited. -/
def Trapped (path : List (Int × Int)) : Prop :=
  ∃ l, path[path.length - 1]? = some l ∧ ∀ f q, Next f l q → q ∈ path ∨ path.length = 1 ∧ q = (-1, 0)

end Verif.Config.Spec
