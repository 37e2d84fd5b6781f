import Verif.Model.Config
import Verif.Spec.GenConf

/-!
# What the configuration of a box should be

A box has `nx` times `ny` cells.  Face `1` of a cell is the lower one, `2` the right one, `3` the upper one,
`4` the left one; face `5` is the surface of the object inside.
-/

namespace Verif.Config.Spec

open Verif Verif.CompSetup Verif.GenConf Verif.Config

/-- A cell of the box. -/
def InBox (nx ny : Nat) (p : Int × Int) : Prop := 0 ≤ p.1 ∧ p.1 < nx ∧ 0 ≤ p.2 ∧ p.2 < ny

/-- `q` is the right neighbour of `p`: the next one in the row or, in a periodic row, the first one after
the last one. -/
def Right (nx : Nat) (px : Bool) (p q : Int × Int) : Prop :=
  q.2 = p.2 ∧ (q.1 = p.1 + 1 ∨ (px = true ∧ p.1 = nx - 1 ∧ q.1 = 0))

/-- `q` is the upper neighbour of `p`. -/
def Up (ny : Nat) (py : Bool) (p q : Int × Int) : Prop :=
  q.1 = p.1 ∧ (q.2 = p.2 + 1 ∨ (py = true ∧ p.2 = ny - 1 ∧ q.2 = 0))

/-- `q` lies across face `f` of `p`. -/
def Across (nx ny : Nat) (px py : Bool) (f : Int) (p q : Int × Int) : Prop :=
  (f = 2 ∧ Right nx px p q) ∨ (f = 4 ∧ Right nx px q p) ∨ (f = 3 ∧ Up ny py p q) ∨ (f = 1 ∧ Up ny py q p)

/-- The face seen from the other side. -/
def opposite (f : Int) : Int := if f = 1 then 3 else if f = 2 then 4 else if f = 3 then 1 else 2

/-- The way across a face. -/
def step (f : Int) : Int × Int :=
  if f = 1 then (0, -1) else if f = 2 then (1, 0) else if f = 3 then (0, 1) else (-1, 0)

/-- The file describes the box: every cell has one mesh; the interfaces join meshes in neighbouring cells at
opposite faces, with a reference port for their components and faces that has the right shift; neighbouring
cells are joined; the remaining rows are the faces without a neighbour, with their own number as attribute,
and the objects. -/
structure BoxGrid (nx ny : Nat) (px py : Bool) (F : File) : Prop where
  count : F.tables.types.length = F.tables.pos.length
  once : F.tables.pos.Nodup
  cells : ∀ p, p ∈ F.tables.pos ↔ InBox nx ny p
  joined : ∀ r ∈ F.tables.ports, ∃ (m n : Nat) (p q : Int × Int), r.mesh1 = m ∧ r.mesh2 = n ∧ m ≠ n ∧
    F.tables.pos[m]? = some p ∧ F.tables.pos[n]? = some q ∧ Across nx ny px py r.attr1 p q ∧
    r.attr2 = opposite r.attr1
  refs : ∀ r ∈ F.tables.ports, ∃ (k m n c d : Nat) (g : PortGroup), r.type = k ∧ r.mesh1 = m ∧ r.mesh2 = n ∧
    F.refs[k]? = some g ∧ F.tables.types[m]? = some (c : Int) ∧ F.tables.types[n]? = some (d : Int) ∧
    F.comps[c]? = some g.comp1 ∧ F.comps[d]? = some g.comp2 ∧ r.attr1 = g.attr1 ∧ r.attr2 = g.attr2 ∧
    g.shift = step g.attr1
  complete : ∀ (m n : Nat) (p q : Int × Int) (f : Int), F.tables.pos[m]? = some p →
    F.tables.pos[n]? = some q → Across nx ny px py f p q →
    (∃ k, (⟨m, n, f, opposite f, k⟩ : PortRow) ∈ F.tables.ports) ∨
    (∃ k, (⟨n, m, opposite f, f, k⟩ : PortRow) ∈ F.tables.ports)
  sides : ∀ r ∈ F.tables.bdr, r.gattr = r.cattr ∧ (r.cattr = 5 ∨ ∃ (m : Nat) (p : Int × Int), r.mesh = m ∧
    F.tables.pos[m]? = some p ∧ ∀ q, InBox nx ny q → ¬Across nx ny px py r.cattr p q)

/-- The cells taken from a list: at every step the one at the given position of what is left. -/
def pick : List (Int × Int) → List Nat → List (Int × Int)
  | _, [] => []
  | l, k :: ks => match l[k]? with
    | some p => p :: pick (l.eraseIdx k) ks
    | none => []

/-- A box with its components. -/
def prepared (nx ny : Nat) (px py : Bool) (comps : List Part) : Box :=
  comps.foldl Box.addComponent (Box.new nx ny px py)

/-- The cells of a box, column by column. -/
def cells (nx ny : Nat) : List (Int × Int) :=
  (List.range nx).flatMap fun i : Nat => (List.range ny).map fun j : Nat => ((i : Int), (j : Int))

/-- The faces of a component of the file. -/
def fileFaces (comps : List Part) (F : File) (c : Int) : List Int :=
  match F.comps[c.toNat]? with
  | none => []
  | some n => match comps.find? (fun p => p.name == n) with
    | none => []
    | some p => p.refBattr

/-- The reference ports with numbers of components instead of names. -/
def Resolves (F : File) (refs : List (RefPort Int)) : Prop :=
  refs.length = F.refs.length ∧ ∀ (k : Nat) (g : PortGroup) (f : RefPort Int), F.refs[k]? = some g →
    refs[k]? = some f → F.comps[f.comp1]? = some g.comp1 ∧ F.comps[f.comp2]? = some g.comp2 ∧
      f.attr1 = g.attr1 ∧ f.attr2 = g.attr2 ∧ f.shift = g.shift

/-- The choices of file number `k` when all configurations are generated: the digits of `k`, the most
significant one first, and always the first empty cell. -/
def digits (comps : Nat) : Nat → Nat → List (Nat × Nat)
  | 0, _ => []
  | n + 1, k => (k / comps ^ n, 0) :: digits comps n (k % comps ^ n)

/-- A list of choices fills a box of `cells` cells with `comps` components: there is one choice for every
cell, the numbers of components exist and the positions are less than the number of cells left. -/
def Filling (comps cells : Nat) (choices : List (Nat × Nat)) : Prop :=
  choices.length = cells ∧ ∀ (m : Nat) (c : Nat × Nat), choices[m]? = some c → c.1 < comps ∧ c.2 < cells - m

end Verif.Config.Spec
