import Verif.Model.PortFile

/-! Specification vocabulary for the reference ports. -/

namespace Verif.PortFile.Spec

open Verif Verif.Hdf5

variable {R : Type}

/-- Two ports join the same components at the same boundary attributes, pair the same boundary elements
in the same order, and identify the same vertices. -/
structure Same (p q : Port) : Prop where
  comp1 : q.comp1 = p.comp1
  comp2 : q.comp2 = p.comp2
  attr1 : q.attr1 = p.attr1
  attr2 : q.attr2 = p.attr2
  vtx : ∀ x, q.vtx.lookup x = p.vtx.lookup x
  pairs : q.pairs = p.pairs

/-- The group `k` of a port file describes a port of this name. -/
def Named (f : File R) (k : Nat) (name : String) : Prop :=
  find f ⟨[], toString k, false⟩ = some .group ∧
    find f ⟨[toString k], "name", true⟩ = some (.attrStr name)

/-- The group `g` of a port file describes the port `p`, when `comp` gives the index of a component by
its name. -/
structure Holds (f : File R) (g : Loc) (comp : String → Nat) (p : Port) : Prop where
  attr1 : readAttr f g "bdr_attr1" = .ok p.attr1
  attr2 : readAttr f g "bdr_attr2" = .ok p.attr2
  comp1 : ∃ n, readStr f g "component1" = .ok n ∧ p.comp1 = comp n
  comp2 : ∃ n, readStr f g "component2" = .ok n ∧ p.comp2 = comp n
  /-- a vertex of the second component is identified with the last one listed for it -/
  vtx : ∃ v1 v2 : List Int, readArray f g "vtx1" = .ok v1 ∧ readArray f g "vtx2" = .ok v2 ∧
    v1.length = v2.length ∧ ∀ x, p.vtx.lookup x = (v2.zip v1).reverse.lookup x
  pairs : ∃ b1 b2 : List Int, readArray f g "be1" = .ok b1 ∧ readArray f g "be2" = .ok b2 ∧
    b1.length = b2.length ∧ p.pairs = b1.zip b2

/-- The index `comp_name2idx[n]` gives for a name, whether it is known or not. -/
def index (m : Names) (n : String) : Nat := (m.look n).getD 0

/-- The handler knows its components by distinct names. -/
def Distinct (s : Handler) : Prop :=
  ∀ c n, s.compNames[c]? = some n → s.compIdx.look n = some c

/-- No entry of the vertex map is listed twice. -/
def VtxOk (p : Port) : Prop := (p.vtx.map (·.1)).Nodup

/-- A description names port `i`. -/
def Describes (idx : Names) (d : Entry R) (i : Nat) : Prop :=
  ∃ name, d.name = some name ∧ idx.look name = some i

/-- The group `k` of a port file names port `i`. -/
def GroupNames (idx : Names) (f : File R) (k i : Nat) : Prop :=
  ∃ name, Named f k name ∧ idx.look name = some i

/-- The port file of a description, if there is one on disk. -/
def stored (disk : Disk R) (d : Entry R) : Option (File R) :=
  match d.file with
  | none => none
  | some n => if n = "" then none else disk n

/-- `p` is the port obtained by matching the two component meshes of a description. -/
def Built [Field R] [LinearOrder R] (e : Env R) (comp : String → Nat) (d : Entry R) (p : Port) :
    Prop :=
  ∃ n1 n2 a1 a2 conf q, d.comp1 = some n1 ∧ d.comp2 = some n2 ∧ d.attr1 = some a1 ∧
    d.attr2 = some a2 ∧ d.conf = some conf ∧ conf.length = 6 ∧
    Ports.buildPort e.thr e.dim (e.tf conf) e.comps (comp n1) (comp n2) a1 a2 = .ok q ∧
    p = ofBuilt q

/-- The group `k` is the first one of a file with `n` groups that names port `i`, and it describes
`p`. -/
def FirstGroup (idx : Names) (comp : String → Nat) (f : File R) (n i : Nat) (p : Port) :
    Prop :=
  ∃ k, k < n ∧ GroupNames idx f k i ∧ (∀ j, j < k → ¬ GroupNames idx f j i) ∧
    Holds f [toString k] comp p

/-- An entry of the port list provides port `i`: its port file if there is one, else its own
description. -/
def Provides (disk : Disk R) (idx : Names) (d : Entry R) (i : Nat) : Prop :=
  match stored disk d with
  | some f => ∃ n : Nat, readAttr f [] "number_of_ports" = .ok (n : Int) ∧
      ∃ k, k < n ∧ GroupNames idx f k i
  | none => Describes idx d i

/-- The port an entry of the port list provides. -/
def Provided [Field R] [LinearOrder R] (e : Env R) (disk : Disk R) (idx : Names)
    (comp : String → Nat) (d : Entry R) (i : Nat) (p : Port) : Prop :=
  match stored disk d with
  | some f => ∃ n : Nat, readAttr f [] "number_of_ports" = .ok (n : Int) ∧
      FirstGroup idx comp f n i p
  | none => Describes idx d i ∧ Built e comp d p

end Verif.PortFile.Spec
