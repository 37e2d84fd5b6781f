import Verif.Model.RomElems
import Verif.Spec.Hdf5
import Verif.Spec.EqpStore

/-! Specification vocabulary for the library of reduced component matrices. -/

namespace Verif.RomElems.Spec

open Verif Verif.Hdf5 Verif.Hdf5.Spec Verif.EqpStore.Spec

variable {R : Type}

/-- A usable description of the components: distinct component names without colons, distinct
reference ports between existing components, one boundary count per component. -/
structure LibOk (t : Lib) : Prop where
  topo : TopoOk t.topo
  names : NamesOk t.topo
  bdr : t.numBdr.length = t.topo.names.length

/-- Every component has at least one boundary. -/
def HasBdr (t : Lib) : Prop := ∀ n ∈ t.numBdr, n ≠ 0

/-- One matrix per component, boundary and reference port, as the constructor allocates them. -/
structure Fits (t : Lib) (e : Elems R) : Prop where
  comp : e.comp.length = t.topo.names.length
  mass : e.mass.length = t.topo.names.length
  bdr : e.bdr.map List.length = t.numBdr
  port : e.port.length = t.topo.refPorts.length

/-- A table of sparse blocks that can be stored. -/
def MOk (m : MBlocks R) : Prop := 0 < m.nrows ∧ 0 < m.ncols ∧ BlocksOk m.nrows m.ncols m.blocks

/-- All matrices can be stored. -/
structure Proper (e : Elems R) : Prop where
  comp : ∀ m ∈ e.comp, MOk m
  mass : ∀ m ∈ e.mass, MOk m
  bdr : ∀ l ∈ e.bdr, ∀ m ∈ l, MOk m
  port : ∀ m ∈ e.port, MOk m

/-- Two tables have the same shape and the same entries (a block without entries counts as missing). -/
def SameM (a b : MBlocks R) : Prop :=
  b.nrows = a.nrows ∧ b.ncols = a.ncols ∧ SameBlocks a.nrows a.ncols a.blocks b.blocks

/-- Both exist and hold the same table. -/
def Same (a b : Option (MBlocks R)) : Prop := ∃ x y, a = some x ∧ b = some y ∧ SameM x y

/-- Component `c` of `t` and component `c2` of `t2` have the same name. -/
def SameComp (t t2 : Lib) (c c2 : Nat) : Prop :=
  ∃ n, t.topo.names[c]? = some n ∧ t2.topo.names[c2]? = some n

/-- Everything `t2` needs is in `t`: each component by name, with as many boundaries, and each
reference port by the names of its components and its boundaries. -/
structure Covers (t t2 : Lib) : Prop where
  comps : ∀ c2, c2 < t2.topo.names.length →
    ∃ c, SameComp t t2 c c2 ∧ t.numBdr[c]? = t2.numBdr[c2]?
  ports : ∀ p2, p2 < t2.topo.refPorts.length →
    ∃ p, p < t.topo.refPorts.length ∧ SamePort t.topo t2.topo p p2

/-- The matrices of `e2` on `t2` are those of `e` on `t`, matched by names. -/
structure Agree (t t2 : Lib) (e e2 : Elems R) : Prop where
  comp : ∀ c c2, SameComp t t2 c c2 → Same e.comp[c]? e2.comp[c2]?
  mass : ∀ c c2, SameComp t t2 c c2 → Same e.mass[c]? e2.mass[c2]?
  bdr : ∀ c c2, SameComp t t2 c c2 → ∃ l l2, e.bdr[c]? = some l ∧ e2.bdr[c2]? = some l2 ∧
    l2.length = l.length ∧ ∀ b, b < l.length → Same l[b]? l2[b]?
  port : ∀ p p2, SamePort t.topo t2.topo p p2 → Same e.port[p]? e2.port[p2]?

end Verif.RomElems.Spec
