import Verif.Model.CompSetup
import Verif.Spec.Topology

/-! # Specification of boundary attribute assignment -/

namespace Verif.CompSetup.Spec

open Verif.CompSetup

/-- "Boundary `attr` of the component of subdomain `mesh` gets the global attribute `value`." -/
structure Assign where
  mesh : Int
  attr : Int
  value : Int
deriving DecidableEq, Repr

/-- The assignments a boundary table asks for. -/
def bdrAssigns (rows : List BdrRow) : List Assign := rows.map fun r => ⟨r.mesh, r.cattr, r.gattr⟩

/-- The assignments the ports ask for: both sides get the attribute of the port. -/
def portAssigns (ports : List PortInfo) : List Assign :=
  ports.flatMap fun p => [⟨p.mesh1, p.attr1, p.portAttr⟩, ⟨p.mesh2, p.attr2, p.portAttr⟩]

/-- The value of the last assignment to boundary `a` of subdomain `m`. -/
def lastOf (l : List Assign) (m a : Int) : Option Int :=
  ((l.filter fun w => w.mesh = m ∧ w.attr = a).getLast?).map (·.value)

/-- Boundary `a` of subdomain `m` belongs to a port. -/
def OnPort (ports : List PortRow) (m a : Int) : Prop :=
  ∃ r ∈ ports, (r.mesh1 = m ∧ r.attr1 = a) ∨ (r.mesh2 = m ∧ r.attr2 = a)

/-- Subdomain `m` is a copy of component `comp`. -/
def IsCopy (comps : List Comp) (meshTypes : List Int) (m : Nat) (comp : Comp) : Prop :=
  ∃ k : Nat, meshTypes[m]? = some (k : Int) ∧ comps[k]? = some comp

/-- The attributes of the boundary elements of subdomain `m` after set-up. -/
def elemAttrs (t : Topo) (m : Nat) : List Int := (t.mesh[m]?.map (·.1)).getD []

/-- The boundary attribute list of subdomain `m` after set-up. -/
def attrList (t : Topo) (m : Nat) : List Int := (t.mesh[m]?.map (·.2)).getD []

end Verif.CompSetup.Spec
