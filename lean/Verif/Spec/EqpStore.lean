import Verif.Model.EqpStore

/-! Specification vocabulary for the storage of interface samples. -/

namespace Verif.EqpStore.Spec

open Verif Verif.Hdf5

variable {R : Type}

/-- A consistent topology: every port has an existing reference port as type, reference ports name
existing components. -/
structure TopoOk (t : Topo) : Prop where
  types : ∀ ty ∈ t.types, 0 ≤ ty ∧ ty < t.refPorts.length
  comps : ∀ rp ∈ t.refPorts, rp.c1 < t.names.length ∧ rp.c2 < t.names.length

/-- The samples a file holds for reference port `r` in the group `dset` of `loc`, if any. -/
def stored (t : Topo) (f : File R) (loc : Loc) (dset : String) (r : Nat) : Option (Samples R) :=
  match portName t r with
  | .ok name => (readSamples f (dset :: loc) name .interface).toOption
  | .error _ => none

/-- The samples a call assigns to integrator `k` at reference port `r`, if any. -/
def assigned (t : Topo) (op : Op R) (k r : Nat) : Option (Samples R) :=
  match op with
  | .add => none
  | .update i rp v => if i = k ∧ rp = r then some v else none
  | .load j f loc dset => if j = k then stored t f loc dset r else none

/-- The samples most recently assigned to integrator `k` at reference port `r`. -/
def latest (t : Topo) : List (Op R) → Nat → Nat → Option (Samples R)
  | [], _, _ => none
  | op :: ops, k, r =>
    match latest t ops k r with
    | some v => some v
    | none => assigned t op k r

/-- Number of integrators after a history. -/
def numInteg : List (Op R) → Nat
  | [] => 0
  | .add :: ops => numInteg ops + 1
  | _ :: ops => numInteg ops

/-- A call whose arguments are in range when there are `n` integrators, and whose file (if it reads
one) has samples for every reference port. -/
def Allowed (t : Topo) (n : Nat) : Op R → Prop
  | .add => True
  | .update i rp _ => 0 ≤ i ∧ i < n ∧ 0 ≤ rp ∧ rp < t.refPorts.length
  | .load k f loc dset => 0 ≤ k ∧ k < n ∧ find f ⟨loc, dset, false⟩ = some .group ∧
      ∀ r, r < t.refPorts.length → (stored t f loc dset r).isSome

/-- Number of integrators after one more call. -/
def after (n : Nat) : Op R → Nat
  | .add => n + 1
  | _ => n

/-- Every call of a history is allowed at its point. -/
def AllAllowed (t : Topo) : Nat → List (Op R) → Prop
  | _, [] => True
  | n, op :: ops => Allowed t n op ∧
      AllAllowed t (after n op) ops

/-- Names usable in data set names: no component name contains a colon, attributes are not negative
(MFEM attributes are positive), and no two components or reference ports coincide. -/
structure NamesOk (t : Topo) : Prop where
  colon : ∀ n ∈ t.names, ':' ∉ n.toList
  names : t.names.Nodup
  attr : ∀ rp ∈ t.refPorts, 0 ≤ rp.a1 ∧ 0 ≤ rp.a2
  ports : t.refPorts.Nodup

/-- Reference port `r` of `t` and reference port `r'` of `t'` connect components of the same names
through the same boundaries. -/
def SamePort (t t' : Topo) (r r' : Nat) : Prop :=
  ∃ rp rp' n1 n2, t.refPorts[r]? = some rp ∧ t'.refPorts[r']? = some rp' ∧
    t.names[rp.c1]? = some n1 ∧ t'.names[rp'.c1]? = some n1 ∧
    t.names[rp.c2]? = some n2 ∧ t'.names[rp'.c2]? = some n2 ∧ rp.a1 = rp'.a1 ∧ rp.a2 = rp'.a2

end Verif.EqpStore.Spec
