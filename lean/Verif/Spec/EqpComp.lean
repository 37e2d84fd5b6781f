import Verif.Model.EqpComp

/-! Specification vocabulary for the samples of components and subdomains. -/

namespace Verif.EqpComp.Spec

open Verif Verif.Hdf5 Verif.EqpStore
open Verif.Boundary (BdrType)

variable {R : Type}

/-- Number of integrators of a type in a component form with `nb` boundary attributes: one domain
integrator; for the Lax-Friedrichs operator also an interior face integrator if the velocity is
discontinuous, and two boundary integrators (general and homogeneous) per boundary attribute. -/
def count (S : Setup) (nb : Nat) : IntegType → Nat
  | .domain => 1
  | .interiorFace => if S.oper = .lf ∧ S.fullDg = true then 1 else 0
  | .bdrFace => if S.oper = .lf then 2 * nb else 0
  | .interface => 0
  | .numIntegType => 0

/-- Integrator `k` of type `ty` of component `c` exists. -/
def Exists (S : Setup) (c : Nat) (ty : IntegType) (k : Nat) : Prop :=
  ∃ nb, c < S.names.length ∧ S.nbdr[c]? = some nb ∧ k < count S nb ty

/-- Suffix of the data set of an integrator. -/
def suffix : IntegType → Nat → String
  | .domain, _ => "_integ0"
  | .interiorFace, _ => "_integ1"
  | .bdrFace, k => if k % 2 = 0 then "_bdr" ++ toString (k / 2) else "_zero" ++ toString (k / 2)
  | _, _ => ""

/-- The samples a file holds for an integrator of a component called `name`, if any. -/
def storedAs (f : File R) (name : String) (ty : IntegType) (k : Nat) : Option (Samples R) :=
  (readSamples f ["components"] (name ++ suffix ty k) ty).toOption

/-- The samples a file holds for an existing integrator of component `c`. -/
def stored (S : Setup) (f : File R) (c : Nat) (ty : IntegType) (k : Nat) : Option (Samples R) :=
  match S.names[c]?, S.nbdr[c]? with
  | some name, some nb => if k < count S nb ty then storedAs f name ty k else none
  | _, _ => none

/-- The samples a call assigns to an integrator, if any. -/
def assigned (S : Setup) (op : Op R) (c : Nat) (ty : IntegType) (k : Nat) : Option (Samples R) :=
  match op with
  | .train c' ty' k' v => if c' = c ∧ ty' = ty ∧ k' = k then some v else none
  | .load f => stored S f c ty k

/-- The samples most recently assigned to an integrator. -/
def latest (S : Setup) : List (Op R) → Nat → IntegType → Nat → Option (Samples R)
  | [], _, _, _ => none
  | op :: ops, c, ty, k =>
    match latest S ops c ty k with
    | some v => some v
    | none => assigned S op c ty k

/-- A file that can be loaded: it has the group, enough components, and samples for every integrator. -/
structure Complete (S : Setup) (f : File R) : Prop where
  group : find f ⟨[], "components", false⟩ = some .group
  number : ∃ n : Int, find f ⟨["components"], "number_of_components", true⟩ = some (.attrInt n) ∧
    S.names.length ≤ n
  samples : ∀ c ty k, Exists S c ty k → (stored S f c ty k).isSome

/-- A call on an existing integrator, or with a complete file. -/
def Allowed (S : Setup) : Op R → Prop
  | .train c ty k _ => 0 ≤ k ∧ Exists S c ty k.toNat
  | .load f => Complete S f

/-- Boundary integrators a subdomain should have, given the map `row` from its component's boundary
attributes to global ones: for every attribute that is a global boundary `g`, in order, the marker of
`g`, the coefficient of `g` unless it is a Neumann boundary, and the samples of the component's
integrator for that attribute, the homogeneous one exactly on a homogeneous boundary. -/
def expected (B : Bdr) (row : List Int) : List (Nat × Option Nat × Nat) :=
  (List.range row.length).filterMap fun b =>
    (B.attrs.findIdx? (· == row[b]?.getD 0)).map fun g =>
      (g, if B.types[g]? = some .neumann then none else some g,
        if B.types[g]? = some .zero then 2 * b + 1 else 2 * b)

/-- Consistent boundary data: every subdomain has a component and maps all its boundary attributes;
every global boundary has a type, and a condition unless it is a Neumann boundary. -/
structure BdrOk (S : Setup) (B : Bdr) : Prop where
  mesh : ∀ c ∈ B.meshType, c < S.names.length
  rows : B.c2g.length = B.meshType.length
  row : ∀ (m c : Nat) (row : List Int) (nb : Nat), B.meshType[m]? = some c → B.c2g[m]? = some row →
    S.nbdr[c]? = some nb → row.length = nb
  types : B.types.length = B.attrs.length
  bc : ∀ (m : Nat) (row : List Int) (a : Int) (g : Nat), B.c2g[m]? = some row → a ∈ row →
    B.attrs.findIdx? (· == a) = some g → B.types[g]? ≠ some .neumann → B.hasBC[g]? = some true

end Verif.EqpComp.Spec
