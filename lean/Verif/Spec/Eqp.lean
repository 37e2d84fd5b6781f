import Verif.Spec.Convection
import Verif.Model.Eqp

/-!
# What hyper-reduced evaluation should compute

A basis `b` has one column per reduced unknown.  `lift b rows x` is the field `sum_c x_c b_c` on the
degrees of freedom `rows`, `project b rows q` the test of an element vector with the basis vectors.
-/

namespace Verif.Eqp.Spec

open Verif Verif.LinAlg Verif.LinAlg.Spec Verif.Convection.Spec Verif.Eqp Finset

variable {P R : Type} [CommRing R]

/-- The degrees of freedom that entity number `el` involves: those of an element, those of the two
elements of an interior face, those of the element of a boundary face. -/
def rowsOf (sp : Space) : Kind → Nat → Option (List Int)
  | .domain, el => sp.elems[el]?
  | .interior, f =>
    match sp.faces[f]? with
    | some (some (e1, e2)) =>
      match sp.elems[e1]?, sp.elems[e2]? with
      | some r1, some r2 => some (r1 ++ r2)
      | _, _ => none
    | _ => none
  | .boundary _, be =>
    match sp.bdrs[be]? with
    | some (_, some e) => sp.elems[e]?
    | _ => none

/-- A boundary integrator with a marker acts on the boundary elements whose attribute is marked. -/
def Acts (sp : Space) : Kind → Nat → Prop
  | .boundary (some m), be => ∃ attr e v, sp.bdrs[be]? = some (attr, e) ∧ 1 ≤ attr ∧
      m[(attr - 1).toNat]? = some v ∧ v ≠ 0
  | _, _ => True

/-- A sample of a quadrature point of an entity the integrator acts on. -/
def SampleOk (sp : Space) (kind : Kind) (nq : Nat) (h : Nat) (g : Integ P R) (s : Sample P R) : Prop :=
  0 ≤ s.el ∧ 0 ≤ s.qp ∧ s.qp < nq ∧ Acts sp kind s.el.toNat ∧
  ∃ rows, rowsOf sp kind s.el.toNat = some rows ∧ RowsOk rows h ∧
    ∀ w u, (g.vec s.el.toNat s.el.toNat s.qp.toNat w u).length = rows.length ∧
      (g.grad s.el.toNat s.el.toNat s.qp.toNat w u).h = rows.length ∧
      (g.grad s.el.toNat s.el.toNat s.qp.toNat w u).w = rows.length ∧
      MatOk (g.grad s.el.toNat s.el.toNat s.qp.toNat w u)

/-- The integrators of a form with their kinds. -/
def entries (f : Form P R) : List (Kind × Entry P R) :=
  f.dnfi.map (fun e => (Kind.domain, e)) ++ f.fnfi.map (fun e => (Kind.interior, e)) ++
    f.bfnfi.map (fun e => (Kind.boundary e.2, e.1))

/-- What one sample contributes to reduced equation `c`: its quadrature contribution, on the lifted
field, tested with basis vector `c`. -/
def vecTerm (sp : Space) (kind : Kind) (g : Integ P R) (b : Mat R) (x : List R) (s : Sample P R)
    (c : Nat) : R :=
  match rowsOf sp kind s.el.toNat with
  | some rows => project b rows
      (g.vec s.el.toNat s.el.toNat s.qp.toNat s.qw (lift b rows x)) c
  | none => 0

/-- What one sample contributes to entry `(i, j)` of the reduced Jacobian. -/
def gradTerm (sp : Space) (kind : Kind) (g : Integ P R) (b : Mat R) (x : List R) (s : Sample P R)
    (i j : Nat) : R :=
  match rowsOf sp kind s.el.toNat with
  | some rows => project2 b rows
      (g.grad s.el.toNat s.el.toNat s.qp.toNat s.qw (lift b rows x)) i j
  | none => 0

/-- The hyper-reduced residual: the sum over all samples of all integrators. -/
def formVec (f : Form P R) (b : Mat R) (x : List R) (c : Nat) : R :=
  ((entries f).map fun e =>
    ((e.2.samples.getD []).map fun s => vecTerm f.space e.1 e.2.integ b x s c).sum).sum

/-- The hyper-reduced Jacobian. -/
def formGrad (f : Form P R) (b : Mat R) (x : List R) (i j : Nat) : R :=
  ((entries f).map fun e =>
    ((e.2.samples.getD []).map fun s => gradTerm f.space e.1 e.2.integ b x s i j).sum).sum

/-- A trained integrator: rule and samples are set, and every sample is a quadrature point. -/
def EntryOk (sp : Space) (h : Nat) (kind : Kind) (e : Entry P R) : Prop :=
  ∃ nq l, e.integ.rule = some nq ∧ e.samples = some l ∧ ∀ s ∈ l, SampleOk sp kind nq h e.integ s

/-- A form with basis `b` and trained integrators. -/
structure FormOk (f : Form P R) (b : Mat R) : Prop where
  basis : f.basis = some b
  ok : MatOk b
  pos : 0 < b.w
  height : b.w = f.height
  width : b.w = f.width
  entries : ∀ e ∈ entries f, EntryOk f.space b.h e.1 e.2

/-! ## Precomputed coefficients -/

/-- Contract of an integrator's fast routines, with coefficients `p` for an entity with degrees of
freedom `rows`: they add the tested quadrature contribution. -/
structure FastOk (g : Integ P R) (b : Mat R) (rows : List Int) (el qp : Nat) (p : P) : Prop where
  vec : ∀ qw x y, x.length = b.w → y.length = b.w → ∃ y', g.fastVec (some p) el qp qw x y = .ok y' ∧
    y'.length = b.w ∧ ∀ c < b.w, ve y' c = ve y c + project b rows (g.vec el el qp qw (lift b rows x)) c
  grad : ∀ qw x (m : Mat R), x.length = b.w → m.h = b.w → m.w = b.w → m.data.length = b.w * b.w →
    ∃ m', g.fastGrad (some p) el qp qw x m = .ok m' ∧ m'.h = b.w ∧ m'.w = b.w ∧
      m'.data.length = b.w * b.w ∧
      ∀ i j, i < b.w → j < b.w → ent m' i j = ent m i j +
        project2 b rows (g.grad el el qp qw (lift b rows x)) i j

/-- The coefficients the form computes for a sampled entity fulfil the contract. -/
def PreOk (sp : Space) (kind : Kind) (b : Mat R) (g : Integ P R) (s : Sample P R) : Prop :=
  ∀ rows, rowsOf sp kind s.el.toNat = some rows →
    ∃ p, g.preFn b rows s.el.toNat s.qp.toNat = .ok p ∧ FastOk g b rows s.el.toNat s.qp.toNat p

/-- The coefficients of a sample have been computed, and fulfil the contract. -/
def Ready (sp : Space) (kind : Kind) (b : Mat R) (g : Integ P R) (s : Sample P R) : Prop :=
  ∀ rows, rowsOf sp kind s.el.toNat = some rows →
    ∃ p, s.pre = some p ∧ FastOk g b rows s.el.toNat s.qp.toNat p

/-! ## Sample order -/

/-- The same form up to the order of the samples of each integrator. -/
structure SamplesPerm (f f' : Form P R) : Prop where
  height : f'.height = f.height
  width : f'.width = f.width
  basis : f'.basis = f.basis
  precompute : f'.precompute = f.precompute
  space : f'.space = f.space
  entries : List.Forall₂ (fun e e' => e'.1 = e.1 ∧ e'.2.integ = e.2.integ ∧
    ∃ l l', e.2.samples = some l ∧ e'.2.samples = some l' ∧ l.Perm l') (entries f) (entries f')

/-! ## Full quadrature -/

/-- How many entities of a kind there are. -/
def count (sp : Space) : Kind → Nat
  | .domain => sp.elems.length
  | .interior => sp.faces.length
  | .boundary _ => sp.bdrs.length

/-- The element vector with the full rule: all points with their weights `w`. -/
def elemVec (g : Integ P R) (w : Nat → R) (nq el : Nat) (u : List R) (k : Nat) : R :=
  ∑ q ∈ range nq, ve (g.vec el el q (w q) u) k

/-- The element values of a global vector. -/
def restrict (u : Nat → R) (rows : List Int) : List R :=
  (List.range rows.length).map (fun k => u (rowAt rows k))

open Classical in
/-- The full-order residual of one integrator with weights `w`, entry `r`. -/
noncomputable def fullVec (sp : Space) (kind : Kind) (g : Integ P R) (w : Nat → R) (nq : Nat)
    (u : Nat → R) (r : Nat) : R :=
  ∑ el ∈ range (count sp kind), if Acts sp kind el then
    match rowsOf sp kind el with
    | some rows => ∑ k ∈ range rows.length,
        if rowAt rows k = r then elemVec g w nq el (restrict u rows) k else 0
    | none => 0 else 0

/-- The lifted reduced vector. -/
def liftAll (b : Mat R) (x : List R) (r : Nat) : R := ∑ c ∈ range b.w, ent b r c * ve x c

open Classical in
/-- All the quadrature points of the entities an integrator acts on: entity, point and weight. -/
noncomputable def fullPoints (sp : Space) (kind : Kind) (w : Nat → R) (nq : Nat) :
    List (Int × Int × R) :=
  (List.range (count sp kind)).flatMap fun el =>
    if Acts sp kind el ∧ rowsOf sp kind el ≠ none then
      (List.range nq).map fun q : Nat => ((el : Int), (q : Int), w q)
    else []

/-- The integrator `e` is sampled at all its quadrature points, with their weights `w`. -/
def FullySampled (sp : Space) (kind : Kind) (e : Entry P R) (w : Nat → R) (nq : Nat) : Prop :=
  ∃ l, e.samples = some l ∧ (l.map fun s => (s.el, s.qp, s.qw)).Perm (fullPoints sp kind w nq)

end Verif.Eqp.Spec
