import Verif.Model.Convection

/-!
# Hyper-reduced nonlinear forms

Models the evaluation routines of `ROMNonlinearForm` (`src/rom_nonlinearform.cpp`): `Mult`,
`GetGradient` and `PrecomputeCoefficients`.

`DofTransformation`s are taken to be absent (null), as for the spaces of this project.  The array
`bdr_attr_marker` of the boundary branches is computed and never read; it is left out.  Timers are
modelled in `Model/Timer.lean`.
-/

namespace Verif.Eqp

open Verif Verif.LinAlg

variable {P R σ : Type}

/-- `EQPSample`, include/hyperreduction_integ.hpp:15-34, with `SampleInfo` of include/etc.hpp: the
entity (element, face or boundary element), the quadrature point and the weight, and the precomputed
coefficients, if any. -/
structure Sample (P R : Type) where
  el : Int
  qp : Int
  qw : R
  pre : Option P
deriving DecidableEq, Repr

/-- `HyperReductionIntegrator` (include/hyperreduction_integ.hpp:63-200), through its virtual methods.
`rule` is the number of points of `GetIntegrationRule()`, if set.  The quadrature routines take the
entity of the finite element, the entity of the transformation, the point, the weight and the element
vector.  `preFn` stands for the `Precompute...EQPSample` routine of the form for this kind of entity. -/
structure Integ (P R : Type) where
  rule : Option Nat
  vec : Nat → Nat → Nat → R → List R → List R
  grad : Nat → Nat → Nat → R → List R → Mat R
  fastVec : Option P → Nat → Nat → R → List R → List R → Outcome (List R)
  fastGrad : Option P → Nat → Nat → R → List R → Mat R → Outcome (Mat R)
  preFn : Mat R → List Int → Nat → Nat → Outcome P

/-- The finite element space and its mesh (external): `GetElementVDofs` of the elements,
`GetInteriorFaceTransformations` of the faces (the two elements, null for a boundary face), and for
the boundary elements `GetBdrAttribute` and `GetBdrFaceTransformations` (the element, null for an
interior one). -/
structure Space where
  elems : List (List Int)
  faces : List (Option (Nat × Nat))
  bdrs : List (Int × Option Nat)
deriving DecidableEq, Repr

/-- The kind of integrator: `dnfi`, `fnfi`, or `bfnfi` with its `bfnfi_marker`. -/
inductive Kind where
  | domain
  | interior
  | boundary (marker : Option (List Int))
deriving DecidableEq, Repr

/-- The guard on the attribute of a sampled boundary element, src/rom_nonlinearform.cpp:258-267. -/
def markerOk (marker : Option (List Int)) (attr : Int) : Outcome Unit :=
  match marker with
  | none => .ok ()
  | some m => do
    let v ← rdI m (attr - 1)
    require (v != 0)

/-- The transformation of a sampled entity together with the degrees of freedom of its elements:
`GetElementTransformation` and `GetElementVDofs`, src/rom_nonlinearform.cpp:112, :134;
`GetInteriorFaceTransformations`, :180, :208-210; `GetBdrAttribute` and `GetBdrFaceTransformations`,
:257-269, :297.  `none` is a null transformation. -/
def Space.at_ (sp : Space) : Kind → Int → Outcome (Option (List Int))
  | .domain, el => do
    let rows ← rdI sp.elems el
    return some rows
  | .interior, f => do
    let t ← rdI sp.faces f
    match t with
    | none => .ok none
    | some (e1, e2) => do
      let r1 ← rd sp.elems e1
      let r2 ← rd sp.elems e2
      return some (r1 ++ r2)
  | .boundary marker, be => do
    let t ← rdI sp.bdrs be
    markerOk marker t.1
    match t.2 with
    | none => .ok none
    | some e => do
      let r ← rd sp.elems e
      return some r

/-- `ir->IntPoint(qp)`. -/
def intPoint (nq : Nat) (qp : Int) : Outcome Nat :=
  if 0 ≤ qp ∧ qp < nq then .ok qp.toNat else .error .ub

/-- The variables kept from one sample to the next: `prev_el`, `vdofs`, `el_x`.  (`fe` is that of
entity `prev`.) -/
structure Cache (R : Type) where
  prev : Int
  rows : List Int
  elx : List R
deriving DecidableEq, Repr

/-- `int prev_el = -1;` with the arrays in whatever state they are. -/
def Cache.init : Cache R := ⟨-1, [], []⟩

section
variable [CommRing R]

/-- The block `if (el != prev_el)`, src/rom_nonlinearform.cpp:131-140, :194-216, :283-306 (and
:417-425 and following in `GetGradient`). -/
def refresh (b : Option (Mat R)) (x : List R) (junk : Nat → R) (el : Int) (tr : Option (List Int))
    (c : Cache R) : Outcome (Cache R) :=
  if el ≠ c.prev then do
    let rows ← nonNull tr
    let b ← deref b
    let elx ← multSubMatrix b rows x c.elx junk
    return ⟨el, rows, elx⟩
  else .ok c

/-- The loop over the samples of one integrator, src/rom_nonlinearform.cpp:105-150 and its copies
:171-223, :246-313 and in `GetGradient`: `fast` is the call made in precompute mode, `slow` what is
done with the cached element data. -/
def sampleLoop (precompute : Bool) (sp : Space) (kind : Kind) (b : Option (Mat R)) (x : List R)
    (junk : Nat → R) (nq : Nat) (samples : List (Sample P R))
    (fast : Sample P R → Nat → Nat → σ → Outcome σ)
    (slow : Sample P R → Cache R → Nat → σ → Outcome σ) (s : σ) : Outcome σ := do
  let st ← loop samples.length (fun i (st : Cache R × σ) => do
    let sm ← rd samples i
    let tr ← sp.at_ kind sm.el
    if precompute then do
      let _ ← deref tr
      let qp ← intPoint nq sm.qp
      let s ← fast sm sm.el.toNat qp st.2
      return (st.1, s)
    else do
      let qp ← intPoint nq sm.qp
      let c ← refresh b x junk sm.el tr st.1
      let s ← slow sm c qp st.2
      return (c, s)) (Cache.init, s)
  return st.2

/-- An integrator with its sample list: `dnfi[k]`, `dnfi_sample[k]` (null before training). -/
structure Entry (P R : Type) where
  integ : Integ P R
  samples : Option (List (Sample P R))

/-- The members of `ROMNonlinearForm`. -/
structure Form (P R : Type) where
  height : Nat
  width : Nat
  basis : Option (Mat R)
  precompute : Bool
  space : Space
  dnfi : List (Entry P R)
  fnfi : List (Entry P R)
  bfnfi : List (Entry P R × Option (List Int))

/-- One integrator in `Mult`, src/rom_nonlinearform.cpp:96-151, :162-224, :237-314. -/
def multEntry (f : Form P R) (x : List R) (junk : Nat → R) (kind : Kind) (e : Entry P R)
    (y : List R) : Outcome (List R) := do
  let nq ← nonNull e.integ.rule
  let samples ← nonNull e.samples
  sampleLoop f.precompute f.space kind f.basis x junk nq samples
    (fun sm el qp y => e.integ.fastVec sm.pre el qp sm.qw x y)
    (fun sm c qp y => do
      let b ← deref f.basis
      let ely := e.integ.vec c.prev.toNat sm.el.toNat qp sm.qw c.elx
      addMultTransposeSubMatrix b c.rows ely y) y

/-- `ROMNonlinearForm::Mult`, src/rom_nonlinearform.cpp:46-345. -/
def Form.mult (f : Form P R) (x y : List R) (junk : Nat → R) : Outcome (List R) := do
  require (x.length == f.width)
  require (y.length == f.height)
  let b ← nonNull f.basis
  require (b.w == f.height)
  let y := vof f.height (fun _ => 0)
  let y ← loop f.dnfi.length (fun k y => do
    let e ← rd f.dnfi k
    multEntry f x junk .domain e y) y
  let y ← loop f.fnfi.length (fun k y => do
    let e ← rd f.fnfi k
    multEntry f x junk .interior e y) y
  loop f.bfnfi.length (fun k y => do
    let e ← rd f.bfnfi k
    multEntry f x junk (.boundary e.2) e.1 y) y

/-- One integrator in `GetGradient`, src/rom_nonlinearform.cpp:395-442, :452-502, :526-590. -/
def gradEntry (f : Form P R) (x : List R) (junk : Nat → R) (kind : Kind) (e : Entry P R)
    (g : Mat R) : Outcome (Mat R) := do
  let nq ← nonNull e.integ.rule
  let samples ← nonNull e.samples
  sampleLoop f.precompute f.space kind f.basis x junk nq samples
    (fun sm el qp g => e.integ.fastGrad sm.pre el qp sm.qw x g)
    (fun sm c qp g => do
      let b ← deref f.basis
      let elmat := e.integ.grad c.prev.toNat sm.el.toNat qp sm.qw c.elx
      addSubMatrixRtAP b c.rows elmat b c.rows g junk) g

/-- The matrix `*Grad` at the start of `GetGradient`, src/rom_nonlinearform.cpp:382-391; `old` is the
matrix of a previous call, if any. -/
def Form.gradInit (f : Form P R) (old : Option (Mat R)) : Mat R :=
  match old with
  | none => Mat.of f.height f.width (fun _ _ => 0)
  | some g => Mat.of g.h g.w (fun _ _ => 0)

/-- `ROMNonlinearForm::GetGradient`, src/rom_nonlinearform.cpp:347-624. -/
def Form.getGradient (f : Form P R) (x : List R) (old : Option (Mat R)) (junk : Nat → R) :
    Outcome (Mat R) := do
  require (x.length == f.width)
  let g := f.gradInit old
  let g ← loop f.dnfi.length (fun k g => do
    let e ← rd f.dnfi k
    gradEntry f x junk .domain e g) g
  let g ← loop f.fnfi.length (fun k g => do
    let e ← rd f.fnfi k
    gradEntry f x junk .interior e g) g
  loop f.bfnfi.length (fun k g => do
    let e ← rd f.bfnfi k
    gradEntry f x junk (.boundary e.2) e.1 g) g

/-! ## `PrecomputeCoefficients` -/

/-- `PrecomputeDomainEQPSample`, `PrecomputeInteriorFaceEQPSample`, `PrecomputeBdrFaceEQPSample`,
src/rom_nonlinearform.cpp:1388-1516, on one sample. -/
def preSample (sp : Space) (kind : Kind) (b : Mat R) (g : Integ P R) (nq : Nat) (s : Sample P R) :
    Outcome (Sample P R) := do
  let tr ← sp.at_ kind s.el
  let rows ← nonNull tr
  let qp ← intPoint nq s.qp
  let p ← g.preFn b rows s.el.toNat qp
  return { s with pre := some p }

/-- One integrator in `PrecomputeCoefficients`, src/rom_nonlinearform.cpp:636-646, :650-660, :686-709. -/
def preEntry (sp : Space) (kind : Kind) (b : Mat R) (e : Entry P R) : Outcome (Entry P R) := do
  let nq ← nonNull e.integ.rule
  let samples ← nonNull e.samples
  let out ← loop samples.length (fun i out => do
    let s ← rd samples i
    let s ← preSample sp kind b e.integ nq s
    return out ++ [s]) []
  return { e with samples := some out }

/-- `ROMNonlinearForm::PrecomputeCoefficients`, src/rom_nonlinearform.cpp:626-711. -/
def Form.precomputeCoefficients (f : Form P R) : Outcome (Form P R) := do
  let b ← nonNull f.basis
  require (b.w == f.height)
  let d ← loop f.dnfi.length (fun k out => do
    let e ← rd f.dnfi k
    let e ← preEntry f.space .domain b e
    return out ++ [e]) []
  let i ← loop f.fnfi.length (fun k out => do
    let e ← rd f.fnfi k
    let e ← preEntry f.space .interior b e
    return out ++ [e]) []
  let bd ← loop f.bfnfi.length (fun k out => do
    let e ← rd f.bfnfi k
    let e' ← preEntry f.space (.boundary e.2) b e.1
    return out ++ [(e', e.2)]) []
  return { f with dnfi := d, fnfi := i, bfnfi := bd }

end

end Verif.Eqp
