import Verif.Model.Terms
import Verif.Spec.Boundary
import Verif.Spec.Params
import Verif.Spec.Options
import Verif.Spec.Decompose

/-!
# Specification: what the operators of a solver are made of
-/

namespace Verif.Terms.Spec

open Verif Verif.Options Verif.Options.Spec Verif.Params Verif.Params.Spec
open Verif.Decompose.Spec (Chosen)
open Verif.EqpComp (OperType)
open Verif.Boundary (BC BdrType)

variable {F : Type}

/-! ## Full-order and reduced operators -/

/-- The reduced elements of a component (`comp`) and of its boundaries (`bdr`) are made of exactly the terms of the
operator `fom` of a subdomain. -/
structure SameTerms (fom comp : Form F) (bdr : Nat → Form F) : Prop where
  domain : fom.domain = comp.domain
  interior : fom.interior = comp.interior
  comp_bdr : comp.bdr = []
  bdr_dom : ∀ b, (bdr b).domain = [] ∧ (bdr b).interior = []
  boundary : ∀ x ∈ fom.bdr, ∀ b, (bdr b).bdr = [(b, x.2)]

/-- The interior-penalty form with volume term `vol`, penalty term `pen` on interior faces (for discontinuous
elements) and on the boundaries where a value is prescribed (`W b g`: value `g` on boundary `b`), and the right-hand
side with the data there. -/
structure Discretised (fullDg : Bool) (vol pen : Term F) (data : F → Term F) (W : Nat → F → Prop)
    (fom load : Form F) : Prop where
  volume : fom.domain = [vol]
  faces : fom.interior = if fullDg then [pen] else []
  weak : ∀ b t, (b, t) ∈ fom.bdr ↔ t = pen ∧ ∃ g, W b g
  once : (fom.bdr.map Prod.fst).Nodup
  loads : ∀ b t, (b, t) ∈ load.bdr ↔ ∃ g, t = data g ∧ W b g
  load_once : (load.bdr.map Prod.fst).Nodup
  load_only : load.domain = [] ∧ load.interior = []

/-- On boundary `b` of a mesh the flow carries the velocity `ud` (`none`: no velocity is prescribed). -/
def FlowData (s : BC F) (mesh : List Int) (b : Nat) (ud : Option F) : Prop :=
  (∃ a, s.attrs[b]? = some a ∧ a ∈ mesh) ∧
    ((s.types[b]? = some .neumann ∧ ud = none) ∨
      (s.types[b]? ≠ some .neumann ∧ s.coeffs[b]? = some ud ∧ ud.isSome))

/-- Every boundary of the mesh without prescribed stress has a velocity. -/
def AllSet (s : BC F) (mesh : List Int) : Prop :=
  ∀ (b : Nat) (a : Int), s.attrs[b]? = some a → a ∈ mesh → s.types[b]? = some .neumann ∨
    ∃ f, s.coeffs[b]? = some (some f)

/-- The convective terms, `zeta` times convection or the flux form with Lax-Friedrichs fluxes. -/
structure Convects (d : Disc) (s : BC F) (mesh : List Int) (h : Form F) (itf : List (Term F)) : Prop where
  base : d.oper = .base → h = { domain := [.convection d.zeta none .volume] } ∧ itf = []
  domain : d.oper = .lf → h.domain = [.inviscidFlux (-d.zeta) .volume]
  interior : d.oper = .lf → h.interior = if d.fullDg then [.laxFriedrichs (-d.zeta) none .face] else []
  bdr : d.oper = .lf → ∀ b t, (b, t) ∈ h.bdr ↔ ∃ ud, t = .laxFriedrichs (-d.zeta) ud .face ∧ FlowData s mesh b ud
  itf : d.oper = .lf → itf = [.laxFriedrichs (-d.zeta) none .face]

/-- Forms with the same terms, in whatever order on the boundary. -/
def Same (h e : Form F) : Prop :=
  h.domain = e.domain ∧ h.interior = e.interior ∧ ∀ x, x ∈ h.bdr ↔ x ∈ e.bdr

/-! ## Coefficients -/

/-- The coefficients in a term are the given viscosity, inertia coefficient and penalty parameters. -/
def Uses (ν ζ σ κ : Rat) : Term F → Prop
  | .diffusion => True
  | .dgDiffusion s k => s = σ ∧ k = κ
  | .itfDiffusion s k => s = σ ∧ k = κ
  | .dirichletLF _ s k => s = σ ∧ k = κ
  | .vecDiffusion n => n = ν
  | .dgVecDiffusion n s k => n = ν ∧ s = σ ∧ k = κ
  | .itfVecDiffusion n s k => n = ν ∧ s = σ ∧ k = κ
  | .vecDirichletLF _ n s k => n = ν ∧ s = σ ∧ k = κ
  | .divergence c => c = -1
  | .normalFlux => True
  | .itfNormalFlux => True
  | .normalLF _ => True
  | .convection z _ r => z = ζ ∧ r = .volume
  | .inviscidFlux c r => c = -ζ ∧ r = .volume
  | .laxFriedrichs c _ r => c = -ζ ∧ r = .face

/-- All terms of a form. -/
def terms (f : Form F) : List (Term F) := f.domain ++ f.interior ++ f.bdr.map Prod.snd

/-- The forms a flow run puts together with the settings `d`: full-order operators and right-hand sides, reduced
elements, tensors and hyper-reduced forms. -/
inductive FlowForm (d : Disc) (s : BC F) (mesh c2g : List Int) (zero : F) (nb b i : Nat) : Form F → Prop where
  | subM {f} (h : stokesSubM d s mesh = .ok f) : FlowForm d s mesh c2g zero nb b i f
  | subB {f} (h : stokesSubB d s mesh = .ok f) : FlowForm d s mesh c2g zero nb b i f
  | itfM : FlowForm d s mesh c2g zero nb b i { interior := stokesItfM d }
  | itfB : FlowForm d s mesh c2g zero nb b i { interior := stokesItfB }
  | loadF {f} (h : stokesLoadF d s mesh = .ok f) : FlowForm d s mesh c2g zero nb b i f
  | loadG {f} (h : stokesLoadG s mesh = .ok f) : FlowForm d s mesh c2g zero nb b i f
  | compM : FlowForm d s mesh c2g zero nb b i (stokesCompM d)
  | compB : FlowForm d s mesh c2g zero nb b i (stokesCompB d)
  | bdrM : FlowForm d s mesh c2g zero nb b i (stokesBdrM d b)
  | bdrB : FlowForm d s mesh c2g zero nb b i (stokesBdrB b)
  | ns {f} (h : nsSub d s mesh = .ok f) : FlowForm d s mesh c2g zero nb b i f
  | nsItf : FlowForm d s mesh c2g zero nb b i { interior := nsItf d }
  | tensor {f} (h : nsTensor d i = .ok f) : FlowForm d s mesh c2g zero nb b i f
  | eqpComp : FlowForm d s mesh c2g zero nb b i (eqpComp d zero nb)
  | eqpItf : FlowForm d s mesh c2g zero nb b i { interior := eqpItf d }
  | eqpSub {f l} (h : eqpSub d s c2g = .ok (f, l)) : FlowForm d s mesh c2g zero nb b i f

/-- The options of the discretisation: order, kind of elements, penalty parameters; `extra` is the additional order of
the variable the penalty acts on. -/
def Discretisation (r : Read) (cfg : Node) (extra : Int) (fullDg : Bool) (σ κ : Rat) : Prop :=
  ∃ order, Chosen r.int (key "discretization/order") 1 order cfg ∧
    Chosen r.bool (key "discretization/full-discrete-galerkin") false fullDg cfg ∧
    Chosen r.real (key "discretization/interface/sigma") (-1) σ cfg ∧
    Chosen r.real (key "discretization/interface/kappa") (((order + extra + 1 : Int) : Rat) ^ 2) κ cfg

/-- The options of the convective terms. -/
def Convection (r : Read) (cfg : Node) (ζ : Rat) (oper : OperType) : Prop :=
  Chosen r.real (key "navier-stokes/zeta") 1 ζ cfg ∧
    ∃ s, Chosen r.str (key "navier-stokes/operator-type") "base" s cfg ∧
      ((s = "base" ∧ oper = .base) ∨ (s = "lf" ∧ oper = .lf))

/-- The problem of a run and the parameters given for it, in the order of the file. -/
structure Problem (r : Read) (cfg : Node) (name : String) (params : List (String × Rat)) : Prop where
  named : Named r.str (key "parameterized_problem/name") name cfg
  table : ∃ es, At cfg (pieces '/' (key ("single_run/" ++ name))) (.map es) ∧
    es.map (fun e => (String.ofList e.1, r.real e.2)) = params.map fun p => (p.1, .ok p.2)
  known : ∃ vs, paramsOf name = some vs ∧ ("nu", "flow_problem::nu") ∈ vs ∧ ∀ p ∈ params, p.1 ∈ vs.map Prod.fst

/-- The viscosity a configuration asks for: the parameter `nu` of the problem, or the option `stokes/nu`, or 1. -/
def Viscosity (r : Read) (cfg : Node) (params : List (String × Rat)) (ν : Rat) : Prop :=
  ("nu" ∈ params.map Prod.fst ∧ ν = lastFor "nu" 1 params) ∨
    ("nu" ∉ params.map Prod.fst ∧ Chosen r.real (key "stokes/nu") 1 ν cfg)

/-! ## Quadrature -/

/-- All elements have the same geometry. -/
def OneGeometry (meshes : List Geoms) (g : Nat) : Prop := ∀ m ∈ meshes, ∀ e ∈ m.elem, e = g

/-- Polynomial degree of the convective term, for velocity and test functions of degree `k`. -/
def convectionDegree (k : Nat) : Nat := k + (k - 1) + k

/-! ## Samples at boundaries -/

/-- The integrator at boundary `g` of a subdomain takes its samples from an integrator of the component that was
trained on the part of the component's boundary that is boundary `g`, for the term `trained`. -/
def SampledFrom (comp : Form F) (s : BC F) (c2g : List Int) (x : EqpBdr F) (trained : Term F) : Prop :=
  ∃ b a, comp.bdr[x.slot]? = some (b, trained) ∧ c2g[b]? = some a ∧ s.attrs[x.marker]? = some a

end Verif.Terms.Spec
