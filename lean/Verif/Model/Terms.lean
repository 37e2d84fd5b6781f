import Verif.Model.Params
import Verif.Model.Options
import Verif.Model.EqpComp

/-!
# The terms of the operators

Models which integrators, with which coefficients and quadrature rules, the Poisson, Stokes and steady Navier-Stokes
solvers put into their full-order operators, into the reduced elements of components, boundaries and reference ports,
into the convection tensors and into the hyper-reduced forms; and where the coefficients come from.  What an
integrator computes is modelled elsewhere (`Verif.Model.Penalty`, `LaxF`, `Convection`, `Loads`) or external (MFEM).
Floating-point numbers of the configuration are rational, as all finite doubles are.
-/

namespace Verif.Terms

open Verif Verif.Options Verif.Params
open Verif.Boundary (BC BdrType lhsBC rhsBC nsFluxBC bcExists)
open Verif.EqpComp (OperType)
open Verif.Topology (arrFind)

variable {F : Type}

/-- The quadrature rule of an integrator: its own choice, `ir_nl` or `ir_face`. -/
inductive Rule where
  | standard
  | volume
  | face
deriving DecidableEq, Repr

/-- An integrator and its arguments. -/
inductive Term (F : Type) where
  /-- `DiffusionIntegrator` -/
  | diffusion
  /-- `DGDiffusionIntegrator(sigma, kappa)` -/
  | dgDiffusion (sigma kappa : Rat)
  /-- `InterfaceDGDiffusionIntegrator(sigma, kappa)` -/
  | itfDiffusion (sigma kappa : Rat)
  /-- `DGDirichletLFIntegrator(g, sigma, kappa)` -/
  | dirichletLF (g : F) (sigma kappa : Rat)
  /-- `VectorDiffusionIntegrator(nu)` -/
  | vecDiffusion (nu : Rat)
  /-- `DGVectorDiffusionIntegrator(nu, sigma, kappa)` -/
  | dgVecDiffusion (nu sigma kappa : Rat)
  /-- `InterfaceDGVectorDiffusionIntegrator(nu, sigma, kappa)` -/
  | itfVecDiffusion (nu sigma kappa : Rat)
  /-- `DGVectorDirichletLFIntegrator(g, nu, sigma, kappa)` -/
  | vecDirichletLF (g : F) (nu sigma kappa : Rat)
  /-- `VectorDivergenceIntegrator(c)` -/
  | divergence (c : Rat)
  /-- `DGNormalFluxIntegrator` -/
  | normalFlux
  /-- `InterfaceDGNormalFluxIntegrator` -/
  | itfNormalFlux
  /-- `DGBoundaryNormalLFIntegrator(g)` -/
  | normalLF (g : F)
  /-- `VectorConvectionTrilinearFormIntegrator(zeta, by)`: convection by the argument itself (`none`) or by basis
  vector `i` -/
  | convection (zeta : Rat) (by_ : Option Nat) (rule : Rule)
  /-- `IncompressibleInviscidFluxNLFIntegrator(c)` -/
  | inviscidFlux (c : Rat) (rule : Rule)
  /-- `DGLaxFriedrichsFluxIntegrator(c, ud)` -/
  | laxFriedrichs (c : Rat) (ud : Option F) (rule : Rule)
deriving DecidableEq, Repr

/-- The integrators of a form: on elements, on interior faces, and on boundary faces with the boundary whose marker
restricts them. -/
structure Form (F : Type) where
  domain : List (Term F) := []
  interior : List (Term F) := []
  bdr : List (Nat × Term F) := []
deriving DecidableEq, Repr

/-- The members of the solvers that enter the integrators. -/
structure Disc where
  fullDg : Bool
  sigma : Rat
  kappa : Rat
  nu : Rat
  zeta : Rat
  oper : OperType
deriving DecidableEq, Repr

/-- The conversions `as<T>()`. -/
structure Read where
  int : Node → Outcome Int
  bool : Node → Outcome Bool
  real : Node → Outcome Rat
  str : Node → Outcome String

/-! ## Where the coefficients come from -/

/-- `PoissonSolver::PoissonSolver`, src/poisson_solver.cpp:15-16, and the options of
src/multiblock_solver.cpp:83-84.  The members of other solvers are arbitrary. -/
def newPoisson (r : Read) (cfg : Node) : Outcome Disc := do
  let order ← option r.int (key "discretization/order") 1 cfg
  let fullDg ← option r.bool (key "discretization/full-discrete-galerkin") false cfg
  let sigma ← option r.real (key "discretization/interface/sigma") (-1) cfg
  let kappa ← option r.real (key "discretization/interface/kappa") (((order + 1) * (order + 1) : Int) : Rat) cfg
  return ⟨fullDg, sigma, kappa, 0, 0, .base⟩

/-- `StokesSolver::StokesSolver`, src/stokes_solver.cpp:16-26: the velocity has one order more. -/
def newStokes (r : Read) (cfg : Node) : Outcome Disc := do
  let order ← option r.int (key "discretization/order") 1 cfg
  let fullDg ← option r.bool (key "discretization/full-discrete-galerkin") false cfg
  let nu ← option r.real (key "stokes/nu") 1 cfg
  let porder := order
  let uorder := porder + 1
  let sigma ← option r.real (key "discretization/interface/sigma") (-1) cfg
  let kappa ← option r.real (key "discretization/interface/kappa") (((uorder + 1) * (uorder + 1) : Int) : Rat) cfg
  return ⟨fullDg, sigma, kappa, nu, 0, .base⟩

/-- `SteadyNSSolver::SteadyNSSolver`, src/steady_ns_solver.cpp:419-442: the coefficients. -/
def newNS (r : Read) (cfg : Node) : Outcome Disc := do
  let d ← newStokes r cfg
  let nu ← option r.real (key "stokes/nu") 1 cfg
  let zeta ← option r.real (key "navier-stokes/zeta") 1 cfg
  let s ← option r.str (key "navier-stokes/operator-type") "base" cfg
  if s = "base" then return { d with nu := nu, zeta := zeta, oper := .base }
  else if s = "lf" then return { d with nu := nu, zeta := zeta, oper := .lf }
  else .error .abort

/-- The default viscosity set by the constructors of the flow problems, src/parameterized_problem.cpp:717, 756, 873,
940, 975 (`FlowPastArray`, `ForceDrivenCorner` and `AdvDiffFlowPastArray` are derived from these).  The other
defaults are not of interest here. -/
def defaults (name : String) (m : Mem) : Mem :=
  if name ∈ ["channel_flow", "component_flow", "flow_past_array", "backward_facing_step", "lid_driven_cavity",
      "force_driven_corner", "periodic_flow_past_array", "advdiff_flow_past_array"] then
    m.set "flow_problem::nu" 1
  else m

/-- One round of the loop of src/parameterized_problem.cpp:475-480. -/
def setEntry (r : Read) (t : Table) (m : Mem) (e : Str × Node) : Outcome Mem := do
  let v ← r.real e.2
  setParam t (String.ofList e.1) v m

/-- `SetSingleRun`, src/parameterized_problem.cpp:459-481.  A null or scalar node has no entries; the first entry
of a sequence has no `first`, reading it throws. -/
def setSingleRun (r : Read) (name : String) (t : Table) (cfg : Node) (m : Mem) : Outcome Mem := do
  match ← find cfg (pieces '/' (key ("single_run/" ++ name))) with
  | none => .error .abort
  | some (.map es) => es.foldlM (setEntry r t) m
  | some (.seq (_ :: _)) => .error .abort
  | some _ => .ok m

/-- The viscosity in `StokesSolver::SetParameterizedProblem`, src/stokes_solver.cpp:1087-1089. -/
def setViscosity (m : Mem) (d : Disc) : Disc := { d with nu := m "flow_problem::nu" }

/-- The start of a program run, src/main_workflow.cpp:419-430 and 497-507: the problem, the solver, the parameters of
the single run. -/
def start (r : Read) (new : Read → Node → Outcome Disc) (cfg : Node) (m : Mem) : Outcome Disc := do
  let name ← required r.str (key "parameterized_problem/name") cfg
  let t ← initProblem name
  let m := defaults name m
  let d ← new r cfg
  let m ← setSingleRun r name t cfg m
  return setViscosity m d

/-! ## The Poisson solver -/

/-- `as[m]`: src/poisson_solver.cpp:186-189, 234-254. -/
def poissonSub (d : Disc) (s : BC F) (mesh : List Int) : Outcome (Form F) := do
  let l ← lhsBC s mesh
  return ⟨[.diffusion], if d.fullDg then [.dgDiffusion d.sigma d.kappa] else [],
    l.map fun x => (x.1, .dgDiffusion d.sigma d.kappa)⟩

/-- `a_itf`: src/poisson_solver.cpp:192-193; also used for the reference ports, src/poisson_solver.cpp:418. -/
def poissonItf (d : Disc) : List (Term F) := [.itfDiffusion d.sigma d.kappa]

/-- `bs[m]`: the boundary part, src/poisson_solver.cpp:212-232. -/
def poissonLoad (d : Disc) (s : BC F) (mesh : List Int) : Outcome (Form F) := do
  let l ← rhsBC s mesh
  return { bdr := l.map fun x => (x.1, .dirichletLF x.2 d.sigma d.kappa) }

/-- `BuildCompROMLinElems`, src/poisson_solver.cpp:351-355. -/
def poissonComp (d : Disc) : Form F :=
  ⟨[.diffusion], if d.fullDg then [.dgDiffusion d.sigma d.kappa] else [], []⟩

/-- `BuildBdrROMLinElems`, src/poisson_solver.cpp:379-383: the form for boundary `b` of a component. -/
def poissonBdr (d : Disc) (b : Nat) : Form F := { bdr := [(b, .dgDiffusion d.sigma d.kappa)] }

/-! ## The Stokes solver -/

/-- `ms[m]`: src/stokes_solver.cpp:268-273, 344-368. -/
def stokesSubM (d : Disc) (s : BC F) (mesh : List Int) : Outcome (Form F) := do
  let l ← lhsBC s mesh
  return ⟨[.vecDiffusion d.nu], if d.fullDg then [.dgVecDiffusion d.nu d.sigma d.kappa] else [],
    l.map fun x => (x.1, .dgVecDiffusion d.nu d.sigma d.kappa)⟩

/-- `bs[m]`: src/stokes_solver.cpp:275-277, 344-368; `minus_one` is set in src/stokes_solver.cpp:17. -/
def stokesSubB (d : Disc) (s : BC F) (mesh : List Int) : Outcome (Form F) := do
  let l ← lhsBC s mesh
  return ⟨[.divergence (-1)], if d.fullDg then [.normalFlux] else [], l.map fun x => (x.1, .normalFlux)⟩

/-- `m_itf`: src/stokes_solver.cpp:280, 282; also used for the reference ports. -/
def stokesItfM (d : Disc) : List (Term F) := [.itfVecDiffusion d.nu d.sigma d.kappa]

/-- `b_itf`: src/stokes_solver.cpp:281, 283. -/
def stokesItfB : List (Term F) := [.itfNormalFlux]

/-- `fs[m]`: the boundary part, src/stokes_solver.cpp:311-342. -/
def stokesLoadF (d : Disc) (s : BC F) (mesh : List Int) : Outcome (Form F) := do
  let l ← rhsBC s mesh
  return { bdr := l.map fun x => (x.1, .vecDirichletLF x.2 d.nu d.sigma d.kappa) }

/-- `gs[m]`: src/stokes_solver.cpp:335-338.  Whether the integrator is added for boundary faces (`full_dg`) or for
boundary elements is not modelled; both overloads are in `Verif.Model.Loads`. -/
def stokesLoadG (s : BC F) (mesh : List Int) : Outcome (Form F) := do
  let l ← rhsBC s mesh
  return { bdr := l.map fun x => (x.1, .normalLF x.2) }

/-- `m_comp` in `BuildCompROMLinElems`, src/stokes_solver.cpp:538-543. -/
def stokesCompM (d : Disc) : Form F :=
  ⟨[.vecDiffusion d.nu], if d.fullDg then [.dgVecDiffusion d.nu d.sigma d.kappa] else [], []⟩

/-- `b_comp` in `BuildCompROMLinElems`, src/stokes_solver.cpp:545-547. -/
def stokesCompB (d : Disc) : Form F := ⟨[.divergence (-1)], if d.fullDg then [.normalFlux] else [], []⟩

/-- `m_comp` in `BuildBdrROMLinElems`, src/stokes_solver.cpp:601. -/
def stokesBdrM (d : Disc) (b : Nat) : Form F := { bdr := [(b, .dgVecDiffusion d.nu d.sigma d.kappa)] }

/-- `b_comp` in `BuildBdrROMLinElems`, src/stokes_solver.cpp:602. -/
def stokesBdrB (b : Nat) : Form F := { bdr := [(b, .normalFlux)] }

/-! ## The convective terms of the Navier-Stokes solver -/

/-- `hs[m]`: src/steady_ns_solver.cpp:489-520, 530-563. -/
def nsSub (d : Disc) (s : BC F) (mesh : List Int) : Outcome (Form F) :=
  match d.oper with
  | .base => .ok { domain := [.convection d.zeta none .volume] }
  | .lf => do
    let l ← nsFluxBC s mesh
    return ⟨[.inviscidFlux (-d.zeta) .volume], if d.fullDg then [.laxFriedrichs (-d.zeta) none .face] else [],
      l.map fun x => (x.1, .laxFriedrichs (-d.zeta) x.2 .face)⟩

/-- `nl_itf`: src/steady_ns_solver.cpp:522-528. -/
def nsItf (d : Disc) : List (Term F) :=
  match d.oper with
  | .base => []
  | .lf => [.laxFriedrichs (-d.zeta) none .face]

/-- The form `h_comp` for slice `i` in `GetReducedTensor`, src/steady_ns_solver.cpp:1380-1400. -/
def nsTensor (d : Disc) (i : Nat) : Outcome (Form F) :=
  match d.oper with
  | .lf => .error .abort
  | .base => .ok { domain := [.convection d.zeta (some i) .volume] }

/-- `comp_eqps[c]`: `AllocateROMEQPElems`, src/steady_ns_solver.cpp:1013-1072; `nb` is the number of boundary
attributes of the component, boundaries are those of the component. -/
def eqpComp (d : Disc) (zero : F) (nb : Nat) : Form F :=
  match d.oper with
  | .base => { domain := [.convection d.zeta none .volume] }
  | .lf =>
    ⟨[.inviscidFlux (-d.zeta) .volume], if d.fullDg then [.laxFriedrichs (-d.zeta) none .face] else [],
      (List.range nb).flatMap fun b =>
        [(b, .laxFriedrichs (-d.zeta) none .face), (b, .laxFriedrichs (-d.zeta) (some zero) .face)]⟩

/-- `itf_eqp`: src/steady_ns_solver.cpp:1074-1079. -/
def eqpItf (d : Disc) : List (Term F) :=
  match d.oper with
  | .base => []
  | .lf => [.laxFriedrichs (-d.zeta) none .face]

/-- A boundary integrator of `subdomain_eqps[m]`: the global boundary whose marker restricts it, the integrator, and
the number of the component integrator whose samples it uses. -/
structure EqpBdr (F : Type) where
  marker : Nat
  term : Term F
  slot : Nat
deriving DecidableEq, Repr

/-- src/steady_ns_solver.cpp:1341-1366; `c2g` is the map of the subdomain from component boundaries to global
attributes. -/
def eqpBdrs (d : Disc) (s : BC F) (c2g : List Int) : Outcome (List (EqpBdr F)) :=
  loop c2g.length (fun b acc => do
    let a ← rd c2g b
    let g := arrFind s.attrs a
    if g < 0 then return acc
    else do
      let ty ← rdI s.types g
      let ud ← (if ty = .neumann then (.ok none : Outcome (Option F))
        else do
          require (← bcExists s g.toNat)
          rdI s.coeffs g)
      let kind := if ty = .zero then 1 else 0
      return acc ++ [⟨g.toNat, .laxFriedrichs (-d.zeta) ud .face, 2 * b + kind⟩]) []

/-- `subdomain_eqps[m]`, `AssembleROMEQPOper`, src/steady_ns_solver.cpp:1305-1375: integrators on elements and
interior faces, and those on the boundary. -/
def eqpSub (d : Disc) (s : BC F) (c2g : List Int) : Outcome (Form F × List (EqpBdr F)) :=
  match d.oper with
  | .base => .ok ({ domain := [.convection d.zeta none .volume] }, [])
  | .lf => do
    let l ← eqpBdrs d s c2g
    return (⟨[.inviscidFlux (-d.zeta) .volume], if d.fullDg then [.laxFriedrichs (-d.zeta) none .face] else [],
      l.map fun x => (x.marker, x.term)⟩, l)

/-! ## Quadrature -/

/-- A mesh: the geometries of its elements and of its boundary elements. -/
structure Geoms where
  elem : List Nat
  bdr : List Nat
deriving DecidableEq, Repr

/-- `ir_nl` and `ir_face`: geometry and order. -/
structure Rules where
  volume : Nat × Nat
  face : Nat × Nat
deriving DecidableEq, Repr

/-- `(int)(ceil(1.5 * (2 * k - 1)))`. -/
def ruleOrder (k : Nat) : Nat := (3 * (2 * k - 1) + 1) / 2

/-- The rules and the check in `SteadyNSSolver::SteadyNSSolver`, src/steady_ns_solver.cpp:444-455.  `meshes` are the
meshes of the subdomains (`GetMesh`, include/topology_handler.hpp:168), `numComp` the number of components,
`k` is `ufes[0]->GetMaxElementOrder()`. -/
def nsRules (numComp : Nat) (meshes : List Geoms) (k : Nat) : Outcome Rules := do
  let m0 ← rd meshes 0
  let t0 ← rd m0.elem 0
  let f0 ← rd m0.bdr 0
  loop numComp (fun c (_ : Unit) => do
    let mc ← rd meshes c
    let tc ← rd mc.elem 0
    require (tc == t0)) ()
  return ⟨(t0, ruleOrder k), (f0, ruleOrder k)⟩

end Verif.Terms
