import Verif.Model.Topology
import Mathlib.Algebra.Field.Defs
import Mathlib.Algebra.Order.Group.Abs
import Mathlib.Algebra.Order.Ring.Defs

/-!
# Boundary conditions

Models how the solvers (`src/poisson_solver.cpp`, `src/stokes_solver.cpp`,
`src/linelast_solver.cpp`, `src/steady_ns_solver.cpp`, `src/multiblock_solver.cpp`) turn a
`ParameterizedProblem` into boundary terms.
-/

namespace Verif.Boundary

open Verif.Topology

/-- `BoundaryType` (`include/parameterized_problem.hpp:213-219`). -/
inductive BdrType where
  | zero
  | dirichlet
  | neumann
  | unset
deriving DecidableEq, Repr

/-- The boundary-condition state of a solver: `global_bdr_attributes`, the coefficient of every
global boundary (`bdr_coeffs` or `ud_coeffs`, `none` is `NULL`), `bdr_type`, and for Stokes
`pres_dbc` (`include/stokes_solver.hpp:130`).  `F` is the type of boundary functions. -/
structure BC (F : Type) where
  attrs : List Int
  coeffs : List (Option F)
  types : List BdrType
  presDbc : Bool
deriving DecidableEq, Repr

/-- The boundary part of `ParameterizedProblem` (`include/parameterized_problem.hpp:221-`):
`battr`, `bdr_type` and `scalar_bdr_ptr` or `vector_bdr_ptr`. -/
structure Problem (F : Type) where
  battr : List Int
  types : List BdrType
  ptr : List (Option F)
deriving DecidableEq, Repr

section
variable {F : Type}

/-- `SetupBCVariables` (`src/multiblock_solver.cpp:205-227`, `src/poisson_solver.cpp:59-65`,
`src/stokes_solver.cpp:90-98`, `src/linelast_solver.cpp:72-77`); `numBdr` is the number of global
boundary attributes (`src/multiblock_solver.cpp:49`).  `bdr_markers` is `markers`. -/
def setupBCVariables (attrs : List Int) : BC F :=
  ⟨attrs, List.replicate attrs.length none, List.replicate attrs.length .unset, false⟩

/-- `bdr_markers` (`src/multiblock_solver.cpp:207-223`): for each global attribute the indicator
array of length `maxAttr`. -/
def markers (attrs : List Int) (maxAttr : Int) : Outcome (List (List Int)) :=
  loop attrs.length (fun k acc => do
    let a ← rd attrs k
    require (decide (0 < a ∧ a ≤ maxAttr))
    let mk ← wrI (List.replicate maxAttr.toNat (0 : Int)) (a - 1) 1
    .ok (acc ++ [mk])) []

/-- `PoissonSolver::AddBCFunction` (`src/poisson_solver.cpp:67-105`) and
`LinElastSolver::AddBCFunction` (`src/linelast_solver.cpp:389-406`). -/
def addBC (s : BC F) (f : F) (battr : Int) : Outcome (BC F) := do
  require (decide (0 < s.coeffs.length))
  if 0 < battr then
    let idx := arrFind s.attrs battr
    if idx < 0 then .ok s
    else do
      let c ← wrI s.coeffs idx (some f)
      .ok { s with coeffs := c }
  else do
    let c ← loop s.coeffs.length (fun k c => wr c k (some f)) s.coeffs
    .ok { s with coeffs := c }

/-- `StokesSolver::DeterminePressureDirichlet` (`src/stokes_solver.cpp:222-230`). -/
def determinePressureGo (coeffs : List (Option F)) : Nat → Nat → Outcome Bool
  | _, 0 => .ok false
  | b, k + 1 => do
    let c ← rd coeffs b
    if c.isNone then .ok true else determinePressureGo coeffs (b + 1) k

/-- `StokesSolver::AddBCFunction` (`src/stokes_solver.cpp:100-142`): an unknown attribute returns
before the pressure flag is determined. -/
def addBCStokes (s : BC F) (f : F) (battr : Int) : Outcome (BC F) := do
  require (decide (0 < s.coeffs.length))
  if 0 < battr then
    let idx := arrFind s.attrs battr
    if idx < 0 then .ok s
    else do
      let c ← wrI s.coeffs idx (some f)
      let p ← determinePressureGo c 0 s.attrs.length
      .ok { s with coeffs := c, presDbc := p }
  else do
    let c ← loop s.coeffs.length (fun k c => wr c k (some f)) s.coeffs
    let p ← determinePressureGo c 0 s.attrs.length
    .ok { s with coeffs := c, presDbc := p }

/-- `MultiBlockSolver::SetBdrType` (`src/multiblock_solver.cpp:229-239`). -/
def setBdrType (s : BC F) (t : BdrType) (idx : Int) : Outcome (BC F) := do
  require (s.types.length == s.attrs.length)
  if idx < 0 then .ok { s with types := s.types.map fun _ => t }
  else do
    require (decide (idx < s.attrs.length))
    let ty ← wrI s.types idx t
    .ok { s with types := ty }

/-- `MultiBlockSolver::SetParameterizedProblem` (`src/multiblock_solver.cpp:495-505`). -/
def setTypes (s : BC F) (p : Problem F) : Outcome (BC F) := do
  require (s.types.length == s.attrs.length)
  let t ← loop s.attrs.length (fun b t => do
    let a ← rd s.attrs b
    let idx := arrFind p.battr a
    if idx < 0 then .ok t
    else do
      let ty ← rdI p.types idx
      wr t b ty) s.types
  .ok { s with types := t }

/-- The loop over the boundaries of a problem in `PoissonSolver::SetParameterizedProblem`
(`src/poisson_solver.cpp:564-578`) and `StokesSolver::SetParameterizedProblem`
(`src/stokes_solver.cpp:1105-1120`); `add` is the respective `AddBCFunction`. -/
def applyProblem (add : BC F → F → Int → Outcome (BC F)) (zero : F) (p : Problem F) (s : BC F) :
    Outcome (BC F) :=
  loop p.battr.length (fun b s => do
    let t ← rd p.types b
    match t with
    | .dirichlet => do
      let fo ← rd p.ptr b
      match fo with
      | none => .error .abort
      | some f => do
        let a ← rd p.battr b
        add s f a
    | .neumann => .ok s
    | _ => do
      let a ← rd p.battr b
      add s zero a) s

/-- `PoissonSolver::SetParameterizedProblem` (`src/poisson_solver.cpp:550-585`) without the right-hand
side functions. -/
def setProblemPoisson (zero : F) (s : BC F) (p : Problem F) : Outcome (BC F) := do
  let s ← setTypes s p
  applyProblem addBC zero p { s with coeffs := List.replicate s.coeffs.length none }

/-- The exclusion marks `nz_dbcs` of `StokesSolver::SetParameterizedProblem`
(`src/stokes_solver.cpp:1132-1143`), from entry `b` on, `k` entries left.  They are indexed by the
position in the problem's list. -/
def nzGo (p : Problem F) : Nat → Nat → List Bool → Outcome (List Bool)
  | _, 0, nz => .ok nz
  | b, k + 1, nz => do
    let t ← rd p.types b
    if t = .zero then do
      let a ← rd p.battr b
      if a = -1 then .ok (nz.map fun _ => false)
      else do
        let nz ← wr nz b false
        nzGo p (b + 1) k nz
    else nzGo p (b + 1) k nz

/-- `nz_dbcs` on entry to `SetComplementaryFlux`. -/
def nzDbcs (numBdr : Nat) (p : Problem F) : Outcome (List Bool) :=
  nzGo p 0 p.battr.length (List.replicate numBdr true)

/-- `StokesSolver::SetParameterizedProblem` (`src/stokes_solver.cpp:1082-1146`) without viscosity
and right-hand side functions.  The second result are the marks passed to `SetComplementaryFlux`,
whose first assertions (lines 1184-1186) are included; the flux itself is `complementaryFlux`. -/
def setProblemStokes (zero : F) (s : BC F) (p : Problem F) :
    Outcome (BC F × Option (List Bool)) := do
  let s ← setTypes s p
  let s ← applyProblem addBCStokes zero p { s with coeffs := List.replicate s.coeffs.length none }
  if s.presDbc then .ok (s, none)
  else do
    let nz ← nzDbcs s.attrs.length p
    require (nz.length == s.attrs.length)
    require (s.coeffs.length == s.attrs.length)
    loop s.attrs.length (fun k (_ : Unit) => do
      let c ← rd s.coeffs k
      require c.isSome) ()
    .ok (s, some nz)

/-- `LinElastSolver::SetParameterizedProblem` (`src/linelast_solver.cpp:443-483`), boundary part.
The coefficients of the previous problem are not cleared. -/
def setProblemLinElast (s : BC F) (p : Problem F) : Outcome (BC F) := do
  let s ← setTypes s p
  loop p.battr.length (fun b s => do
    let t ← rd p.types b
    let fo ← rd p.ptr b
    require (!decide (t = .dirichlet) || fo.isSome)
    match fo with
    | none => .ok s
    | some f => do
      let a ← rd p.battr b
      addBC s f a) s

/-- `BCExistsOnBdr` (`src/poisson_solver.cpp:198-203`, `src/stokes_solver.cpp:297-302`,
`src/linelast_solver.cpp:144-149`). -/
def bcExists (s : BC F) (b : Nat) : Outcome Bool := do
  require (decide (b < s.attrs.length))
  require (s.coeffs.length == s.attrs.length)
  let c ← rd s.coeffs b
  .ok c.isSome

/-- A sequence of calls of `AddBCFunction`; `add` is the method of the solver at hand. -/
def runAdds (add : BC F → F → Int → Outcome (BC F)) : BC F → List (F × Int) → Outcome (BC F)
  | s, [] => .ok s
  | s, c :: cs => do
    let s ← add s c.1 c.2
    runAdds add s cs

/-- A call that changes the boundary conditions of a solver. -/
inductive Call (F : Type) where
  | add (f : F) (battr : Int)
  | setType (t : BdrType) (idx : Int)
  | problem (p : Problem F)

/-- One call on a Poisson solver. -/
def stepPoisson (zero : F) (s : BC F) : Call F → Outcome (BC F)
  | .add f a => addBC s f a
  | .setType t i => setBdrType s t i
  | .problem p => setProblemPoisson zero s p

/-- One call on a Stokes or Navier-Stokes solver. -/
def stepStokes (zero : F) (s : BC F) : Call F → Outcome (BC F)
  | .add f a => addBCStokes s f a
  | .setType t i => setBdrType s t i
  | .problem p => do
    let r ← setProblemStokes zero s p
    .ok r.1

/-- One call on an elasticity solver. -/
def stepElast (s : BC F) : Call F → Outcome (BC F)
  | .add f a => addBC s f a
  | .setType t i => setBdrType s t i
  | .problem p => setProblemLinElast s p

/-- A history of calls. -/
def runCalls (step : BC F → Call F → Outcome (BC F)) : BC F → List (Call F) → Outcome (BC F)
  | s, [] => .ok s
  | s, c :: cs => do
    let s ← step s c
    runCalls step s cs

/-- The loop over the global boundaries shared by all set-up routines of boundary integrators:
`meshAttrs` are the boundary attributes of one subdomain; for every global boundary present on it
`act b` is performed.  The result lists the integrators added, with the boundary they belong to. -/
def forBoundaries {α : Type} (s : BC F) (meshAttrs : List Int)
    (act : Nat → Outcome (Option α)) : Outcome (List (Nat × α)) :=
  loop s.attrs.length (fun b acc => do
    let a ← rd s.attrs b
    if arrFind meshAttrs a < 0 then .ok acc
    else do
      match ← act b with
      | some x => .ok (acc ++ [(b, x)])
      | none => .ok acc) []

/-- `PoissonSolver::SetupRHSBCOperators` (`src/poisson_solver.cpp:212-232`) and
`StokesSolver::SetupRHSBCOperators` (`src/stokes_solver.cpp:311-342`) for one subdomain: the
boundaries that get a Dirichlet right-hand side, with the coefficient used. -/
def rhsBC (s : BC F) (meshAttrs : List Int) : Outcome (List (Nat × F)) :=
  forBoundaries s meshAttrs (fun b => do
    if !(← bcExists s b) then .ok none
    else do
      let t ← rd s.types b
      if t = .neumann then .ok none
      else do
        let c ← rd s.coeffs b
        match c with
        | some f => .ok (some f)
        | none => .error .ub)

/-- `PoissonSolver::SetupDomainBCOperators` (`src/poisson_solver.cpp:234-254`) and
`StokesSolver::SetupDomainBCOperators` (`src/stokes_solver.cpp:344-368`) for one subdomain: the
boundaries that get a left-hand side term. -/
def lhsBC (s : BC F) (meshAttrs : List Int) : Outcome (List (Nat × Unit)) :=
  forBoundaries s meshAttrs (fun b => do
    if !(← bcExists s b) then .ok none
    else do
      let t ← rd s.types b
      if t = .neumann then .ok none
      else .ok (some ()))

/-- A right-hand-side boundary integrator of the elasticity solver. -/
inductive ElastRhs (F : Type) where
  | dirichlet (f : F)
  | traction (f : F)
deriving DecidableEq, Repr

/-- `LinElastSolver::SetupRHSBCOperators` (`src/linelast_solver.cpp:164-197`) for one subdomain. -/
def rhsElast (s : BC F) (meshAttrs : List Int) : Outcome (List (Nat × ElastRhs F)) :=
  forBoundaries s meshAttrs (fun b => do
    if !(← bcExists s b) then .ok none
    else do
      let t ← rd s.types b
      let c ← rd s.coeffs b
      match t, c with
      | .dirichlet, some f => .ok (some (.dirichlet f))
      | .neumann, some f => .ok (some (.traction f))
      | _, _ => .ok none)

/-- `LinElastSolver::SetupDomainBCOperators` (`src/linelast_solver.cpp:420-441`) for one subdomain. -/
def lhsElast (fullDg : Bool) (s : BC F) (meshAttrs : List Int) : Outcome (List (Nat × Unit)) :=
  if fullDg then
    forBoundaries s meshAttrs (fun b => do
      if !(← bcExists s b) then .ok none
      else do
        let t ← rd s.types b
        if t = .dirichlet then .ok (some ()) else .ok none)
  else .ok []

/-- `SteadyNSSolver::SetupDomainBCOperators` (`src/steady_ns_solver.cpp:530-563`) with the
Lax-Friedrichs operator: the flux integrator of each boundary with its prescribed velocity. -/
def nsFluxBC (s : BC F) (meshAttrs : List Int) : Outcome (List (Nat × Option F)) :=
  forBoundaries s meshAttrs (fun b => do
    let t ← rd s.types b
    if t = .neumann then .ok (some none)
    else do
      require (← bcExists s b)
      let c ← rd s.coeffs b
      .ok (some c))

/-- The boundary part of `MultiBlockSolver::AssembleROMMat` (`src/multiblock_solver.cpp:302-320`) for
one subdomain: the component boundaries whose ROM boundary matrix is added.  `c2g` maps component
boundaries to global attributes. -/
def romBC (s : BC F) (c2g : List Int) : Outcome (List Nat) :=
  loop c2g.length (fun b acc => do
    let a ← rd c2g b
    let g := arrFind s.attrs a
    if g < 0 then .ok acc
    else do
      if !(← bcExists s g.toNat) then .ok acc
      else do
        let t ← rdI s.types g
        if t = .neumann then .ok acc
        else .ok (acc ++ [b])) []

end

/-!
### Incompressibility of the boundary data
-/

/-- A quadrature point of a boundary element: weight times surface measure for area integrals,
quadrature weight, normal (not normalised) and position. -/
structure BdrPoint (K : Type) where
  w : K
  jac : K
  nor : List K
  x : List K

/-- A boundary element: attribute and quadrature points. -/
structure BdrElem (K : Type) where
  attr : Int
  pts : List (BdrPoint K)

/-- The globals of `function_factory::flow_problem` (`src/parameterized_problem.cpp:93-95`). -/
structure FlowGlobals (K : Type) where
  delU : K
  x0 : List K

section
variable {K : Type} [Field K] [LinearOrder K]

/-- Componentwise combination of vectors of equal length. -/
def vzip (f : K → K → K) (a b : List K) : List K := List.zipWith f a b

/-- Dot product (`Vector::operator*`). -/
def vdot (a b : List K) : K := (List.zipWith (· * ·) a b).sum

/-- `flow_problem::dir` (`src/parameterized_problem.cpp:97-105`). -/
def dir (g : FlowGlobals K) (x : List K) : List K := vzip (· - ·) x g.x0

/-- `flow_problem::flux` (`src/parameterized_problem.cpp:107-111`). -/
def flux (g : FlowGlobals K) (x : List K) : List K := (dir g x).map (fun y => y * g.delU)

/-- `StokesSolver::ComputeBEFlux` (`src/stokes_solver.cpp:1365-1396`), without the full-dg error. -/
def beFlux (ud : List K → List K) (e : BdrElem K) : K :=
  e.pts.foldl (fun acc q => acc + q.w * vdot (ud q.x) q.nor) 0

/-- `StokesSolver::ComputeBEIntegral` of the constant one. -/
def beArea (e : BdrElem K) : K := e.pts.foldl (fun acc q => acc + q.jac * q.w) 0

/-- `StokesSolver::ComputeBEIntegral` of a vector function (`src/stokes_solver.cpp:1424-1448`). -/
def beIntegral (dim : Nat) (Q : List K → List K) (e : BdrElem K) : List K :=
  e.pts.foldl (fun acc q => vzip (· + ·) acc ((Q q.x).map (fun y => y * (q.jac * q.w))))
    (List.replicate dim 0)

/-- The loop over all boundary elements with a non-homogeneous global boundary, used three times in
`SetComplementaryFlux` (`src/stokes_solver.cpp:1211-1229,1238-1256,1264-1281`). -/
def overBoundary {σ : Type} (attrs : List Int) (nz : List Bool) (elems : List (List (BdrElem K)))
    (f : Nat → BdrElem K → σ → σ) (s : σ) : Outcome σ :=
  loop elems.length (fun m s => do
    let es ← rd elems m
    loop es.length (fun i s => do
      let e ← rd es i
      let g := arrFind attrs e.attr
      if g < 0 then .ok s
      else do
        let z ← rdI nz g
        if z then .ok (f g.toNat e s) else .ok s) s) s

/-- `StokesSolver::SetComplementaryFlux` (`src/stokes_solver.cpp:1181-1288`).  `ud i` is the boundary
function of global boundary `i`; it reads the globals.  Returns the final globals; `none` stands for
non-finite globals: a zero area or a zero direction flux divides by zero (lines 1230, 1259), and the
final check lets a NaN pass. -/
def complementaryFlux (dim : Nat) (thr : K) (attrs : List Int) (nz : List Bool)
    (elems : List (List (BdrElem K))) (ud : Nat → FlowGlobals K → List K → List K) :
    Outcome (Option (FlowGlobals K)) := do
  let g0 : FlowGlobals K := ⟨0, List.replicate dim 0⟩
  let ax ← overBoundary attrs nz elems
    (fun _ e (s : K × List K) =>
      (s.1 + beArea e, vzip (· + ·) s.2 (beIntegral dim (dir g0) e))) (0, List.replicate dim 0)
  if ax.1 = 0 then .ok none
  else
  let g1 : FlowGlobals K := ⟨0, ax.2.map (fun y => y / ax.1)⟩
  let bd ← overBoundary attrs nz elems
    (fun i e (s : K × K) => (s.1 + beFlux (ud i g1) e, s.2 + beFlux (dir g1) e)) (0, 0)
  if bd.2 = 0 then .ok none
  else
  let g2 : FlowGlobals K := ⟨bd.1 / bd.2, g1.x0⟩
  let b ← overBoundary attrs nz elems (fun i e (s : K) => s + beFlux (ud i g2) e) 0
  if thr < |b| then .error .abort else .ok (some g2)

/-- Removal of the mean at the end of `StokesSolver::Solve` (`src/stokes_solver.cpp:799-806`):
`sol` is ordered by variable, the pressure starts at `off` and ends at `stop`. -/
def removeMean (presDbc : Bool) (sol : List K) (off stop : Nat) : Outcome (List K) :=
  if presDbc then .ok sol
  else do
    let n := stop - off
    let sum ← loop n (fun i acc => do
      let x ← rd sol (off + i)
      .ok (acc + x)) 0
    let tmp := sum / (n : K)
    loop n (fun i s => do
      let x ← rd s (off + i)
      wr s (off + i) (x - tmp)) sol

end

end Verif.Boundary
