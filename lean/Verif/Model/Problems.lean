import Verif.Model.Params

/-!
# The problems a configuration can name (`src/parameterized_problem.cpp`)

For every problem its boundary attributes, boundary types and boundary functions, its right-hand side and
its initial functions, and the functions themselves. The parameters are in `Verif.Model.Params`; what the
solvers do with boundary types and functions is in `Verif.Model.Boundary`.
-/

namespace Verif.Problems

open Verif Verif.Boundary Verif.Params

/-- The functions of `function_factory` (`src/parameterized_problem.cpp:13-431`) that problems point to, and
the zero function of the solvers. -/
inductive Fn where
  | zero
  | poisson0Rhs | componentBdr | componentRhs | spiralRhs
  | channelU | componentU | stepU | stepIc | stepPressure | lidU | periodicForce
  | initDisp | initDispCantilever | tipForce | gravityLoad | windLoad | frameFixed
  | qbdr
  | leftDisp | rightDisp | upDisp | downDisp | bodyForce
deriving DecidableEq, Repr

/-- What a constructor leaves in a problem, besides parameters (`include/parameterized_problem.hpp:249-262`):
`battr`, `bdr_type` and `scalar_bdr_ptr` or `vector_bdr_ptr`; `scalar_rhs_ptr` or `vector_rhs_ptr`; `ic_ptr`;
`general_vector_ptr`. A null pointer is `none`. -/
structure Built where
  boundary : Problem Fn
  rhs : Option Fn
  ic : List (Option Fn)
  general : List (Option Fn)
deriving DecidableEq, Repr

/-- `for (int b = 0; b < n; b++) battr[b] = b+1`. -/
def oneTo (n : Nat) : List Int := (List.range n).map fun b => (b : Int) + 1

/-- `Poisson0` (`src/parameterized_problem.cpp:568-580`). -/
def poisson0 : Built := ⟨⟨[-1], [.zero], [none]⟩, some .poisson0Rhs, [], []⟩

/-- `PoissonComponent` (`src/parameterized_problem.cpp:598-608`). -/
def poissonComponent : Built :=
  ⟨⟨[-1], [.dirichlet], [some .componentBdr]⟩, some .componentRhs, [], []⟩

/-- `PoissonSpiral` (`src/parameterized_problem.cpp:665-674`). -/
def poissonSpiral : Built := ⟨⟨[-1], [.zero], [none]⟩, some .spiralRhs, [], []⟩

/-- `ChannelFlow` (`src/parameterized_problem.cpp:697-712`). -/
def channelFlow : Built :=
  ⟨⟨oneTo 5, ((List.replicate 5 .zero).set 1 .neumann).set 3 .dirichlet,
    List.replicate 5 (some .channelU)⟩, none, [], []⟩

/-- `ComponentFlow` (`src/parameterized_problem.cpp:733-747`), and `FlowPastArray` (lines 796-798), which
adds nothing to it. -/
def componentFlow : Built :=
  ⟨⟨oneTo 5, (List.replicate 5 .dirichlet).set 4 .zero, List.replicate 5 (some .componentU)⟩,
    none, [], []⟩

/-- `BackwardFacingStep` (`src/parameterized_problem.cpp:842-868`). -/
def backwardFacingStep : Built :=
  ⟨⟨oneTo 3, [.dirichlet, .zero, .neumann], List.replicate 3 (some .stepU)⟩, none,
    [some .stepIc, some .stepPressure], []⟩

/-- `LidDrivenCavity` (`src/parameterized_problem.cpp:916-935`). -/
def lidDrivenCavity : Built :=
  ⟨⟨oneTo 5, ((List.replicate 5 .zero).set 2 .dirichlet).set 0 .dirichlet,
    List.replicate 5 (some .lidU)⟩, none, [], []⟩

/-- `PeriodicFlowPastArray` (`src/parameterized_problem.cpp:957-969`). -/
def periodicFlowPastArray : Built := ⟨⟨[5], [.zero], [none]⟩, some .periodicForce, [], []⟩

/-- `ForceDrivenCorner` (`src/parameterized_problem.cpp:993-1007`), built on the previous one. -/
def forceDrivenCorner : Built :=
  { periodicFlowPastArray with
    boundary := ⟨oneTo 5, ((List.replicate 5 .zero).set 2 .neumann).set 3 .neumann,
      List.replicate 5 none⟩ }

/-- `LinElastDisp` (`src/parameterized_problem.cpp:1014-1039`). -/
def linElastDisp : Built :=
  ⟨⟨(oneTo 3).set 2 3, (List.replicate 3 .dirichlet).set 2 .zero,
    (List.replicate 3 (some .initDisp)).set 2 none⟩, none, [], [some .initDisp]⟩

/-- `LinElastDispLCantilever` (`src/parameterized_problem.cpp:1056-1073`, `1094-1095`). -/
def linElastDispLCantilever : Built :=
  ⟨⟨[1, 2, 3], [.dirichlet, .dirichlet, .neumann],
    [some .initDispCantilever, some .initDispCantilever, none]⟩, none, [], [none]⟩

/-- `LinElastDispLattice` (`src/parameterized_problem.cpp:1098-1130`, `1150-1151`). -/
def linElastDispLattice : Built :=
  ⟨⟨[1, 2, 3, 4, 5], [.neumann, .dirichlet, .neumann, .dirichlet, .neumann],
    [none, some .initDisp, none, some .initDisp, none]⟩, none, [], [none]⟩

/-- `LinElastForceCantilever` (`src/parameterized_problem.cpp:1155-1187`, `1207-1208`). -/
def linElastForceCantilever : Built :=
  ⟨⟨[1, 2, 3, 4, 5], [.neumann, .neumann, .neumann, .dirichlet, .neumann],
    [none, some .tipForce, none, some .initDisp, none]⟩, none, [], [none]⟩

/-- `LinElastFrameWind` (`src/parameterized_problem.cpp:1211-1243`, `1269-1272`). -/
def linElastFrameWind : Built :=
  ⟨⟨[1, 2, 3, 4, 3], [.neumann, .neumann, .neumann, .dirichlet, .neumann],
    [some .windLoad, none, none, some .frameFixed, none]⟩, some .gravityLoad, [], [none]⟩

/-- `AdvDiffFlowPastArray` (`src/parameterized_problem.cpp:1278-1291`), built on `FlowPastArray`. -/
def advDiffFlowPastArray : Built :=
  { componentFlow with
    boundary := ⟨componentFlow.boundary.battr, (List.replicate 5 .dirichlet).set 4 .neumann,
      List.replicate 5 (some .qbdr)⟩ }

/-- `LinElastComponentWiseTrain` (`src/parameterized_problem.cpp:1327-1358`, `1498-1499`). -/
def linElastComponentWiseTrain : Built :=
  ⟨⟨[1, 2, 3, 4, 5], [.neumann, .neumann, .neumann, .dirichlet, .neumann],
    [some .downDisp, some .rightDisp, some .upDisp, some .leftDisp, none]⟩, none, [],
    [some .bodyForce]⟩

/-- `InitParameterizedProblem` (`src/parameterized_problem.cpp:480-563`). -/
def initProblem (name : String) : Outcome Built :=
  match name with
  | "poisson0" => .ok poisson0
  | "poisson_component" => .ok poissonComponent
  | "poisson_spiral" => .ok poissonSpiral
  | "channel_flow" => .ok channelFlow
  | "component_flow" => .ok componentFlow
  | "flow_past_array" => .ok componentFlow
  | "backward_facing_step" => .ok backwardFacingStep
  | "lid_driven_cavity" => .ok lidDrivenCavity
  | "force_driven_corner" => .ok forceDrivenCorner
  | "periodic_flow_past_array" => .ok periodicFlowPastArray
  | "linelast_disp" => .ok linElastDisp
  | "linelast_disp_lcantilever" => .ok linElastDispLCantilever
  | "linelast_disp_lattice" => .ok linElastDispLattice
  | "linelast_force_cantilever" => .ok linElastForceCantilever
  | "linelast_cwtrain" => .ok linElastComponentWiseTrain
  | "linelast_frame_wind" => .ok linElastFrameWind
  | "advdiff_flow_past_array" => .ok advDiffFlowPastArray
  | _ => .error .abort

/-- The overridden `SetBattr` (`src/parameterized_problem.cpp:639-649`, `812-836`); other problems have
none. -/
def setBattr (name : String) (m : Mem) (p : Problem Fn) : Outcome (Problem Fn) :=
  if name = "poisson_component" then do
    let b ← componentBattr m
    .ok { p with battr := List.replicate 1 b }
  else if name = "flow_past_array" ∨ name = "advdiff_flow_past_array" then do
    let t ← arrayBattr m p.types
    .ok { p with types := t }
  else .ok p

/-- A call of `SetParams` (`src/parameterized_problem.cpp:439-457`, `650-660`, `800-810`): the parameters
first, then `SetBattr`. -/
def setCall (name : String) (t : Table) (st : Mem × Problem Fn) (c : Params.Call) :
    Outcome (Mem × Problem Fn) := do
  let m ← match c with
    | .one k v => setParam t k v st.1
    | .many i v => setParams t i v st.1
  let p ← setBattr name m st.2
  .ok (m, p)

/-- Calls of `SetParams`, one after the other. -/
def setCalls (name : String) (t : Table) (calls : List Params.Call) (st : Mem × Problem Fn) :
    Outcome (Mem × Problem Fn) :=
  calls.foldlM (setCall name t) st

/-- The volume terms a new solver takes from a problem: the functions of its right-hand side and the
functions its unknowns are initialised with. -/
structure Volume where
  rhs : List Fn
  initial : List Fn
deriving DecidableEq, Repr

/-- `PoissonSolver::SetParameterizedProblem`, last part (`src/poisson_solver.cpp:580-585`). -/
def volumePoisson (p : Built) : Volume :=
  match p.rhs with
  | some f => ⟨[f], []⟩
  | none => ⟨[.zero], []⟩

/-- `StokesSolver::SetParameterizedProblem`, right-hand side (`src/stokes_solver.cpp:1122-1125`). -/
def volumeStokes (p : Built) : Volume :=
  match p.rhs with
  | some f => ⟨[f], []⟩
  | none => ⟨[.zero], []⟩

/-- `UnsteadyNSSolver::SetParameterizedProblem` (`src/unsteady_ns_solver.cpp:293-330`): velocity and pressure
start from the initial functions of the problem, or from zero. -/
def volumeUnsteady (p : Built) : Outcome Volume := do
  let v := volumeStokes p
  if 2 ≤ p.ic.length then do
    let u ← rd p.ic 0
    let q ← rd p.ic 1
    .ok ⟨v.rhs, [u.getD .zero, q.getD .zero]⟩
  else .ok ⟨v.rhs, [.zero, .zero]⟩

/-- `LinElastSolver::SetParameterizedProblem`, last part (`src/linelast_solver.cpp:476-485`). -/
def volumeElast (p : Built) : Outcome Volume := do
  let rhs := match p.rhs with
    | some f => [f]
    | none => []
  let g ← rd p.general 0
  match g with
  | some f => .ok ⟨rhs, [f]⟩
  | none => .ok ⟨rhs, []⟩

/-!
### The functions

`R` stands for `double` and is an ordered field: rounding is not modelled. A vector function gets a point, a
time and the vector to fill, which MFEM has only sized: its entries are whatever was there. Out-of-range
entries are undefined behaviour (MFEM checks them in debug builds only).
-/

/-- The mathematical functions used. -/
structure Math (R : Type) where
  sin : R → R
  pi : R

section
variable {R : Type} [Field R] [LinearOrder R] (M : Math R) (m : String → R)

/-- `tmp += c(d) * x(d)` over the coordinates of a point. -/
def waveSum (c : Nat → R) (x : List R) : Outcome R :=
  loop x.length (fun d tmp => do
    let v ← rd x d
    .ok (tmp + c d * v)) 0

/-- `poisson0::rhs` (`src/parameterized_problem.cpp:20-28`). -/
def poisson0RhsAt (x : List R) : Outcome R := do
  let tmp ← loop x.length (fun d tmp => do
    let v ← rd x d
    .ok (tmp + v)) 0
  .ok (M.sin (2 * M.pi * (tmp * m "poisson0::k" + m "poisson0::offset")))

/-- The entries of a vector of three parameters. -/
def entry (name : String) (d : Nat) : R :=
  match d with
  | 0 => m (name ++ "[0]")
  | 1 => m (name ++ "[1]")
  | 2 => m (name ++ "[2]")
  | _ => 0

/-- `poisson_component::bdr` (`src/parameterized_problem.cpp:39-47`). -/
def componentBdrAt (x : List R) : Outcome R := do
  require (decide (x.length ≤ 3))
  let tmp ← waveSum (entry m "poisson_component::bdr_k") x
  .ok (M.sin (2 * M.pi * (tmp + m "poisson_component::bdr_offset")))

/-- `poisson_component::rhs` (`src/parameterized_problem.cpp:49-57`). -/
def componentRhsAt (x : List R) : Outcome R := do
  require (decide (x.length ≤ 3))
  let tmp ← waveSum (entry m "poisson_component::k") x
  .ok (M.sin (2 * M.pi * (tmp + m "poisson_component::offset")))

/-- `advdiff_flow_past_array::qbdr` (`src/parameterized_problem.cpp:313-322`). -/
def qbdrAt (x : List R) : Outcome R := do
  require (decide (x.length ≤ 3))
  let tmp ← waveSum (fun d => match d with
    | 0 => m "advdiff_flow_past_array::qk(0)"
    | 1 => m "advdiff_flow_past_array::qk(1)"
    | 2 => m "advdiff_flow_past_array::qk(2)"
    | _ => 0) x
  .ok (m "advdiff_flow_past_array::q0" + m "advdiff_flow_past_array::dq" *
    M.sin (2 * M.pi * (tmp + m "advdiff_flow_past_array::qoffset")))

/-- `channel_flow::ubdr` (`src/parameterized_problem.cpp:118-126`). -/
def channelUAt (x : List R) (_t : R) (_y : List R) : Outcome (List R) := do
  let y := List.replicate x.length 0
  let x1 ← rd x 1
  let yc := (x1 - m "channel_flow::x0") / m "channel_flow::L"
  wr y 0 (m "channel_flow::U" * (1 - 4 * yc * yc))

/-- `component_flow::ubdr` (`src/parameterized_problem.cpp:136-156`) with `dir` and `flux` (lines 97-111):
`del` and `x0` are the globals `del_u` and `x0` of `flow_problem`. -/
def componentUAt (del : R) (x0 : List R) (x : List R) (_t : R) (y : List R) : Outcome (List R) := do
  let y ← loop x.length (fun i y => do
    let kx ← loop x.length (fun j kx => do
      let v ← rd x j
      if i < 3 ∧ j < 3 then
        .ok (kx + m ("component_flow::k(" ++ toString j ++ "," ++ toString i ++ ")") * v)
      else .error .ub) 0
    let kx := (kx - entry m "component_flow::offsets" i) * (2 * M.pi)
    wr y i (entry m "component_flow::u0" i + entry m "component_flow::du" i * M.sin kx)) y
  require (x0.length == x.length)
  .ok (List.zipWith (· - ·) y ((List.zipWith (· - ·) x x0).map (· * del)))

/-- `backward_facing_step::ubdr` (`src/parameterized_problem.cpp:166-183`). -/
def stepUAt (x : List R) (t : R) (_y : List R) : Outcome (List R) := do
  let y := List.replicate x.length 0
  let y0 := m "backward_facing_step::y0"
  let y1 := m "backward_facing_step::y1"
  let ygap := y1 - y0
  let x1 ← rd x 1
  let y ← wr y 0 (-(m "backward_facing_step::u0") * 4 / ygap / ygap * (y0 - x1) * (y1 - x1))
  loop 2 (fun k y =>
    if entry m "backward_facing_step::amp" k = 0 then .ok y
    else do
      let v ← rd y 1
      wr y 1 (v + entry m "backward_facing_step::amp" k *
        M.sin (M.pi * entry m "backward_facing_step::ky" k * (x1 - y0) / ygap) *
        M.sin (2 * M.pi * (entry m "backward_facing_step::freq" k * t +
          entry m "backward_facing_step::t_offset" k)))) y

/-- `backward_facing_step::uic` (`src/parameterized_problem.cpp:185-193`). -/
def stepIcAt (x : List R) (_t : R) (_y : List R) : Outcome (List R) := do
  let y := List.replicate x.length 0
  let y0 := m "backward_facing_step::y0"
  let y1 := m "backward_facing_step::y1"
  let ygap := y1 - y0
  let x1 ← rd x 1
  wr y 0 (if x1 < y0 then 0
    else -(m "backward_facing_step::u0") * 4 / ygap / ygap * (y0 - x1) * (y1 - x1))

/-- `backward_facing_step::pic` (`src/parameterized_problem.cpp:195-199`). -/
def stepPressureAt (_x : List R) (_t : R) (_y : List R) : Outcome (List R) := .ok [0]

/-- `lid_driven_cavity::ubdr` (`src/parameterized_problem.cpp:208-215`). -/
def lidUAt (x : List R) (_t : R) (_y : List R) : Outcome (List R) := do
  let y := List.replicate x.length 0
  let x0 ← rd x 0
  let L := m "lid_driven_cavity::L"
  wr y 0 (4 / L / L * m "lid_driven_cavity::u0" * x0 * (L - x0))

/-- `periodic_flow_past_array::force` (`src/parameterized_problem.cpp:224-229`); the assignment gives the
result the size of `f`, which is three. -/
def periodicForceAt (_x : List R) (_t : R) (_y : List R) : Outcome (List R) :=
  .ok ((List.range 3).map (entry m "periodic_flow_past_array::f"))

/-- `u = 0.0; u(u.Size()-1) = v`. -/
def lastEntry (u : List R) (v : R) : Outcome (List R) :=
  wrI (u.map fun _ => 0) ((u.length : Int) - 1) v

/-- `linelast_disp::init_disp` (`src/parameterized_problem.cpp:250-254`). -/
def initDispAt (x : List R) (_t : R) (u : List R) : Outcome (List R) := do
  let x0 ← rd x 0
  lastEntry u (-(1 / 5) * x0 * m "linelast_disp::rdisp_f")

/-- `linelast_disp::init_disp_lcantilever` (`src/parameterized_problem.cpp:256-260`). -/
def initDispCantileverAt (x : List R) (_t : R) (u : List R) : Outcome (List R) := do
  let xl ← rdI x ((u.length : Int) - 1)
  lastEntry u (-(1 / 5) * (xl - 5) * m "linelast_disp::rdisp_f")

/-- `linelast_force::tip_force` (`src/parameterized_problem.cpp:269-273`). -/
def tipForceAt (_x : List R) (_t : R) (f : List R) : Outcome (List R) :=
  lastEntry f (-(1 / 100) * m "linelast_force::rforce_f")

/-- `linelast_frame_wind::gravity_load` (`src/parameterized_problem.cpp:284-288`). -/
def gravityLoadAt (_x : List R) (_t : R) (f : List R) : Outcome (List R) :=
  lastEntry f (-(m "linelast_frame_wind::density") * m "linelast_frame_wind::g")

/-- `linelast_frame_wind::wind_load` (`src/parameterized_problem.cpp:290-294`). -/
def windLoadAt (_x : List R) (_t : R) (f : List R) : Outcome (List R) :=
  wr (f.map fun _ => 0) 0 (m "linelast_frame_wind::qwind_f")

/-- `linelast_frame_wind::dirichlet` (`src/parameterized_problem.cpp:296-299`). -/
def frameFixedAt (_x : List R) (_t : R) (u : List R) : Outcome (List R) := .ok (u.map fun _ => 0)

/-- `linelast_cwtrain::perturb_func` (`src/parameterized_problem.cpp:377-380`). -/
def perturb (x amp freq offset : R) : R := amp * M.sin (M.pi * freq * (x / 3 + 2 * offset))

/-- The functions of `linelast_cwtrain` (`src/parameterized_problem.cpp:382-420`): `px`, `py` are the
switches of the two components, `cx`, `cy` the constants and `kx`, `ky` the prefixes of amplitude, frequency
and offset. -/
def trainAt (px py cx cy kx ky : String) (x : List R) (_t : R) (u : List R) : Outcome (List R) := do
  let g := fun s => m ("linelast_cwtrain::" ++ s)
  let u ← if 1 / 2 ≤ g px then do
      let x0 ← rd x 0
      wr u 0 (g cx + perturb M x0 (g (kx ++ "_amp")) (g (kx ++ "_freq")) (g (kx ++ "_offset")))
    else .ok u
  if 1 / 2 ≤ g py then do
    let x1 ← rd x 1
    wr u 1 (g cy + perturb M x1 (g (ky ++ "_amp")) (g (ky ++ "_freq")) (g (ky ++ "_offset")))
  else .ok u

/-- The vector a function leaves for the coefficient; `none` for the scalar functions. -/
def vectorAt (del : R) (x0 : List R) : Fn → Option (List R → R → List R → Outcome (List R))
  | .zero => some fun x _ _ => .ok (List.replicate x.length 0)
  | .channelU => some (channelUAt m)
  | .componentU => some (componentUAt M m del x0)
  | .stepU => some (stepUAt M m)
  | .stepIc => some (stepIcAt m)
  | .stepPressure => some stepPressureAt
  | .lidU => some (lidUAt m)
  | .periodicForce => some (periodicForceAt m)
  | .initDisp => some (initDispAt m)
  | .initDispCantilever => some (initDispCantileverAt m)
  | .tipForce => some (tipForceAt m)
  | .gravityLoad => some (gravityLoadAt m)
  | .windLoad => some (windLoadAt m)
  | .frameFixed => some frameFixedAt
  | .leftDisp => some (trainAt M m "lx" "ly" "l_ux" "l_uy" "xu" "yu")
  | .rightDisp => some (trainAt M m "rx" "ry" "r_fx" "r_fy" "xf" "yf")
  | .upDisp => some (trainAt M m "ux" "uy" "u_fx" "u_fy" "xf" "yf")
  | .downDisp => some (trainAt M m "dx" "dy" "d_fx" "d_fy" "xf" "yf")
  | .bodyForce => some (trainAt M m "bx" "by" "b_fx" "b_fy" "bxf" "byf")
  | _ => none

/-- The vector a vector function leaves, starting from `y`. -/
def valueAt (del : R) (x0 : List R) (f : Fn) (x : List R) (t : R) (y : List R) : Outcome (List R) :=
  match vectorAt M m del x0 f with
  | some g => g x t y
  | none => .error .ub

/-- The value of a scalar function; `none` for vector functions and for `poisson_spiral::rhs`, which is not
modelled. -/
def scalarAt : Fn → Option (List R → Outcome R)
  | .poisson0Rhs => some (poisson0RhsAt M m)
  | .componentBdr => some (componentBdrAt M m)
  | .componentRhs => some (componentRhsAt M m)
  | .qbdr => some (qbdrAt M m)
  | _ => none

/-- The value of a scalar function at a point. -/
def scalarValue (f : Fn) (x : List R) : Outcome R :=
  match scalarAt M m f with
  | some g => g x
  | none => .error .ub

end

end Verif.Problems
