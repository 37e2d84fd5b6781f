import Verif.Model.Boundary

/-!
# Parameters of the problems (`src/parameterized_problem.cpp`)

Parameters live in global variables of `function_factory`; a problem keeps a map from names to indices and
an array of pointers to the variables. A variable is denoted by its name. Values are rational numbers, as
all finite doubles are.
-/

namespace Verif.Params

open Verif Verif.Boundary

/-- The global variables. -/
abbrev Mem := String → Rat

/-- Writing a global variable. -/
def Mem.set (m : Mem) (x : String) (v : Rat) : Mem := fun y => if y = x then v else m y

/-- `param_map`, `param_ptr` and `param_num` of a problem (`include/parameterized_problem.hpp:229-232`).
A pointer that was never set and a count that was never set are `none`. -/
structure Table where
  num : Option Nat
  map : List (String × Int)
  ptr : List (Option String)
deriving DecidableEq, Repr

/-- `param_map[name] = i` on a map kept as an association list. -/
def mapSet (name : String) (i : Int) : List (String × Int) → List (String × Int)
  | [] => [(name, i)]
  | (n, j) :: l => if n = name then (n, i) :: l else (n, j) :: mapSet name i l

/-- Looking up a name. -/
def mapGet (name : String) : List (String × Int) → Option Int
  | [] => none
  | (n, i) :: l => if n = name then some i else mapGet name l

/-- The assignments to `param_map` and `param_ptr` in a constructor, in order. -/
def build (num : Option Nat) (map : List (String × Int)) (size : Nat) (ptr : List (Int × String)) :
    Outcome Table := do
  let p ← ptr.foldlM (fun b e => wrI b e.1 (some e.2)) (List.replicate size none)
  .ok ⟨num, map.foldl (fun m e => mapSet e.1 e.2 m) [], p⟩

/-- `Poisson0` (`src/parameterized_problem.cpp:571`, `586-591`). -/
def poisson0 : Outcome Table :=
  build (some 2) [("k", 0), ("offset", 1)] 2 [(0, "poisson0::k"), (1, "poisson0::offset")]

/-- `PoissonComponent` (`src/parameterized_problem.cpp:601-637`). -/
def poissonComponent : Outcome Table :=
  build (some 9)
    ([("k0", 0), ("bdr_k0", 4), ("k1", 1), ("bdr_k1", 5), ("k2", 2), ("bdr_k2", 6)] ++
      [("offset", 3), ("bdr_offset", 7), ("bdr_idx", 8)]) 9
    ([(0, "poisson_component::k[0]"), (4, "poisson_component::bdr_k[0]"),
      (1, "poisson_component::k[1]"), (5, "poisson_component::bdr_k[1]"),
      (2, "poisson_component::k[2]"), (6, "poisson_component::bdr_k[2]")] ++
      [(3, "poisson_component::offset"), (7, "poisson_component::bdr_offset"),
        (8, "poisson_component::bdr_idx")])

/-- `PoissonSpiral` (`src/parameterized_problem.cpp:668-691`). -/
def poissonSpiral : Outcome Table :=
  build (some 4) [("L", 0), ("Lw", 1), ("k", 2), ("s", 3)] 4
    [(0, "poisson_spiral::L"), (1, "poisson_spiral::Lw"), (2, "poisson_spiral::k"),
      (3, "poisson_spiral::s")]

/-- `ChannelFlow` (`src/parameterized_problem.cpp:714-731`). -/
def channelFlow : Outcome Table :=
  build (some 4) [("nu", 0), ("L", 1), ("U", 2), ("x0", 3)] 4
    [(0, "flow_problem::nu"), (1, "channel_flow::L"), (2, "channel_flow::U"), (3, "channel_flow::x0")]

/-- The names registered by `ComponentFlow` (`src/parameterized_problem.cpp:761-778`). -/
def componentFlowMap : List (String × Int) :=
  ("nu", 0) :: ([0, 1, 2] : List Nat).flatMap fun (i : Nat) =>
    let x := ["_x", "_y", "_z"][i]!
    let u := ["_u", "_v", "_w"][i]!
    [("u0" ++ x, (i : Int) + 1), ("du" ++ x, (i : Int) + 4), ("offsets" ++ x, (i : Int) + 7)] ++
      ([0, 1, 2] : List Nat).map fun (j : Nat) =>
        ("k" ++ u ++ ["_x", "_y", "_z"][j]!, 10 + 3 * (i : Int) + j)

/-- The pointers registered by `ComponentFlow` (`src/parameterized_problem.cpp:780-789`). -/
def componentFlowPtr : List (Int × String) :=
  (0, "flow_problem::nu") :: ([0, 1, 2] : List Nat).flatMap fun (i : Nat) =>
    [(1 + (i : Int), "component_flow::u0[" ++ ["0", "1", "2"][i]! ++ "]"),
      (4 + (i : Int), "component_flow::du[" ++ ["0", "1", "2"][i]! ++ "]"),
      (7 + (i : Int), "component_flow::offsets[" ++ ["0", "1", "2"][i]! ++ "]")] ++
      ([0, 1, 2] : List Nat).map fun (j : Nat) =>
        (10 + 3 * (i : Int) + j,
          "component_flow::k(" ++ ["0", "1", "2"][j]! ++ "," ++ ["0", "1", "2"][i]! ++ ")")

/-- `ComponentFlow`, `FlowPastArray` (`src/parameterized_problem.cpp:749-798`). -/
def componentFlow : Outcome Table :=
  build (some (1 + 3 * 3 + 3 * 3)) componentFlowMap (1 + 3 * 3 + 3 * 3) componentFlowPtr

/-- `BackwardFacingStep` (`src/parameterized_problem.cpp:870-910`). -/
def backwardFacingStep : Outcome Table :=
  build (some (4 + 2 * 4))
    ([("nu", 0), ("y0", 1), ("y1", 2), ("u0", 3)] ++
      [("amp0", 4), ("ky0", 5), ("freq0", 6), ("t_offset0", 7)] ++
      [("amp1", 4 + 4), ("ky1", 5 + 4), ("freq1", 6 + 4), ("t_offset1", 7 + 4)]) (4 + 2 * 4)
    ([(0, "flow_problem::nu"), (1, "backward_facing_step::y0"), (2, "backward_facing_step::y1"),
        (3, "backward_facing_step::u0")] ++
      [(4, "backward_facing_step::amp[0]"), (5, "backward_facing_step::ky[0]"),
        (6, "backward_facing_step::freq[0]"), (7, "backward_facing_step::t_offset[0]")] ++
      [(4 + 4, "backward_facing_step::amp[1]"), (5 + 4, "backward_facing_step::ky[1]"),
        (6 + 4, "backward_facing_step::freq[1]"), (7 + 4, "backward_facing_step::t_offset[1]")])

/-- `LidDrivenCavity` (`src/parameterized_problem.cpp:937-951`). -/
def lidDrivenCavity : Outcome Table :=
  build (some 3) [("nu", 0), ("u0", 1), ("L", 2)] 3
    [(0, "flow_problem::nu"), (1, "lid_driven_cavity::u0"), (2, "lid_driven_cavity::L")]

/-- `PeriodicFlowPastArray`, `ForceDrivenCorner` (`src/parameterized_problem.cpp:971-987`). -/
def periodicFlowPastArray : Outcome Table :=
  build (some 4) [("nu", 0), ("fx", 1), ("fy", 2), ("fz", 3)] 4
    [(0, "flow_problem::nu"), (1, "periodic_flow_past_array::f[0]"),
      (2, "periodic_flow_past_array::f[1]"), (3, "periodic_flow_past_array::f[2]")]

/-- `LinElastDisp`, `LinElastDispLCantilever`, `LinElastDispLattice`
(`src/parameterized_problem.cpp:1046-1053`, `1085-1092`, `1141-1148`): `param_num` is never set. -/
def linElastDisp : Outcome Table :=
  build none [("rdisp_f", 0), ("lambda", 1), ("mu", 2)] 3
    [(0, "linelast_disp::rdisp_f"), (1, "linelast_problem::_lambda"), (2, "linelast_problem::_mu")]

/-- `LinElastForceCantilever` (`src/parameterized_problem.cpp:1198-1205`). -/
def linElastForce : Outcome Table :=
  build none [("rforce_f", 0), ("lambda", 1), ("mu", 2)] 3
    [(0, "linelast_force::rforce_f"), (1, "linelast_problem::_lambda"), (2, "linelast_problem::_mu")]

/-- `LinElastFrameWind` (`src/parameterized_problem.cpp:1256-1267`). -/
def linElastFrameWind : Outcome Table :=
  build none [("lambda", 0), ("mu", 1), ("qwind_f", 2), ("density", 3), ("g", 4)] 5
    [(0, "linelast_problem::_lambda"), (1, "linelast_problem::_mu"), (2, "linelast_frame_wind::qwind_f"),
      (3, "linelast_frame_wind::density"), (4, "linelast_frame_wind::g")]

/-- The names registered by `LinElastComponentWiseTrain`, in order of their indices
(`src/parameterized_problem.cpp:1414-1453`). -/
def cwTrainNames : List String :=
  ["l_ux", "l_uy", "r_fx", "r_fy", "u_fx", "u_fy", "d_fx", "d_fy", "lx", "ly", "rx", "ry", "dx", "dy",
    "ux", "uy", "lambda", "mu", "xu_amp", "xu_freq", "xu_offset", "xf_amp", "xf_freq", "xf_offset",
    "yu_amp", "yu_freq", "yu_offset", "yf_amp", "yf_freq", "yf_offset", "b_fx", "b_fy", "bxf_amp",
    "bxf_freq", "bxf_offset", "byf_amp", "byf_freq", "byf_offset", "bx", "by"]

/-- The variables registered by `LinElastComponentWiseTrain` (`src/parameterized_problem.cpp:1455-1496`). -/
def cwTrainVars : List String :=
  ["l_ux", "l_uy", "r_fx", "r_fy", "u_fx", "u_fy", "d_fx", "d_fy", "lx", "ly", "rx", "ry", "dx", "dy",
      "ux", "uy"].map ("linelast_cwtrain::" ++ ·) ++
    ["linelast_problem::_lambda", "linelast_problem::_mu"] ++
    ["xu_amp", "xu_freq", "xu_offset", "xf_amp", "xf_freq", "xf_offset", "yu_amp", "yu_freq",
      "yu_offset", "yf_amp", "yf_freq", "yf_offset", "b_fx", "b_fy", "bxf_amp", "bxf_freq", "bxf_offset",
      "byf_amp", "byf_freq", "byf_offset", "bx", "by"].map ("linelast_cwtrain::" ++ ·)

/-- `LinElastComponentWiseTrain` (`src/parameterized_problem.cpp:1413-1496`). -/
def linElastCwTrain : Outcome Table :=
  build none (cwTrainNames.zipIdx.map fun e => (e.1, (e.2 : Int))) 40
    (cwTrainVars.zipIdx.map fun e => ((e.2 : Int), e.1))

/-- `AdvDiffFlowPastArray` (`src/parameterized_problem.cpp:1294-1318`): six more parameters, whose names
point behind those of the flow problem and whose variables are appended. -/
def advDiffFlowPastArray : Outcome Table := do
  let f ← componentFlow
  let num ← match f.num with
    | some n => Except.ok n
    | none => .error .ub
  let p0 : Int := num
  .ok ⟨some (num + (1 + 1 + 1 + 3)),
    [("q0", p0), ("dq", p0 + 1), ("qoffset", p0 + 2), ("qk_x", p0 + 3), ("qk_y", p0 + 4),
      ("qk_z", p0 + 5)].foldl (fun m e => mapSet e.1 e.2 m) f.map,
    f.ptr ++ [some "advdiff_flow_past_array::q0", some "advdiff_flow_past_array::dq",
      some "advdiff_flow_past_array::qoffset", some "advdiff_flow_past_array::qk(0)",
      some "advdiff_flow_past_array::qk(1)", some "advdiff_flow_past_array::qk(2)"]⟩

/-- `InitParameterizedProblem` (`src/parameterized_problem.cpp:483-562`), the parameter tables only. -/
def initProblem (name : String) : Outcome Table :=
  if name = "poisson0" then poisson0
  else if name = "poisson_component" then poissonComponent
  else if name = "poisson_spiral" then poissonSpiral
  else if name = "channel_flow" then channelFlow
  else if name = "component_flow" then componentFlow
  else if name = "flow_past_array" then componentFlow
  else if name = "backward_facing_step" then backwardFacingStep
  else if name = "lid_driven_cavity" then lidDrivenCavity
  else if name = "force_driven_corner" then periodicFlowPastArray
  else if name = "periodic_flow_past_array" then periodicFlowPastArray
  else if name = "linelast_disp" then linElastDisp
  else if name = "linelast_disp_lcantilever" then linElastDisp
  else if name = "linelast_disp_lattice" then linElastDisp
  else if name = "linelast_force_cantilever" then linElastForce
  else if name = "linelast_cwtrain" then linElastCwTrain
  else if name = "linelast_frame_wind" then linElastFrameWind
  else if name = "advdiff_flow_past_array" then advDiffFlowPastArray
  else .error .abort

/-- `(*param_ptr[i]) = value`. -/
def store (t : Table) (i : Int) (v : Rat) (m : Mem) : Outcome Mem := do
  let p ← rdI t.ptr i
  match p with
  | none => .error .ub
  | some x => .ok (m.set x v)

/-- `ParameterizedProblem::SetParams(key, value)` (`src/parameterized_problem.cpp:440-449`). -/
def setParam (t : Table) (key : String) (v : Rat) (m : Mem) : Outcome Mem :=
  match mapGet key t.map with
  | none => .error .abort
  | some i => store t i v m

/-- `ParameterizedProblem::GetParamIndex` (`include/parameterized_problem.hpp:241-246`). -/
def paramIndex (t : Table) (key : String) : Outcome Int :=
  match mapGet key t.map with
  | none => .error .abort
  | some i => .ok i

/-- `ParameterizedProblem::SetParams(indexes, values)` (`src/parameterized_problem.cpp:451-458`). Reading
`param_num` before it is set is undefined. -/
def setParams (t : Table) (idx : List Int) (vals : List Rat) (m : Mem) : Outcome Mem := do
  let n ← match t.num with
    | some n => Except.ok n
    | none => .error .ub
  require (decide (idx.length ≤ n))
  require (decide (idx.length = vals.length))
  loop idx.length (fun k m => do
    let i ← rd idx k
    let v ← rd vals k
    store t i v m) m

/-- `ParameterizedProblem::SetSingleRun` (`src/parameterized_problem.cpp:459-481`), given the entries of
the table `single_run/<problem>`. -/
def singleRun (t : Table) (entries : List (String × Rat)) (m : Mem) : Outcome Mem :=
  entries.foldlM (fun m e => setParam t e.1 e.2 m) m

/-- `PoissonComponent::SetBattr` (`src/parameterized_problem.cpp:639-648`): the list `battr` has one
entry. -/
def componentBattr (m : Mem) : Outcome Int :=
  let bidx := m "poisson_component::bdr_idx"
  if 0 ≤ bidx then do
    let b : Int := 1 + bidx.floor
    require (decide (1 ≤ b) && decide (b ≤ 4))
    .ok b
  else .ok (-1)

/-- `PoissonComponent::SetParams` (`src/parameterized_problem.cpp:650-659`). -/
def componentSetParam (t : Table) (key : String) (v : Rat) (m : Mem) : Outcome (Mem × Int) := do
  let m ← setParam t key v m
  let b ← componentBattr m
  .ok (m, b)

/-- One pair of opposite boundaries in `FlowPastArray::SetBattr`. -/
def inflow (u : Rat) (a b : Nat) (types : List BdrType) : Outcome (List BdrType) :=
  if 0 < u then do
    let types ← wr types a .dirichlet
    wr types b .neumann
  else do
    let types ← wr types b .dirichlet
    wr types a .neumann

/-- `FlowPastArray::SetBattr` (`src/parameterized_problem.cpp:812-836`). -/
def arrayBattr (m : Mem) (types : List BdrType) : Outcome (List BdrType) := do
  let types ← inflow (m "component_flow::u0[0]") 3 1 types
  inflow (m "component_flow::u0[1]") 0 2 types

/-- `FlowPastArray::SetParams` (`src/parameterized_problem.cpp:800-810`). -/
def arraySetParam (t : Table) (key : String) (v : Rat) (m : Mem) (types : List BdrType) :
    Outcome (Mem × List BdrType) := do
  let m ← setParam t key v m
  let types ← arrayBattr m types
  .ok (m, types)

/-- A call of one of the two setters. -/
inductive Call where
  | one (key : String) (v : Rat)
  | many (idx : List Int) (vals : List Rat)
deriving DecidableEq, Repr

/-- A history of calls. -/
def run (t : Table) (calls : List Call) (m : Mem) : Outcome Mem :=
  calls.foldlM (fun m c => match c with
    | .one k v => setParam t k v m
    | .many i v => setParams t i v m) m

end Verif.Params
