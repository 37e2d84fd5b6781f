import Verif.Model.Problems

/-!
# What the problems prescribe

Boundaries are denoted by their attributes. In the box-shaped components 1 is the bottom, 2 the right, 3 the
top, 4 the left side and 5 the surface of the obstacle inside.
-/

namespace Verif.Problems.Spec

open Verif.Params

/-- A condition on a boundary: a prescribed value, a prescribed load (traction), or nothing, which leaves the
natural condition. -/
inductive Cond where
  | value (f : Fn)
  | load (f : Fn)
  | natural
deriving DecidableEq, Repr

/-- Flow past an array once parameters are set: the flow comes in through the sides its direction points
away from, leaves through the opposite sides; `obstacle` is the condition on the obstacle. -/
def array (inflow : Fn) (obstacle : Cond) (m : Mem) (a : Int) : Cond :=
  if a = 4 then if 0 < m "component_flow::u0[0]" then .value inflow else .natural
  else if a = 2 then if 0 < m "component_flow::u0[0]" then .natural else .value inflow
  else if a = 1 then if 0 < m "component_flow::u0[1]" then .value inflow else .natural
  else if a = 3 then if 0 < m "component_flow::u0[1]" then .natural else .value inflow
  else if a = 5 then obstacle
  else .natural

/-- The condition of a problem on the boundary with attribute `a`. `tuned` says whether parameters have been
set since construction, `m` are the parameters. -/
def condition (name : String) (tuned : Bool) (m : Mem) (a : Int) : Cond :=
  match name with
  -- zero on the whole boundary
  | "poisson0" => .value .zero
  | "poisson_spiral" => .value .zero
  -- a wave on the whole boundary, or on the side selected by `bdr_idx`
  | "poisson_component" =>
    if tuned = true ∧ 0 ≤ m "poisson_component::bdr_idx" then
      if a = 1 + (m "poisson_component::bdr_idx").floor then .value .componentBdr else .natural
    else .value .componentBdr
  -- inflow on the left, outflow on the right, walls elsewhere
  | "channel_flow" =>
    if a = 4 then .value .channelU else if a = 1 ∨ a = 3 ∨ a = 5 then .value .zero else .natural
  -- prescribed velocity on the sides, no slip on the obstacle
  | "component_flow" =>
    if a = 5 then .value .zero else if 1 ≤ a ∧ a ≤ 4 then .value .componentU else .natural
  | "flow_past_array" =>
    if tuned then array .componentU (.value .zero) m a
    else if a = 5 then .value .zero else if 1 ≤ a ∧ a ≤ 4 then .value .componentU else .natural
  -- 1: inflow, 2: wall, 3: outflow
  | "backward_facing_step" =>
    if a = 1 then .value .stepU else if a = 2 then .value .zero else .natural
  -- "all boundaries are zero except boundary attribute 3"
  | "lid_driven_cavity" =>
    if a = 3 then .value .lidU else if 1 ≤ a ∧ a ≤ 5 then .value .zero else .natural
  -- walls, open at top and left
  | "force_driven_corner" => if a = 1 ∨ a = 2 ∨ a = 5 then .value .zero else .natural
  -- no slip on the obstacle, periodic elsewhere
  | "periodic_flow_past_array" => if a = 5 then .value .zero else .natural
  -- 1, 2: displacement, 3: zero
  | "linelast_disp" =>
    if a = 1 ∨ a = 2 then .value .initDisp else if a = 3 then .value .zero else .natural
  -- 1, 2: displacement, 3: no traction
  | "linelast_disp_lcantilever" =>
    if a = 1 ∨ a = 2 then .value .initDispCantilever else .natural
  -- displacement on the right and on the left
  | "linelast_disp_lattice" => if a = 2 ∨ a = 4 then .value .initDisp else .natural
  -- force on the right, clamped on the left
  | "linelast_force_cantilever" =>
    if a = 2 then .load .tipForce else if a = 4 then .value .initDisp else .natural
  -- 1: wind, 4: fixed
  | "linelast_frame_wind" =>
    if a = 1 then .load .windLoad else if a = 4 then .value .frameFixed else .natural
  | "linelast_cwtrain" =>
    if a = 1 then .load .downDisp else if a = 2 then .load .rightDisp
    else if a = 3 then .load .upDisp else if a = 4 then .value .leftDisp else .natural
  -- a wave on the sides, no flux through the obstacle
  | "advdiff_flow_past_array" =>
    if tuned then array .qbdr .natural m a
    else if 1 ≤ a ∧ a ≤ 4 then .value .qbdr else .natural
  | _ => .natural

/-- Problems for the Poisson and the advection-diffusion solver. -/
def scalarProblems : List String :=
  ["poisson0", "poisson_component", "poisson_spiral", "advdiff_flow_past_array"]

/-- Problems for the Stokes and Navier-Stokes solvers. -/
def flowProblems : List String :=
  ["channel_flow", "component_flow", "flow_past_array", "backward_facing_step", "lid_driven_cavity",
    "force_driven_corner", "periodic_flow_past_array"]

/-- Problems for the elasticity solver. -/
def elasticityProblems : List String :=
  ["linelast_disp", "linelast_disp_lcantilever", "linelast_disp_lattice", "linelast_force_cantilever",
    "linelast_frame_wind", "linelast_cwtrain"]

/-- The force in the volume. -/
def force : String → Fn
  | "poisson0" => .poisson0Rhs
  | "poisson_component" => .componentRhs
  | "poisson_spiral" => .spiralRhs
  | "force_driven_corner" => .periodicForce
  | "periodic_flow_past_array" => .periodicForce
  | "linelast_frame_wind" => .gravityLoad
  | "linelast_cwtrain" => .bodyForce
  | _ => .zero

/-- What the mathematical functions satisfy: the sine vanishes at the multiples of pi. -/
def Trig {R : Type} [Field R] (M : Math R) : Prop := ∀ n : Int, M.sin (n * M.pi) = 0

/-- A vector function is determined by point and time: what the vector contained before does not matter. -/
def Determined {R : Type} (f : List R → R → List R → Outcome (List R)) (dim : Nat) : Prop :=
  ∀ (x : List R) (t : R) (y z : List R), x.length = dim → y.length = dim → z.length = dim →
    f x t y = f x t z

end Verif.Problems.Spec
