import Verif.Model.Params

/-!
# The parameters of the problems

For every problem, the name of each parameter and the variable it stands for.
-/

namespace Verif.Params.Spec

open Verif.Params

/-- The parameters of flows through components. -/
def flow : List (String × String) :=
  [("nu", "flow_problem::nu"),
      ("u0_x", "component_flow::u0[0]"), ("du_x", "component_flow::du[0]"),
      ("offsets_x", "component_flow::offsets[0]"), ("k_u_x", "component_flow::k(0,0)"),
      ("k_u_y", "component_flow::k(1,0)"), ("k_u_z", "component_flow::k(2,0)"),
      ("u0_y", "component_flow::u0[1]"), ("du_y", "component_flow::du[1]"),
      ("offsets_y", "component_flow::offsets[1]"), ("k_v_x", "component_flow::k(0,1)"),
      ("k_v_y", "component_flow::k(1,1)"), ("k_v_z", "component_flow::k(2,1)"),
      ("u0_z", "component_flow::u0[2]"), ("du_z", "component_flow::du[2]"),
      ("offsets_z", "component_flow::offsets[2]"), ("k_w_x", "component_flow::k(0,2)"),
      ("k_w_y", "component_flow::k(1,2)"), ("k_w_z", "component_flow::k(2,2)")]

/-- The material parameters of elasticity problems. -/
def material : List (String × String) :=
  [("lambda", "linelast_problem::_lambda"), ("mu", "linelast_problem::_mu")]

/-- The parameters of every problem: name and variable. -/
def paramsOf : String → Option (List (String × String))
  | "poisson0" => some [("k", "poisson0::k"), ("offset", "poisson0::offset")]
  | "poisson_component" => some [("k0", "poisson_component::k[0]"), ("bdr_k0", "poisson_component::bdr_k[0]"),
      ("k1", "poisson_component::k[1]"), ("bdr_k1", "poisson_component::bdr_k[1]"),
      ("k2", "poisson_component::k[2]"), ("bdr_k2", "poisson_component::bdr_k[2]"),
      ("offset", "poisson_component::offset"), ("bdr_offset", "poisson_component::bdr_offset"),
      ("bdr_idx", "poisson_component::bdr_idx")]
  | "poisson_spiral" => some [("L", "poisson_spiral::L"), ("Lw", "poisson_spiral::Lw"),
      ("k", "poisson_spiral::k"), ("s", "poisson_spiral::s")]
  | "channel_flow" => some [("nu", "flow_problem::nu"), ("L", "channel_flow::L"), ("U", "channel_flow::U"),
      ("x0", "channel_flow::x0")]
  | "component_flow" => some flow
  | "flow_past_array" => some flow
  | "backward_facing_step" => some [("nu", "flow_problem::nu"), ("y0", "backward_facing_step::y0"),
      ("y1", "backward_facing_step::y1"), ("u0", "backward_facing_step::u0"),
      ("amp0", "backward_facing_step::amp[0]"), ("ky0", "backward_facing_step::ky[0]"),
      ("freq0", "backward_facing_step::freq[0]"), ("t_offset0", "backward_facing_step::t_offset[0]"),
      ("amp1", "backward_facing_step::amp[1]"), ("ky1", "backward_facing_step::ky[1]"),
      ("freq1", "backward_facing_step::freq[1]"), ("t_offset1", "backward_facing_step::t_offset[1]")]
  | "lid_driven_cavity" => some [("nu", "flow_problem::nu"), ("u0", "lid_driven_cavity::u0"),
      ("L", "lid_driven_cavity::L")]
  | "force_driven_corner" => some [("nu", "flow_problem::nu"), ("fx", "periodic_flow_past_array::f[0]"), ("fy", "periodic_flow_past_array::f[1]"),
      ("fz", "periodic_flow_past_array::f[2]")]
  | "periodic_flow_past_array" => some [("nu", "flow_problem::nu"), ("fx", "periodic_flow_past_array::f[0]"), ("fy", "periodic_flow_past_array::f[1]"),
      ("fz", "periodic_flow_past_array::f[2]")]
  | "linelast_disp" => some (("rdisp_f", "linelast_disp::rdisp_f") :: material)
  | "linelast_disp_lcantilever" => some (("rdisp_f", "linelast_disp::rdisp_f") :: material)
  | "linelast_disp_lattice" => some (("rdisp_f", "linelast_disp::rdisp_f") :: material)
  | "linelast_force_cantilever" => some (("rforce_f", "linelast_force::rforce_f") :: material)
  | "linelast_cwtrain" => some (
      [("l_ux", "linelast_cwtrain::l_ux"), ("l_uy", "linelast_cwtrain::l_uy"), ("r_fx",
      "linelast_cwtrain::r_fx"), ("r_fy", "linelast_cwtrain::r_fy"), ("u_fx",
      "linelast_cwtrain::u_fx"), ("u_fy", "linelast_cwtrain::u_fy"), ("d_fx",
      "linelast_cwtrain::d_fx"), ("d_fy", "linelast_cwtrain::d_fy"), ("lx", "linelast_cwtrain::lx"),
      ("ly", "linelast_cwtrain::ly"), ("rx", "linelast_cwtrain::rx"), ("ry",
      "linelast_cwtrain::ry"), ("dx", "linelast_cwtrain::dx"), ("dy", "linelast_cwtrain::dy"),
      ("ux", "linelast_cwtrain::ux"), ("uy", "linelast_cwtrain::uy")] ++ material ++
      [("xu_amp", "linelast_cwtrain::xu_amp"), ("xu_freq", "linelast_cwtrain::xu_freq"), ("xu_offset",
      "linelast_cwtrain::xu_offset"), ("xf_amp", "linelast_cwtrain::xf_amp"), ("xf_freq",
      "linelast_cwtrain::xf_freq"), ("xf_offset", "linelast_cwtrain::xf_offset"), ("yu_amp",
      "linelast_cwtrain::yu_amp"), ("yu_freq", "linelast_cwtrain::yu_freq"), ("yu_offset",
      "linelast_cwtrain::yu_offset"), ("yf_amp", "linelast_cwtrain::yf_amp"), ("yf_freq",
      "linelast_cwtrain::yf_freq"), ("yf_offset", "linelast_cwtrain::yf_offset"), ("b_fx",
      "linelast_cwtrain::b_fx"), ("b_fy", "linelast_cwtrain::b_fy"), ("bxf_amp",
      "linelast_cwtrain::bxf_amp"), ("bxf_freq", "linelast_cwtrain::bxf_freq"), ("bxf_offset",
      "linelast_cwtrain::bxf_offset"), ("byf_amp", "linelast_cwtrain::byf_amp"), ("byf_freq",
      "linelast_cwtrain::byf_freq"), ("byf_offset", "linelast_cwtrain::byf_offset"), ("bx",
      "linelast_cwtrain::bx"), ("by", "linelast_cwtrain::by")])
  | "linelast_frame_wind" => some (material ++ [("qwind_f", "linelast_frame_wind::qwind_f"),
      ("density", "linelast_frame_wind::density"), ("g", "linelast_frame_wind::g")])
  | "advdiff_flow_past_array" => some (flow ++ [("q0", "advdiff_flow_past_array::q0"),
      ("dq", "advdiff_flow_past_array::dq"), ("qoffset", "advdiff_flow_past_array::qoffset"),
      ("qk_x", "advdiff_flow_past_array::qk(0)"), ("qk_y", "advdiff_flow_past_array::qk(1)"),
      ("qk_z", "advdiff_flow_past_array::qk(2)")])
  | _ => none

/-- The value a list of settings leaves behind: the last one made for the key, or the old value. -/
def lastFor (key : String) (old : Rat) (entries : List (String × Rat)) : Rat :=
  entries.foldl (fun v e => if e.1 = key then e.2 else v) old

end Verif.Params.Spec
