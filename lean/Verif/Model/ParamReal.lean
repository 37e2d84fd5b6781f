import Verif.Model.Basic
import Mathlib.Analysis.SpecialFunctions.Pow.Real

/-!
# Double-valued sampling parameters

Models `DoubleParam` of `src/parameter.cpp` over the real numbers (floating-point rounding is not
modelled).
-/

namespace Verif.ParamReal

open Verif

/-- `DoubleParam::SetParam`, src/parameter.cpp:21-41: the value handed to `parser.SetOption`.
`size` and `param_index` are C++ `int`s.  For `log_scale` with a nonpositive end point C++ yields NaN
or infinity; the real functions used here return unspecified reals there, so the theorems about
`log_scale` assume positive end points. -/
noncomputable def setParam (logScale : Bool) (minval maxval : ℝ) (size i : Int) : Outcome ℝ := do
  require (decide (size > 0))
  require (decide (i ≥ 0) && decide (i < size))
  let np : Int := if size = 1 then 1 else size - 1
  if logScale then
    let dp := Real.log (maxval / minval) / (np : ℝ)
    let dp := Real.exp dp
    return minval * dp ^ (i : ℝ)
  else
    let dp := (maxval - minval) / (np : ℝ)
    return minval + (i : ℝ) * dp

/-- `DoubleParam::SetRandomParam`, src/parameter.cpp:43-59; `u` is the value of
`UniformRandom()` (src/etc.cpp:12-18), a number in `[0,1)`. -/
noncomputable def setRandomParam (logScale : Bool) (minval maxval u : ℝ) : ℝ :=
  if logScale then
    let range := maxval / minval
    minval * range ^ u
  else
    let range := maxval - minval
    minval + range * u

end Verif.ParamReal
