import Verif.Model.Basic

/-!
# Sample generation: distribution over ranks, grid indices, parameters, main loop

Models `src/sample_generator.cpp`, `src/random_sample_generator.cpp`, `src/parameter.cpp` and
`GenerateSamples` of `src/main_workflow.cpp`.
-/

namespace Verif.Sampling

open Verif

/-- `mfem::Array<int>::PartialSum` (MFEM, external): `a[i] += a[i-1]` for `i = 1, 2, ...`. -/
def partialSumFrom {α : Type _} [Add α] (acc : α) : List α → List α
  | [] => []
  | x :: xs => (acc + x) :: partialSumFrom (acc + x) xs

/-- `mfem::Array<int>::PartialSum` on a whole array. -/
def partialSum {α : Type _} [Add α] : List α → List α
  | [] => []
  | x :: xs => x :: partialSumFrom x xs

/-- `SampleGenerator::DistributeSamples`, src/sample_generator.cpp:105-121.  Returns
`sample_offsets`.  Simplification: `total_samples` and `num_procs` are `Nat` (32-bit overflow is not
modelled; sizes are checked positive by `Parameter::SetSize`, include/parameter.hpp:28-29). -/
def distributeSamples (total numProcs : Nat) : Outcome (List Nat) := do
  if numProcs = 0 then .error .ub else
  let quotient := total / numProcs
  let offsets := List.replicate (numProcs + 1) quotient
  let offsets ← wr offsets 0 0
  let remainder := total % numProcs
  let offsets ← loop remainder (fun r o => do
      let v ← rd o (1 + r)
      wr o (1 + r) (v + 1)) offsets
  let offsets := partialSum offsets
  let first ← rd offsets 0
  require (first == 0)
  let last ← rd offsets numProcs
  require (last == total)
  return offsets

/-- `SampleGenerator::IsMyJob(const int &)`, include/sample_generator.hpp:103-104. -/
def isMyJob (offsets : List Nat) (rank idx : Nat) : Outcome Bool := do
  let lo ← rd offsets rank
  let hi ← rd offsets (rank + 1)
  return decide (lo ≤ idx) && decide (idx < hi)

/-- `total_samples` as computed in `SampleGenerator::SetParamSpaceSizes`,
src/sample_generator.cpp:88-99: every size is checked positive (`Parameter::SetSize`,
include/parameter.hpp:28-29) and the sizes are multiplied. -/
def totalSamples (sizes : List Int) : Outcome Int := do
  require (0 < sizes.length)
  let _ ← loop sizes.length (fun p (_ : Unit) => do
      let s ← rd sizes p
      require (decide (s > 0))) ()
  loop sizes.length (fun p acc => do
      let s ← rd sizes p
      return acc * s) 1

/-- `SampleGenerator::GetSampleIndex(const Array<int> &)`, src/sample_generator.cpp:123-137.
`total` is the member `total_samples`; `num_sampling_params` is `sizes.length`. -/
def getSampleIndexFlat (sizes : List Int) (total : Int) (index : List Int) : Outcome Int := do
  require (index.length == sizes.length)
  let i0 ← rd index 0
  let g ← loop (sizes.length - 1) (fun k g => do
      let p := k + 1
      let sz ← rd sizes p
      let ip ← rd index p
      return g * sz + ip) i0
  require (decide (g ≥ 0) && decide (g < total))
  return g

/-- `SampleGenerator::GetSampleIndex(const int &)`, src/sample_generator.cpp:139-156.  C++ `%` and
`/` truncate towards zero; division by zero is undefined behaviour.  `p = n-1, ..., 0`. -/
def getSampleIndexNested (sizes : List Int) (index : Int) : Outcome (List Int) := do
  let n := sizes.length
  let st ← loop n (fun k (st : List Int × Int) => do
      let p := n - 1 - k
      let sz ← rd sizes p
      if sz = 0 then .error .ub else
      let localIdx := st.2.tmod sz
      require (decide (localIdx ≥ 0) && decide (localIdx < sz))
      let nested ← wr st.1 p localIdx
      return (nested, (st.2 - localIdx).tdiv sz)) (List.replicate n 0, index)
  return st.1

/-- `RandomSampleGenerator::GetSampleIndex(const Array<int> &)`,
src/random_sample_generator.cpp:33-46. -/
def randomIndexFlat (numParams : Nat) (total : Int) (index : List Int) : Outcome Int := do
  require (index.length == numParams)
  let g ← rd index 0
  let _ ← loop (numParams - 1) (fun k (_ : Unit) => do
      let ip ← rd index (k + 1)
      require (g == ip)) ()
  require (decide (g ≥ 0) && decide (g < total))
  return g

/-- `RandomSampleGenerator::GetSampleIndex(const int &)`,
src/random_sample_generator.cpp:49-57. -/
def randomIndexNested (numParams : Nat) (total : Int) (index : Int) : Outcome (List Int) := do
  require (decide (index ≥ 0) && decide (index < total))
  return List.replicate numParams index

/-! ## Parameters -/

/-- `IntegerParam::GetInteger`, src/parameter.cpp:85-96 (C++ `/` truncates). -/
def integerParam (minval maxval : Int) (size : Int) (i : Int) : Outcome Int := do
  require (decide (size > 0))
  require (decide (i ≥ 0) && decide (i < size))
  let np := if size = 1 then 1 else size - 1
  let dp := (maxval - minval).tdiv np
  return minval + i * dp

/-- `FilenameParam::SetParam`, src/parameter.cpp:114-120: the file name written to the
configuration.  `fmt` stands for `string_format(format, ·)` (include/etc.hpp:32-40), a printf-style
formatter which is not modelled. -/
def filenameParam (fmt : Int → String) (minval maxval size i : Int) : Outcome String := do
  let v ← integerParam minval maxval size i
  return fmt v

/-- `FilenameParam::ParseFilenames`, src/parameter.cpp:130-135: `for (k = minval; k <= maxval; k++)
filenames.push_back(...)`.  The trip count of the C++ loop is `maxval - minval + 1`, or zero. -/
def parseFilenames (fmt : Int → String) (minval maxval : Int) (filenames : List String) :
    Outcome (List String) :=
  loop (maxval - minval + 1).toNat (fun k acc => .ok (acc ++ [fmt (minval + k)])) filenames

/-- `IntegerParam::SetMaximumSize`, include/parameter.hpp:65, through `Parameter::SetSize`,
include/parameter.hpp:28-29. -/
def setMaximumSize (minval maxval : Int) : Outcome Int := do
  let n := maxval - minval
  require (decide (n > 0))
  return n

/-! ## The main sampling loop -/

/-- `SampleGeneratorType`, include/sample_generator.hpp. -/
inductive GenType where
  | base
  | random
deriving DecidableEq, Repr

/-- State of the `while` loop of `GenerateSamples`, src/main_workflow.cpp:154-202: the loop
variable `s`, the number of solver runs so far (the position in the convergence history), and the
list of samples whose solution files were written, in order. -/
structure GenState where
  s : Nat
  attempts : Nat
  saved : List Nat
deriving DecidableEq, Repr

/-- Result of running the loop for a number of iterations. -/
inductive GenResult where
  | finished (st : GenState)
  | aborted (st : GenState)
  | running (st : GenState)
deriving DecidableEq, Repr

/-- One iteration of the `while` loop of `GenerateSamples`, src/main_workflow.cpp:155-202.
`mine s` is `IsMyJob(s)`; `conv k` is the value returned by the `k`-th call of `Solve`.  Solver
construction, assembly, visualization are not modelled.  Line 157: `continue` without increment. -/
def genStep (total : Nat) (mine : Nat → Bool) (ty : GenType) (conv : Nat → Bool) (st : GenState) :
    GenResult :=
  if st.s < total then
    if !mine st.s then .running st
    else if !conv st.attempts then
      match ty with
      | .base => .aborted { st with attempts := st.attempts + 1 }
      | .random => .running { st with attempts := st.attempts + 1 }
    else .running { s := st.s + 1, attempts := st.attempts + 1, saved := st.saved ++ [st.s] }
  else .finished st

/-- `fuel` iterations of the loop of `GenerateSamples`. -/
def genRun (total : Nat) (mine : Nat → Bool) (ty : GenType) (conv : Nat → Bool) :
    Nat → GenState → GenResult
  | 0, st => .running st
  | fuel + 1, st =>
    match genStep total mine ty conv st with
    | .running st' => genRun total mine ty conv fuel st'
    | r => r

/-- `int s = 0;` and nothing saved, src/main_workflow.cpp:154. -/
def genInit : GenState := { s := 0, attempts := 0, saved := [] }

end Verif.Sampling
