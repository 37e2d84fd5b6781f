import Verif.Model.Options
import Verif.Model.ParamReal

/-!
# The configuration of every sample

The sampling parameters read from the configuration, what `SetSampleParams` writes into the
configuration, and the loop of `GenerateSamples` with the configuration as part of its state.
Simplifications: real numbers for `double`, unbounded integers; one process distributes the samples as
in `Verif.Sampling`, here `mine` says which are its own; the work between `SetSampleParams` and
`SaveSolution` is reduced to whether it converged and does not change the configuration.
-/

namespace Verif.SampleConfig

open Verif Verif.Options

/-- The conversions between YAML nodes and values. -/
structure Codec extends Conv where
  dbl : Node → Outcome ℝ
  bool : Node → Outcome Bool
  ofDbl : ℝ → Node
  ofInt : Int → Node
  ofStr : String → Node

/-- `DoubleParam`, `IntegerParam`, `FilenameParam` (`include/parameter.hpp:35-83`). -/
inductive Kind where
  | double (logScale : Bool) (lo hi : ℝ)
  | integer (lo hi : Int)
  | filename (format : String) (lo hi : Int)

/-- A `Parameter` (`include/parameter.hpp:13-33`): its key in the configuration and its kind. -/
structure Param where
  key : Str
  kind : Kind

/-- The constructors `DoubleParam`, `IntegerParam`, `FilenameParam`
(`src/parameter.cpp:14-19, 65-69, 109-112`) chosen by the type (`src/sample_generator.cpp:47-53`). -/
def readParam (c : Codec) (e : Node) : Outcome Param := do
  let k ← required c.str (key "key") e
  let ty ← required c.str (key "type") e
  if ty = "double" then do
    let lg ← option c.bool (key "log_scale") false e
    let lo ← required c.dbl (key "minimum") e
    let hi ← required c.dbl (key "maximum") e
    return ⟨k.toList, .double lg lo hi⟩
  else if ty = "integer" then do
    let lo ← required c.int (key "minimum") e
    let hi ← required c.int (key "maximum") e
    return ⟨k.toList, .integer lo hi⟩
  else if ty = "filename" then do
    let lo ← required c.int (key "minimum") e
    let hi ← required c.int (key "maximum") e
    let f ← required c.str (key "format") e
    return ⟨k.toList, .filename f lo hi⟩
  else .error .abort

/-- `readParam` for `param_list[p]`; a missing entry (a list written as a map without that key) stops
the program when it is read. -/
def readEntry (c : Codec) : Option Node → Outcome Param
  | none => .error .abort
  | some e => readParam c e

/-- What a sample generator keeps: where files go, the parameters, their numbers of samples, the total
number (`include/sample_generator.hpp:33-60`). -/
structure Gen where
  ty : Sampling.GenType
  dir : String
  pre : String
  offset : Int
  params : List Param
  sizes : List Int
  total : Int

/-- The list of parameters in the configuration (`src/sample_generator.cpp:38-40, 83-84`). -/
def paramList (cfg : Node) : Outcome Node := do
  match ← find cfg (pieces '/' (key "sample_generation/parameters")) with
  | none => .error .abort
  | some l => .ok l

/-- `SampleGenerator::SampleGenerator` (`src/sample_generator.cpp:27-71`): the options used here. -/
def construct (c : Codec) (ty : Sampling.GenType) (cfg : Node) : Outcome Gen := do
  let dir ← option c.str (key "sample_generation/file_path/directory") "." cfg
  let name ← option c.str (key "parameterized_problem/name") "sample" cfg
  let pre ← option c.str (key "sample_generation/file_path/prefix") name cfg
  let off ← option c.int (key "sample_generation/file_path/offset") 0 cfg
  let l ← paramList cfg
  let ps ← (elems l).mapM (readEntry c)
  return ⟨ty, dir, pre, off, ps, [], -1⟩

/-- One turn of the loop of `SetParamSpaceSizes` (`src/sample_generator.cpp:91-95`) with
`Parameter::SetSize` (`include/parameter.hpp:28-29`). -/
def readSize (c : Codec) : Option Node → Outcome Int
  | none => .error .abort
  | some e => do
    let n ← required c.int (key "sample_size") e
    require (decide (n > 0))
    return n

/-- `SampleGenerator::SetParamSpaceSizes` (`src/sample_generator.cpp:81-103`), without
`DistributeSamples`. -/
def setSizes (c : Codec) (g : Gen) (cfg : Node) : Outcome Gen := do
  let l ← paramList cfg
  require (decide (g.params.length > 0))
  let sizes ← (elems l).mapM (readSize c)
  return { g with sizes := sizes, total := sizes.foldl (· * ·) 1 }

/-- `RandomSampleGenerator::SetParamSpaceSizes` (`src/random_sample_generator.cpp:12-30`), without
`DistributeSamples`. -/
def setSizesRandom (c : Codec) (g : Gen) (cfg : Node) : Outcome Gen := do
  require (decide (g.params.length > 0))
  let n ← required c.int (key "sample_generation/random_sample_generator/number_of_samples") cfg
  require (decide (n > 0))
  return { g with sizes := List.replicate g.params.length n, total := n }

/-- `InitSampleGenerator` and `SetParamSpaceSizes` (`src/main_workflow.cpp:71-91, 149-151`). -/
def initGen (c : Codec) (cfg : Node) : Outcome Gen := do
  let ty ← option c.str (key "sample_generation/type") "base" cfg
  if ty = "base" then do
    let g ← construct c .base cfg
    setSizes c g cfg
  else if ty = "random" then do
    let g ← construct c .random cfg
    setSizesRandom c g cfg
  else .error .abort

/-- The node written by `SetParam` of the three kinds of parameters
(`src/parameter.cpp:21-41, 71-76, 114-120`). -/
noncomputable def gridNode (c : Codec) (k : Kind) (size i : Int) : Outcome Node :=
  match k with
  | .double lg lo hi => do
    let v ← ParamReal.setParam lg lo hi size i
    return c.ofDbl v
  | .integer lo hi => do
    let v ← Sampling.integerParam lo hi size i
    return c.ofInt v
  | .filename f lo hi => do
    let v ← Sampling.filenameParam (c.format f) lo hi size i
    return c.ofStr v

/-- `SampleGenerator::SetSampleParams` (`src/sample_generator.cpp:158-166`). -/
noncomputable def setSampleParams (c : Codec) (g : Gen) (s : Int) (cfg : Node) : Outcome Node := do
  let idx ← Sampling.getSampleIndexNested g.sizes s
  loop g.params.length (fun p cfg => do
    let q ← rd g.params p
    let n ← rd g.sizes p
    let i ← rd idx p
    let v ← gridNode c q.kind n i
    setOption q.key v cfg) cfg

/-- A value drawn for a parameter: `UniformRandom()` in `[0,1)`, or `UniformRandom(lo, hi)`. -/
structure Draw where
  u : ℝ
  k : Int

/-- The node written by `SetRandomParam` (`src/parameter.cpp:43-59, 78-83, 98-103, 122-128`). -/
noncomputable def randomNode (c : Codec) (k : Kind) (d : Draw) : Node :=
  match k with
  | .double lg lo hi => c.ofDbl (ParamReal.setRandomParam lg lo hi d.u)
  | .integer _ _ => c.ofInt d.k
  | .filename f _ _ => c.ofStr (c.format f d.k)

/-- `RandomSampleGenerator::SetSampleParams` (`src/random_sample_generator.cpp:59-65`); `d p` is drawn
for parameter `p`. -/
noncomputable def setRandomParams (c : Codec) (g : Gen) (d : Nat → Draw) (cfg : Node) : Outcome Node :=
  loop g.params.length (fun p cfg => do
    let q ← rd g.params p
    setOption q.key (randomNode c q.kind (d p)) cfg) cfg

/-- `SampleGenerator::GetSamplePath` (`src/sample_generator.cpp:168-178`). -/
def samplePath (g : Gen) (idx : Int) (pre : String) : String :=
  g.dir ++ ("/sample" ++ toString idx ++ "_") ++ (if pre ≠ "" then pre else g.pre)

/-- `sol_prefix` of the solver created for a sample (`src/multiblock_solver.cpp:118-133`), empty unless
solutions are saved (`include/multiblock_solver.hpp:81`). -/
def solPrefix (c : Codec) (cfg : Node) : Outcome String := do
  let save ← option c.bool (key "save_solution/enabled") false cfg
  if save then option c.str (key "save_solution/file_path/prefix") "solution" cfg else return ""

/-- A sample whose solution was handed to `SaveSolution`: its number, the file name, and the
configuration in force. -/
structure Saved where
  s : Nat
  file : String
  cfg : Node

/-- State of the loop of `GenerateSamples`: the loop variable, the number of solver runs, what was
saved, and `config.dict_`. -/
structure State where
  s : Nat
  runs : Nat
  saved : List Saved
  cfg : Node

/-- The virtual call `SetSampleParams(s)` (`src/main_workflow.cpp:160`): of the grid generator or the
random one; `d` is drawn. -/
noncomputable def setParams (c : Codec) (g : Gen) (s : Nat) (d : Nat → Draw) (cfg : Node) :
    Outcome Node :=
  match g.ty with
  | .base => setSampleParams c g s cfg
  | .random => setRandomParams c g d cfg

/-- One turn of the loop of `GenerateSamples` (`src/main_workflow.cpp:155-202`); the flag says whether
the loop goes on.  `conv k` is the result of the `k`-th call of `Solve`, `d k` what is drawn for it. -/
noncomputable def genStep (c : Codec) (g : Gen) (mine : Nat → Bool) (conv : Nat → Bool)
    (d : Nat → Nat → Draw) (st : State) : Outcome (Bool × State) :=
  if (st.s : Int) < g.total then
    if !mine st.s then .ok (true, st)
    else do
      let cfg ← setParams c g st.s (d st.runs) st.cfg
      let pre ← solPrefix c cfg
      let file := samplePath g (st.s + g.offset) pre ++ ".h5"
      if !conv st.runs then
        match g.ty with
        | .base => .error .abort
        | .random => return (true, { st with runs := st.runs + 1, cfg := cfg })
      else return (true, ⟨st.s + 1, st.runs + 1, st.saved ++ [⟨st.s, file, cfg⟩], cfg⟩)
  else .ok (false, st)

/-- At most `fuel` turns of the loop. -/
noncomputable def genRun (c : Codec) (g : Gen) (mine : Nat → Bool) (conv : Nat → Bool)
    (d : Nat → Nat → Draw) : Nat → State → Outcome (Bool × State)
  | 0, st => .ok (true, st)
  | fuel + 1, st => do
    let r ← genStep c g mine conv d st
    if r.1 then genRun c g mine conv d fuel r.2 else return r

/-- `GenerateSamples` (`src/main_workflow.cpp:144-210`): at most `fuel` turns of its loop; if the loop
ends, what was saved and the configuration left behind. -/
noncomputable def generate (c : Codec) (mine : Nat → Bool) (conv : Nat → Bool) (d : Nat → Nat → Draw)
    (fuel : Nat) (cfg : Node) : Outcome (Option (List Saved × Node)) := do
  let dict0 := cfg
  let g ← initGen c cfg
  let r ← genRun c g mine conv d fuel ⟨0, 0, [], cfg⟩
  return (if r.1 then none else some (r.2.saved, dict0))

end Verif.SampleConfig
