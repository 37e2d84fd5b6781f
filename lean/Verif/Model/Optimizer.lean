import Verif.Model.Basic
import Mathlib.Analysis.SpecialFunctions.Log.Base
import Mathlib.Analysis.SpecialFunctions.Pow.Real
import Mathlib.Data.Matrix.Mul

/-!
# The conjugate-gradient optimiser of the nonlinear ROM

`CGOptimizer` (`src/linalg_utils.cpp:783-946`, `include/linalg_utils.hpp:200-234`), chosen by
`model_reduction/nonlinear_solver_type: cg` (`src/rom_handler.cpp:695-705`).  Arithmetic is exact, in the
real numbers.  A quotient whose denominator is zero is kept apart from ordinary numbers.  Printing is not
modelled.  The two loops that count up to `N_mnbrak` and `N_para` are modelled with these numbers as
parameters of the helpers.
-/

namespace Verif.Optimizer

open Verif Matrix

/-- `golden_ratio` (`include/linalg_utils.hpp:203`). -/
noncomputable def golden : ℝ := (1 + √5) / 2

/-- `Cr` (`include/linalg_utils.hpp:204`). -/
noncomputable def cr : ℝ := 1 - 1 / golden

/-- `ib` (`include/linalg_utils.hpp:205`). -/
noncomputable def ib : ℝ := 1 / 10

/-- `eps` (`include/linalg_utils.hpp:206`). -/
noncomputable def eps : ℝ := 1 / 10 ^ 14

/-- `N_mnbrak` (`include/linalg_utils.hpp:208`). -/
def nBrak : Nat := 10000

/-- `N_para` (`include/linalg_utils.hpp:209`). -/
def nPara : Nat := 10000

/-- The default of `lin_tol` (`include/linalg_utils.hpp:233`), with which `Mult` calls `Brent`
(`src/linalg_utils.cpp:909`). -/
noncomputable def linTol : ℝ := 1 / 100

/-- `CGOptimizer::Objective` (`src/linalg_utils.cpp:783-790`). -/
def objective {n m : Nat} (F : (Fin n → ℝ) → Fin m → ℝ) (rhs : Fin m → ℝ) (sol : Fin n → ℝ) : ℝ :=
  (F sol - rhs) ⬝ᵥ (F sol - rhs)

/-- `CGOptimizer::Gradient` (`src/linalg_utils.cpp:792-806`); `DF sol` is the matrix of
`oper->GetGradient(sol)`. -/
def gradient {n m : Nat} (F : (Fin n → ℝ) → Fin m → ℝ) (DF : (Fin n → ℝ) → Matrix (Fin m) (Fin n) ℝ)
    (rhs : Fin m → ℝ) (sol : Fin n → ℝ) : Fin n → ℝ :=
  (DF sol)ᵀ *ᵥ ((2 : ℝ) • (F sol - rhs))

/-- The loop that shortens the first step (`src/linalg_utils.cpp:818-825`), at most `fuel` turns of it;
`J b` is the objective at `sol + b * xi`, `J0` the one at `sol`.  `none`: still looping. -/
noncomputable def shrink (J : ℝ → ℝ) (J0 : ℝ) : Nat → ℝ → Option ℝ
  | 0, b0 => if J b0 > J0 then none else some b0
  | k + 1, b0 => if J b0 > J0 then shrink J J0 k (b0 / golden) else some b0

/-- `a`, `b`, `c`, `fa`, `fb`, `fc` (`src/linalg_utils.cpp:828`). -/
structure Triple where
  a : ℝ
  b : ℝ
  c : ℝ
  fa : ℝ
  fb : ℝ
  fc : ℝ

/-- The loop that looks for a bracket (`src/linalg_utils.cpp:829-843`) from turn `j` on, with `k` turns
left.  If it ends without a bracket the six numbers are read without ever having been set
(`src/linalg_utils.cpp:845`). -/
noncomputable def bracket (J : ℝ → ℝ) : Nat → Nat → ℝ → List ℝ → List ℝ → Outcome Triple
  | 0, _, _, _, _ => .error .ub
  | k + 1, j, amp, step, Jb => do
    let step ← wr step j amp
    let Jb ← wr Jb j (J amp)
    let cur ← rd Jb j
    let prev ← rdI Jb ((j : Int) - 1)
    if cur > prev then do
      let a ← rdI step ((j : Int) - 2)
      let b ← rdI step ((j : Int) - 1)
      let c ← rd step j
      let fa ← rdI Jb ((j : Int) - 2)
      let fb ← rdI Jb ((j : Int) - 1)
      let fc ← rd Jb j
      return ⟨a, b, c, fa, fb, fc⟩
    else bracket J k (j + 1) (amp * golden) step Jb

/-- A `double` that results from a division: a number, an infinity, or NaN. -/
inductive Quot where
  | num (x : ℝ)
  | inf
  | nan

/-- Floating-point division of two numbers, exact when the denominator is not zero. -/
noncomputable def quot (x y : ℝ) : Quot :=
  if y ≠ 0 then .num (x / y) else if x ≠ 0 then .inf else .nan

/-- The quotient in the parabolic estimate of the minimum (`src/linalg_utils.cpp:853`). -/
noncomputable def paraQuot (t : Triple) : Quot :=
  quot (0.5 * ((t.b - t.a) ^ 2 * (t.fb - t.fc) - (t.b - t.c) ^ 2 * (t.fb - t.fa)))
    ((t.b - t.a) * (t.fb - t.fc) - (t.b - t.c) * (t.fb - t.fa))

/-- `(b_new > c) || (b_new < a)` (`src/linalg_utils.cpp:854`) for `b_new = b - q`; an infinite `b_new` is
outside on one side or the other, no comparison with NaN holds. -/
noncomputable def outside (t : Triple) : Quot → Bool
  | .num q => decide (t.b - q > t.c) || decide (t.b - q < t.a)
  | .inf => true
  | .nan => false

/-- `abs(log10(r)) > 1.0` (`src/linalg_utils.cpp:854`): the logarithm of zero is minus infinity, that of a
negative number NaN. -/
noncomputable def farFromOne : Quot → Bool
  | .num r => if r = 0 then true else if r < 0 then false else decide (|Real.logb 10 r| > 1)
  | .inf => true
  | .nan => false

/-- The next point to try (`src/linalg_utils.cpp:853-858`); `none` if it is NaN. -/
noncomputable def nextPoint (t : Triple) : Option ℝ :=
  let q := paraQuot t
  if outside t q || farFromOne (quot (t.c - t.b) (t.b - t.a)) then
    if t.b > 0.5 * (t.a + t.c) then some (t.b - cr * (t.b - t.a))
    else some (t.b + cr * (t.c - t.b))
  else
    match q with
    | .num q => some (t.b - q)
    | _ => none

/-- `Array::Min`. -/
noncomputable def arrMin (l : List ℝ) : ℝ := l.tail.foldl min (l.headD 0)

/-- The new bracket (`src/linalg_utils.cpp:860-877`) when `b_new` has been tried. -/
noncomputable def reduceTo (J : ℝ → ℝ) (t : Triple) (bnew : ℝ) : Outcome Triple := do
  let fbx := J bnew
  let x := if bnew > t.b then [t.a, t.b, bnew, t.c] else [t.a, bnew, t.b, t.c]
  let f := if bnew > t.b then [t.fa, t.fb, fbx, t.fc] else [t.fa, fbx, t.fb, t.fc]
  let fb := arrMin f
  let idx := f.findIdx (fun v => decide (v = fb))
  require (decide (idx > 0))
  let fa ← rd f (idx - 1)
  let fc ← rd f (idx + 1)
  let a ← rd x (idx - 1)
  let b ← rd x idx
  let c ← rd x (idx + 1)
  return ⟨a, b, c, fa, fb, fc⟩

/-- `(c-a) < b * lin_tol + eps` (`src/linalg_utils.cpp:851`). -/
noncomputable def narrow (tol : ℝ) (t : Triple) : Bool := decide (t.c - t.a < t.b * tol + eps)

/-- The loop of parabolic estimates (`src/linalg_utils.cpp:848-878`), at most `k` turns; also the number
of points tried.  An estimate that is NaN is counted as a fault. -/
noncomputable def para (J : ℝ → ℝ) (tol : ℝ) : Nat → Triple → Outcome (Triple × Nat)
  | 0, t => .ok (t, 0)
  | k + 1, t =>
    if narrow tol t then .ok (t, 0)
    else
      match nextPoint t with
      | none => .error .ub
      | some bnew => do
        let t' ← reduceTo J t bnew
        let r ← para J tol k t'
        return (r.1, r.2 + 1)

/-- `CGOptimizer::Brent` (`src/linalg_utils.cpp:808-883`) without the update of `sol`: the step found along
the direction and the number of points tried inside the bracket; `none` if the first loop is still running
after `fuel` turns. -/
noncomputable def brent (J : ℝ → ℝ) (tol : ℝ) (fuel : Nat) (b0 : ℝ) : Outcome (Option (ℝ × Nat)) :=
  match shrink J (J 0) fuel b0 with
  | none => .ok none
  | some b0 => do
    let Jb ← wr (List.replicate nBrak 0) 0 (J 0)
    let t ← bracket J nBrak 1 b0 (List.replicate (nBrak + 1) 0) Jb
    require (decide (t.a ≥ 0) && decide (t.b > t.a) && decide (t.c > t.b))
    let r ← para J tol nPara t
    return some (r.1.b, r.2)

/-- The vectors and numbers kept from one turn of the loop of `Mult` to the next
(`src/linalg_utils.cpp:893-906`). -/
structure State (n : Nat) where
  sol : Fin n → ℝ
  g : Fin n → ℝ
  xi : Fin n → ℝ
  h : Fin n → ℝ
  b0 : ℝ

/-- The factor of the previous direction (`src/linalg_utils.cpp:930-937`) in turn `j`. -/
noncomputable def factor (j : Nat) (gamma gammaFR : ℝ) : ℝ :=
  if j > 0 then
    if gamma < -gammaFR then -gammaFR else if gamma > gammaFR then gammaFR else gamma
  else gamma

/-- One turn of the loop of `CGOptimizer::Mult` (`src/linalg_utils.cpp:906-942`): the new state and whether
the loop stops as converged. -/
noncomputable def cgStep {n m : Nat} (F : (Fin n → ℝ) → Fin m → ℝ)
    (DF : (Fin n → ℝ) → Matrix (Fin m) (Fin n) ℝ) (rhs : Fin m → ℝ) (atol rtol res0 : ℝ) (fuel j : Nat)
    (s : State n) : Outcome (Option (Bool × State n)) := do
  match ← brent (fun b => objective F rhs (s.sol + b • s.xi)) linTol fuel s.b0 with
  | none => return none
  | some (b, _) =>
    let sol := s.sol + b • s.xi
    let Jmin := objective F rhs sol
    let xi := gradient F DF rhs sol
    let gg := s.g ⬝ᵥ s.g
    let dgg := (xi + s.g) ⬝ᵥ xi
    let dgg1 := xi ⬝ᵥ xi
    let res := √Jmin
    if res < atol || res / res0 < rtol then
      return some (true, ⟨sol, s.g, xi, s.h, b⟩)
    else
      let gamma := factor j (dgg / gg) (dgg1 / gg)
      let g := -xi
      let xi := g + gamma • s.h
      return some (false, ⟨sol, g, xi, xi, b⟩)

/-- The loop of `Mult` from turn `j` on with `k` turns left; the flag says whether it stopped as
converged. -/
noncomputable def cgLoop {n m : Nat} (F : (Fin n → ℝ) → Fin m → ℝ)
    (DF : (Fin n → ℝ) → Matrix (Fin m) (Fin n) ℝ) (rhs : Fin m → ℝ) (atol rtol res0 : ℝ) (fuel : Nat) :
    Nat → Nat → State n → Outcome (Option (Bool × State n))
  | 0, _, s => .ok (some (false, s))
  | k + 1, j, s => do
    match ← cgStep F DF rhs atol rtol res0 fuel j s with
    | none => return none
    | some (true, s) => return some (true, s)
    | some (false, s) => cgLoop F DF rhs atol rtol res0 fuel k (j + 1) s

/-- `CGOptimizer::Mult` (`src/linalg_utils.cpp:885-946`): the solution and `converged`; `none` if the
first loop of some line search is still running after `fuel` turns.  If the first gradient is zero the first
step is `ib / 0`; then the direction is zero too, no objective value ever exceeds another, and `Brent` runs
to the end of its arrays: this is what the model does as well, with a step of zero. -/
noncomputable def mult {n m : Nat} (F : (Fin n → ℝ) → Fin m → ℝ)
    (DF : (Fin n → ℝ) → Matrix (Fin m) (Fin n) ℝ) (rhs : Fin m → ℝ) (atol rtol : ℝ) (maxIter fuel : Nat)
    (sol : Fin n → ℝ) : Outcome (Option ((Fin n → ℝ) × Bool)) := do
  let res0 := √(objective F rhs sol)
  let g := -gradient F DF rhs sol
  let gg0 := g ⬝ᵥ g
  match ← cgLoop F DF rhs atol rtol res0 fuel maxIter 0 ⟨sol, g, g, g, ib / √gg0⟩ with
  | none => return none
  | some (conv, s) => return some (s.sol, conv)

end Verif.Optimizer
