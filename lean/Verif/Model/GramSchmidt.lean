import Verif.Model.Basic
import Mathlib.Data.Real.Sqrt
import Mathlib.LinearAlgebra.Matrix.DotProduct

/-!
# Gram-Schmidt orthonormalisation (src/linalg_utils.cpp)

Real arithmetic stands for `double`: rounding is not modelled.  A matrix is the list of its columns;
the number of rows `n` is a parameter, so the row-count assertion of `Orthonormalize`
(src/linalg_utils.cpp:191) holds by typing.  A division by a zero norm, which yields NaN in C++, is a
fault, so no theorem rests on `x / 0 = 0`.
-/

namespace Verif.GramSchmidt

open Verif

variable {n : Nat}

/-- A column. -/
abbrev Col (n : Nat) := Fin n → ℝ

/-- `tmp.Add(-(tmp * vec_c), vec_c)` for column `i`, src/linalg_utils.cpp:178-181. -/
noncomputable def mgsSub (q : Col n) (i : Nat) (cols : List (Col n)) : Outcome (List (Col n)) := do
  let tmp ← rd cols i
  wr cols i (tmp + (-(tmp ⬝ᵥ q)) • q)

open Classical in
/-- One outer iteration, src/linalg_utils.cpp:173-182. -/
noncomputable def mgsStep (numCol c : Nat) (cols : List (Col n)) : Outcome (List (Col n)) := do
  let v ← rd cols c
  if v ⬝ᵥ v = 0 then .error .ub
  else do
    let q := (1 / Real.sqrt (v ⬝ᵥ v)) • v
    let cols ← wr cols c q
    loopFrom (mgsSub q) (c + 1) (numCol - (c + 1)) cols

/-- `modifiedGramSchmidt`, src/linalg_utils.cpp:167-184. -/
noncomputable def modifiedGramSchmidt (cols : List (Col n)) : Outcome (List (Col n)) :=
  loop cols.length (mgsStep cols.length) cols

open Classical in
/-- `vec_c.Add(-(tmp * vec_c) / tmp_dot, tmp)`, src/linalg_utils.cpp:201-202. -/
noncomputable def projStep (tmp : Col n) (c : Nat) (cols : List (Col n)) : Outcome (List (Col n)) := do
  let v ← rd cols c
  if tmp ⬝ᵥ tmp = 0 then .error .ub
  else wr cols c (v + (-(tmp ⬝ᵥ v) / (tmp ⬝ᵥ tmp)) • tmp)

/-- `Orthonormalize`, src/linalg_utils.cpp:186-209. -/
noncomputable def orthonormalize (mat1 cols : List (Col n)) : Outcome (List (Col n)) := do
  let cols ← loop mat1.length (fun i cols => do
    let tmp ← rd mat1 i
    loop cols.length (projStep tmp) cols) cols
  modifiedGramSchmidt cols

end Verif.GramSchmidt
