import Verif.Model.SingleRun
import Mathlib.Analysis.Real.Sqrt

/-! Specification vocabulary for saving, loading and comparing solutions. -/

namespace Verif.SingleRun.Spec

open Verif Verif.SingleRun Finset

/-- Component `d` of the function with degrees of freedom `x` at a quadrature point. -/
noncomputable def fn (q : QPt ℝ) (d : Nat) (x : List ℝ) : ℝ :=
  ∑ j ∈ range x.length, q.val d j * x[j]?.getD 0

/-- The squared norm of the difference of two functions of a space, by its quadrature rule. -/
noncomputable def sqDiff (s : Space ℝ) (x y : List ℝ) : ℝ :=
  (s.pts.map fun q => q.w * ∑ d ∈ range s.vdim, (fn q d x - fn q d y) ^ 2).sum

/-- The squared norm of a function. -/
noncomputable def sqNorm (s : Space ℝ) (x : List ℝ) : ℝ :=
  (s.pts.map fun q => q.w * ∑ d ∈ range s.vdim, fn q d x ^ 2).sum

/-- The degrees of freedom of block `k` of a solution. -/
def slice {R : Type} (offs : List Nat) (U : List R) (k : Nat) : List R :=
  (U.drop (offs[k]?.getD 0)).take (offs[k + 1]?.getD 0 - offs[k]?.getD 0)

/-- Size of the solution. -/
def size (x : Ext ℝ) : Nat := x.varOffs[x.varOffs.length - 1]?.getD 0

/-- The spaces and offsets of a set-up solver: one space and one block per subdomain and variable,
offsets that do not decrease, nonnegative quadrature weights, at least one variable. -/
structure Layout (x : Ext ℝ) : Prop where
  offs : x.varOffs.length = x.numSub * x.numVar + 1
  mono : ∀ k, k < x.numSub * x.numVar → x.varOffs[k]?.getD 0 ≤ x.varOffs[k + 1]?.getD 0
  spaces : x.spaces.length = x.numSub * x.numVar
  weights : ∀ s ∈ x.spaces, ∀ q ∈ s.pts, 0 ≤ q.w
  vars : 0 < x.numVar

/-- Squared norm of variable `v` over all subdomains. -/
noncomputable def normOf (x : Ext ℝ) (U : List ℝ) (v : Nat) : ℝ :=
  ∑ m ∈ range x.numSub, sqNorm (x.spaces[m * x.numVar + v]?.getD ⟨0, []⟩)
    (slice x.varOffs U (m * x.numVar + v))

/-- Squared norm of the difference of two solutions in variable `v` over all subdomains. -/
noncomputable def diffOf (x : Ext ℝ) (U V : List ℝ) (v : Nat) : ℝ :=
  ∑ m ∈ range x.numSub, sqDiff (x.spaces[m * x.numVar + v]?.getD ⟨0, []⟩)
    (slice x.varOffs U (m * x.numVar + v)) (slice x.varOffs V (m * x.numVar + v))

/-- The relative error of variable `v` of `V` with respect to `U`. -/
noncomputable def relErr (x : Ext ℝ) (U V : List ℝ) (v : Nat) : Num ℝ :=
  if normOf x U v = 0 then (if diffOf x U V v = 0 then .nan else .inf)
  else .fin (Real.sqrt (diffOf x U V v / normOf x U v))

/-- The solution a run computes. -/
def solution (c : Cfg) (x : Ext ℝ) : Outcome (List ℝ) :=
  (if c.useRom then x.rom else x.fom) (List.replicate (size x) 0)

end Verif.SingleRun.Spec
