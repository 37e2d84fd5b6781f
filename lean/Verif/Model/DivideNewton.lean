import Verif.Model.DivideSteady

/-!
# Newton's method of the steady Navier-Stokes solver

`NewtonSolver::Mult` (MFEM, external) as `SteadyNSSolver::Solve` uses it (src/steady_ns_solver.cpp:691-724): no line
search, a direct linear solver.  Norms are compared by their squares.
-/

namespace Verif.Divide

open Verif Verif.LinAlg
open Verif.SteadyNS (Oper Grads Newton)

variable {R : Type}

/-- A direct linear solver (`MUMPSSolver`, external, src/steady_ns_solver.cpp:693-699): `SetOperator` and `Mult`. -/
abbrev LinSolver (R : Type) := Blk R → List R → Outcome (List R)

/-- Squared `Norm(r)` of `NewtonSolver` (MFEM, external), which src/steady_ns_solver.cpp:707-716
uses. -/
def sqNorm [Zero R] [Add R] [Mul R] (r : List R) : R := (r.map fun a => a * a).sum

section
variable [Field R] [LinearOrder R]

/-- `oper->Mult(x, r); r -= b` in `NewtonSolver::Mult` (MFEM, external), called at src/steady_ns_solver.cpp:716
(`have_b` holds: the right-hand side has the height of the operator). -/
def residualAt (o : Oper R) (b x : List R) : Outcome (List R) := do
  let y ← o.mult x
  return List.zipWith (· - ·) y b

/-- The loop of `NewtonSolver::Mult` (MFEM, external), called at src/steady_ns_solver.cpp:716: stop
with success if the residual meets the goal, without success after `max_iter` steps; otherwise solve with the gradient and subtract the result.  The first argument counts the steps
that are left. -/
def newtonLoop (lin : LinSolver R) (o : Oper R) (b : List R) (goal : R) :
    Nat → Grads R → List R → Outcome (List R × Bool)
  | left, gs, x => do
    let r ← residualAt o b x
    if sqNorm r ≤ goal then return (x, true)
    match left with
    | 0 => return (x, false)
    | left + 1 => do
      let (J, gs) ← o.gradient gs x
      let c ← lin J r
      newtonLoop lin o b goal left gs (List.zipWith (· - ·) x c)

/-- `NewtonSolver::Mult` with `rel_tol`, `abs_tol` and `max_iter` of src/steady_ns_solver.cpp:646-648; the goal is
`max(rel_tol * norm, abs_tol)` for the norm at the initial guess. -/
def newtonMult (lin : LinSolver R) (maxIter : Nat) (rtol atol : R) : Newton R := fun o gs b x0 => do
  let r ← residualAt o b x0
  newtonLoop lin o b (max (rtol * rtol * sqNorm r) (atol * atol)) maxIter gs x0

end

end Verif.Divide
