import Verif.Model.Unsteady

/-!
# The full-order steady Navier-Stokes operator and its Newton solve

Models `SteadyNSOperator::Mult`, `SteadyNSOperator::GetGradient` and `SteadyNSSolver::Solve`
(src/steady_ns_solver.cpp).  The gradient matrices are owned by the nonlinear forms, and the interface form
adds to them in place: they are the state that survives from one call to the next.  Timers, the conversion to
`HypreParMatrix`, the sparsity pattern and the release of the temporary matrices are not modelled.
-/

namespace Verif.SteadyNS

open Verif Verif.LinAlg
open Verif.Blocks (BlockVector sortByVariables sortBySubdomains stokesOffsetsByVar)
open Verif.Unsteady

variable {R : Type}

/-- The nonlinear forms of the solver (external `NonlinearForm`, and `InterfaceForm`, modelled in
`Verif.Model.InterfaceForm`): `mult m x k` is `hs[m]->Mult` into a vector of size `k`; `asm m x g` is the
assembly part of `hs[m]->GetGradient`, which adds to the matrix `g`; `itf` and `itfGrad` are
`InterfaceAddMult` and `InterfaceGetGradient`, `none` if `nl_itf` is null. -/
structure Forms (R : Type) where
  mult : Nat → List R → Nat → Outcome (List R)
  asm : Nat → List R → Blk R → Outcome (Blk R)
  itf : Option (List R → List R → Outcome (List R))
  itfGrad : Option (List R → (Nat → Nat → Blk R) → Outcome (Nat → Nat → Blk R))

/-- The members of `SteadyNSOperator`: number of forms, `u_offsets`, `linearOp` (its blocks `M`, `Bt`, `B`
are read from it, src/steady_ns_solver.cpp:27), the forms. -/
structure Oper (R : Type) where
  n : Nat
  u : List Nat
  lin : BlockMat R
  forms : Forms R

/-- `Grad` of each form: the matrix it owns since its first `GetGradient`. -/
abbrev Grads (R : Type) := Nat → Option (Blk R)

section
variable [CommRing R]

/-- The forms as convection terms of `Verif.Model.Unsteady`: no time, and no interface term without
`nl_itf`, src/steady_ns_solver.cpp:78. -/
def Forms.conv (f : Forms R) : Conv R :=
  ⟨fun _ m x k => f.mult m x k, fun _ x y => match f.itf with
    | none => .ok y
    | some g => g x y⟩

/-- `SteadyNSOperator::Mult`, src/steady_ns_solver.cpp:65-91.  `x_u`, `y_u` are views of the first
`u_offsets.Last()` entries. -/
def Oper.mult (o : Oper R) (x : List R) : Outcome (List R) := do
  let lu ← rd o.u (o.u.length - 1)
  let xu ← getSeg x 0 lu
  let yu ← convect o.u o.n o.forms.conv 0 xu
  let h ← rd o.lin.roffs (o.lin.roffs.length - 1)
  let y ← setSeg (List.replicate h 0) 0 yu
  addMult o.lin x y 1

/-- `NonlinearForm::GetGradient` (external): a zero matrix the first time, `*Grad = 0.0` later, then
assembly. -/
def gradOf (f : Forms R) (g : Option (Blk R)) (m : Nat) (x : List R) : Outcome (Blk R) :=
  f.asm m x (match g with
    | none => ⟨x.length, x.length, fun _ _ => 0⟩
    | some g => ⟨g.h, g.w, fun _ _ => 0⟩)

/-- The body of the loops that fill `hs_mats`, src/steady_ns_solver.cpp:109-119. -/
def fillMat (o : Oper R) (gs : Grads R) (x : List R) (i j : Nat) (mats : Nat → Nat → Blk R) :
    Outcome (Nat → Nat → Blk R) := do
  let a ← rd o.u i
  let a1 ← rd o.u (i + 1)
  let b ← rd o.u j
  let b1 ← rd o.u (j + 1)
  let m ← if i = j then do
      let xi ← getSeg x a (a1 - a)
      gradOf o.forms (gs i) i xi
    else pure ⟨a1 - a, b1 - b, fun _ _ => 0⟩
  return fun i' j' => if i' = i ∧ j' = j then m else mats i' j'

/-- The first half of `GetGradient`: `hs_mats` with the interface terms, src/steady_ns_solver.cpp:105-125. -/
def Oper.mats (o : Oper R) (gs : Grads R) (x : List R) : Outcome (Nat → Nat → Blk R) := do
  let mats ← loop o.n (fun i mats => loop o.n (fun j mats => fillMat o gs x i j mats) mats)
    fun _ _ => ⟨0, 0, fun _ _ => 0⟩
  let lu ← rd o.u (o.u.length - 1)
  let xu ← getSeg x 0 lu
  match o.forms.itfGrad with
  | none => return mats
  | some g => g xu mats

/-- The second half: `hs_jac`, `uu_mono`, `system_jac` and its monolithic matrix,
src/steady_ns_solver.cpp:127-147.  `Add` of matrices of different shapes is undefined. -/
def Oper.system (o : Oper R) (mats : Nat → Nat → Blk R) : Outcome (Blk R) := do
  let hs ← loop o.n (fun i b => loop o.n (fun j b => setBlock b i j (mats i j)) b)
    ⟨o.u, o.u, false, fun _ _ => none⟩
  let m ← deref (o.lin.blk 0 0)
  let bt ← deref (o.lin.blk 0 1)
  let b ← deref (o.lin.blk 1 0)
  let hm := mono hs
  let uu : Blk R ← if m.h = hm.h ∧ m.w = hm.w then pure ⟨m.h, m.w, fun r c => m.val r c + hm.val r c⟩
    else Except.error .ub
  let lu ← rd o.u (o.u.length - 1)
  let h ← rd o.lin.roffs (o.lin.roffs.length - 1)
  let sys : BlockMat R := ⟨[0, lu, h], [0, lu, h], false, fun _ _ => none⟩
  let sys ← setBlock sys 0 0 uu
  let sys ← setBlock sys 0 1 bt
  let sys ← setBlock sys 1 0 b
  return mono sys

/-- `SteadyNSOperator::GetGradient`, src/steady_ns_solver.cpp:93-156: the matrix, and the matrices the
forms own afterwards. -/
def Oper.gradient (o : Oper R) (gs : Grads R) (x : List R) : Outcome (Blk R × Grads R) := do
  let mats ← o.mats gs x
  let j ← o.system mats
  return (j, fun i => if i < o.n then some (mats i i) else gs i)

/-- Gradients asked for one after the other, as a Newton iteration does. -/
def Oper.gradients (o : Oper R) : Grads R → List (List R) → Outcome (Grads R)
  | gs, [] => .ok gs
  | gs, x :: xs => do
    let r ← o.gradient gs x
    Oper.gradients o r.2 xs

end

section
variable [Field R]

/-- The members of `SteadyNSSolver` used by `Solve`. -/
structure Solver (R : Type) where
  oper : Oper R
  p : List Nat
  presDbc : Bool

/-- `NewtonSolver::Mult` or `LBFGSSolver::Mult` (external): given the operator, the matrices the forms own,
the right-hand side and the initial guess, the last iterate and `GetConverged()`. -/
abbrev Newton (R : Type) := Oper R → Grads R → List R → List R → Outcome (List R × Bool)

/-- The initial guess, src/steady_ns_solver.cpp:679-688: the loaded solution or small random numbers. -/
inductive Guess (R : Type) where
  | restart (u : BlockVector R)
  | random (v : List R)

/-- `sol_byvar` before the iteration; `zero` is the new vector. -/
def Guess.start (n : Nat) (zero : BlockVector R) : Guess R → Outcome (List R)
  | .restart u => do
    let v ← sortByVariables n 2 u zero
    return v.data
  | .random v => .ok v

/-- `U` before the iteration: `LoadSolution` replaces it. -/
def Guess.loaded (U : BlockVector R) : Guess R → BlockVector R
  | .restart u => u
  | .random _ => U

/-- The state of the solver object that `Solve` changes: `U`, and the snapshots saved so far. -/
structure Sol (R : Type) where
  U : BlockVector R
  saved : List (BlockVector R)

/-- "orthogonalize the pressure", src/steady_ns_solver.cpp:718-726. -/
def Solver.orthogonalize (s : Solver R) (lu l : Nat) (x : List R) : Outcome (List R) :=
  if s.presDbc then .ok x else subtractMean lu (l - lu) x

/-- `SteadyNSSolver::Solve`, src/steady_ns_solver.cpp:645-736; `gen` says whether a sample generator is
given.  A loaded restart solution replaces `U`.  `SaveSnapshots` is recorded by the saved solution. -/
def Solver.solve (s : Solver R) (newton : Newton R) (gs : Grads R) (rhs : BlockVector R) (guess : Guess R)
    (gen : Bool) (st : Sol R) : Outcome (Bool × Sol R) := do
  let n := s.oper.n
  let byVar ← stokesOffsetsByVar n s.oper.u s.p
  let l ← rd byVar (2 * n)
  let zero : BlockVector R := ⟨List.replicate l 0, byVar⟩
  let b ← sortByVariables n 2 rhs zero
  let x0 ← guess.start n zero
  let r ← newton s.oper gs b.data x0
  let lu ← rd s.oper.u n
  let x ← s.orthogonalize lu l r.1
  let U ← sortBySubdomains n 2 ⟨x, byVar⟩ (guess.loaded st.U)
  return (r.2, ⟨U, if r.2 && gen then st.saved ++ [U] else st.saved⟩)

end

end Verif.SteadyNS
