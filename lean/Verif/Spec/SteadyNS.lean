import Verif.Model.SteadyNS
import Verif.Spec.Unsteady
import Mathlib.Analysis.Calculus.Deriv.Basic

/-!
# The discretised steady Navier-Stokes equations

Velocities are numbered subdomain by subdomain, likewise pressures, as in `Verif.Spec.Unsteady`.  A state is
the vector of all velocities followed by all pressures.
-/

namespace Verif.SteadyNS.Spec

open Verif Verif.LinAlg Verif.LinAlg.Spec Verif.SteadyNS Finset
open Verif.Unsteady.Spec (first part vecOf)
open Verif.Blocks (BlockVector)
open Verif.Blocks.Spec (IsOffsets HasSizes)

variable {R : Type}

/-- The discretised problem: viscous operator `K`, gradient `Bt`, divergence `B`; the convection term of
subdomain `m` is `F m` with derivative `DF m`, that of the interfaces `I` with derivative `DI`; right-hand
sides `f` (velocity) and `g` (pressure). -/
structure Flow (R : Type) where
  n : Nat
  nu : Nat → Nat
  np : Nat → Nat
  K : Nat → Nat → R
  Bt : Nat → Nat → R
  B : Nat → Nat → R
  F : Nat → List R → Nat → R
  DF : Nat → List R → Nat → Nat → R
  I : List R → Nat → Nat → R
  /-- Derivative of dof `k` of subdomain `i` with respect to dof `l` of subdomain `j`. -/
  DI : List R → Nat → Nat → Nat → Nat → R
  f : Nat → Nat → R
  g : Nat → Nat → R

/-- Number of velocity dofs. -/
def Flow.NU (P : Flow R) : Nat := first P.nu P.n
/-- Number of pressure dofs. -/
def Flow.NP (P : Flow R) : Nat := first P.np P.n

section
variable [CommRing R]

/-- Momentum at dof `k` of subdomain `m`: convection, viscosity, pressure gradient. -/
def Flow.momentum (P : Flow R) (u p : Nat → R) (m k : Nat) : R :=
  P.F m (part P.nu u m) k + P.I (vecOf P.NU u) m k +
    ∑ c ∈ range P.NU, P.K (first P.nu m + k) c * u c +
    ∑ c ∈ range P.NP, P.Bt (first P.nu m + k) c * p c

/-- Divergence at pressure dof `k` of subdomain `m`. -/
def Flow.divergence (P : Flow R) (u : Nat → R) (m k : Nat) : R :=
  ∑ c ∈ range P.NU, P.B (first P.np m + k) c * u c

/-- Derivative of the convection at `u`: dof `k` of subdomain `i`, with respect to dof `l` of subdomain
`j`. -/
def Flow.dconv (P : Flow R) (u : Nat → R) (i k j l : Nat) : R :=
  (if i = j then P.DF i (part P.nu u i) k l else 0) + P.DI (vecOf P.NU u) i k j l

/-- The nonlinear forms compute the convection terms and their derivatives.  The gradient assembly and the
interface form add to the matrices they are given; without interface form the interface terms are zero. -/
structure Flow.FormsOk (P : Flow R) (f : Forms R) : Prop where
  mult : ∀ m (x : List R), m < P.n → x.length = P.nu m →
    ∃ z, f.mult m x (P.nu m) = .ok z ∧ z.length = P.nu m ∧ ∀ k, k < P.nu m → ve z k = P.F m x k
  asm : ∀ m (x : List R) (g : Blk R), m < P.n → x.length = P.nu m → g.h = P.nu m → g.w = P.nu m →
    ∃ g', f.asm m x g = .ok g' ∧ g'.h = P.nu m ∧ g'.w = P.nu m ∧
      ∀ k l, k < P.nu m → l < P.nu m → g'.val k l = g.val k l + P.DF m x k l
  itf : ∀ op, f.itf = some op → ∀ x y : List R, x.length = P.NU → y.length = P.NU →
    ∃ y', op x y = .ok y' ∧ y'.length = P.NU ∧
      ∀ m k, m < P.n → k < P.nu m → ve y' (first P.nu m + k) = ve y (first P.nu m + k) + P.I x m k
  itfGrad : ∀ op, f.itfGrad = some op → ∀ (x : List R) (mats : Nat → Nat → Blk R), x.length = P.NU →
    (∀ i j, i < P.n → j < P.n → (mats i j).h = P.nu i ∧ (mats i j).w = P.nu j) →
    ∃ mats', op x mats = .ok mats' ∧ ∀ i j, i < P.n → j < P.n →
      (mats' i j).h = P.nu i ∧ (mats' i j).w = P.nu j ∧
      ∀ k l, k < P.nu i → l < P.nu j → (mats' i j).val k l = (mats i j).val k l + P.DI x i k j l
  noItf : f.itf = none → ∀ x m k, P.I x m k = 0
  noGrad : f.itfGrad = none → ∀ x i k j l, P.DI x i k j l = 0

/-- An operator set up for the problem. -/
structure Flow.Ok (P : Flow R) (o : Oper R) : Prop where
  n : o.n = P.n
  u : IsOffsets o.u ((List.range P.n).map P.nu)
  roffs : o.lin.roffs = [0, P.NU, P.NU + P.NP]
  coffs : o.lin.coffs = [0, P.NU, P.NU + P.NP]
  M : o.lin.blk 0 0 = some ⟨P.NU, P.NU, P.K⟩
  Bt : o.lin.blk 0 1 = some ⟨P.NU, P.NP, P.Bt⟩
  B : o.lin.blk 1 0 = some ⟨P.NP, P.NU, P.B⟩
  rest : ∀ i j, ¬ (i = 0 ∧ j = 0) → ¬ (i = 0 ∧ j = 1) → ¬ (i = 1 ∧ j = 0) → o.lin.blk i j = none
  forms : P.FormsOk o.forms

/-- The matrices the forms may own: none yet, or of the right shape; their values are arbitrary. -/
def Flow.GradsOk (P : Flow R) (gs : Grads R) : Prop :=
  ∀ i g, i < P.n → gs i = some g → g.h = P.nu i ∧ g.w = P.nu i

/-- The value of the discretised equations at a state: momentum for the velocity dofs, divergence for the
pressure dofs. -/
def Flow.Value (P : Flow R) (x y : Nat → R) : Prop :=
  (∀ m k, m < P.n → k < P.nu m →
    y (first P.nu m + k) = P.momentum x (fun c => x (P.NU + c)) m k) ∧
  ∀ m k, m < P.n → k < P.np m → y (P.NU + (first P.np m + k)) = P.divergence x m k

/-- `J` is the matrix `[dconv(u) + K, Bt; B, 0]`. -/
structure Flow.Jacobian (P : Flow R) (u : Nat → R) (J : Nat → Nat → R) : Prop where
  uu : ∀ i k j l, i < P.n → j < P.n → k < P.nu i → l < P.nu j →
    J (first P.nu i + k) (first P.nu j + l) =
      P.K (first P.nu i + k) (first P.nu j + l) + P.dconv u i k j l
  up : ∀ r c, r < P.NU → c < P.NP → J r (P.NU + c) = P.Bt r c
  pu : ∀ r c, r < P.NP → c < P.NU → J (P.NU + r) c = P.B r c
  pp : ∀ r c, r < P.NP → c < P.NP → J (P.NU + r) (P.NU + c) = 0

/-- Layout of vectors stored subdomain by subdomain: velocity, then pressure. -/
def Flow.sizes (P : Flow R) : List Nat := (List.range P.n).flatMap fun m => [P.nu m, P.np m]

/-- Velocity dof `k` of subdomain `m` of a vector stored subdomain by subdomain. -/
def Flow.vel (P : Flow R) (v : BlockVector R) (m k : Nat) : R :=
  ve v.data (first P.nu m + first P.np m + k)
/-- Pressure dof `k` of subdomain `m` of a vector stored subdomain by subdomain. -/
def Flow.pres (P : Flow R) (v : BlockVector R) (m k : Nat) : R :=
  ve v.data (first P.nu (m + 1) + first P.np m + k)

/-- The right-hand side, stored subdomain by subdomain. -/
def Flow.RhsOk (P : Flow R) (rhs : BlockVector R) : Prop :=
  HasSizes rhs P.sizes ∧ (∀ m k, m < P.n → k < P.nu m → P.vel rhs m k = P.f m k) ∧
    ∀ m k, m < P.n → k < P.np m → P.pres rhs m k = P.g m k

/-- `U` holds the velocities `u` and the pressures `p`. -/
def Flow.Holds (P : Flow R) (U : BlockVector R) (u p : Nat → R) : Prop :=
  HasSizes U P.sizes ∧ (∀ m k, m < P.n → k < P.nu m → P.vel U m k = u (first P.nu m + k)) ∧
    ∀ m k, m < P.n → k < P.np m → P.pres U m k = p (first P.np m + k)

end

section
variable [Field R]

/-- The state `u`, `p` solves the equations up to the residual `r`. -/
def Flow.SolvesUpTo (P : Flow R) (u p r : Nat → R) : Prop :=
  (∀ m k, m < P.n → k < P.nu m → P.momentum u p m k = P.f m k + r (first P.nu m + k)) ∧
  ∀ m k, m < P.n → k < P.np m → P.divergence u m k = P.g m k + r (P.NU + (first P.np m + k))

/-- The contract of the nonlinear solver (external): it keeps the size of the vector, and when it reports
convergence, the residual of its last iterate passes its test `small`, whatever that is. -/
def Converges (newton : Newton R) (small : (Nat → R) → Prop) : Prop :=
  ∀ o gs b x0 x conv, newton o gs b x0 = .ok (x, conv) → x.length = x0.length ∧
    (conv = true → ∃ y, o.mult x = .ok y ∧ small fun t => ve y t - ve b t)

/-- The stored pressure for the pressure `q` of the last iterate. -/
def stored (P : Flow R) (presDbc : Bool) (q : Nat → R) (r : Nat) : R :=
  if presDbc then q r else q r - (∑ c ∈ range P.NP, q c) / P.NP

/-- The initial guess has the layout of the solution. -/
def Flow.GuessOk (P : Flow R) : Guess R → Prop
  | .restart u => HasSizes u P.sizes
  | .random v => v.length = P.NU + P.NP

end

/-- At `u`, `DF` and `DI` are the derivatives of `F` and `I` in every direction. -/
def Flow.Differentiable (P : Flow ℝ) (u : Nat → ℝ) : Prop :=
  (∀ (d : Nat → ℝ) m k, m < P.n → k < P.nu m →
    HasDerivAt (fun t : ℝ => P.F m (part P.nu (fun c => u c + t * d c) m) k)
      (∑ l ∈ range (P.nu m), P.DF m (part P.nu u m) k l * d (first P.nu m + l)) 0) ∧
  ∀ (d : Nat → ℝ) m k, m < P.n → k < P.nu m →
    HasDerivAt (fun t : ℝ => P.I (vecOf P.NU fun c => u c + t * d c) m k)
      (∑ j ∈ range P.n, ∑ l ∈ range (P.nu j), P.DI (vecOf P.NU u) m k j l * d (first P.nu j + l)) 0

end Verif.SteadyNS.Spec
