import Verif.Spec.InterfaceForm
import Verif.Spec.RomAssembly
import Verif.Spec.Unsteady
import Verif.Spec.Penalty
import Verif.Model.FomSolve

/-!
# What a full-order linear solve should do

The unknowns of a subdomain are numbered from zero; `w m` is how many subdomain `m` has.  The assembled operator
is an array of matrices: `mget M m m' k l` couples unknown `l` of subdomain `m'` into equation `k` of
subdomain `m`.
-/

namespace Verif.FomSolve.Spec

open Verif Verif.LinAlg Verif.LinAlg.Spec Verif.FomSolve Finset
open Verif.InterfaceForm (MatArr Integ Tr)
open Verif.InterfaceForm.Spec (mget)
open Verif.Blocks (BlockVector)
open Verif.Blocks.Spec (IsOffsets HasSizes)
open Verif.RomAssembly.Spec (saddle)
open Verif.Unsteady.Spec (first vecOf)

variable {R : Type}

section
variable [CommRing R]

/-! ### External solvers -/

/-- `op` multiplies vectors of length `N` by the matrix `A`. -/
def IsMatrix (op : List R → Outcome (List R)) (N : Nat) (A : Nat → Nat → R) : Prop :=
  ∀ v : List R, v.length = N → ∃ y, op v = .ok y ∧ y.length = N ∧
    ∀ t, t < N → ve y t = ∑ c ∈ range N, A t c * ve v c

/-- `b - A x`. -/
def resid (N : Nat) (A : Nat → Nat → R) (b x : List R) : List R :=
  vecOf N fun t => ve b t - ∑ c ∈ range N, A t c * ve x c

/-- The contract of an iterative solver (external): it keeps the size of the vector, and when it reports
convergence, the residual passes its test against the residual of the initial guess.  `sym`: only promised for
symmetric matrices. -/
def Sound (sym : Bool) (kr : Krylov R) (small : Prec → List R → List R → Prop) : Prop :=
  ∀ op prec N A (b x0 x : List R) conv, IsMatrix op N A →
    (sym = true → ∀ r c, r < N → c < N → A r c = A c r) → b.length = N → x0.length = N →
    kr op prec b x0 = .ok (x, conv) →
    x.length = N ∧ (conv = true → small prec (resid N A b x0) (resid N A b x))

/-! ### One variable per subdomain -/

/-- The left-hand side of equation `k` of subdomain `m` for the unknowns `x` (one subdomain after the other). -/
def lhs (n : Nat) (w : Nat → Nat) (M : MatArr R) (x : Nat → R) (m k : Nat) : R :=
  ∑ m' ∈ range n, ∑ l ∈ range (w m'), mget M m m' k l * x (first w m' + l)

/-- `x` solves the equations of every subdomain exactly. -/
def Solves (n : Nat) (w : Nat → Nat) (M : MatArr R) (rhs x : Nat → R) : Prop :=
  ∀ m k, m < n → k < w m → lhs n w M x m k = rhs (first w m + k)

/-- `r` is the residual of every equation. -/
def Residual (n : Nat) (w : Nat → Nat) (M : MatArr R) (rhs x : Nat → R) (r : List R) : Prop :=
  r.length = first w n ∧
    ∀ m k, m < n → k < w m → ve r (first w m + k) = rhs (first w m + k) - lhs n w M x m k

/-- The coupling of unknown `k` of `m` with unknown `l` of `m'` is the same both ways. -/
def Symmetric (n : Nat) (w : Nat → Nat) (M : MatArr R) : Prop :=
  ∀ m m' k l, m < n → m' < n → k < w m → l < w m' → mget M m m' k l = mget M m' m l k

/-! ### Stokes: velocity and pressure per subdomain -/

/-- Position of unknown `k` of variable `v` (0 velocity, 1 pressure) of subdomain `m` in a vector stored
subdomain by subdomain. -/
def at_ (nu np : Nat → Nat) (m v k : Nat) : Nat :=
  first nu m + first np m + (if v = 0 then 0 else nu m) + k

/-- Number of unknowns of variable `v` of subdomain `m`. -/
def dofs (nu np : Nat → Nat) (m v : Nat) : Nat := if v = 0 then nu m else np m

/-- The left-hand side of the Stokes equations, for unknowns stored subdomain by subdomain. -/
def stokesLhs (n : Nat) (nu np : Nat → Nat) (M B : MatArr R) (x : Nat → R) (m v k : Nat) : R :=
  ∑ m' ∈ range n, ∑ v' ∈ range 2, ∑ l ∈ range (dofs nu np m' v'),
    saddle M B m m' v v' k l * x (at_ nu np m' v' l)

/-- `x` solves the equations of both variables of every subdomain exactly. -/
def StokesSolves (n : Nat) (nu np : Nat → Nat) (M B : MatArr R) (rhs x : Nat → R) : Prop :=
  ∀ m v k, m < n → v < 2 → k < dofs nu np m v →
    stokesLhs n nu np M B x m v k = rhs (at_ nu np m v k)

/-- `r` is the residual: all velocity equations, then all pressure equations. -/
def StokesResidual (n : Nat) (nu np : Nat → Nat) (M B : MatArr R) (rhs x : Nat → R) (r : List R) : Prop :=
  r.length = first nu n + first np n ∧ ∀ m v k, m < n → v < 2 → k < dofs nu np m v →
    ve r (if v = 0 then first nu m + k else first nu n + (first np m + k)) =
      rhs (at_ nu np m v k) - stokesLhs n nu np M B x m v k

/-- Constant pressures exert no force. -/
def NoForce (n : Nat) (nu np : Nat → Nat) (B : MatArr R) : Prop :=
  ∀ m k, m < n → k < nu m → ∑ m' ∈ range n, ∑ l ∈ range (np m'), mget B m' m l k = 0

/-- The pressure dofs sum to zero. -/
def ZeroMean (n : Nat) (nu np : Nat → Nat) (x : Nat → R) : Prop :=
  ∑ m ∈ range n, ∑ l ∈ range (np m), x (at_ nu np m 1 l) = 0

end

/-! ### Where symmetry comes from -/

section
variable [Field R] {δ : Type}

open Verif.Penalty Verif.Spec.Penalty in
/-- The element matrices of an integrator are those of the assembly routine `asm` with parameters `sigma` and
`kappa`, on the sizes and quadrature points that `geo` finds on a face. -/
def Computes (asm : Dims → R → R → List (Pt R) → Outcome (Four R)) (sigma kappa : R)
    (geo : Tr δ → Tr δ → Dims × List (Pt R)) (g : Integ R δ) : Prop :=
  ∀ t1 t2, ∃ m, asm (geo t1 t2).1 sigma kappa (geo t1 t2).2 = .ok m ∧ ∀ i j, i < 2 → j < 2 →
    (g.mat t1 t2 i j).h = (blk m (decide (i = 1)) (decide (j = 1))).h ∧
    (g.mat t1 t2 i j).w = (blk m (decide (i = 1)) (decide (j = 1))).w ∧
    ∀ r c, r < (g.mat t1 t2 i j).h → c < (g.mat t1 t2 i j).w →
      ent (g.mat t1 t2 i j) r c = (blk m (decide (i = 1)) (decide (j = 1))).val r c

end

end Verif.FomSolve.Spec
