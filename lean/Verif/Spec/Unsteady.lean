import Verif.Spec.EqpRom
import Verif.Spec.RomHandler
import Verif.Model.Unsteady

/-!
# What one time step should solve

Backward Euler for the viscous terms and the pressure, explicit convection.  Velocities are numbered
subdomain by subdomain: dof `k` of subdomain `m` is number `sum (i < m) nu i + k`; likewise pressures.
-/

namespace Verif.Unsteady.Spec

open Verif Verif.LinAlg Verif.LinAlg.Spec Verif.Unsteady Finset
open Verif.Blocks (BlockVector)
open Verif.Blocks.Spec (IsOffsets HasSizes)
open Verif.RomHandler.Spec

variable {R : Type}

/-- First number of subdomain `m`, given the sizes. -/
def first (w : Nat → Nat) (m : Nat) : Nat := ∑ i ∈ range m, w i

/-- The part of `x` that belongs to subdomain `m`. -/
def part (w : Nat → Nat) (x : Nat → R) (m : Nat) : List R :=
  (List.range (w m)).map fun k => x (first w m + k)

/-- The first `n` entries of `x`. -/
def vecOf (n : Nat) (x : Nat → R) : List R := (List.range n).map x

/-- Convection: for `n` subdomains with `w m` velocity dofs, the term of subdomain `m` at time `t` is
`F t m`, that of the interfaces `I t`. -/
structure ConvOk [CommRing R] (c : Conv R) (n : Nat) (w : Nat → Nat) (F : R → Nat → List R → Nat → R)
    (I : R → List R → Nat → Nat → R) : Prop where
  dom : ∀ t m (x : List R), m < n → x.length = w m →
    ∃ z, c.dom t m x (w m) = .ok z ∧ z.length = w m ∧ ∀ k, k < w m → ve z k = F t m x k
  itf : ∀ t (x y : List R), x.length = first w n → y.length = first w n →
    ∃ y', c.itf t x y = .ok y' ∧ y'.length = first w n ∧
      ∀ m k, m < n → k < w m → ve y' (first w m + k) = ve y (first w m + k) + I t x m k

/-- A direct solver (external): it solves exactly every square system that has a solution. -/
def Direct [CommRing R] (solver : Blk R → List R → Outcome (List R)) : Prop :=
  ∀ (A : Blk R) (b : List R), A.h = b.length → A.w = b.length →
    (∃ x : Nat → R, ∀ r, r < b.length → ∑ c ∈ range b.length, A.val r c * x c = ve b r) →
    ∃ x, solver A b = .ok x ∧ x.length = b.length ∧
      ∀ r, r < b.length → ∑ c ∈ range b.length, A.val r c * ve x c = ve b r

/-! ### Full order -/

section
variable [Field R] [LinearOrder R]

/-- The discretised problem: mass matrix of each subdomain, viscous operator `K`, gradient `Bt`,
divergence `B`, convection, right-hand sides `f` (velocity) and `g` (pressure). -/
structure Problem (R : Type) where
  n : Nat
  nu : Nat → Nat
  np : Nat → Nat
  mass : Nat → Nat → Nat → R
  K : Nat → Nat → R
  Bt : Nat → Nat → R
  B : Nat → Nat → R
  F : R → Nat → List R → Nat → R
  I : R → List R → Nat → Nat → R
  f : Nat → Nat → R
  g : Nat → Nat → R
  dt : R

/-- Number of velocity dofs. -/
def Problem.NU (P : Problem R) : Nat := first P.nu P.n
/-- Number of pressure dofs. -/
def Problem.NP (P : Problem R) : Nat := first P.np P.n

/-- The convection term of dof `k` of subdomain `m` for the velocity `u` at time `t`. -/
def Problem.conv (P : Problem R) (t : R) (u : Nat → R) (m k : Nat) : R :=
  P.F t m (part P.nu u m) k + P.I t (vecOf P.NU u) m k

/-- Momentum balance of one step from velocity `u` at time `t` to velocity `u'` and pressure `q`:
`mass (u' - u) / dt + K u' + Bt q = f - convection(u)`. -/
def Problem.Momentum (P : Problem R) (t : R) (u u' q : Nat → R) : Prop :=
  ∀ m k, m < P.n → k < P.nu m →
    ∑ l ∈ range (P.nu m), P.mass m k l * ((u' (first P.nu m + l) - u (first P.nu m + l)) / P.dt) +
      ∑ c ∈ range P.NU, P.K (first P.nu m + k) c * u' c +
      ∑ c ∈ range P.NP, P.Bt (first P.nu m + k) c * q c = P.f m k - P.conv t u m k

/-- Mass balance: `B u' = g`. -/
def Problem.Continuity (P : Problem R) (u' : Nat → R) : Prop :=
  ∀ m k, m < P.n → k < P.np m → ∑ c ∈ range P.NU, P.B (first P.np m + k) c * u' c = P.g m k

/-- The equations of a step have a solution, whatever the time and the previous velocity.  The pressure
need not be unique. -/
def Problem.Solvable (P : Problem R) : Prop :=
  ∀ (t : R) (u : Nat → R), ∃ u' q : Nat → R, P.Momentum t u u' q ∧ P.Continuity u'

/-- The discretisation is symmetric, as with the default interface parameter. -/
def Problem.Symmetric (P : Problem R) : Prop :=
  (∀ m k l, m < P.n → k < P.nu m → l < P.nu m → P.mass m k l = P.mass m l k) ∧
  (∀ r c, r < P.NU → c < P.NU → P.K r c = P.K c r) ∧ ∀ r c, r < P.NU → c < P.NP → P.Bt r c = P.B c r

/-- The steady equations with convection at time `t`. -/
def Problem.Steady (P : Problem R) (t : R) (u q : Nat → R) : Prop :=
  (∀ m k, m < P.n → k < P.nu m → ∑ c ∈ range P.NU, P.K (first P.nu m + k) c * u c +
      ∑ c ∈ range P.NP, P.Bt (first P.nu m + k) c * q c + P.conv t u m k = P.f m k) ∧ P.Continuity u

/-- The right-hand side, stored subdomain by subdomain: velocity, then pressure. -/
def Problem.RhsOk (P : Problem R) (rhs : BlockVector R) : Prop :=
  HasSizes rhs ((List.range P.n).flatMap fun m => [P.nu m, P.np m]) ∧
  (∀ m k, m < P.n → k < P.nu m → ve rhs.data (first P.nu m + first P.np m + k) = P.f m k) ∧
  ∀ m k, m < P.n → k < P.np m → ve rhs.data (first P.nu (m + 1) + first P.np m + k) = P.g m k

/-- A solver object set up for the problem. -/
structure Problem.Ok (P : Problem R) (s : Fom R) : Prop where
  n : s.n = P.n
  dt : s.dt = P.dt
  pos : 0 < P.dt
  u : IsOffsets s.u ((List.range P.n).map P.nu)
  p : IsOffsets s.p ((List.range P.n).map P.np)
  mass : ∀ m, m < P.n → s.mass[m]? = some ⟨P.nu m, P.nu m, P.mass m⟩
  M : s.M = ⟨P.NU, P.NU, P.K⟩
  Bt : s.Bt = ⟨P.NU, P.NP, P.Bt⟩
  B : s.B = ⟨P.NP, P.NU, P.B⟩
  conv : ConvOk s.conv P.n P.nu P.F P.I

end

/-! ### Reduced order -/

section
variable [Field R]

/-- The reduced problem: `wu m`, `wp m` basis vectors for velocity and pressure of subdomain `m`;
reduced mass of each subdomain, reduced operator `A` of the steady linear part, convection, right-hand
side.  Unknowns are the velocities of all subdomains, then the pressures. -/
structure Reduced (R : Type) where
  n : Nat
  wu : Nat → Nat
  wp : Nat → Nat
  mass : Nat → Nat → Nat → R
  A : Nat → Nat → R
  F : R → Nat → List R → Nat → R
  I : R → List R → Nat → Nat → R
  rhs : Nat → R
  dt : R

/-- Number of velocity unknowns. -/
def Reduced.NU (P : Reduced R) : Nat := first P.wu P.n
/-- Number of pressure unknowns. -/
def Reduced.NP (P : Reduced R) : Nat := first P.wp P.n
/-- Number of unknowns. -/
def Reduced.N (P : Reduced R) : Nat := P.NU + P.NP

/-- The convection term of unknown `k` of subdomain `m`. -/
def Reduced.conv (P : Reduced R) (t : R) (x : Nat → R) (m k : Nat) : R :=
  P.F t m (part P.wu x m) k + P.I t (vecOf P.NU x) m k

/-- One reduced step from `x` at time `t` to `x'`:
`mass (u' - u) / dt + (A x')_u = rhs_u - convection(u)` and `(A x')_p = rhs_p`. -/
def Reduced.Step (P : Reduced R) (t : R) (x x' : Nat → R) : Prop :=
  (∀ m k, m < P.n → k < P.wu m →
    ∑ l ∈ range (P.wu m), P.mass m k l * ((x' (first P.wu m + l) - x (first P.wu m + l)) / P.dt) +
      ∑ c ∈ range P.N, P.A (first P.wu m + k) c * x' c =
      P.rhs (first P.wu m + k) - P.conv t x m k) ∧
  ∀ r, r < P.NP → ∑ c ∈ range P.N, P.A (P.NU + r) c * x' c = P.rhs (P.NU + r)

/-- The equations of a reduced step have a solution, whatever the time and the previous state. -/
def Reduced.Solvable (P : Reduced R) : Prop := ∀ (t : R) (x : Nat → R), ∃ x' : Nat → R, P.Step t x x'

/-- The steady reduced equations. -/
def Reduced.Steady (P : Reduced R) (t : R) (x : Nat → R) : Prop :=
  (∀ m k, m < P.n → k < P.wu m →
    ∑ c ∈ range P.N, P.A (first P.wu m + k) c * x c + P.conv t x m k = P.rhs (first P.wu m + k)) ∧
  ∀ r, r < P.NP → ∑ c ∈ range P.N, P.A (P.NU + r) c * x c = P.rhs (P.NU + r)

/-- Sizes of the reduced blocks: the velocities of all subdomains, then the pressures. -/
def Reduced.sizes (P : Reduced R) : List Nat :=
  (List.range P.n).map P.wu ++ (List.range P.n).map P.wp

/-- Number of the first unknown of variable `v` (0: velocity, 1: pressure) of subdomain `m`. -/
def Reduced.start (P : Reduced R) (m v : Nat) : Nat :=
  if v = 0 then first P.wu m else P.NU + first P.wp m

/-- The constant function 1, projected to the pressure basis of subdomain `m`: coefficient `k`. -/
def onesAt (h : RomHandler.Handler R) (m k : Nat) : R :=
  ∑ i ∈ range (basisOf h h.refBasis m 1).h, ent (basisOf h h.refBasis m 1) i k

/-- A reduced solver set up for the problem, with one basis for velocity and one for pressure, unknowns
ordered by variable.  `nu`, `np`: numbers of full-order dofs; `rom`: reduced operator of the steady linear
part, whose entries are `A`; `comp`: reduced mass matrix of each component. -/
structure Reduced.Ok (P : Reduced R) (nu np : Nat → Nat) (rom : BlockMat R) (comp : List (Option (Blk R)))
    (r : Rom R) : Prop where
  ord : r.h.ord = .variable
  sep : r.h.separate = true
  nv : r.h.numVar = 2
  n : r.h.numSub = P.n
  dt : r.dt = P.dt
  dt0 : P.dt ≠ 0
  ready : Ready r.h P.sizes ((List.range P.n).flatMap fun m => [nu m, np m])
  poffs : IsOffsets r.poffs ((List.range P.n).map np)
  roffs : rom.roffs = r.h.romOffs
  coffs : rom.coffs = r.h.romOffs
  owns : rom.ownsBlocks = true
  shape : ∀ i j b, rom.blk i j = some b → P.sizes[i]? = some b.h ∧ P.sizes[j]? = some b.w
  A : ∀ i j s s' k l, P.sizes[i]? = some s → P.sizes[j]? = some s' → k < s → l < s' →
    P.A ((P.sizes.take i).sum + k) ((P.sizes.take j).sum + l) =
      match rom.blk i j with
      | none => 0
      | some b => b.val k l
  mass : ∀ m c, r.h.meshType[m]? = some c → comp[c]? = some (some (⟨P.wu m, P.wu m, P.mass m⟩ : Blk R))
  rhsLen : r.rhs.length = P.N
  rhs : ∀ t, t < P.N → ve r.rhs t = P.rhs t
  conv : ConvOk r.conv P.n P.wu P.F P.I

/-- The update of the pressure after a solve: subtract the projected constant, scaled by the nodal mean
of the lifted pressure; `Np` is the number of full-order pressure dofs. -/
def Reduced.Normalised (P : Reduced R) (h : RomHandler.Handler R) (Np : Nat) (z x : Nat → R) : Prop :=
  (∀ c, c < P.NU → x c = z c) ∧
  ∀ m k, m < P.n → k < P.wp m → x (P.start m 1 + k) = z (P.start m 1 + k) -
    (∑ i ∈ range P.n, ∑ j ∈ range (P.wp i), onesAt h i j * z (P.start i 1 + j)) / Np * onesAt h m k

end

end Verif.Unsteady.Spec
