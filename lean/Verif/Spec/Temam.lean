import Verif.Model.Temam
import Mathlib.Algebra.BigOperators.Ring.Finset

/-!
# Specification of the skew-symmetric convection forms

A vector function on an element with `nd` shape functions has `dim * nd` coefficients, component by component.
-/

namespace Verif.Spec.Temam

open Verif Verif.LinAlg Verif.Temam Finset

variable {R : Type} [Field R]

/-- The coefficient of a point, 1 if none is given. -/
def coef (q : Option R) : R := q.getD 1

/-- Component `d` of a function at a point with the shape functions `shape`. -/
def val (nd : Nat) (shape : Nat → R) (u : Nat → R) (d : Nat) : R := ∑ j ∈ range nd, u (d * nd + j) * shape j

/-- `∂u_d / ∂x_b`. -/
def der (nd : Nat) (p : EPt R) (u : Nat → R) (d b : Nat) : R := ∑ j ∈ range nd, u (d * nd + j) * p.dshape j b

/-- `(a · ∇u)_d`. -/
def conv (dim nd : Nat) (p : EPt R) (a u : Nat → R) (d : Nat) : R :=
  ∑ b ∈ range dim, val nd p.shape a b * der nd p u d b

/-- Temam's form in an element, `½ Q [((a·∇)u, v) - ((a·∇)v, u)]`. -/
def elem (dim nd : Nat) (pts : List (EPt R)) (a u v : Nat → R) : R :=
  (pts.map fun p => 1 / 2 * p.wt * coef p.q * ∑ d ∈ range dim,
    (conv dim nd p a u d * val nd p.shape v d - conv dim nd p a v d * val nd p.shape u d)).sum

/-- `n · a` on the first side. -/
def normalVel (dim n1 : Nat) (p : FPt R) (a : Nat → R) : R := ∑ b ∈ range dim, p.nor b * val n1 p.sh1 a b

/-- The form on an interior face, `½ Q <n·a1, u1·v2 - u2·v1>`; the functions are given on both sides. -/
def face (dim n1 n2 : Nat) (pts : List (FPt R)) (a u v : Bool → Nat → R) : R :=
  (pts.map fun p => 1 / 2 * p.wt * coef p.q * (normalVel dim n1 p (a false) * ∑ d ∈ range dim,
    (val n1 p.sh1 (u false) d * val n2 p.sh2 (v true) d - val n2 p.sh2 (u true) d * val n1 p.sh1 (v false) d))).sum

/-- The form on a boundary face, `½ Q <n·a, u·v>`. -/
def bdr (dim n1 : Nat) (pts : List (FPt R)) (a u v : Nat → R) : R :=
  (pts.map fun p => 1 / 2 * p.wt * coef p.q * (normalVel dim n1 p a * ∑ d ∈ range dim,
    val n1 p.sh1 u d * val n1 p.sh1 v d)).sum

/-- The boundary load `Z <n·g, g·v>`. -/
def bdrLoad (dim nd : Nat) (pts : List (LPt R)) (v : Nat → R) : R :=
  (pts.map fun p => p.wt * coef p.z * ((∑ b ∈ range dim, p.nor b * p.g b) * ∑ d ∈ range dim,
    p.g d * val nd p.shape v d)).sum

/-- `v' x` for a vector with `n` entries. -/
def lin (n : Nat) (x : Blk R) (v : Nat → R) : R := ∑ r ∈ range n, v r * x.val r 0

/-- `v' M h` for an `n × m` matrix. -/
def bil (n m : Nat) (M : Blk R) (v h : Nat → R) : R := ∑ r ∈ range n, ∑ c ∈ range m, v r * M.val r c * h c

/-- The two sides of a function whose coefficients are stored one after the other. -/
def halves (k : Nat) (u : Nat → R) : Bool → Nat → R := fun I j => if I then u (k + j) else u j

/-- The same face seen from the other side. -/
def swapPt (p : FPt R) : FPt R := { p with nor := fun a => -p.nor a, sh1 := p.sh2, sh2 := p.sh1 }

end Verif.Spec.Temam
