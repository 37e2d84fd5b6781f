import Verif.Model.Loads
import Verif.Spec.Penalty
import Verif.Spec.Temam

/-!
# Specification of the boundary loads
-/

namespace Verif.Spec.Loads

open Verif Verif.Penalty Verif.Loads Verif.Spec.Penalty Finset

variable {R : Type} [Field R]

/-- The coefficient `mu` as the coefficient of a diffusion form. -/
def visc (s : Side R) : Coef R := .scalar s.mu

/-- Component `c` of a vector function with `n` shape functions. -/
def part (n c : Nat) (u : Nat → R) : Nat → R := fun j => u (c * n + j)

/-- `h⁻¹ mu` at a boundary point. -/
def invh (d : Dims) (p : Pt R) : R := ∑ a ∈ range d.dim, p.nor a * (p.s1.mu * p.nor a) / p.s1.det

/-- The load of prescribed values `g`: `alpha <g, mu grad v · n> + kappa <h⁻¹ mu g, v>`. -/
def dirichletForm (d : Dims) (alpha kappa : R) (pts : List (DPt R)) (v : Nat → R) : R :=
  ∑ c ∈ range d.dim, (pts.map fun q => q.p.wt *
    (alpha * (q.g c * flux d visc q.p false (part d.n1 c v)) +
      kappa * invh d q.p * q.g c * value d.n1 q.p.s1.shape (part d.n1 c v))).sum

/-- `- <mu grad u · n, v>`. -/
def fluxTerm (d : Dims) (pts : List (Pt R)) (v u : Nat → R) : R :=
  ∑ c ∈ range d.dim, (pts.map fun p => p.wt *
    -(flux d visc p false (part d.n1 c u) * value d.n1 p.s1.shape (part d.n1 c v))).sum

/-- `<g · n, q>`. -/
def normalForm (dim nd : Nat) (pts : List (NPt R)) (q : Nat → R) : R :=
  (pts.map fun p => p.wt * ((∑ a ∈ range dim, p.g a * p.nor a) * value nd p.shape q)).sum

/-- `<sigma n, v>`, the stress given column by column. -/
def stressForm (dim nd : Nat) (pts : List (NPt R)) (v : Nat → R) : R :=
  (pts.map fun p => p.wt * ∑ k ∈ range dim,
    (∑ l ∈ range dim, p.g (k + dim * l) * p.nor l) * value nd p.shape (part nd k v)).sum

end Verif.Spec.Loads
