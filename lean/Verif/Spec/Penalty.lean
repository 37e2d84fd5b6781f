import Verif.Model.Penalty
import Mathlib.Algebra.BigOperators.Ring.Finset

/-!
# Specification of the interior-penalty and normal-flux forms

The forms are written for finite element functions on the two sides of a face, given by their coefficients:
`u I j` is the coefficient of shape function `j` on side `I` (`false` the first element, `true` the second).
A vector function has its components one after the other: component `c` of shape function `j` is the
coefficient `c * n + j`.
-/

namespace Verif.Spec.Penalty

open Verif Verif.LinAlg Verif.Penalty Finset

variable {R : Type} [Field R]

/-- The two sides of a point. -/
def side (p : Pt R) : Bool → Side R
  | false => p.s1
  | true => p.s2

/-- Number of scalar shape functions on each side. -/
def nd (d : Dims) : Bool → Nat
  | false => d.n1
  | true => d.n2

/-- Block `(I, J)` of the matrices of an interface. -/
def blk (m : Four R) : Bool → Bool → Blk R
  | false, false => m.a00
  | false, true => m.a01
  | true, false => m.a10
  | true, true => m.a11

/-- The four blocks have the right sizes. -/
def Sized (m : Four R) (h w : Bool → Nat) : Prop := ∀ I J, (blk m I J).h = h I ∧ (blk m I J).w = w J

/-- The bilinear form of four blocks: `Σ v_I' E_IJ u_J`. -/
def pairing (h w : Bool → Nat) (E : Bool → Bool → Nat → Nat → R) (v u : Bool → Nat → R) : R :=
  ∑ I : Bool, ∑ r ∈ range (h I), ∑ J : Bool, ∑ c ∈ range (w J), v I r * E I J r c * u J c

/-- The value of a scalar function on one side. -/
def value (n : Nat) (shape : Nat → R) (u : Nat → R) : R := ∑ j ∈ range n, u j * shape j

/-- The gradient of a scalar function in physical space: reference derivatives times the inverse Jacobian,
which is the adjugate divided by the determinant. -/
def grad (dim n : Nat) (s : Side R) (u : Nat → R) (b : Nat) : R :=
  ∑ j ∈ range n, u j * ∑ a ∈ range dim, s.dshape j a * (s.adj a b / s.det)

/-- `Q g`. -/
def apply (dim : Nat) (c : Coef R) (g : Nat → R) (a : Nat) : R :=
  match c with
  | .one => g a
  | .scalar q => q * g a
  | .matrix m => ∑ b ∈ range dim, m a b * g b

/-- `(Q grad u) · n` on one side. -/
def flux (d : Dims) (Q : Side R → Coef R) (p : Pt R) (I : Bool) (u : Nat → R) : R :=
  ∑ a ∈ range d.dim, p.nor a * apply d.dim (Q (side p I)) (grad d.dim (nd d I) (side p I) u) a

/-- `[u]`: first side minus second side. -/
def jump (d : Dims) (p : Pt R) (u : Bool → Nat → R) : R :=
  value (nd d false) p.s1.shape (u false) - value (nd d true) p.s2.shape (u true)

/-- `{Q grad u · n}`. -/
def avgFlux (d : Dims) (Q : Side R → Coef R) (p : Pt R) (u : Bool → Nat → R) : R :=
  (flux d Q p false (u false) + flux d Q p true (u true)) / 2

/-- `{h⁻¹ Q}`: the average over the sides of `(n · Q n) / det J`. -/
def penalty (d : Dims) (Q : Side R → Coef R) (p : Pt R) : R :=
  (∑ a ∈ range d.dim, p.nor a * apply d.dim (Q p.s1) p.nor a / p.s1.det +
    ∑ a ∈ range d.dim, p.nor a * apply d.dim (Q p.s2) p.nor a / p.s2.det) / 2

/-- The interior-penalty form
`- <{Q grad u · n}, [v]> + sigma <[u], {Q grad v · n}> + kappa <{h⁻¹ Q} [u], [v]>`. -/
def ipForm (d : Dims) (Q : Side R → Coef R) (sigma kappa : R) (pts : List (Pt R)) (v u : Bool → Nat → R) : R :=
  (pts.map fun p => p.wt * (-(avgFlux d Q p u * jump d p v) + sigma * (jump d p u * avgFlux d Q p v)
    + kappa * penalty d Q p * jump d p u * jump d p v)).sum

/-- Number of vector shape functions on each side. -/
def nv (d : Dims) (I : Bool) : Nat := d.dim * nd d I

/-- Where the rows of a side begin in the matrix of a face inside one mesh. -/
def roff (d : Dims) : Bool → Nat
  | false => 0
  | true => d.dim * d.n1

/-- Component `c` of a vector function. -/
def comp (d : Dims) (c : Nat) (u : Bool → Nat → R) : Bool → Nat → R := fun I j => u I (c * nd d I + j)

/-- The interior-penalty form of a vector function: the sum over its components, with coefficient `mu`. -/
def vecForm (d : Dims) (sigma kappa : R) (pts : List (Pt R)) (v u : Bool → Nat → R) : R :=
  ∑ c ∈ range d.dim, ipForm d (fun s => .scalar s.mu) sigma kappa pts (comp d c v) (comp d c u)

/-- The stress `lambda (div u) I + mu (grad u + grad u')` on one side. -/
def stress (d : Dims) (p : Pt R) (I : Bool) (u : Bool → Nat → R) (a b : Nat) : R :=
  let D := fun c b => grad d.dim (nd d I) (side p I) (comp d c u I) b
  (if a = b then (side p I).lam * ∑ c ∈ range d.dim, D c c else 0) + (side p I).mu * (D a b + D b a)

/-- Component `a` of `{sigma(u) n}`. -/
def avgTraction (d : Dims) (p : Pt R) (u : Bool → Nat → R) (a : Nat) : R :=
  (∑ b ∈ range d.dim, stress d p false u a b * p.nor b + ∑ b ∈ range d.dim, stress d p true u a b * p.nor b) / 2

/-- `{h⁻¹ (lambda + 2 mu)}`. -/
def elPenalty (d : Dims) (p : Pt R) : R :=
  (∑ a ∈ range d.dim, p.nor a * p.nor a) *
    (((p.s1.lam + 2 * p.s1.mu) / p.s1.det + (p.s2.lam + 2 * p.s2.mu) / p.s2.det) / 2)

/-- The interior-penalty form of linear elasticity
`- <{sigma(u) n}, [v]> + alpha <[u], {sigma(v) n}> + kappa <{h⁻¹ (lambda + 2 mu)} [u], [v]>`. -/
def elForm (d : Dims) (alpha kappa : R) (pts : List (Pt R)) (v u : Bool → Nat → R) : R :=
  (pts.map fun p => p.wt * ∑ c ∈ range d.dim,
    (-(avgTraction d p u c * jump d p (comp d c v)) + alpha * (jump d p (comp d c u) * avgTraction d p v c)
      + kappa * elPenalty d p * jump d p (comp d c u) * jump d p (comp d c v))).sum

/-- The elements on both sides are not degenerate at the quadrature points. -/
def Regular (pts : List (Pt R)) : Prop := ∀ p ∈ pts, p.s1.det ≠ 0 ∧ p.s2.det ≠ 0

/-- On a boundary face: `- <mu grad u · n, v> + alpha <u, mu grad v · n> + kappa <h⁻¹ mu u, v>`, summed over the
components. -/
def bdrForm (d : Dims) (alpha kappa : R) (pts : List (Pt R)) (v u : Nat → R) : R :=
  ∑ c ∈ range d.dim, (pts.map fun p =>
    let Q : Side R → Coef R := fun s => .scalar s.mu
    let vc := fun j => v (c * d.n1 + j)
    let uc := fun j => u (c * d.n1 + j)
    p.wt * (-(flux d Q p false uc * value d.n1 p.s1.shape vc) + alpha * (value d.n1 p.s1.shape uc * flux d Q p false vc)
      + kappa * (∑ a ∈ range d.dim, p.nor a * (p.s1.mu * p.nor a) / p.s1.det)
        * value d.n1 p.s1.shape uc * value d.n1 p.s1.shape vc)).sum

/-- The same face seen from the other side: the elements exchanged and the normal reversed. -/
def swapPt (p : Pt R) : Pt R := { wt := p.wt, nor := fun a => -p.nor a, s1 := p.s2, s2 := p.s1 }

def swapDims (d : Dims) : Dims := { dim := d.dim, n1 := d.n2, n2 := d.n1 }

/-! ## Normal flux -/

/-- Trial and test sizes on each side of a mixed integrator. -/
def trN (d : MDims) : Bool → Nat
  | false => d.tr1
  | true => d.tr2

def teN (d : MDims) : Bool → Nat
  | false => d.te1
  | true => d.te2

def tw (d : MDims) (J : Bool) : Nat := d.dim * trN d J

/-- Where the rows and columns of a side begin in the matrix of a face inside one mesh. -/
def teOff (d : MDims) : Bool → Nat
  | false => 0
  | true => d.te1

def trOff (d : MDims) : Bool → Nat
  | false => 0
  | true => d.dim * d.tr1

/-- `<{q}, [u] · n>` for a scalar test function `q` and a vector trial function `u`. -/
def fluxForm (d : MDims) (pts : List (MPt R)) (q u : Bool → Nat → R) : R :=
  (pts.map fun p => p.wt *
    (((value d.te1 p.te1 (q false) + value d.te2 p.te2 (q true)) / 2) *
      ∑ a ∈ range d.dim, p.nor a *
        (value d.tr1 p.tr1 (fun j => u false (a * d.tr1 + j)) - value d.tr2 p.tr2 (fun j => u true (a * d.tr2 + j))))).sum

/-- `<q, u · n>` on a boundary face. -/
def bdrFluxForm (d : MDims) (pts : List (MPt R)) (q u : Nat → R) : R :=
  (pts.map fun p => p.wt * (value d.te1 p.te1 q *
      ∑ a ∈ range d.dim, p.nor a * value d.tr1 p.tr1 (fun j => u (a * d.tr1 + j)))).sum

/-- The same face seen from the other side. -/
def swapMPt (p : MPt R) : MPt R :=
  { wt := p.wt, nor := fun a => -p.nor a, tr1 := p.tr2, te1 := p.te2, tr2 := p.tr1, te2 := p.te1 }

def swapMDims (d : MDims) : MDims := { dim := d.dim, tr1 := d.tr2, te1 := d.te2, tr2 := d.tr1, te2 := d.te1 }

end Verif.Spec.Penalty
