import Verif.Model.Views

/-!
# Convection integrators at one quadrature point

Models `VectorConvectionTrilinearFormIntegrator` and `IncompressibleInviscidFluxNLFIntegrator` of
`src/hyperreduction_integ.cpp`, together with `ROMNonlinearForm::PrecomputeDomainEQPSample` of
`src/rom_nonlinearform.cpp`.

The dense kernels of MFEM are external; they are given by their mathematical definition on the
column-major buffers.  Work arrays that the C++ keeps as members (`shape`, `dshape`, `gradEF`, ...)
are local values here: every routine resizes and overwrites them before use.
-/

namespace Verif.LinAlg

open Verif

variable {R : Type}

section
variable [CommRing R]

/-- `A(i, j)` of a column-major buffer.  Every use below is within the dimensions of `A`. -/
def Mat.get (m : Mat R) (i j : Nat) : R := m.data[i + j * m.h]?.getD 0

/-- `v(i)` of a vector. -/
def vget (v : List R) (i : Nat) : R := v[i]?.getD 0

/-- A dense matrix from its entries. -/
def Mat.of (h w : Nat) (f : Nat → Nat → R) : Mat R :=
  ⟨h, w, (List.range (h * w)).map (fun t => f (t % h) (t / h))⟩

/-- A vector from its entries. -/
def vof (n : Nat) (f : Nat → R) : List R := (List.range n).map f

/-- `DenseMatrix::Mult(x, y)` (external). -/
def Mat.mulV (m : Mat R) (x : List R) : List R :=
  vof m.h (fun i => ∑ j ∈ Finset.range m.w, m.get i j * vget x j)

/-- `DenseMatrix::MultTranspose(x, y)` (external). -/
def Mat.mulTV (m : Mat R) (x : List R) : List R :=
  vof m.w (fun j => ∑ i ∈ Finset.range m.h, m.get i j * vget x i)

/-- `Mult(a, b, c)` (external): `c = a b`. -/
def mulAB (a b : Mat R) : Mat R :=
  Mat.of a.h b.w (fun i j => ∑ k ∈ Finset.range a.w, a.get i k * b.get k j)

/-- `MultAtB(a, b, c)` (external): `c = a^T b`. -/
def mulAtB (a b : Mat R) : Mat R :=
  Mat.of a.w b.w (fun i j => ∑ k ∈ Finset.range a.h, a.get k i * b.get k j)

/-- `MultVWt(v, w, vwt)` (external): the outer product. -/
def mulVWt (v w : List R) : Mat R := Mat.of v.length w.length (fun i j => vget v i * vget w j)

/-- `v *= a` (external). -/
def vscale (a : R) (v : List R) : List R := vof v.length (fun i => vget v i * a)

/-- `m *= a`, or `Set(a, m)` (external). -/
def Mat.scale (a : R) (m : Mat R) : Mat R := Mat.of m.h m.w (fun i j => a * m.get i j)

/-- `m.Add(a, b)` (external): `m += a b`. -/
def Mat.addScaled (m : Mat R) (a : R) (b : Mat R) : Mat R :=
  Mat.of m.h m.w (fun i j => m.get i j + a * b.get i j)

/-- `m.AddMatrix(a, blk, r, c)` (external): `a * blk` is added at row `r` and column `c`. -/
def Mat.addBlock (m : Mat R) (a : R) (blk : Mat R) (r c : Nat) : Mat R :=
  Mat.of m.h m.w (fun i j => m.get i j +
    if r ≤ i ∧ i < r + blk.h ∧ c ≤ j ∧ j < c + blk.w then a * blk.get (i - r) (j - c) else 0)

/-- Column `j` of a matrix as a vector (`GetColumnReference`). -/
def Mat.colV (m : Mat R) (j : Nat) : List R := vof m.h (fun i => m.get i j)

/-- A `for` loop whose body cannot fail. -/
def iter {σ : Type} (n : Nat) (body : Nat → σ → σ) (s : σ) : σ :=
  (List.range n).foldl (fun s i => body i s) s

end

end Verif.LinAlg

namespace Verif.Convection

open Verif Verif.LinAlg

variable {R : Type}

/-- What a domain integrator sees at one quadrature point of one element (external): the number of
scalar shape functions `GetDof()`, the dimension, `CalcShape`, `CalcDShape`, `CalcPhysDShape`,
`InverseJacobian()`, `AdjugateJacobian()`, `Weight()`, and the values of the coefficients `Q` and
`vQ` there, if set. -/
structure Pt (R : Type) where
  nd : Nat
  dim : Nat
  shape : List R
  dref : Mat R
  dshape : Mat R
  invJ : Mat R
  adjJ : Mat R
  weight : R
  q : Option R
  vq : Option (List R)
deriving DecidableEq, Repr

section
variable [CommRing R]

/-- `if (Q) { w *= Q->Eval(T, ip); }` -/
def Pt.withQ (p : Pt R) (w : R) : R :=
  match p.q with
  | none => w
  | some q => w * q

/-- The advecting velocity: `vQ` if set, else the field itself,
src/hyperreduction_integ.cpp:232-235, :316-319. -/
def Pt.advect (p : Pt R) (ef : Mat R) : List R :=
  match p.vq with
  | some v => v
  | none => ef.mulTV p.shape

/-! ## `VectorConvectionTrilinearFormIntegrator` -/

/-- `AssembleQuadratureVector`, src/hyperreduction_integ.cpp:286-324.  The element vector is laid out
as an `nd` by `dim` matrix. -/
def triVec (p : Pt R) (iw : R) (u : List R) : List R :=
  let ef : Mat R := ⟨p.nd, p.dim, u⟩
  let w := p.withQ (iw * p.weight)
  let gradEF := mulAtB ef p.dshape
  let vec1 := p.advect ef
  let vec2 := vscale w (gradEF.mulV vec1)
  (mulVWt p.shape vec2).data

/-- The loop body of `AssembleElementVector`, src/hyperreduction_integ.cpp:214-239; `AddMultVWt`
accumulates onto the element vector `elv`. -/
def triVecAdd (p : Pt R) (iw : R) (u elv : List R) : List R :=
  let ef : Mat R := ⟨p.nd, p.dim, u⟩
  let w := p.withQ (iw * p.weight)
  let gradEF := mulAtB ef p.dshape
  let vec1 := p.advect ef
  let vec2 := vscale w (gradEF.mulV vec1)
  ((⟨p.nd, p.dim, elv⟩ : Mat R).addScaled 1 (mulVWt p.shape vec2)).data

/-- `AssembleElementVector`, src/hyperreduction_integ.cpp:195-240, on an element whose quadrature
points and weights are `pts`. -/
def triElemVec (nd dim : Nat) (pts : List (Pt R × R)) (u : List R) : List R :=
  pts.foldl (fun elv pw => triVecAdd pw.1 pw.2 u elv) (vof (nd * dim) (fun _ => 0))

/-- `AssembleQuadratureGrad`, src/hyperreduction_integ.cpp:397-464, added onto `elmat`; the loop body
of `AssembleElementGrad`, :326-395, is the same code. -/
def triGradAdd (p : Pt R) (iw : R) (u : List R) (elmat : Mat R) : Mat R :=
  let ef : Mat R := ⟨p.nd, p.dim, u⟩
  let dshapex := mulAB p.dref p.invJ
  let w := p.withQ iw
  let gradEF := mulAtB ef dshapex
  let vec1 := ef.mulTV p.shape
  let vec2 := vscale w (p.adjJ.mulV vec1)
  let vec3 := p.dref.mulV vec2
  let comp := mulVWt p.shape vec3
  let elmat := iter p.dim (fun ii m => m.addBlock 1 comp (ii * p.nd) (ii * p.nd)) elmat
  let comp := mulVWt p.shape p.shape
  let w := p.withQ (iw * p.weight)
  iter p.dim (fun ii m => iter p.dim (fun jj m =>
    m.addBlock (w * gradEF.get ii jj) comp (ii * p.nd) (jj * p.nd)) m) elmat

/-- `elmat = 0.0`. -/
def zeroMat (n : Nat) : Mat R := Mat.of n n (fun _ _ => 0)

/-- `AssembleQuadratureGrad`, src/hyperreduction_integ.cpp:397-464. -/
def triGrad (p : Pt R) (iw : R) (u : List R) : Mat R := triGradAdd p iw u (zeroMat (p.nd * p.dim))

/-- `AssembleElementGrad`, src/hyperreduction_integ.cpp:326-395. -/
def triElemGrad (nd dim : Nat) (pts : List (Pt R × R)) (u : List R) : Mat R :=
  pts.foldl (fun m pw => triGradAdd pw.1 pw.2 u m) (zeroMat (nd * dim))

/-! ## `IncompressibleInviscidFluxNLFIntegrator` -/

/-- `AssembleQuadratureVector`, src/hyperreduction_integ.cpp:643-673. -/
def invVec (p : Pt R) (iw : R) (u : List R) : List R :=
  let ef : Mat R := ⟨p.nd, p.dim, u⟩
  let w := p.withQ (iw * p.weight)
  let u1 := ef.mulTV p.shape
  let uu := mulVWt u1 u1
  ((Mat.of p.nd p.dim (fun _ _ => 0)).addScaled w (mulAB p.dshape uu)).data

/-- The loop body of `AssembleElementVector`, src/hyperreduction_integ.cpp:566-580; `AddMult_a_ABt`
multiplies by the transpose of `uu`. -/
def invVecAdd (p : Pt R) (iw : R) (u elv : List R) : List R :=
  let ef : Mat R := ⟨p.nd, p.dim, u⟩
  let w := p.withQ (iw * p.weight)
  let u1 := ef.mulTV p.shape
  let uu := mulVWt u1 u1
  let uut := Mat.of uu.w uu.h (fun i j => uu.get j i)
  ((⟨p.nd, p.dim, elv⟩ : Mat R).addScaled w (mulAB p.dshape uut)).data

/-- `AssembleElementVector`, src/hyperreduction_integ.cpp:546-581. -/
def invElemVec (nd dim : Nat) (pts : List (Pt R × R)) (u : List R) : List R :=
  pts.foldl (fun elv pw => invVecAdd pw.1 pw.2 u elv) (vof (nd * dim) (fun _ => 0))

/-- `AssembleQuadratureGrad`, src/hyperreduction_integ.cpp:675-727, added onto `elmat`; the loop body
of `AssembleElementGrad`, :583-641, is the same code. -/
def invGradAdd (p : Pt R) (iw : R) (u : List R) (elmat : Mat R) : Mat R :=
  let ef : Mat R := ⟨p.nd, p.dim, u⟩
  let w := p.withQ (iw * p.weight)
  let vec1 := vscale w (ef.mulTV p.shape)
  let vec2 := p.dshape.mulV vec1
  let comp := mulVWt vec2 p.shape
  let elmat := iter p.dim (fun d m => m.addBlock 1 comp (d * p.nd) (d * p.nd)) elmat
  iter p.dim (fun di m =>
    let dshapex := Mat.scale (vget vec1 di) p.dshape
    iter p.dim (fun dj m =>
      m.addBlock 1 (mulVWt (dshapex.colV dj) p.shape) (di * p.nd) (dj * p.nd)) m) elmat

/-- `AssembleQuadratureGrad`, src/hyperreduction_integ.cpp:675-727. -/
def invGrad (p : Pt R) (iw : R) (u : List R) : Mat R := invGradAdd p iw u (zeroMat (p.nd * p.dim))

/-- `AssembleElementGrad`, src/hyperreduction_integ.cpp:583-641. -/
def invElemGrad (nd dim : Nat) (pts : List (Pt R × R)) (u : List R) : Mat R :=
  pts.foldl (fun m pw => invGradAdd pw.1 pw.2 u m) (zeroMat (nd * dim))

/-! ## Precomputed coefficients -/

/-- The precomputed part of an `EQPSample` (include/hyperreduction_integ.hpp:15-34): the basis at the
quadrature point, and the gradient of each basis vector there. -/
structure Pre (R : Type) where
  shape1 : Mat R
  dshape1 : List (Mat R)
deriving DecidableEq, Repr

/-- `GetBasisElement`, src/linalg_utils.cpp:948-955, without a `DofTransformation`. -/
def basisElement (basis : Mat R) (i : Nat) (rows : List Int) : Outcome (List R) := do
  let col ← basis.col i
  getSubVector col rows

/-- `PrecomputeDomainEQPSample`, src/rom_nonlinearform.cpp:1388-1427, at the point `p` of an element
whose degrees of freedom are `rows`. -/
def precompute (p : Pt R) (basis : Mat R) (rows : List Int) : Outcome (Pre R) := do
  let st ← loop basis.w (fun i (st : List (List R) × List (Mat R)) => do
    let b ← basisElement basis i rows
    let ef : Mat R := ⟨p.nd, p.dim, b⟩
    return (st.1 ++ [ef.mulTV p.shape], st.2 ++ [mulAtB ef p.dshape])) ([], [])
  return ⟨⟨p.dim, basis.w, st.1.flatten⟩, st.2⟩

/-- `gradEF = 0; for k: gradEF.Add(x(k), *gradEFs[k])`, src/hyperreduction_integ.cpp:483-486. -/
def sumGrads (dim : Nat) (ds : List (Mat R)) (x : List R) : Outcome (Mat R) :=
  loop ds.length (fun k m => do
    let d ← rd ds k
    let xk ← rd x k
    return m.addScaled xk d) (Mat.of dim dim (fun _ _ => 0))

/-- `VectorConvectionTrilinearFormIntegrator::AddAssembleVector_Fast`,
src/hyperreduction_integ.cpp:466-491.  The value of `vQ` is not consulted. -/
def triFastVec (p : Pt R) (s : Pre R) (qw : R) (x y : List R) : Outcome (List R) := do
  let w := p.withQ (qw * p.weight)
  let vec1 := s.shape1.mulV x
  let gradEF ← sumGrads s.shape1.h s.dshape1 x
  let vec2 := gradEF.mulV vec1
  require (y.length == x.length)
  let add := s.shape1.mulTV vec2
  return vof y.length (fun c => vget y c + w * vget add c)

/-- The columns of `ELV` in `VectorConvectionTrilinearFormIntegrator::AddAssembleGrad_Fast`,
src/hyperreduction_integ.cpp:507-524. -/
def triFastCols (w : R) (s : Pre R) (x : List R) : Outcome (Mat R) := do
  let vec1 := s.shape1.mulV x
  let gradEF ← sumGrads s.shape1.h s.dshape1 x
  let gradEF := gradEF.scale w
  let elv := mulAB gradEF s.shape1
  loop s.shape1.w (fun k (elv : Mat R) => do
    let d ← rd s.dshape1 k
    let t := d.mulV vec1
    return Mat.of elv.h elv.w (fun i j => if j = k then elv.get i j + w * vget t i else elv.get i j)) elv

/-- `VectorConvectionTrilinearFormIntegrator::AddAssembleGrad_Fast`,
src/hyperreduction_integ.cpp:493-533. -/
def triFastGrad (p : Pt R) (s : Pre R) (qw : R) (x : List R) (jac : Mat R) : Outcome (Mat R) := do
  let w := p.withQ (qw * p.weight)
  let elv ← triFastCols w s x
  loop s.shape1.w (fun k (jac : Mat R) => do
    let _ ← jac.col k
    let t := s.shape1.mulTV (elv.colV k)
    return Mat.of jac.h jac.w (fun i j => if j = k then jac.get i j + vget t i else jac.get i j)) jac

/-- `u * v` on vectors (external). -/
def vdot (n : Nat) (u v : List R) : R := ∑ i ∈ Finset.range n, vget u i * vget v i

/-- `IncompressibleInviscidFluxNLFIntegrator::AddAssembleVector_Fast`,
src/hyperreduction_integ.cpp:729-753. -/
def invFastVec (p : Pt R) (s : Pre R) (qw : R) (x y : List R) : Outcome (List R) := do
  let w := p.withQ (qw * p.weight)
  let u1 := s.shape1.mulV x
  require (y.length == s.dshape1.length)
  loop s.dshape1.length (fun k y => do
    let d ← rd s.dshape1 k
    let vec1 := d.mulV u1
    upd y k (fun t => t + w * vdot s.shape1.h u1 vec1)) y

/-- `IncompressibleInviscidFluxNLFIntegrator::AddAssembleGrad_Fast`,
src/hyperreduction_integ.cpp:755-789: row `i` of the Jacobian is walked with a stride of `nbasis`. -/
def invFastGrad (p : Pt R) (s : Pre R) (qw : R) (x : List R) (jac : Mat R) : Outcome (Mat R) := do
  let w := p.withQ (qw * p.weight)
  let u1 := vscale w (s.shape1.mulV x)
  let nb := s.shape1.w
  let data ← loop nb (fun i data => do
    let d ← rd s.dshape1 i
    let a := d.mulV u1
    let b := d.mulTV u1
    let vec1 := vof s.shape1.h (fun t => vget a t + vget b t)
    let vec2 := s.shape1.mulTV vec1
    let st ← loop nb (fun j (st : List R × Nat) => do
      let data ← upd st.1 st.2 (fun t => t + vget vec2 j)
      return (data, st.2 + nb)) (data, i)
    return st.1) jac.data
  return { jac with data := data }

end

end Verif.Convection
