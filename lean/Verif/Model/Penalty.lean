import Verif.Model.Convection
import Mathlib.Algebra.Field.Basic

/-!
# Interior-penalty and normal-flux matrices of an interface

Models `InterfaceDGDiffusionIntegrator`, `InterfaceDGVectorDiffusionIntegrator`,
`InterfaceDGElasticityIntegrator` and `InterfaceDGNormalFluxIntegrator` of src/interfaceinteg.cpp, which
couple two subdomains, and their single-mesh counterparts `DGVectorDiffusionIntegrator`
(src/dg_bilinear.cpp) and `DGNormalFluxIntegrator` (src/dg_mixed_bilin.cpp).

Arithmetic is exact, in a field.  A division by a zero element weight is a fault.  What the finite
elements, the transformations and the coefficients return at a quadrature point is external data.  The
element matrices are bounds-checked: an access outside them is undefined behaviour, as `DenseMatrix` checks
indices in debug builds only.  `assert` is not modelled (the four matrices are given).  Choosing the
quadrature rule is not modelled: the points are a parameter.
-/

namespace Verif.Penalty

open Verif Verif.LinAlg

variable {R : Type}

/-- A coefficient of the diffusion integrator at a point: none set, `Q->Eval` or `MQ->Eval`
(src/interfaceinteg.cpp:213-226). -/
inductive Coef (R : Type) where
  | one
  | scalar (q : R)
  | matrix (m : Nat → Nat → R)

/-- The element on one side of a face at a quadrature point (external): `CalcShape`, `CalcDShape` (row: shape
function, column: reference direction), `CalcAdjugate` of the element's Jacobian, `Weight()` of the element's
transformation, and the values of the coefficients there. -/
structure Side (R : Type) where
  shape : Nat → R
  dshape : Nat → Nat → R
  adj : Nat → Nat → R
  det : R
  coef : Coef R
  lam : R
  mu : R

/-- A quadrature point of a face: the weight, the normal (`CalcOrtho` of the first transformation, or
`2 x - 1` in one dimension) and both sides.  On an interface the second side is `Elem1` of the second
transformation, on an interior face it is `Elem2` of the only one. -/
structure Pt (R : Type) where
  wt : R
  nor : Nat → R
  s1 : Side R
  s2 : Side R

/-- The sizes of a face: dimension and numbers of scalar shape functions of the two elements (the second is
zero on a boundary face). -/
structure Dims where
  dim : Nat
  n1 : Nat
  n2 : Nat

section
variable [Field R] [DecidableEq R]

/-- A division: by zero, which in floating point gives infinities and NaNs, it is a fault. -/
def fdiv (a b : R) : Outcome R := if b = 0 then .error .ub else .ok (a / b)

/-- `m(i, j)`. -/
def get (m : Blk R) (i j : Nat) : Outcome R :=
  if i < m.h ∧ j < m.w then .ok (m.val i j) else .error .ub

/-- `m(i, j) = x`. -/
def set (m : Blk R) (i j : Nat) (x : R) : Outcome (Blk R) :=
  if i < m.h ∧ j < m.w then
    .ok { m with val := fun a b => if a = i ∧ b = j then x else m.val a b }
  else .error .ub

/-- `m(i, j) += x`. -/
def addAt (m : Blk R) (i j : Nat) (x : R) : Outcome (Blk R) := do
  let y ← get m i j
  set m i j (y + x)

/-- `SetSize(h, w)` followed by `= 0.0`. -/
def zeros (h w : Nat) : Blk R := { h := h, w := w, val := fun _ _ => 0 }

/-- A null `DenseMatrix *`: no entry can be accessed. -/
def nullMat : Blk R := zeros 0 0

/-- The 2×2 array of matrices of an interface (`Array2D<DenseMatrix*>`). -/
structure Four (R : Type) where
  a00 : Blk R
  a01 : Blk R
  a10 : Blk R
  a11 : Blk R

/-- The matrices being assembled: `elmats` and `jmats`. -/
structure Work (R : Type) where
  e : Four R
  j : Four R

/-- The zeroed matrices at the start, src/interfaceinteg.cpp:133-153, 426-446, 1051-1071.  Only the lower
triangle of `jmats` exists, and only if `kappa` is nonzero (otherwise its entries are not even initialised, and
are never used). -/
def start (h1 h2 : Nat) (kappa : R) : Work R :=
  { e := { a00 := zeros h1 h1, a01 := zeros h1 h2, a10 := zeros h2 h1, a11 := zeros h2 h2 }
    j := if kappa = 0 then { a00 := nullMat, a01 := nullMat, a10 := nullMat, a11 := nullMat }
         else { a00 := zeros h1 h1, a01 := nullMat, a10 := zeros h2 h1, a11 := zeros h2 h2 } }

/-! ## Dense products -/

/-- `m.Mult(x, y)`: entry `i`. -/
def mulVec (n : Nat) (m : Nat → Nat → R) (x : Nat → R) (i : Nat) : R := (List.range n).foldl (fun s k => s + m i k * x k) 0

/-- `m.MultTranspose(x, y)`: entry `i`. -/
def mulTVec (n : Nat) (m : Nat → Nat → R) (x : Nat → R) (i : Nat) : R := (List.range n).foldl (fun s k => s + m k i * x k) 0

/-- `x * y` of two vectors. -/
def dot (n : Nat) (x y : Nat → R) : R := (List.range n).foldl (fun s k => s + x k * y k) 0

/-- `Mult(a, b, c)`: entry `(i, j)`. -/
def mulMat (n : Nat) (a b : Nat → Nat → R) (i j : Nat) : R := (List.range n).foldl (fun s k => s + a i k * b k j) 0

/-! ## Turning the flux matrix into the form -/

/-- `jmat(i,j)`, which takes part only if `kappa` is nonzero. -/
def getJ (withJ : Bool) (jm : Blk R) (i j : Nat) : Outcome R := if withJ then get jm i j else .ok 0

/-- `elmat := -elmat + sigma*elmat^t + jmat` on one square matrix, in place, pair by pair:
src/interfaceinteg.cpp:347-356, 579-588, 1199-1208 and src/dg_bilinear.cpp:167-176 (with `jmat`);
377-386, 609-618, 1230-1239 and src/dg_bilinear.cpp:180-189 (without). -/
def pairUp (withJ : Bool) (sigma : R) (i j : Nat) (jm : Blk R) (e : Blk R) : Outcome (Blk R) := do
  let aij ← get e i j
  let aji ← get e j i
  let mij ← getJ withJ jm i j
  let e ← set e i j (sigma * aji - aij + mij)
  set e j i (sigma * aij - aji + mij)

/-- The diagonal entry: `elmat(i,i) = (sigma - 1.) * elmat(i,i) + jmat(i,i)` or `*= (sigma - 1.)` (same lines). -/
def diagUp (withJ : Bool) (sigma : R) (i : Nat) (jm : Blk R) (e : Blk R) : Outcome (Blk R) := do
  let aii ← get e i i
  let mii ← getJ withJ jm i i
  set e i i ((sigma - 1) * aii + mii)

/-- The loop over one square matrix (same lines). -/
def finishSquare (withJ : Bool) (sigma : R) (n : Nat) (jm : Blk R) (e : Blk R) : Outcome (Blk R) :=
  loop n (fun i e => do
    let e ← loop i (fun j e => pairUp withJ sigma i j jm e) e
    diagUp withJ sigma i jm e) e

/-- One pair of the off-diagonal blocks `(1,0)` and `(0,1)`: src/interfaceinteg.cpp:366-368, 598-600,
1218-1220 (with `jmat`), 394-396, 626-628, 1248-1250 (without). -/
def crossUp (withJ : Bool) (sigma : R) (i j : Nat) (jm : Blk R) (e : Blk R × Blk R) : Outcome (Blk R × Blk R) := do
  let aij ← get e.1 i j
  let aji ← get e.2 j i
  let mij ← getJ withJ jm i j
  let e10 ← set e.1 i j (sigma * aji - aij + mij)
  let e01 ← set e.2 j i (sigma * aij - aji + mij)
  .ok (e10, e01)

/-- `elmat := -elmat + sigma*elmat^t + jmat` on the four blocks, src/interfaceinteg.cpp:336-402, 567-634,
1186-1256 (`DeletePointers(jmats)` not modelled). -/
def finish (kappa sigma : R) (h1 h2 : Nat) (w : Work R) : Outcome (Four R) := do
  let withJ := decide (kappa ≠ 0)
  let a00 ← finishSquare withJ sigma h1 w.j.a00 w.e.a00
  let a11 ← finishSquare withJ sigma h2 w.j.a11 w.e.a11
  let x ← loop h2 (fun i x => loop h1 (fun j x => crossUp withJ sigma i j w.j.a10 x) x) (w.e.a10, w.e.a01)
  .ok { a00 := a00, a01 := x.2, a10 := x.1, a11 := a11 }

/-! ## Scalar diffusion -/

/-- `ni`: the weighted conormal of one side, src/interfaceinteg.cpp:208-226, 257-271 (`w` is the weight already
divided by the element's weight and by 2). -/
def conormal (dim : Nat) (w : R) (nor : Nat → R) (c : Coef R) : Nat → R :=
  match c with
  | .one => fun b => w * nor b
  | .scalar q => fun b => (w * q) * nor b
  | .matrix m => mulTVec dim m (fun b => w * nor b)

/-- `dshape·(adjJ·ni)`: the derivatives of the shape functions along the conormal,
src/interfaceinteg.cpp:227-228, 244, 272-273, 279. -/
def dshapeDn (dim : Nat) (s : Side R) (ni : Nat → R) : Nat → R :=
  mulVec dim s.dshape (mulVec dim s.adj ni)

/-- `(*elmat)(i, j) += f(i, j)` over a whole block, src/interfaceinteg.cpp:245-250, 281-300. -/
def addAll (nr nc : Nat) (f : Nat → Nat → R) (m : Blk R) : Outcome (Blk R) :=
  loop nr (fun i m => loop nc (fun j m => addAt m i j (f i j)) m) m

/-- The same over the lower triangle of a square block, src/interfaceinteg.cpp:307-315. -/
def addTri (n : Nat) (f : Nat → Nat → R) (m : Blk R) : Outcome (Blk R) :=
  loop n (fun i m => loop (i + 1) (fun j m => addAt m i j (f i j)) m) m

/-- The loop that fills the second block row of `jmats`, one row of `(1,0)` and one of `(1,1)` at a time,
src/interfaceinteg.cpp:318-331. -/
def addSecond (n1 n2 : Nat) (wq : R) (s1 s2 : Nat → R) (j10 j11 : Blk R) : Outcome (Blk R × Blk R) :=
  loop n2 (fun i x => do
    let wsi := wq * s2 i
    let j10 ← loop n1 (fun j m => addAt m i j (-(wsi * s1 j))) x.1
    let j11 ← loop (i + 1) (fun j m => addAt m i j (wsi * s2 j)) x.2
    .ok (j10, j11)) (j10, j11)

/-- The penalty part of one point, src/interfaceinteg.cpp:303-333. -/
def diffJump (d : Dims) (kappa wq : R) (p : Pt R) (j : Four R) : Outcome (Four R) :=
  if kappa ≠ 0 then do
    let wq := wq * kappa
    let j00 ← addTri d.n1 (fun a b => (wq * p.s1.shape a) * p.s1.shape b) j.a00
    let x ← addSecond d.n1 d.n2 wq p.s1.shape p.s2.shape j.a10 j.a11
    .ok { j with a00 := j00, a10 := x.1, a11 := x.2 }
  else .ok j

/-- One quadrature point of `InterfaceDGDiffusionIntegrator`, src/interfaceinteg.cpp:177-334.  The second
normal `nor2` is computed but not used. -/
def diffPt (d : Dims) (kappa : R) (p : Pt R) (x : Work R) : Outcome (Work R) := do
  let w ← fdiv p.wt p.s1.det
  let ni1 := conormal d.dim (w / 2) p.nor p.s1.coef
  let wq := dot d.dim ni1 p.nor
  let dn1 := dshapeDn d.dim p.s1 ni1
  let a00 ← addAll d.n1 d.n1 (fun i j => p.s1.shape i * dn1 j) x.e.a00
  let w ← fdiv (p.wt / 2) p.s2.det
  let ni2 := conormal d.dim w p.nor p.s2.coef
  let wq := wq + dot d.dim ni2 p.nor
  let dn2 := dshapeDn d.dim p.s2 ni2
  let a01 ← addAll d.n1 d.n2 (fun i j => p.s1.shape i * dn2 j) x.e.a01
  let a10 ← addAll d.n2 d.n1 (fun i j => -(p.s2.shape i * dn1 j)) x.e.a10
  let a11 ← addAll d.n2 d.n2 (fun i j => -(p.s2.shape i * dn2 j)) x.e.a11
  let j ← diffJump d kappa wq p x.j
  .ok { e := { a00 := a00, a01 := a01, a10 := a10, a11 := a11 }, j := j }

/-- The quadrature loop. -/
def overPts {σ : Type} (pts : List (Pt R)) (body : Pt R → σ → Outcome σ) (s : σ) : Outcome σ :=
  loop pts.length (fun k s => do
    let p ← rd pts k
    body p s) s

/-- `InterfaceDGDiffusionIntegrator::AssembleInterfaceMatrix`, src/interfaceinteg.cpp:86-403. -/
def diffusion (d : Dims) (sigma kappa : R) (pts : List (Pt R)) : Outcome (Four R) := do
  let w ← overPts pts (diffPt d kappa) (start d.n1 d.n2 kappa)
  finish kappa sigma d.n1 d.n2 w

/-! ## Vector diffusion and elasticity -/

/-- The flux part of the vector `AssembleBlock`: src/interfaceinteg.cpp:645-655 (offsets zero) and
src/dg_bilinear.cpp:200-210. -/
def addDiag (dim nr nc ro co : Nat) (f : Nat → Nat → R) (m : Blk R) : Outcome (Blk R) :=
  loop dim (fun d m => loop nc (fun jd m => loop nr (fun id m =>
    addAt m (ro + d * nr + id) (co + d * nc + jd) (f id jd)) m) m) m

/-- The rows `i = i_start, …` of one column of `jmat` while `idof = i - io < row_ndofs`:
src/interfaceinteg.cpp:668-671, 1299-1302 and src/dg_bilinear.cpp:221-224.  A negative `idof` would read in front
of the shape array. -/
def addFrom (nr io i0 j : Nat) (f : Nat → R) (m : Blk R) : Outcome (Blk R) :=
  if i0 < io then .error .ub
  else loop (nr - (i0 - io)) (fun k m => addAt m (i0 + k) j (f (i0 + k - io))) m

/-- The penalty part of the interface `AssembleBlock`s, src/interfaceinteg.cpp:657-673, 1286-1304: the offsets
only decide which entries belong to the lower triangle. -/
def addPen (dim nr nc ro co : Nat) (jc : R) (rs cs : Nat → R) (m : Blk R) : Outcome (Blk R) :=
  if jc = 0 then .ok m
  else loop dim (fun d m => loop nc (fun jd m =>
    let jo := d * nc
    let io := d * nr
    let j := jo + jd
    let sj := jc * cs jd
    let i0 := if io + ro > j + co then io else j
    addFrom nr io i0 j (fun id => rs id * sj) m) m) m

/-- The penalty part of `DGVectorDiffusionIntegrator::AssembleBlock`, src/dg_bilinear.cpp:212-226. -/
def addPenFace (dim nr nc ro co : Nat) (jc : R) (rs cs : Nat → R) (m : Blk R) : Outcome (Blk R) :=
  if jc = 0 then .ok m
  else loop dim (fun d m => loop nc (fun jd m =>
    let jo := co + d * nc
    let io := ro + d * nr
    let j := jo + jd
    let sj := jc * cs jd
    addFrom nr io (max io j) j (fun id => rs id * sj) m) m) m

/-- What one side contributes at a point: `dshape_ps = dshape·adjJ`, `nL`, `nM`, `dshape_ps·nM` and the summand
of `wLM`. -/
structure Flux (R : Type) where
  ps : Nat → Nat → R
  nL : Nat → R
  nM : Nat → R
  dnM : Nat → R
  wLM : R

/-- One side of the vector diffusion integrator, src/interfaceinteg.cpp:493-494, 510-521, 530-537 and
src/dg_bilinear.cpp:91-92, 108-119, 128-135 (`nL` is commented out there). -/
def vecFlux (dim : Nat) (w : R) (nor : Nat → R) (s : Side R) : Outcome (Flux R) := do
  let ps := mulMat dim s.dshape s.adj
  let w1 ← fdiv w s.det
  let wM := w1 * s.mu
  let nM := fun b => wM * nor b
  .ok { ps := ps, nL := fun _ => 0, nM := nM, dnM := mulVec dim ps nM, wLM := wM }

/-- One side of the elasticity integrator, src/interfaceinteg.cpp:1123-1124, 1131-1141, 1150-1156. -/
def elFlux (dim : Nat) (w : R) (nor : Nat → R) (s : Side R) : Outcome (Flux R) := do
  let ps := mulMat dim s.dshape s.adj
  let w1 ← fdiv w s.det
  let wL := w1 * s.lam
  let wM := w1 * s.mu
  let nM := fun b => wM * nor b
  .ok { ps := ps, nL := fun b => wL * nor b, nM := nM, dnM := mulVec dim ps nM, wLM := wL + 2 * wM }

/-- `InterfaceDGVectorDiffusionIntegrator::AssembleBlock`, src/interfaceinteg.cpp:638-674. -/
def vecBlock (dim nr nc ro co : Nat) (jc : R) (rs cs : Nat → R) (cf : Flux R) (x : Blk R × Blk R) :
    Outcome (Blk R × Blk R) := do
  let e ← addDiag dim nr nc 0 0 (fun id jd => rs id * cf.dnM jd) x.1
  let j ← addPen dim nr nc ro co jc rs cs x.2
  .ok (e, j)

/-- The traction `tt` of trial function `(jm, jdof)` in direction `im`, src/interfaceinteg.cpp:1272-1277. -/
def traction (cf : Flux R) (jm jd im : Nat) : R :=
  cf.ps jd jm * cf.nL im + (if im = jm then cf.dnM jd else 0) + cf.ps jd im * cf.nM jm

/-- The flux part of `InterfaceDGElasticityIntegrator::AssembleBlock`, src/interfaceinteg.cpp:1268-1284. -/
def addEl (dim nr nc : Nat) (rs : Nat → R) (cf : Flux R) (m : Blk R) : Outcome (Blk R) :=
  loop dim (fun jm m => loop nc (fun jd m => loop dim (fun im m => loop nr (fun id m =>
    addAt m (im * nr + id) (jm * nc + jd) (rs id * traction cf jm jd im)) m) m) m) m

/-- `InterfaceDGElasticityIntegrator::AssembleBlock`, src/interfaceinteg.cpp:1260-1305. -/
def elBlock (dim nr nc ro co : Nat) (jc : R) (rs cs : Nat → R) (cf : Flux R) (x : Blk R × Blk R) :
    Outcome (Blk R × Blk R) := do
  let e ← addEl dim nr nc rs cf x.1
  let j ← addPen dim nr nc ro co jc rs cs x.2
  .ok (e, j)

/-- One quadrature point of the vector diffusion (lines 477-565) and elasticity (lines 1100-1184) integrators of
src/interfaceinteg.cpp; `flux` and `block` are the parts in which they differ.  `shape2` is negated after the
first block.  Binding a reference to `*jmats(0,1)`, a null pointer, is not modelled as a fault: the matrix is never
accessed. -/
def vecPt (flux : Nat → R → (Nat → R) → Side R → Outcome (Flux R))
    (block : Nat → Nat → Nat → Nat → Nat → R → (Nat → R) → (Nat → R) → Flux R → Blk R × Blk R →
      Outcome (Blk R × Blk R))
    (d : Dims) (kappa : R) (p : Pt R) (x : Work R) : Outcome (Work R) := do
  let w := p.wt / 2
  let f2 ← flux d.dim w p.nor p.s2
  let f1 ← flux d.dim w p.nor p.s1
  let wLM := f2.wLM + f1.wLM
  let jc := kappa * dot d.dim p.nor p.nor * wLM
  let sh1 := p.s1.shape
  let b00 ← block d.dim d.n1 d.n1 0 0 jc sh1 sh1 f1 (x.e.a00, x.j.a00)
  let sh2 := fun i => -p.s2.shape i
  let b01 ← block d.dim d.n1 d.n2 0 (d.dim * d.n1) 0 sh1 sh2 f2 (x.e.a01, x.j.a01)
  let b10 ← block d.dim d.n2 d.n1 (d.dim * d.n1) 0 jc sh2 sh1 f1 (x.e.a10, x.j.a10)
  let b11 ← block d.dim d.n2 d.n2 (d.dim * d.n1) (d.dim * d.n1) jc sh2 sh2 f2 (x.e.a11, x.j.a11)
  .ok { e := { a00 := b00.1, a01 := b01.1, a10 := b10.1, a11 := b11.1 }
        j := { a00 := b00.2, a01 := b01.2, a10 := b10.2, a11 := b11.2 } }

/-- `InterfaceDGVectorDiffusionIntegrator::AssembleInterfaceMatrix`, src/interfaceinteg.cpp:405-635. -/
def vecDiffusion (d : Dims) (alpha kappa : R) (pts : List (Pt R)) : Outcome (Four R) := do
  let w ← overPts pts (vecPt vecFlux vecBlock d kappa) (start (d.dim * d.n1) (d.dim * d.n2) kappa)
  finish kappa alpha (d.dim * d.n1) (d.dim * d.n2) w

/-- `InterfaceDGElasticityIntegrator::AssembleInterfaceMatrix`, src/interfaceinteg.cpp:1022-1257. -/
def elasticity (d : Dims) (alpha kappa : R) (pts : List (Pt R)) : Outcome (Four R) := do
  let w ← overPts pts (vecPt elFlux elBlock d kappa) (start (d.dim * d.n1) (d.dim * d.n2) kappa)
  finish kappa alpha (d.dim * d.n1) (d.dim * d.n2) w

/-! ## Vector diffusion on a face of one mesh -/

/-- `DGVectorDiffusionIntegrator::AssembleBlock`, src/dg_bilinear.cpp:194-227. -/
def faceBlock (dim nr nc ro co : Nat) (jc : R) (rs cs : Nat → R) (cf : Flux R) (x : Blk R × Blk R) :
    Outcome (Blk R × Blk R) := do
  let e ← addDiag dim nr nc ro co (fun id jd => rs id * cf.dnM jd) x.1
  let j ← addPenFace dim nr nc ro co jc rs cs x.2
  .ok (e, j)

/-- The second element's part of a point, src/dg_bilinear.cpp:147-161. -/
def facePt2 (d : Dims) (jc : R) (p : Pt R) (f1 f2 : Flux R) (x : Blk R × Blk R) : Outcome (Blk R × Blk R) := do
  let sh1 := p.s1.shape
  let sh2 := fun i => -p.s2.shape i
  let x ← faceBlock d.dim d.n1 d.n2 0 (d.dim * d.n1) jc sh1 sh2 f2 x
  let x ← faceBlock d.dim d.n2 d.n1 (d.dim * d.n1) 0 jc sh2 sh1 f1 x
  faceBlock d.dim d.n2 d.n2 (d.dim * d.n1) (d.dim * d.n1) jc sh2 sh2 f2 x

/-- One quadrature point of `DGVectorDiffusionIntegrator`, src/dg_bilinear.cpp:75-162; `n2 = 0` on a boundary
face. -/
def facePt (d : Dims) (kappa : R) (p : Pt R) (x : Blk R × Blk R) : Outcome (Blk R × Blk R) :=
  let sh1 := p.s1.shape
  if d.n2 = 0 then do
    let f1 ← vecFlux d.dim p.wt p.nor p.s1
    let jc := kappa * dot d.dim p.nor p.nor * (0 + f1.wLM)
    faceBlock d.dim d.n1 d.n1 0 0 jc sh1 sh1 f1 x
  else do
    let f2 ← vecFlux d.dim (p.wt / 2) p.nor p.s2
    let f1 ← vecFlux d.dim (p.wt / 2) p.nor p.s1
    let jc := kappa * dot d.dim p.nor p.nor * (f2.wLM + f1.wLM)
    let x ← faceBlock d.dim d.n1 d.n1 0 0 jc sh1 sh1 f1 x
    facePt2 d jc p f1 f2 x

/-- `DGVectorDiffusionIntegrator::AssembleFaceMatrix`, src/dg_bilinear.cpp:13-191. -/
def vecFace (d : Dims) (alpha kappa : R) (pts : List (Pt R)) : Outcome (Blk R) := do
  let nv := d.dim * (d.n1 + d.n2)
  let x ← overPts pts (facePt d kappa) (zeros nv nv, if kappa = 0 then nullMat else zeros nv nv)
  finishSquare (decide (kappa ≠ 0)) alpha nv x.2 x.1

/-! ## Normal flux -/

/-- A quadrature point of the mixed integrators (external): weight, normal, and on each side `CalcShape` of the
trial and of the test element. -/
structure MPt (R : Type) where
  wt : R
  nor : Nat → R
  tr1 : Nat → R
  te1 : Nat → R
  tr2 : Nat → R
  te2 : Nat → R

/-- Sizes of the mixed integrators: dimension, trial and test dofs on each side. -/
structure MDims where
  dim : Nat
  tr1 : Nat
  te1 : Nat
  tr2 : Nat
  te2 : Nat

/-- One `jm, jdof, idof` nest, src/interfaceinteg.cpp:783-789, 799-805, 813-819, 827-833 (offsets zero) and
src/dg_mixed_bilin.cpp:259-265, 274-280, 287-293, 300-306; `f` is what is added for direction, test and trial
function. -/
def addMixed (dim nte ntr ro co : Nat) (f : Nat → Nat → Nat → R) (m : Blk R) : Outcome (Blk R) :=
  loop dim (fun jm m => loop ntr (fun jd m => loop nte (fun id m =>
    addAt m (ro + id) (co + jm * ntr + jd) (f jm id jd)) m) m) m

/-- One quadrature point of `InterfaceDGNormalFluxIntegrator`, src/interfaceinteg.cpp:747-840. -/
def fluxPt (d : MDims) (p : MPt R) (e : Four R) : Outcome (Four R) := do
  let w := p.wt * (1 / 2)
  let wnor := fun a => w * p.nor a
  let a00 ← addMixed d.dim d.te1 d.tr1 0 0 (fun jm i j => wnor jm * p.te1 i * p.tr1 j) e.a00
  let a10 ← addMixed d.dim d.te2 d.tr1 0 0 (fun jm i j => wnor jm * p.te2 i * p.tr1 j) e.a10
  let a11 ← addMixed d.dim d.te2 d.tr2 0 0 (fun jm i j => -(wnor jm * p.te2 i * p.tr2 j)) e.a11
  let a01 ← addMixed d.dim d.te1 d.tr2 0 0 (fun jm i j => -(wnor jm * p.te1 i * p.tr2 j)) e.a01
  .ok { a00 := a00, a01 := a01, a10 := a10, a11 := a11 }

/-- `InterfaceDGNormalFluxIntegrator::AssembleInterfaceMatrix`, src/interfaceinteg.cpp:676-841. -/
def normalFlux (d : MDims) (pts : List (MPt R)) : Outcome (Four R) :=
  loop pts.length (fun k e => do
    let p ← rd pts k
    fluxPt d p e)
    { a00 := zeros d.te1 (d.dim * d.tr1), a01 := zeros d.te1 (d.dim * d.tr2)
      a10 := zeros d.te2 (d.dim * d.tr1), a11 := zeros d.te2 (d.dim * d.tr2) }

/-- The second element's part of a point, src/dg_mixed_bilin.cpp:267-312. -/
def fluxFacePt2 (d : MDims) (p : MPt R) (wnor : Nat → R) (e : Blk R) : Outcome (Blk R) := do
  let tv1 := d.dim * d.tr1
  let e ← addMixed d.dim d.te2 d.tr1 d.te1 0 (fun jm i j => wnor jm * p.te2 i * p.tr1 j) e
  let e ← addMixed d.dim d.te2 d.tr2 d.te1 tv1 (fun jm i j => -(wnor jm * p.te2 i * p.tr2 j)) e
  addMixed d.dim d.te1 d.tr2 0 tv1 (fun jm i j => -(wnor jm * p.te1 i * p.tr2 j)) e

/-- One quadrature point of `DGNormalFluxIntegrator`, src/dg_mixed_bilin.cpp:227-313; `tr2 = 0` on a boundary
face. -/
def fluxFacePt (d : MDims) (p : MPt R) (e : Blk R) : Outcome (Blk R) :=
  let w := if d.tr2 = 0 then p.wt else p.wt * (1 / 2)
  let wnor := fun a => w * p.nor a
  do
    let e ← addMixed d.dim d.te1 d.tr1 0 0 (fun jm i j => wnor jm * p.te1 i * p.tr1 j) e
    if d.tr2 = 0 then .ok e else fluxFacePt2 d p wnor e

/-- `DGNormalFluxIntegrator::AssembleFaceMatrix`, src/dg_mixed_bilin.cpp:166-314. -/
def fluxFace (d : MDims) (pts : List (MPt R)) : Outcome (Blk R) :=
  loop pts.length (fun k e => do
    let p ← rd pts k
    fluxFacePt d p e)
    (zeros (d.te1 + d.te2) (d.dim * d.tr1 + d.dim * d.tr2))

end

end Verif.Penalty
