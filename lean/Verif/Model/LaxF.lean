import Verif.Model.Convection
import Mathlib.Algebra.Field.Basic
import Mathlib.Order.Lattice

/-!
# The Lax-Friedrichs flux on faces and interfaces

Models `DGLaxFriedrichsFluxIntegrator` of `src/interfaceinteg.cpp`, together with
`ROMNonlinearForm::PrecomputeFaceEQPSample` (src/rom_nonlinearform.cpp) and
`ROMInterfaceForm::PrecomputeEQPSample` (src/rom_interfaceform.cpp).

Arithmetic is exact, in an ordered field, and `std::sqrt` is a parameter.  A division by zero, which
in floating point puts infinities and NaNs into the result, is a fault.  Work arrays are local values,
as in `Verif.Model.Convection`, except the member `ndofs2`, which one routine reads without setting it.
Timers are not modelled.
-/

namespace Verif.LaxF

open Verif Verif.LinAlg Verif.Convection

variable {R : Type}

/-- What the integrator sees at one quadrature point of a face (external): the dimension, the numbers of
scalar shape functions of the elements on either side, `CalcShape` on either side, the normal (`CalcOrtho`,
or `2 x - 1` in one dimension), whether there is a second element (`Tr.Elem2No >= 0`; always on an
interface), and the values of the coefficients `Q` and `UD` there, if set. -/
structure FPt (R : Type) where
  dim : Nat
  nd1 : Nat
  dof2 : Nat
  shape1 : List R
  shape2 : List R
  nor : List R
  el2 : Bool
  q : Option R
  ud : Option (List R)
deriving DecidableEq, Repr

/-- `ndofs2 = (Tr.Elem2No >= 0) ? el2.GetDof() : 0`, src/interfaceinteg.cpp:1542. -/
def FPt.ndofs2 (p : FPt R) : Nat := if p.el2 then p.dof2 else 0

section
variable [Field R] [LinearOrder R]

/-- `w = iw; if (Q) { w *= Q->Eval(*Tr1, ip); }`, src/interfaceinteg.cpp:1457-1458. -/
def FPt.withQ (p : FPt R) (w : R) : R :=
  match p.q with
  | none => w
  | some q => w * q

/-- `ComputeFluxDotN`, src/interfaceinteg.cpp:1311-1333. -/
def fluxDotN (sqrt : R → R) (dim : Nat) (u1 u2 nor : List R) (eval2 : Bool) : List R :=
  let un1 := vdot dim nor u1
  let un2 := if eval2 then vdot dim nor u2 else 0
  let flux := vof dim (fun d => un1 * vget u1 d)
  let flux := if eval2 then
      let flux := vscale (1 / 2) flux
      vof dim (fun d => vget flux d + (1 / 2 * un2) * vget u2 d)
    else flux
  if eval2 then
    let un := max (sqrt (vdot dim u1 u1)) (sqrt (vdot dim u2 u2))
    let un := un * sqrt (vdot dim nor nor)
    let flux := vof dim (fun d => vget flux d + un * vget u1 d)
    vof dim (fun d => vget flux d + (-un) * vget u2 d)
  else flux

/-- `for (di) m(di, di) += a`. -/
def addDiag (m : Mat R) (a : R) : Mat R := Mat.of m.h m.w (fun i j => m.get i j + if i = j then a else 0)

/-- A quotient of two doubles; zero divisors are faults. -/
def fdiv (a b : R) : Outcome R := if b = 0 then .error .ub else .ok (a / b)

/-- `ComputeGradFluxDotN`, src/interfaceinteg.cpp:1335-1391; `nd2` is the flag `ndofs2`. -/
def gradFluxDotN (sqrt : R → R) (dim : Nat) (u1 u2 nor : List R) (eval2 nd2 : Bool) :
    Outcome (Mat R × Mat R) := do
  require (dim == u1.length)
  let z : Mat R := Mat.of dim dim (fun _ _ => 0)
  let u1mag := sqrt (vdot dim u1 u1)
  let u2mag := sqrt (vdot dim u2 u2)
  let normag := sqrt (vdot dim nor nor)
  let un := max u1mag u2mag * normag
  let nor_ := if eval2 then vscale (1 / 2) nor else nor
  let un1 := vdot dim nor_ u1
  let un2 := if eval2 then vdot dim nor_ u2 else 0
  let gradu1 := (addDiag z un1).addScaled 1 (mulVWt u1 nor_)
  if eval2 then
    let gradu1 := addDiag gradu1 un
    let gradu2 := if nd2 then addDiag z (un2 - un) else z
    let gradu2 := if nd2 then gradu2.addScaled 1 (mulVWt u2 nor_) else gradu2
    if !nd2 && !decide (u2mag ≤ u1mag) then return (gradu1, gradu2)
    else
      let du := vof dim (fun d => vget u1 d + (-1) * vget u2 d)
      if u2mag ≤ u1mag then do
        let r ← fdiv normag u1mag
        return (gradu1.addScaled r (mulVWt du u1), gradu2)
      else do
        let r ← fdiv normag u2mag
        return (gradu1, gradu2.addScaled r (mulVWt du u2))
  else return (gradu1, z)

/-- The velocity on the second side: the field, the boundary value, or whatever the work vector holds,
src/interfaceinteg.cpp:1443-1450; then it is not used. -/
def FPt.other (p : FPt R) (n2 : Nat) (udof2 : Mat R) : List R :=
  if n2 ≠ 0 then udof2.mulTV p.shape2
  else
    match p.ud with
    | some v => v
    | none => []

/-- `AssembleQuadVectorBase`, src/interfaceinteg.cpp:1394-1465.  Its assertions hold by the sizes the
callers set. -/
def quadVecBase (sqrt : R → R) (p : FPt R) (iw : R) (n2 : Nat) (udof1 udof2 : Mat R)
    (elv : Mat R × Mat R) : Mat R × Mat R :=
  let eval2 := decide (n2 ≠ 0) || p.ud.isSome
  let u1 := udof1.mulTV p.shape1
  let u2 := p.other n2 udof2
  let flux := fluxDotN sqrt p.dim u1 u2 p.nor eval2
  let w := p.withQ iw
  let elv1 := elv.1.addScaled (-w) (mulVWt p.shape1 flux)
  let elv2 := if n2 ≠ 0 then elv.2.addScaled w (mulVWt p.shape2 flux) else elv.2
  (elv1, elv2)

/-- An interior or boundary face, or an interface: the sizes the routines take from the elements. -/
structure Face where
  dim : Nat
  nd1 : Nat
  n2 : Nat
deriving DecidableEq, Repr

/-- The loop over quadrature points shared by `AssembleFaceVector` and `AssembleInterfaceVector`. -/
def vecLoop (sqrt : R → R) (f : Face) (pts : List (FPt R × R)) (udof1 udof2 : Mat R) : Mat R × Mat R :=
  pts.foldl (fun elv pw => quadVecBase sqrt pw.1 pw.2 f.n2 udof1 udof2 elv)
    (Mat.of f.nd1 f.dim (fun _ _ => 0), Mat.of f.n2 f.dim (fun _ _ => 0))

/-- `AssembleFaceVector`, src/interfaceinteg.cpp:1534-1579.  `udof1`, `udof2` and `elv1`, `elv2` are
views of consecutive parts of `elfun` and `elvect`. -/
def faceVec (sqrt : R → R) (f : Face) (pts : List (FPt R × R)) (u : List R) : List R :=
  let r := vecLoop sqrt f pts ⟨f.nd1, f.dim, u⟩ ⟨f.n2, f.dim, u.drop (f.nd1 * f.dim)⟩
  r.1.data ++ r.2.data

/-- The sizes of the face a point lies on. -/
def FPt.face (p : FPt R) : Face := ⟨p.dim, p.nd1, p.ndofs2⟩

/-- `AssembleQuadratureVector` on a face, src/interfaceinteg.cpp:1648-1676: the same code with one
point. -/
def quadVec (sqrt : R → R) (p : FPt R) (iw : R) (u : List R) : List R := faceVec sqrt p.face [(p, iw)] u

/-- `AssembleInterfaceVector`, src/interfaceinteg.cpp:1846-1895 (`f.n2 = el2.GetDof()`). -/
def itfVec (sqrt : R → R) (f : Face) (pts : List (FPt R × R)) (u1 u2 : List R) : List R × List R :=
  let r := vecLoop sqrt f pts ⟨f.nd1, f.dim, u1⟩ ⟨f.n2, f.dim, u2⟩
  (r.1.data, r.2.data)

/-- `AssembleQuadratureVector` on an interface, src/interfaceinteg.cpp:1983-2012. -/
def itfQuadVec (sqrt : R → R) (p : FPt R) (iw : R) (u1 u2 : List R) : List R × List R :=
  itfVec sqrt p.face [(p, iw)] u1 u2

/-- `AssembleQuadGradBase`, src/interfaceinteg.cpp:1467-1532: weight and flux gradients.  The products of
shape functions are formed by the callers below. -/
def quadGradBase (sqrt : R → R) (p : FPt R) (n2 : Nat) (udof1 udof2 : Mat R) : Outcome (Mat R × Mat R) :=
  let eval2 := decide (n2 ≠ 0) || p.ud.isSome
  let u1 := udof1.mulTV p.shape1
  let u2 := p.other n2 udof2
  gradFluxDotN sqrt p.dim u1 u2 p.nor eval2 (decide (n2 ≠ 0))

/-- The transpose of a matrix. -/
def tr (m : Mat R) : Mat R := Mat.of m.w m.h (fun i j => m.get j i)

/-- The loop over components of `AssembleFaceGrad`, src/interfaceinteg.cpp:1630-1642, and of
`AssembleQuadratureGrad`, 1713-1725. -/
def addFaceBlocks (f : Face) (p : FPt R) (w : R) (g1 g2 : Mat R) (elmat : Mat R) : Mat R :=
  let c11 := mulVWt p.shape1 p.shape1
  let c12 := mulVWt p.shape1 p.shape2
  let c21 := tr c12
  let c22 := mulVWt p.shape2 p.shape2
  iter f.dim (fun di m => iter f.dim (fun dj m =>
    let m := m.addBlock (-w * g1.get di dj) c11 (di * f.nd1) (dj * f.nd1)
    if f.n2 ≠ 0 then
      let m := m.addBlock (-w * g2.get di dj) c12 (di * f.nd1) (dj * f.n2 + f.dim * f.nd1)
      let m := m.addBlock (w * g1.get di dj) c21 (di * f.n2 + f.dim * f.nd1) (dj * f.nd1)
      m.addBlock (w * g2.get di dj) c22 (di * f.n2 + f.dim * f.nd1) (dj * f.n2 + f.dim * f.nd1)
    else m) m) elmat

/-- `AssembleFaceGrad`, src/interfaceinteg.cpp:1581-1646. -/
def faceGrad (sqrt : R → R) (f : Face) (pts : List (FPt R × R)) (u : List R) : Outcome (Mat R) :=
  let n := f.dim * (f.nd1 + f.n2)
  pts.foldlM (fun m pw => do
    let g ← quadGradBase sqrt pw.1 f.n2 ⟨f.nd1, f.dim, u⟩ ⟨f.n2, f.dim, u.drop (f.nd1 * f.dim)⟩
    return addFaceBlocks f pw.1 (pw.1.withQ pw.2) g.1 g.2 m) (zeroMat n)

/-- `AssembleQuadratureGrad` on a face, src/interfaceinteg.cpp:1678-1726. -/
def quadGrad (sqrt : R → R) (p : FPt R) (iw : R) (u : List R) : Outcome (Mat R) :=
  faceGrad sqrt p.face [(p, iw)] u

/-- The four blocks of an interface matrix. -/
structure Mats (R : Type) where
  m11 : Mat R
  m12 : Mat R
  m21 : Mat R
  m22 : Mat R
deriving DecidableEq, Repr

/-- The loop over components of `AssembleInterfaceGrad`, src/interfaceinteg.cpp:1963-1975, and of
`AssembleQuadratureGrad`, 2058-2070. -/
def addItfBlocks (f : Face) (p : FPt R) (w : R) (g1 g2 : Mat R) (ms : Mats R) : Mats R :=
  let c11 := mulVWt p.shape1 p.shape1
  let c12 := mulVWt p.shape1 p.shape2
  let c21 := tr c12
  let c22 := mulVWt p.shape2 p.shape2
  iter f.dim (fun di ms => iter f.dim (fun dj (ms : Mats R) =>
    let ms := { ms with m11 := ms.m11.addBlock (-w * g1.get di dj) c11 (di * f.nd1) (dj * f.nd1) }
    if f.n2 ≠ 0 then
      { ms with
        m12 := ms.m12.addBlock (-w * g2.get di dj) c12 (di * f.nd1) (dj * f.n2)
        m21 := ms.m21.addBlock (w * g1.get di dj) c21 (di * f.n2) (dj * f.nd1)
        m22 := ms.m22.addBlock (w * g2.get di dj) c22 (di * f.n2) (dj * f.n2) }
    else ms) ms) ms

/-- `AssembleInterfaceGrad`, src/interfaceinteg.cpp:1897-1981. -/
def itfGrad (sqrt : R → R) (f : Face) (pts : List (FPt R × R)) (u1 u2 : List R) : Outcome (Mats R) :=
  let a := f.dim * f.nd1
  let b := f.dim * f.n2
  let z : Nat → Nat → Mat R := fun h w => Mat.of h w (fun _ _ => 0)
  pts.foldlM (fun ms pw => do
    let g ← quadGradBase sqrt pw.1 f.n2 ⟨f.nd1, f.dim, u1⟩ ⟨f.n2, f.dim, u2⟩
    return addItfBlocks f pw.1 (pw.1.withQ pw.2) g.1 g.2 ms) ⟨z a a, z a b, z b a, z b b⟩

/-- `AssembleQuadratureGrad` on an interface, src/interfaceinteg.cpp:2014-2071. -/
def itfQuadGrad (sqrt : R → R) (p : FPt R) (iw : R) (u1 u2 : List R) : Outcome (Mats R) :=
  itfGrad sqrt p.face [(p, iw)] u1 u2

/-! ## Precomputed coefficients -/

/-- `shape1` and `shape2` of an `EQPSample`, include/hyperreduction_integ.hpp:15-34. -/
structure Pre2 (R : Type) where
  shape1 : Mat R
  shape2 : Option (Mat R)
deriving DecidableEq, Repr

/-- The loop of `PrecomputeFaceEQPSample` over the basis, src/rom_nonlinearform.cpp:1477-1492, for one
side: columns `elv^T shape` with `elv` the part of the element vector that starts at `off`. -/
def shapesOf (dim nd off : Nat) (shape : List R) (basis : Mat R) (rows : List Int) : Outcome (Mat R) := do
  let cols ← loop basis.w (fun i (st : List (List R)) => do
    let b ← basisElement basis i rows
    let elv : Mat R := ⟨nd, dim, b.drop off⟩
    return st ++ [elv.mulTV shape]) []
  return ⟨dim, basis.w, cols.flatten⟩

/-- `PrecomputeFaceEQPSample`, src/rom_nonlinearform.cpp:1430-1497; `rows` are the degrees of freedom of
the first element followed, if there is one, by those of the second. -/
def precomputeFace (p : FPt R) (basis : Mat R) (rows : List Int) : Outcome (Pre2 R) := do
  let s1 ← shapesOf p.dim p.nd1 0 p.shape1 basis rows
  if p.el2 then do
    let s2 ← shapesOf p.dim p.dof2 (p.nd1 * p.dim) p.shape2 basis rows
    return ⟨s1, some s2⟩
  else return ⟨s1, none⟩

/-- `ROMInterfaceForm::PrecomputeEQPSample`, src/rom_interfaceform.cpp:826-889. -/
def precomputeItf (p : FPt R) (basis1 basis2 : Mat R) (rows1 rows2 : List Int) : Outcome (Pre2 R) := do
  let s1 ← shapesOf p.dim p.nd1 0 p.shape1 basis1 rows1
  let s2 ← shapesOf p.dim p.dof2 0 p.shape2 basis2 rows2
  return ⟨s1, some s2⟩

/-- `m.AddMultTranspose(x, y, a)` (external): `y += a m^T x`. -/
def addMultT (m : Mat R) (x y : List R) (a : R) : List R :=
  let t := m.mulTV x
  vof y.length (fun c => vget y c + a * vget t c)

/-- The velocity on the second side in the fast routines on faces, src/interfaceinteg.cpp:1755-1759,
1814-1818. -/
def FPt.otherFast (p : FPt R) (s2 : Option (Mat R)) (x : List R) : Outcome (List R) :=
  if p.el2 then do
    let s ← deref s2
    return s.mulV x
  else
    match p.ud with
    | some v => return v
    | none => return []

/-- `AddAssembleVector_Fast` on a face, src/interfaceinteg.cpp:1728-1784. -/
def fastVec (sqrt : R → R) (p : FPt R) (s : Pre2 R) (qw : R) (x y : List R) : Outcome (List R) := do
  let dim := s.shape1.h
  let eval2 := p.el2 || p.ud.isSome
  let u1 := s.shape1.mulV x
  let u2 ← p.otherFast s.shape2 x
  let flux := fluxDotN sqrt dim u1 u2 p.nor eval2
  let w := p.withQ qw
  require (y.length == x.length)
  let y := addMultT s.shape1 flux y (-w)
  if p.el2 then do
    let s2 ← deref s.shape2
    return addMultT s2 flux y w
  else return y

/-- A dense matrix as an operator. -/
def asOp (m : Mat R) : Op R := ⟨m.h, m.w, m.mulV⟩

/-- `AddAssembleGrad_Fast` on a face, src/interfaceinteg.cpp:1786-1845.  `member` is the value of the
member `ndofs2`, left by an earlier call, or none if no call has set it: it is not initialised. -/
def fastGrad (sqrt : R → R) (member : Option Nat) (p : FPt R) (s : Pre2 R) (qw : R) (x : List R)
    (jac : Mat R) : Outcome (Mat R) := do
  let dim := s.shape1.h
  let eval2 := p.el2 || p.ud.isSome
  let u1 := s.shape1.mulV x
  let u2 ← p.otherFast s.shape2 x
  let n2 ← deref member
  let g ← gradFluxDotN sqrt dim u1 u2 p.nor eval2 (decide (n2 ≠ 0))
  let w := p.withQ qw
  let jac ← addwRtAP s.shape1 (asOp g.1) s.shape1 jac (-w)
  if p.el2 then do
    let s2 ← deref s.shape2
    let jac ← addwRtAP s2 (asOp g.1) s.shape1 jac w
    let jac ← addwRtAP s.shape1 (asOp g.2) s2 jac (-w)
    addwRtAP s2 (asOp g.2) s2 jac w
  else return jac

/-- `AddAssembleVector_Fast` on an interface, src/interfaceinteg.cpp:2073-2129. -/
def itfFastVec (sqrt : R → R) (p : FPt R) (s : Pre2 R) (qw : R) (x1 x2 y1 y2 : List R) :
    Outcome (List R × List R) := do
  let dim := s.shape1.h
  let s2 ← deref s.shape2
  let u1 := s.shape1.mulV x1
  let u2 := s2.mulV x2
  let flux := fluxDotN sqrt dim u1 u2 p.nor true
  let w := p.withQ qw
  require (y1.length == x1.length)
  require (y2.length == x2.length)
  return (addMultT s.shape1 flux y1 (-w), addMultT s2 flux y2 w)

/-- The four blocks of a reduced interface matrix. -/
structure Sps (R : Type) where
  m11 : Sp R
  m12 : Sp R
  m21 : Sp R
  m22 : Sp R
deriving DecidableEq, Repr

/-- `AddAssembleGrad_Fast` on an interface, src/interfaceinteg.cpp:2131-2207. -/
def itfFastGrad (sqrt : R → R) (p : FPt R) (s : Pre2 R) (qw : R) (x1 x2 : List R) (jac : Sps R) :
    Outcome (Sps R) := do
  let dim := s.shape1.h
  let s2 ← deref s.shape2
  let u1 := s.shape1.mulV x1
  let u2 := s2.mulV x2
  let g ← gradFluxDotN sqrt dim u1 u2 p.nor true true
  let w := p.withQ qw
  let m11 ← addwRtAPSparse s.shape1 (asOp g.1) s.shape1 jac.m11 (-w)
  let m21 ← addwRtAPSparse s2 (asOp g.1) s.shape1 jac.m21 w
  let m12 ← addwRtAPSparse s.shape1 (asOp g.2) s2 jac.m12 (-w)
  let m22 ← addwRtAPSparse s2 (asOp g.2) s2 jac.m22 w
  return ⟨m11, m12, m21, m22⟩

end

end Verif.LaxF
