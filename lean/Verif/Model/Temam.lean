import Verif.Model.Penalty

/-!
# The skew-symmetric (Temam) convection integrators

Models `TemamTrilinearFormIntegrator` and `DGTemamFluxIntegrator` of `src/nonlinear_integ.cpp`,
`InterfaceDGTemamFluxIntegrator` of `src/interfaceinteg.cpp` and `DGBdrTemamLFIntegrator` of `src/dg_linear.cpp`.

What MFEM supplies at a quadrature point (weights, normals, shape functions, physical derivatives, coefficients) is
an arbitrary input.  Vectors are one-column matrices, the element function `elfun` is given by its entries; the views
`EF`, `ELV`, `udof1`, `elv1`, … of `nd × dim` column-major matrices are written out as indices.  Writes outside a
matrix are undefined behaviour.  Arithmetic is exact.
-/

namespace Verif.Temam

open Verif Verif.LinAlg Verif.Penalty

variable {R : Type}

section
variable [Field R]

/-- A quadrature point of an element: `ip.weight * T.Weight()`, the coefficient if there is one, the shape functions
and their physical derivatives. -/
structure EPt (R : Type) where
  wt : R
  q : Option R
  shape : Nat → R
  dshape : Nat → Nat → R

/-- A quadrature point of a face: `ip.weight`, the coefficient if there is one, the normal, the shape functions of
the two elements. -/
structure FPt (R : Type) where
  wt : R
  q : Option R
  nor : Nat → R
  sh1 : Nat → R
  sh2 : Nat → R

/-- `w = 0.5 * weight; if (Q) w *= Q->Eval(...)`, src/nonlinear_integ.cpp:44-45, 94-95, 193-194, 283-284 and
src/interfaceinteg.cpp:908-909, 998-999. -/
def weight (wt : R) (q : Option R) : R :=
  match q with
  | none => 1 / 2 * wt
  | some q => 1 / 2 * wt * q

/-- `EF.MultTranspose(shape, u1)`: the value of the element function, where its entries begin at `off`. -/
def interp (nd off : Nat) (shape u : Nat → R) (d : Nat) : R := dot nd (fun j => u (off + (d * nd + j))) shape

/-- `AddMultVWt(v, w, ELV)` for the `nd × dim` view that begins at `off`. -/
def addOuter (nd dim off : Nat) (v w : Nat → R) (x : Blk R) : Outcome (Blk R) :=
  loop dim (fun d x => loop nd (fun j x => addAt x (off + (d * nd + j)) 0 (v j * w d)) x) x

/-- `m.AddMatrix(a, A, ro, co)` for an `ah × aw` matrix. -/
def addMatrix (ah aw : Nat) (a : R) (A : Nat → Nat → R) (ro co : Nat) (m : Blk R) : Outcome (Blk R) :=
  loop aw (fun j m => loop ah (fun i m => addAt m (ro + i) (co + j) (a * A i j)) m) m

/-- The loop over the quadrature points. -/
def over {α σ : Type} (pts : List α) (body : α → σ → Outcome σ) (s : σ) : Outcome σ :=
  loop pts.length (fun k s => do
    let p ← rd pts k
    body p s) s

/-! ## In an element -/

/-- `gradEF`, src/nonlinear_integ.cpp:48, 92. -/
def gradEF (nd : Nat) (p : EPt R) (u : Nat → R) (a b : Nat) : R :=
  dot nd (fun k => u (0 + (a * nd + k))) (fun k => p.dshape k b)

/-- One point of `TemamTrilinearFormIntegrator::AssembleElementVector`, src/nonlinear_integ.cpp:38-56. -/
def elemVecPt (nd dim : Nat) (u : Nat → R) (p : EPt R) (x : Blk R) : Outcome (Blk R) := do
  let w := weight p.wt p.q
  let u1 := interp nd 0 p.shape u
  let udu := fun a => w * mulVec dim (gradEF nd p u) u1 a
  let x ← addOuter nd dim 0 p.shape udu x
  let vec1 := mulVec dim p.dshape u1
  addOuter nd dim 0 vec1 (fun a => -w * u1 a) x

/-- `TemamTrilinearFormIntegrator::AssembleElementVector`, src/nonlinear_integ.cpp:20-57. -/
def elemVec (nd dim : Nat) (pts : List (EPt R)) (u : Nat → R) : Outcome (Blk R) :=
  over pts (elemVecPt nd dim u) (zeros (nd * dim) 1)

/-- One point of `TemamTrilinearFormIntegrator::AssembleElementGrad`, src/nonlinear_integ.cpp:82-119. -/
def elemGradPt (nd dim : Nat) (u : Nat → R) (p : EPt R) (m : Blk R) : Outcome (Blk R) := do
  let u1 := interp nd 0 p.shape u
  let w := weight p.wt p.q
  let vec2 := mulVec dim p.dshape u1
  let m ← loop dim (fun d m => addMatrix nd nd (-w) (fun i j => vec2 i * p.shape j) (d * nd) (d * nd) m) m
  let m ← loop dim (fun d m => addMatrix nd nd w (fun i j => p.shape i * vec2 j) (d * nd) (d * nd) m) m
  loop dim (fun di m => loop dim (fun dj m => do
    let m ← addMatrix nd nd (-w) (fun i j => (u1 di * p.dshape i dj) * p.shape j) (di * nd) (dj * nd) m
    addMatrix nd nd (w * gradEF nd p u di dj) (fun i j => p.shape i * p.shape j) (di * nd) (dj * nd) m) m) m

/-- `TemamTrilinearFormIntegrator::AssembleElementGrad`, src/nonlinear_integ.cpp:59-120. -/
def elemGrad (nd dim : Nat) (pts : List (EPt R)) (u : Nat → R) : Outcome (Blk R) :=
  over pts (elemGradPt nd dim u) (zeros (nd * dim) (nd * dim))

/-! ## On a face of one mesh -/

/-- `nor *= w; un = nor * u1`, src/nonlinear_integ.cpp:196-197, 286-287 and src/interfaceinteg.cpp:911-912,
1001-1002. -/
def normal (dim : Nat) (p : FPt R) (u1 : Nat → R) : R := dot dim (fun a => p.nor a * weight p.wt p.q) u1

/-- One point of `DGTemamFluxIntegrator::AssembleFaceVector`, src/nonlinear_integ.cpp:162-211; `n2 = 0` on a
boundary face. -/
def faceVecPt (dim n1 n2 : Nat) (u : Nat → R) (p : FPt R) (x : Blk R) : Outcome (Blk R) :=
  let u1 := interp n1 0 p.sh1 u
  let un := normal dim p u1
  if n2 = 0 then addOuter n1 dim 0 p.sh1 (fun a => un * u1 a) x
  else do
    let u2 := interp n2 (n1 * dim) p.sh2 u
    let x ← addOuter n2 dim (n1 * dim) p.sh2 (fun a => un * u1 a) x
    addOuter n1 dim 0 p.sh1 (fun a => -un * u2 a) x

/-- `DGTemamFluxIntegrator::AssembleFaceVector`, src/nonlinear_integ.cpp:126-212. -/
def faceVec (dim n1 n2 : Nat) (pts : List (FPt R)) (u : Nat → R) : Outcome (Blk R) :=
  over pts (faceVecPt dim n1 n2 u) (zeros (dim * (n1 + n2)) 1)

/-- The matrices of an interior face, src/nonlinear_integ.cpp:296-309. -/
def faceGradIn (dim n1 n2 : Nat) (un : R) (nor u1 u2 : Nat → R) (p : FPt R) (m : Blk R) : Outcome (Blk R) :=
  loop dim (fun di m => do
    let m ← addMatrix n2 n1 un (fun i j => p.sh1 j * p.sh2 i) (di * n2 + dim * n1) (di * n1) m
    let m ← addMatrix n1 n2 (-un) (fun i j => p.sh1 i * p.sh2 j) (di * n1) (di * n2 + dim * n1) m
    loop dim (fun dj m => do
      let m ← addMatrix n2 n1 (u1 di * nor dj) (fun i j => p.sh1 j * p.sh2 i) (di * n2 + dim * n1) (dj * n1) m
      addMatrix n1 n1 (-u2 di * nor dj) (fun i j => p.sh1 i * p.sh1 j) (di * n1) (dj * n1) m) m) m

/-- The matrices of a boundary face, src/nonlinear_integ.cpp:310-319. -/
def faceGradBdr (dim n1 : Nat) (un : R) (nor u1 : Nat → R) (p : FPt R) (m : Blk R) : Outcome (Blk R) :=
  loop dim (fun di m => do
    let m ← addMatrix n1 n1 un (fun i j => p.sh1 i * p.sh1 j) (di * n1) (di * n1) m
    loop dim (fun dj m =>
      addMatrix n1 n1 (u1 di * nor dj) (fun i j => p.sh1 i * p.sh1 j) (di * n1) (dj * n1) m) m) m

/-- One point of `DGTemamFluxIntegrator::AssembleFaceGrad`, src/nonlinear_integ.cpp:252-320. -/
def faceGradPt (dim n1 n2 : Nat) (u : Nat → R) (p : FPt R) (m : Blk R) : Outcome (Blk R) :=
  let u1 := interp n1 0 p.sh1 u
  let nor := fun a => p.nor a * weight p.wt p.q
  let un := normal dim p u1
  if n2 = 0 then faceGradBdr dim n1 un nor u1 p m
  else faceGradIn dim n1 n2 un nor u1 (interp n2 (n1 * dim) p.sh2 u) p m

/-- `DGTemamFluxIntegrator::AssembleFaceGrad`, src/nonlinear_integ.cpp:214-321. -/
def faceGrad (dim n1 n2 : Nat) (pts : List (FPt R)) (u : Nat → R) : Outcome (Blk R) :=
  over pts (faceGradPt dim n1 n2 u) (zeros (dim * (n1 + n2)) (dim * (n1 + n2)))

/-! ## On an interface -/

/-- One point of `InterfaceDGTemamFluxIntegrator::AssembleInterfaceVector`, src/interfaceinteg.cpp:879-919. -/
def itfVecPt (dim n1 n2 : Nat) (uf1 uf2 : Nat → R) (p : FPt R) (x : Blk R × Blk R) : Outcome (Blk R × Blk R) := do
  let u1 := interp n1 0 p.sh1 uf1
  let u2 := interp n2 0 p.sh2 uf2
  let un := normal dim p u1
  let x2 ← addOuter n2 dim 0 p.sh2 (fun a => un * u1 a) x.2
  let x1 ← addOuter n1 dim 0 p.sh1 (fun a => -un * u2 a) x.1
  .ok (x1, x2)

/-- `InterfaceDGTemamFluxIntegrator::AssembleInterfaceVector`, src/interfaceinteg.cpp:843-920. -/
def itfVec (dim n1 n2 : Nat) (pts : List (FPt R)) (uf1 uf2 : Nat → R) : Outcome (Blk R × Blk R) :=
  over pts (itfVecPt dim n1 n2 uf1 uf2) (zeros (dim * n1) 1, zeros (dim * n2) 1)

/-- The inner loop over the second direction, src/interfaceinteg.cpp:1013-1017. -/
def itfGradRow (dim n1 n2 di : Nat) (nor u1 u2 : Nat → R) (p : FPt R) (e : Four R) : Outcome (Four R) :=
  loop dim (fun dj e => do
    let a10 ← addMatrix n2 n1 (u1 di * nor dj) (fun i j => p.sh1 j * p.sh2 i) (di * n2) (dj * n1) e.a10
    let a00 ← addMatrix n1 n1 (-u2 di * nor dj) (fun i j => p.sh1 i * p.sh1 j) (di * n1) (dj * n1) e.a00
    .ok { e with a00 := a00, a10 := a10 }) e

/-- One point of `InterfaceDGTemamFluxIntegrator::AssembleInterfaceGrad`, src/interfaceinteg.cpp:969-1019. -/
def itfGradPt (dim n1 n2 : Nat) (uf1 uf2 : Nat → R) (p : FPt R) (e : Four R) : Outcome (Four R) :=
  let u1 := interp n1 0 p.sh1 uf1
  let u2 := interp n2 0 p.sh2 uf2
  let nor := fun a => p.nor a * weight p.wt p.q
  let un := normal dim p u1
  loop dim (fun di e => do
    let a10 ← addMatrix n2 n1 un (fun i j => p.sh1 j * p.sh2 i) (di * n2) (di * n1) e.a10
    let a01 ← addMatrix n1 n2 (-un) (fun i j => p.sh1 i * p.sh2 j) (di * n1) (di * n2) e.a01
    itfGradRow dim n1 n2 di nor u1 u2 p { e with a01 := a01, a10 := a10 }) e

/-- `InterfaceDGTemamFluxIntegrator::AssembleInterfaceGrad`, src/interfaceinteg.cpp:922-1020. -/
def itfGrad (dim n1 n2 : Nat) (pts : List (FPt R)) (uf1 uf2 : Nat → R) : Outcome (Four R) :=
  over pts (itfGradPt dim n1 n2 uf1 uf2)
    { a00 := zeros (dim * n1) (dim * n1), a01 := zeros (dim * n1) (dim * n2)
      a10 := zeros (dim * n2) (dim * n1), a11 := zeros (dim * n2) (dim * n2) }

/-! ## Boundary load -/

/-- A quadrature point of the boundary load: `ip.weight`, the coefficient `Z` if there is one, the normal, the
prescribed velocity, the shape functions. -/
structure LPt (R : Type) where
  wt : R
  z : Option R
  nor : Nat → R
  g : Nat → R
  shape : Nat → R

/-- `w = ip.weight; if (Z) w *= Z->Eval(Tr, ip)`, src/dg_linear.cpp:476-477, 526-527. -/
def loadWeight (p : LPt R) : R :=
  match p.z with
  | none => p.wt
  | some z => p.wt * z

/-- One point of `DGBdrTemamLFIntegrator::AssembleRHSElementVect`, src/dg_linear.cpp:458-488 and 512-538. -/
def loadPt (dim nd : Nat) (p : LPt R) (x : Blk R) : Outcome (Blk R) :=
  let w := loadWeight p
  let un := dot dim p.g p.nor
  addOuter nd dim 0 p.shape (fun a => w * (un * p.g a)) x

/-- `DGBdrTemamLFIntegrator::AssembleRHSElementVect`, src/dg_linear.cpp:437-489 and 491-539. -/
def load (dim nd : Nat) (pts : List (LPt R)) : Outcome (Blk R) :=
  over pts (loadPt dim nd) (zeros (dim * nd) 1)

end

end Verif.Temam
