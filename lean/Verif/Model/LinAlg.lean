import Verif.Model.Basic
import Mathlib.Algebra.Ring.Basic

/-!
# Dense kernels of `src/linalg_utils.cpp`

Buffers are lists; a pointer that the code advances (`d_mat += height`, `tdata++`) is an explicit
index into its buffer.  Entries live in an arbitrary commutative ring (floating point rounding is
not modelled).
-/

namespace Verif.LinAlg

open Verif

variable {R : Type}

/-- `mfem::DenseMatrix` (external): column-major buffer of capacity `data.length`, entry `(i, j)` at
`i + j * h`. -/
structure Mat (R : Type) where
  h : Nat
  w : Nat
  data : List R
deriving DecidableEq, Repr

/-- `mfem::DenseMatrix::SetSize` (external): nothing on equal shape; the buffer is reallocated and
zeroed only when its capacity is exceeded, otherwise old contents stay. -/
def Mat.setSize [Zero R] (m : Mat R) (h w : Nat) : Mat R :=
  if m.h = h ∧ m.w = w then m
  else if m.data.length < h * w then ⟨h, w, List.replicate (h * w) 0⟩
  else ⟨h, w, m.data⟩

/-- `mfem::DenseMatrix::GetColumnReference` (external), as the column's current contents. -/
def Mat.col (m : Mat R) (c : Nat) : Outcome (List R) :=
  if (c + 1) * m.h ≤ m.data.length then .ok ((m.data.drop (c * m.h)).take m.h) else .error .ub

/-- `mfem::Vector::SetSize` (external): keeps the contents within capacity, else reallocates without
initialising; `junk` stands for the uninitialised contents. -/
def vecSetSize (v : List R) (n : Nat) (junk : Nat → R) : List R :=
  if n ≤ v.length then v.take n else (List.range n).map junk

/-- `mfem::Array<int>::Min` (external); reading the first entry of an empty array is undefined. -/
def arrMin : List Int → Outcome Int
  | [] => .error .ub
  | x :: xs => .ok (xs.foldl min x)

/-- `mfem::Array<int>::Max` (external). -/
def arrMax : List Int → Outcome Int
  | [] => .error .ub
  | x :: xs => .ok (xs.foldl max x)

/-- An `mfem::Operator` (external): shape and action. -/
structure Op (R : Type) where
  h : Nat
  w : Nat
  mult : List R → List R

/-- `mfem::Vector::operator*` (external): inner product. -/
def dot [Zero R] [Add R] [Mul R] (x y : List R) : Outcome R :=
  loop x.length (fun k acc => do
    let a ← rd x k
    let b ← rd y k
    return acc + a * b) 0

/-- `buf[i] = f(buf[i])`. -/
def upd (b : List R) (i : Nat) (f : R → R) : Outcome (List R) := do
  let v ← rd b i
  wr b i (f v)

section Ring
variable [CommRing R]

/-! ## Triple products -/

/-- `RtAP`, src/linalg_utils.cpp:211-234 (and its wrapper `DenseRtAP`, 236-242, which passes an empty
matrix). -/
def rtap (r : Mat R) (a : Op R) (p : Mat R) (out : Mat R) : Outcome (Mat R) := do
  require (r.h == a.h)
  require (a.w == p.h)
  let out := out.setSize r.w p.w
  let data ← loop r.w (fun i st => loop p.w (fun j st => do
      let vi ← r.col i
      let vj ← p.col j
      let tmp := a.mult vj
      let v ← dot vi tmp
      wr st (i + j * r.w) v) st) out.data
  return { out with data := data }

/-- `AddwRtAP` into a dense matrix, src/linalg_utils.cpp:270-295. -/
def addwRtAP (r : Mat R) (a : Op R) (p : Mat R) (out : Mat R) (w : R) : Outcome (Mat R) := do
  require (r.h == a.h)
  require (a.w == p.h)
  require (out.h == r.w)
  require (out.w == p.w)
  let data ← loop r.w (fun i st => loop p.w (fun j st => do
      let vi ← r.col i
      let vj ← p.col j
      let tmp := a.mult vj
      let v ← dot vi tmp
      upd st (i + j * r.w) (fun x => x + w * v)) st) out.data
  return { out with data := data }

/-- `mfem::SparseMatrix` under construction (external): shape and stored entries.  Compressed storage
and `Finalize` are not modelled. -/
structure Sp (R : Type) where
  h : Nat
  w : Nat
  ents : List ((Nat × Nat) × R)
deriving DecidableEq, Repr

/-- Value of an entry (absent = zero). -/
def Sp.get (s : Sp R) (i j : Nat) : R :=
  ((s.ents.find? (fun e => e.1 == (i, j))).map Prod.snd).getD 0

/-- `mfem::SparseMatrix::Set` (external). -/
def Sp.set (s : Sp R) (i j : Nat) (v : R) : Outcome (Sp R) :=
  if i < s.h ∧ j < s.w then .ok { s with ents := ((i, j), v) :: s.ents } else .error .ub

/-- `mfem::SparseMatrix::Add` (external). -/
def Sp.add (s : Sp R) (i j : Nat) (v : R) : Outcome (Sp R) := s.set i j (s.get i j + v)

/-- `SparseRtAP`, src/linalg_utils.cpp:244-268. -/
def sparseRtAP (r : Mat R) (a : Op R) (p : Mat R) : Outcome (Sp R) := do
  require (r.h == a.h)
  require (a.w == p.h)
  loop r.w (fun i st => loop p.w (fun j st => do
      let vi ← r.col i
      let vj ← p.col j
      let tmp := a.mult vj
      let v ← dot vi tmp
      st.set i j v) st) ⟨r.w, p.w, []⟩

/-- `AddwRtAP` into a sparse matrix, src/linalg_utils.cpp:297-322. -/
def addwRtAPSparse (r : Mat R) (a : Op R) (p : Mat R) (out : Sp R) (w : R) : Outcome (Sp R) := do
  require (r.h == a.h)
  require (a.w == p.h)
  require (out.h == r.w)
  require (out.w == p.w)
  loop r.w (fun i st => loop p.w (fun j st => do
      let vi ← r.col i
      let vj ← p.col j
      let tmp := a.mult vj
      let v ← dot vi tmp
      st.add i j (w * v)) st) out

/-! ## Products with a subset of rows -/

/-- The row-index checks shared by the routines, e.g. src/linalg_utils.cpp:431-433. -/
def checkRows (rows : List Int) (height : Nat) : Outcome Unit := do
  let rmin ← arrMin rows
  let rmax ← arrMax rows
  require (decide (0 ≤ rmin) && decide (rmin < height))
  require (decide (0 ≤ rmax) && decide (rmax < height))

/-- `MultSubMatrix`, src/linalg_utils.cpp:425-452.  The pointer `d_mat` is the second component of the
loop state. -/
def multSubMatrix (m : Mat R) (rows : List Int) (x y : List R) (junk : Nat → R) :
    Outcome (List R) := do
  let nrow := rows.length
  require (x.length == m.w)
  let y := vecSetSize y nrow junk
  checkRows rows m.h
  let xc ← rd x 0
  let y ← loop nrow (fun r y => do
    let row ← rd rows r
    let v ← rdI m.data row
    wr y r (v * xc)) y
  let st ← loop (m.w - 1) (fun c (st : List R × Nat) => do
    let (y, dmat) := st
    let xc ← rd x (c + 1)
    let y ← loop nrow (fun r y => do
      let row ← rd rows r
      let v ← rdI m.data (dmat + row)
      upd y r (fun t => t + v * xc)) y
    return (y, dmat + m.h)) (y, m.h)
  return st.1

/-- Inner loop of the transposed products: `yc += d_mat[d_rows[r]] * d_x[r]`. -/
def gatherDot (m : Mat R) (rows : List Int) (x : List R) (dmat : Nat) : Outcome R :=
  loop rows.length (fun r yc => do
    let row ← rd rows r
    let v ← rdI m.data (dmat + row)
    let xr ← rd x r
    return yc + v * xr) 0

/-- `AddMultTransposeSubMatrix`, src/linalg_utils.cpp:454-478; `y` is the target buffer (a vector or
a column of a matrix). -/
def addMultTransposeSubMatrix (m : Mat R) (rows : List Int) (x y : List R) : Outcome (List R) := do
  require (x.length == rows.length)
  require (y.length == m.w)
  checkRows rows m.h
  let st ← loop m.w (fun c (st : List R × Nat) => do
    let (y, dmat) := st
    let yc ← gatherDot m rows x dmat
    let y ← upd y c (fun t => t + yc)
    return (y, dmat + m.h)) (y, 0)
  return st.1

/-- `MultTransposeSubMatrix`, src/linalg_utils.cpp:480-504. -/
def multTransposeSubMatrix (m : Mat R) (rows : List Int) (x y : List R) : Outcome (List R) := do
  require (x.length == rows.length)
  require (y.length == m.w)
  checkRows rows m.h
  let st ← loop m.w (fun c (st : List R × Nat) => do
    let (y, dmat) := st
    let yc ← gatherDot m rows x dmat
    let y ← wr y c yc
    return (y, dmat + m.h)) (y, 0)
  return st.1

/-- Replace column `c` of a buffer: the effect of writing through `GetColumnReference`. -/
def setCol (data : List R) (h c : Nat) (col : List R) : List R :=
  data.take (c * h) ++ col ++ data.drop (c * h + h)

/-- Step 1 of `AddSubMatrixRtAP`, `tmp = A * P[Prows, j]`, src/linalg_utils.cpp:539-553; `dP` is the
pointer to column `j` of `P`.  The first iteration assigns, the others accumulate. -/
def subRtAPStep1 (a p : Mat R) (prows : List Int) (arow acol dP : Nat) (tmp : List R) :
    Outcome (List R) := do
  let row0 ← rd prows 0
  let pr ← rdI p.data (dP + row0)
  let tmp ← loop arow (fun r tmp => do
    let v ← rd a.data r
    wr tmp r (v * pr)) tmp
  let st ← loop (acol - 1) (fun c (st : List R × Nat) => do
    let (tmp, dA) := st
    let row ← rd prows (c + 1)
    let pr ← rdI p.data (dP + row)
    let tmp ← loop arow (fun r tmp => do
      let v ← rd a.data (dA + r)
      upd tmp r (fun t => t + v * pr)) tmp
    return (tmp, dA + arow)) (tmp, arow)
  return st.1

/-- `AddSubMatrixRtAP` into a dense matrix, src/linalg_utils.cpp:506-560. -/
def addSubMatrixRtAP (r : Mat R) (rrows : List Int) (a : Mat R) (p : Mat R) (prows : List Int)
    (rap : Mat R) (junk : Nat → R) : Outcome (Mat R) := do
  let arow := rrows.length
  let acol := prows.length
  require (a.h == arow)
  require (a.w == acol)
  checkRows rrows r.h
  checkRows prows p.h
  let rap := rap.setSize r.w p.w
  let tmp := vecSetSize [] arow junk
  let st ← loop p.w (fun j (st : List R × List R × Nat) => do
    let (data, tmp, dP) := st
    let tmp ← subRtAPStep1 a p prows arow acol dP tmp
    let col ← (⟨r.w, p.w, data⟩ : Mat R).col j
    let col ← addMultTransposeSubMatrix r rrows tmp col
    return (setCol data r.w j col, tmp, dP + p.h)) (rap.data, tmp, 0)
  return { rap with data := st.1 }

/-- `AddSubMatrixRtAP` into a sparse matrix, src/linalg_utils.cpp:562-575. -/
def addSubMatrixRtAPSparse (r : Mat R) (rrows : List Int) (a : Mat R) (p : Mat R)
    (prows : List Int) (rap : Sp R) (junk : Nat → R) : Outcome (Sp R) := do
  let tmp ← addSubMatrixRtAP r rrows a p prows ⟨0, 0, []⟩ junk
  require (tmp.h == rap.h)
  require (tmp.w == rap.w)
  let st ← loop tmp.w (fun j (st : Sp R × Nat) => loop tmp.h (fun i (st : Sp R × Nat) => do
    let (rap, d) := st
    let v ← rd tmp.data d
    let rap ← rap.add i j v
    return (rap, d + 1)) st) (rap, 0)
  return st.1

/-! ## Tensor kernels -/

/-- `mfem::DenseTensor` (external): entry `(i, j, k)` at `i + j * nI + k * nI * nJ`. -/
structure Tensor (R : Type) where
  nI : Nat
  nJ : Nat
  nK : Nat
  data : List R
deriving DecidableEq, Repr

/-- The innermost loops of the contractions: `(*dyk) += w * (*tdata) * (*dxi) * (*dxj)` for all `j`, `i`
of one `k` (`TensorContract` has no factor `w`; it is the case `w = 1`).  State: accumulator and
`tdata`. -/
def contractSlice (t : Tensor R) (w : R) (xi xj : List R) (yk : R) (td : Nat) : Outcome (R × Nat) :=
  loop t.nJ (fun j (st : R × Nat) => loop t.nI (fun i (st : R × Nat) => do
    let (acc, td) := st
    let v ← rd t.data td
    let a ← rd xi i
    let b ← rd xj j
    return (acc + w * v * a * b, td + 1)) st) (yk, td)

/-- `TensorContract`, src/linalg_utils.cpp:577-602. -/
def tensorContract (t : Tensor R) (xi xj yk : List R) (junk : Nat → R) : Outcome (List R) := do
  require (xi.length == t.nI)
  require (xj.length == t.nJ)
  let yk := vecSetSize yk t.nK junk
  let st ← loop t.nK (fun k (st : List R × Nat) => do
    let (y, td) := st
    let y ← wr y k 0
    let y0 ← rd y k
    let (acc, td) ← contractSlice t 1 xi xj y0 td
    let y ← wr y k acc
    return (y, td)) (yk, 0)
  return st.1

/-- `TensorAddScaledContract`, src/linalg_utils.cpp:604-627. -/
def tensorAddScaledContract (t : Tensor R) (w : R) (xi xj yk : List R) (junk : Nat → R) :
    Outcome (List R) := do
  require (xi.length == t.nI)
  require (xj.length == t.nJ)
  let yk := vecSetSize yk t.nK junk
  let st ← loop t.nK (fun k (st : List R × Nat) => do
    let (y, td) := st
    let y0 ← rd y k
    let (acc, td) ← contractSlice t w xi xj y0 td
    let y ← wr y k acc
    return (y, td)) (yk, 0)
  return st.1

/-- `TensorMult`, src/linalg_utils.cpp:629-646.  State: matrix buffer, `tdata`, `dM`. -/
def tensorMult (t : Tensor R) (x : List R) (m : Mat R) : Outcome (Mat R) := do
  let data := (List.replicate (m.h * m.w) (0 : R)) ++ m.data.drop (m.h * m.w)
  let st ← loop t.nK (fun k (st : List R × Nat) => do
    let (data, td) := st
    let xk ← rd x k
    let st ← loop t.nJ (fun _ (st : List R × Nat × Nat) =>
      loop t.nI (fun _ (st : List R × Nat × Nat) => do
        let (data, td, dM) := st
        let v ← rd t.data td
        let data ← upd data dM (fun y => y + v * xk)
        return (data, td + 1, dM + 1)) st) (data, td, 0)
    return (st.1, st.2.1)) (data, 0)
  return { m with data := st.1 }

/-- `TensorAddMultOnJ`, src/linalg_utils.cpp:648-670.  `dx` is reset before the innermost loop and
never advanced. -/
def tensorAddMultOnJ (t : Tensor R) (x : List R) (m : Mat R) : Outcome (Mat R) := do
  let st ← loop t.nK (fun k (st : List R × Nat) => loop t.nI (fun i (st : List R × Nat) => do
    let (data, dM) := st
    let st ← loop t.nJ (fun _ (st : List R × Nat) => do
      let (data, td) := st
      let v ← rd t.data td
      let x0 ← rd x 0
      let data ← upd data dM (fun y => y + v * x0)
      return (data, td + t.nI)) (data, k * (t.nI * t.nJ) + i)
    return (st.1, dM + 1)) st) (m.data, 0)
  return { m with data := st.1 }

/-- `TensorAddScaledMultTranspose`, src/linalg_utils.cpp:728-782; with `w = 1` this is
`TensorAddMultTranspose`, 672-726 (same loops without the factor). -/
def tensorAddScaledMultTranspose (t : Tensor R) (w : R) (x : List R) (axis : Int) (m : Mat R) :
    Outcome (Mat R) := do
  let (sizeAx, sizeNx, offset, stride) ← (
    if axis = 0 then do
      require (x.length == t.nI)
      require (m.h == t.nK)
      require (m.w == t.nJ)
      return (t.nI, t.nJ, t.nI, 1)
    else if axis = 1 then do
      require (x.length == t.nJ)
      require (m.h == t.nK)
      require (m.w == t.nI)
      return (t.nJ, t.nI, 1, t.nI)
    else .error .abort : Outcome (Nat × Nat × Nat × Nat))
  let st ← loop sizeNx (fun nx (st : List R × Nat) => loop t.nK (fun k (st : List R × Nat) => do
    let (data, dM) := st
    let st ← loop sizeAx (fun ax (st : List R × Nat) => do
      let (data, td) := st
      let v ← rd t.data td
      let xa ← rd x ax
      let data ← upd data dM (fun y => y + w * v * xa)
      return (data, td + stride)) (data, k * (t.nI * t.nJ) + offset * nx)
    return (st.1, dM + 1)) st) (m.data, 0)
  return { m with data := st.1 }

/-- `TensorAddMultTranspose`, src/linalg_utils.cpp:672-726. -/
def tensorAddMultTranspose (t : Tensor R) (x : List R) (axis : Int) (m : Mat R) :
    Outcome (Mat R) := tensorAddScaledMultTranspose t 1 x axis m

end Ring

/-! ## Block insertion -/

/-- `CAROM::Matrix` (external): row-major, entry `(i, j)` at `i * cols + j`. -/
structure CMat (R : Type) where
  rows : Nat
  cols : Nat
  distributed : Bool
  data : List R
deriving DecidableEq, Repr

/-- `CAROM::Matrix::operator()` as an rvalue (external). -/
def CMat.get (m : CMat R) (i j : Int) : Outcome R :=
  if 0 ≤ i ∧ i < m.rows ∧ 0 ≤ j ∧ j < m.cols then rd m.data (i.toNat * m.cols + j.toNat)
  else .error .ub

/-- `CAROM::SetBlock` for matrices, src/linalg_utils.cpp:46-72. -/
def setBlockMat (b : CMat R) (iStart iEnd jStart jEnd : Int) (g : CMat R) : Outcome (CMat R) := do
  require (!b.distributed && !g.distributed)
  require (decide (b.rows ≤ g.rows))
  require (decide (b.cols ≤ g.cols))
  require (decide (0 ≤ iStart) && decide (iStart < g.rows))
  require (decide (0 ≤ jStart) && decide (jStart < g.cols))
  require (decide (0 ≤ iEnd) && decide (iEnd ≤ g.rows))
  require (decide (0 ≤ jEnd) && decide (jEnd ≤ g.cols))
  let data ← loop (iEnd - iStart).toNat (fun di data => loop (jEnd - jStart).toNat (fun dj data => do
    let i := iStart + di
    let j := jStart + dj
    let v ← b.get (i - iStart) (j - jStart)
    wrI data (i * g.cols + j) v) data) g.data
  return { g with data := data }

/-- `CAROM::SetBlock` for vectors, src/linalg_utils.cpp:74-88. -/
def setBlockVec (b : List R) (iStart iEnd : Int) (g : List R) : Outcome (List R) := do
  require (decide (b.length ≤ g.length))
  require (decide (0 ≤ iStart) && decide (iStart < g.length))
  require (decide (0 ≤ iEnd) && decide (iEnd ≤ g.length))
  loop (iEnd - iStart).toNat (fun di g => do
    let i := iStart + di
    let v ← rdI b (i - iStart)
    wrI g i v) g

/-- `CAROM::CopyMatrix`, src/linalg_utils.cpp:90-101. -/
def copyMatrix [Zero R] (c : CMat R) (m : Mat R) : Outcome (Mat R) := do
  let m := m.setSize c.rows c.cols
  let data ← loop c.rows (fun i data => loop c.cols (fun j data => do
    let v ← c.get i j
    wr data (i + j * c.rows) v) data) m.data
  return { m with data := data }

/-- `CAROM::ComputeCtAB`, src/linalg_utils.cpp:14-44: the operator is applied column by column; the
final `C^T (A B)` is libROM's `transposeMult` (external, written as its entrywise sums). -/
def computeCtAB [CommRing R] (a : Op R) (b c : CMat R) (out : CMat R) : Outcome (CMat R) := do
  require (b.distributed && c.distributed && !out.distributed)
  require (c.rows == a.h)
  let ab ← loop b.cols (fun i ab => do
    let bvec ← loop b.rows (fun j bvec => do
      let v ← b.get j i
      wr bvec j v) (List.replicate b.rows 0)
    let abvec := a.mult bvec
    loop a.h (fun j ab => do
      let v ← rd abvec j
      wr ab (j * b.cols + i) v) ab) (List.replicate (a.h * b.cols) 0)
  let data ← loop c.cols (fun i data => loop b.cols (fun j data => do
    let v ← loop a.h (fun r acc => do
      let x ← c.get r i
      let y ← rd ab (r * b.cols + j)
      return acc + x * y) 0
    wr data (i * b.cols + j) v) data) (List.replicate (c.cols * b.cols) 0)
  return ⟨c.cols, b.cols, false, data⟩

/-- A block of a block matrix: shape and entries (sparse storage not modelled). -/
structure Blk (R : Type) where
  h : Nat
  w : Nat
  val : Nat → Nat → R

/-- `mfem::BlockMatrix` (external): offsets and blocks; `none` is a null block. -/
structure BlockMat (R : Type) where
  roffs : List Nat
  coffs : List Nat
  ownsBlocks : Bool
  blk : Nat → Nat → Option (Blk R)

/-- `MatrixBlocks`, include/linalg_utils.hpp:49-118. -/
structure MatBlocks (R : Type) where
  nrows : Nat
  ncols : Nat
  mats : Nat → Nat → Option (Blk R)

/-- `bmat.SetBlock(r, c, new SparseMatrix(rdim, cdim))` if the block is null, then
`bmat.GetBlock(r, c) += *mats(i, j)`, src/linalg_utils.cpp:160-163. -/
def BlockMat.addTo [Add R] [Zero R] (b : BlockMat R) (r c : Nat) (m : Blk R) : BlockMat R :=
  let old : Blk R := (b.blk r c).getD ⟨m.h, m.w, fun _ _ => 0⟩
  { b with blk := fun r' c' => if r' = r ∧ c' = c
      then some { old with val := fun i j => old.val i j + m.val i j } else b.blk r' c' }

/-- The body of the double loop of `AddToBlockMatrix`, src/linalg_utils.cpp:153-164. -/
def addToBlockStep [Add R] [Zero R] (ridx cidx : List Int) (mats : MatBlocks R) (i j : Nat)
    (b : BlockMat R) : Outcome (BlockMat R) :=
  match mats.mats i j with
  | none => .ok b
  | some m => do
    let r ← rd ridx i
    let c ← rd cidx j
    let r1 ← rdI b.roffs (r + 1)
    let r0 ← rdI b.roffs r
    let c1 ← rdI b.coffs (c + 1)
    let c0 ← rdI b.coffs c
    require (decide ((m.h : Int) = r1 - r0) && decide ((m.w : Int) = c1 - c0))
    return b.addTo r.toNat c.toNat m

/-- `AddToBlockMatrix`, src/linalg_utils.cpp:137-165. -/
def addToBlockMatrix [Add R] [Zero R] (ridx cidx : List Int) (mats : MatBlocks R)
    (b : BlockMat R) : Outcome (BlockMat R) := do
  require b.ownsBlocks
  require (ridx.length == mats.nrows)
  require (cidx.length == mats.ncols)
  let rmin ← arrMin ridx
  let rmax ← arrMax ridx
  require (decide (0 ≤ rmin) && decide (rmax < (b.roffs.length - 1 : Int)))
  let cmin ← arrMin cidx
  let cmax ← arrMax cidx
  require (decide (0 ≤ cmin) && decide (cmax < (b.coffs.length - 1 : Int)))
  loop ridx.length (fun i b => loop cidx.length (fun j b => addToBlockStep ridx cidx mats i j b) b) b

end Verif.LinAlg
