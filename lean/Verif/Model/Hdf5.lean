import Verif.Model.Basic
import Verif.Model.LinAlg

/-!
# HDF5 input and output

Models `src/hdf5_utils.cpp`, `include/hdf5_utils.hpp`, the legacy sparse format of
`src/linalg_utils.cpp` and `EQPElement::Save`/`Load`.

The HDF5 library itself is external.  A file is a finite map from names inside groups to groups,
datasets and attributes; an open handle (`hid_t`) is the path of the group it was opened for,
innermost name first.  Creating an existing name fails, opening a missing name fails, and existing
objects are never changed by creating new ones.  Not modelled: names containing `/`, conversion
between element types on read (a read with another element type is an error here), chunking,
failures of the file system, and crashes in the middle of a write.
-/

namespace Verif.Hdf5

open Verif

variable {R : Type}

/-- Contents of a dataset, by HDF5 element type (`GetType`, include/hdf5_utils.hpp:86-88). -/
inductive Data (R : Type) where
  | ints (v : List Int)
  | reals (v : List R)
  | bools (v : List Bool)
deriving DecidableEq, Repr

/-- Objects of an HDF5 file (external). -/
inductive Obj (R : Type) where
  | group
  | dset (dims : List Nat) (data : Data R)
  | attrInt (v : Int)
  | attrStr (v : String)
deriving DecidableEq, Repr

/-- Path of a group handle, innermost name first; `[]` is the file itself. -/
abbrev Loc := List String

/-- Name of an object in a group, or of an attribute of that group. -/
structure Key where
  loc : Loc
  name : String
  isAttr : Bool
deriving DecidableEq, Repr

/-- An HDF5 file (external). -/
abbrev File (R : Type) := List (Key × Obj R)

/-- Object stored under a key. -/
def find : File R → Key → Option (Obj R)
  | [], _ => none
  | (k', o) :: f, k => if k' = k then some o else find f k

/-- The handle denotes the file or an existing group. -/
def isOpen (f : File R) : Loc → Bool
  | [] => true
  | n :: l => match find f ⟨l, n, false⟩ with
    | some .group => true
    | _ => false

/-- `H5Gcreate`, `H5Dcreate2` + `H5Dwrite`, `H5Acreate` + `H5Awrite` (external): fails on an invalid
handle and on an existing name; the callers assert success. -/
def create (f : File R) (k : Key) (o : Obj R) : Outcome (File R) := do
  require (isOpen f k.loc)
  require (find f k).isNone
  return (k, o) :: f

/-- `H5Gopen2` (external); the callers assert success. -/
def openGroup (f : File R) (loc : Loc) (name : String) : Outcome Loc :=
  match find f ⟨loc, name, false⟩ with
  | some .group => .ok (name :: loc)
  | _ => .error .abort

/-- `H5Dopen` followed by the rank assertion (external, as used by every `ReadDataset`). -/
def openDset (f : File R) (loc : Loc) (name : String) (rank : Nat) :
    Outcome (List Nat × Data R) :=
  match find f ⟨loc, name, false⟩ with
  | some (.dset dims d) => do
    require (dims.length == rank)
    return (dims, d)
  | _ => .error .abort

/-- The `n` elements `H5Dwrite` reads from a buffer (external). -/
def bufTake {α : Type} (b : List α) (n : Nat) : Outcome (List α) :=
  if n ≤ b.length then .ok (b.take n) else .error .ub

/-- `H5Dread` into a buffer (external): overwrites its first elements. -/
def bufFill {α : Type} (b : List α) (v : List α) : Outcome (List α) :=
  if v.length ≤ b.length then .ok (v ++ b.drop v.length) else .error .ub

/-! ## Arrays -/

/-- Element types with a `GetType` overload, include/hdf5_utils.hpp:86-88. -/
class Elem (R : Type) (α : Type) where
  pack : List α → Data R
  unpack : Data R → Option (List α)
  unpack_pack : ∀ v, unpack (pack v) = some v

instance : Elem R Int where
  pack := .ints
  unpack | .ints v => some v | _ => none
  unpack_pack _ := rfl

instance : Elem R Bool where
  pack := .bools
  unpack | .bools v => some v | _ => none
  unpack_pack _ := rfl

/-- `double` elements. -/
structure Dbl (R : Type) where
  val : R
deriving DecidableEq, Repr

instance : Elem R (Dbl R) where
  pack v := .reals (v.map Dbl.val)
  unpack | .reals v => some (v.map Dbl.mk) | _ => none
  unpack_pack v := by simp [Function.comp_def]

/-- `WriteDataset(hid_t, string, const Array<T>&)`, include/hdf5_utils.hpp:188-212. -/
def writeArray {α : Type} [Elem R α] (f : File R) (loc : Loc) (name : String) (v : List α) :
    Outcome (File R) :=
  create f ⟨loc, name, false⟩ (.dset [v.length] (Elem.pack v))

/-- `ReadDataset(hid_t, string, Array<T>&)`, include/hdf5_utils.hpp:126-151.  The old contents of the
target are not used. -/
def readArray {α : Type} [Elem R α] (f : File R) (loc : Loc) (name : String) :
    Outcome (List α) := do
  let (dims, d) ← openDset f loc name 1
  match Elem.unpack d with
  | none => .error .abort
  | some v =>
    -- `value.SetSize(dims[0])`; nothing is read when it is 0
    if dims[0]?.getD 0 > 0 then return v else return []

/-- `mfem::Array2D` (external): row-major. -/
structure Arr2 (α : Type) where
  rows : Nat
  cols : Nat
  data : List α
deriving DecidableEq, Repr

/-- `value(i, j)` of an `Array2D`. -/
def Arr2.get {α : Type} (a : Arr2 α) (i j : Nat) : Outcome α := rd a.data (i * a.cols + j)

/-- `WriteDataset(hid_t, string, const Array2D<T>&)`, include/hdf5_utils.hpp:214-235.  `value(0,0)` is
evaluated for every size. -/
def writeArray2 {α : Type} [Elem R α] (f : File R) (loc : Loc) (name : String) (a : Arr2 α) :
    Outcome (File R) := do
  let _ ← a.get 0 0
  let v ← bufTake a.data (a.rows * a.cols)
  create f ⟨loc, name, false⟩ (.dset [a.rows, a.cols] (Elem.pack v))

/-- `ReadDataset(hid_t, string, Array2D<T>&)`, include/hdf5_utils.hpp:153-183. -/
def readArray2 {α : Type} [Elem R α] (f : File R) (loc : Loc) (name : String) :
    Outcome (Arr2 α) := do
  let (dims, d) ← openDset f loc name 2
  let r := dims[0]?.getD 0
  let c := dims[1]?.getD 0
  match Elem.unpack d with
  | none => .error .abort
  | some v => if r = 0 ∨ c = 0 then return ⟨r, c, []⟩ else return ⟨r, c, v⟩

/-! ## Vectors, dense matrices and tensors -/

/-- `WriteDataset(hid_t, string, const Vector&)`, src/hdf5_utils.cpp:363-383. -/
def writeVector (f : File R) (loc : Loc) (name : String) (v : List R) : Outcome (File R) := do
  require (decide (0 < v.length))
  create f ⟨loc, name, false⟩ (.dset [v.length] (.reals v))

/-- `ReadDataset(hid_t, string, Vector&)`, src/hdf5_utils.cpp:340-361. -/
def readVector (f : File R) (loc : Loc) (name : String) : Outcome (List R) := do
  let (_, d) ← openDset f loc name 1
  match d with
  | .reals v => do
    let _ ← rd v 0
    return v
  | _ => .error .abort

/-- `WriteDataset(hid_t, string, const DenseMatrix&)`, src/hdf5_utils.cpp:122-143. -/
def writeDense (f : File R) (loc : Loc) (name : String) (m : LinAlg.Mat R) :
    Outcome (File R) := do
  let _ ← rd m.data 0
  let v ← bufTake m.data (m.h * m.w)
  create f ⟨loc, name, false⟩ (.dset [m.w, m.h] (.reals v))

/-- `ReadDataset(hid_t, string, DenseMatrix&)`, src/hdf5_utils.cpp:98-120, into the matrix `m`. -/
def readDense [Zero R] (f : File R) (loc : Loc) (name : String) (m : LinAlg.Mat R) :
    Outcome (LinAlg.Mat R) := do
  let (dims, d) ← openDset f loc name 2
  let m := m.setSize (dims[1]?.getD 0) (dims[0]?.getD 0)
  let _ ← rd m.data 0
  match d with
  | .reals v => do
    let data ← bufFill m.data v
    return { m with data := data }
  | _ => .error .abort

/-- `mfem::DenseTensor` (external) together with its buffer capacity: entry `(i, j, k)` at
`i + si * (j + sj * k)`. -/
structure Tens (R : Type) where
  si : Nat
  sj : Nat
  sk : Nat
  data : List R
deriving DecidableEq, Repr

/-- `mfem::DenseTensor::SetSize` (external): reallocates without initialising when the capacity is
exceeded; `junk` stands for the uninitialised contents. -/
def Tens.setSize (t : Tens R) (i j k : Nat) (junk : Nat → R) : Tens R :=
  if t.data.length < i * j * k then ⟨i, j, k, (List.range (i * j * k)).map junk⟩
  else ⟨i, j, k, t.data⟩

/-- `WriteDataset(hid_t, string, const DenseTensor&)`, src/hdf5_utils.cpp:409-431. -/
def writeTensor (f : File R) (loc : Loc) (name : String) (t : Tens R) : Outcome (File R) := do
  let _ ← rd t.data 0
  let v ← bufTake t.data (t.si * t.sj * t.sk)
  create f ⟨loc, name, false⟩ (.dset [t.sk, t.sj, t.si] (.reals v))

/-- `ReadDataset(hid_t, string, DenseTensor&)`, src/hdf5_utils.cpp:385-407, into the tensor `t`. -/
def readTensor (f : File R) (loc : Loc) (name : String) (t : Tens R) (junk : Nat → R) :
    Outcome (Tens R) := do
  let (dims, d) ← openDset f loc name 3
  let t := t.setSize (dims[2]?.getD 0) (dims[1]?.getD 0) (dims[0]?.getD 0) junk
  let _ ← rd t.data 0
  match d with
  | .reals v => do
    let data ← bufFill t.data v
    return { t with data := data }
  | _ => .error .abort

/-! ## Attributes -/

/-- `WriteAttribute(hid_t, string, const T&)` for `int`, include/hdf5_utils.hpp:112-124. -/
def writeAttr (f : File R) (loc : Loc) (name : String) (v : Int) : Outcome (File R) :=
  create f ⟨loc, name, true⟩ (.attrInt v)

/-- `ReadAttribute(hid_t, string, T&)` for `int`, include/hdf5_utils.hpp:100-110. -/
def readAttr (f : File R) (loc : Loc) (name : String) : Outcome Int :=
  match find f ⟨loc, name, true⟩ with
  | some (.attrInt v) => .ok v
  | _ => .error .abort

/-- `WriteAttribute(hid_t, string, const std::string&)`, src/hdf5_utils.cpp:71-84.  The code hands HDF5
the address of the `std::string` where a `char *` is expected, which works as long as the first word of
a `std::string` is the pointer to its characters; this is assumed. -/
def writeStr (f : File R) (loc : Loc) (name : String) (v : String) : Outcome (File R) :=
  create f ⟨loc, name, true⟩ (.attrStr v)

/-- `ReadAttribute(hid_t, string, std::string&)`, src/hdf5_utils.cpp:48-69, under the same
assumption. -/
def readStr (f : File R) (loc : Loc) (name : String) : Outcome String :=
  match find f ⟨loc, name, true⟩ with
  | some (.attrStr v) => .ok v
  | _ => .error .abort

/-- `pathExists`, include/hdf5_utils.hpp:259-262. -/
def pathExists (f : File R) (loc : Loc) (name : String) : Bool :=
  (find f ⟨loc, name, false⟩).isSome

/-! ## Sparse matrices -/

/-- `mfem::SparseMatrix` in CSR form (external).  The buffers may be longer than the entries in use;
`finalized = false` is the linked-list form, whose buffers are not used here. -/
structure Csr (R : Type) where
  h : Nat
  w : Nat
  I : List Int
  J : List Int
  data : List R
  finalized : Bool
deriving DecidableEq, Repr

/-- `WriteSparseMatrix`, src/hdf5_utils.cpp:213-245. -/
def writeSparse (f : File R) (loc : Loc) (name : String) (m : Csr R) : Outcome (File R) := do
  require m.finalized
  let f ← create f ⟨loc, name, false⟩ .group
  let g := name :: loc
  let i ← bufTake m.I (m.h + 1)
  let nnz ← rd i m.h
  let j ← bufTake m.J nnz.toNat
  let d ← bufTake m.data nnz.toNat
  let f ← writeArray f g "I" i
  let f ← writeArray f g "J" j
  let f ← writeArray f g "data" (d.map Dbl.mk)
  writeArray f g "size" [(m.h : Int), (m.w : Int)]

/-- `ReadSparseMatrix`, src/hdf5_utils.cpp:176-211. -/
def readSparse (f : File R) (loc : Loc) (name : String) : Outcome (Csr R) := do
  let g ← openGroup f loc name
  let i : List Int ← readArray f g "I"
  let j : List Int ← readArray f g "J"
  let size : List Int ← readArray f g "size"
  let d : List (Dbl R) ← readArray f g "data"
  require (size.length == 2)
  let s0 ← rd size 0
  let s1 ← rd size 1
  require (decide (0 < s0) && decide (0 < s1))
  require ((i.length : Int) == s0 + 1)
  let nnz ← rdI i s0
  require ((j.length : Int) == nnz)
  require ((d.length : Int) == nnz)
  return ⟨s0.toNat, s1.toNat, i, j, d.map Dbl.val, true⟩

/-! ## Block matrices -/

/-- `"block_" + std::to_string(i) + "_" + std::to_string(j)`. -/
def blockName (i j : Nat) : String := "block_" ++ toString i ++ "_" ++ toString j

/-- Number of stored entries of a block (`SparseMatrix::NumNonZeroElems` (external), CSR form). -/
def Csr.nnz (m : Csr R) : Outcome Int := rd m.I m.h

/-- `mfem::BlockMatrix` (external): offsets and optional blocks, row-major. -/
structure BMat (R : Type) where
  rowOffsets : List Int
  colOffsets : List Int
  blocks : Nat → Nat → Option (Csr R)

/-- `NumRowBlocks` (external). -/
def BMat.nrb (m : BMat R) : Nat := m.rowOffsets.length - 1

/-- `NumColBlocks` (external). -/
def BMat.ncb (m : BMat R) : Nat := m.colOffsets.length - 1

/-- Entry of the `zero_blocks` table, src/hdf5_utils.cpp:323 and 477. -/
def isZeroBlock (b : Option (Csr R)) : Outcome Bool :=
  match b with
  | none => .ok true
  | some m => do
    let n ← m.nnz
    return n == 0

/-- The `zero_blocks` loops, src/hdf5_utils.cpp:320-323 and 474-477. -/
def zeroBlocks (nr nc : Nat) (blocks : Nat → Nat → Option (Csr R)) : Outcome (Arr2 Bool) := do
  let d ← loop nr (fun i d => loop nc (fun j d => do
    let z ← isZeroBlock (blocks i j)
    wr d (i * nc + j) z) d) (List.replicate (nr * nc) false)
  return ⟨nr, nc, d⟩

/-- The block-writing loops, src/hdf5_utils.cpp:326-334 and 480-488. -/
def writeBlocks (f : File R) (g : Loc) (nr nc : Nat) (zb : Arr2 Bool)
    (blocks : Nat → Nat → Option (Csr R)) : Outcome (File R) :=
  loop nr (fun i f => loop nc (fun j f => do
    let z ← zb.get i j
    if z then return f
    else match blocks i j with
      | none => .error .ub
      | some m => writeSparse f g (blockName i j) m) f) f

/-- `WriteBlockMatrix`, src/hdf5_utils.cpp:303-338. -/
def writeBlockMatrix (f : File R) (loc : Loc) (name : String) (m : BMat R) :
    Outcome (File R) := do
  let f ← create f ⟨loc, name, false⟩ .group
  let g := name :: loc
  let f ← writeArray f g "size" [(m.nrb : Int), (m.ncb : Int)]
  let f ← writeArray f g "row_offsets" m.rowOffsets
  let f ← writeArray f g "col_offsets" m.colOffsets
  let zb ← zeroBlocks m.nrb m.ncb m.blocks
  let f ← writeArray2 f g "zero_blocks" zb
  writeBlocks f g m.nrb m.ncb zb m.blocks

/-- `mfem::BlockMatrix::SetBlock` (external): verifies the indices and the block's shape. -/
def BMat.setBlock (m : BMat R) (i j : Nat) (b : Csr R) : Outcome (BMat R) := do
  require (decide (i < m.nrb) && decide (j < m.ncb))
  let r0 ← rd m.rowOffsets i
  let r1 ← rd m.rowOffsets (i + 1)
  let c0 ← rd m.colOffsets j
  let c1 ← rd m.colOffsets (j + 1)
  require (r1 - r0 == (b.h : Int) && c1 - c0 == (b.w : Int))
  return { m with blocks := fun a c => if a = i ∧ c = j then some b else m.blocks a c }

/-- `ReadBlockMatrix`, src/hdf5_utils.cpp:247-301.  `Finalize` does nothing on blocks that are already
in CSR form. -/
def readBlockMatrix (f : File R) (loc : Loc) (name : String) (blockOffsets : List Int) :
    Outcome (BMat R) := do
  let g ← openGroup f loc name
  let size : List Int ← readArray f g "size"
  let ro : List Int ← readArray f g "row_offsets"
  let co : List Int ← readArray f g "col_offsets"
  let zb : Arr2 Bool ← readArray2 f g "zero_blocks"
  require (size.length == 2)
  let s0 ← rd size 0
  require ((ro.length : Int) == s0 + 1)
  let s1 ← rd size 1
  require ((co.length : Int) == s1 + 1)
  require ((zb.rows : Int) == s0)
  require ((zb.cols : Int) == s1)
  require (ro.length == blockOffsets.length)
  require (co.length == blockOffsets.length)
  loop blockOffsets.length (fun i _ => do
    let b ← rd blockOffsets i
    let r ← rd ro i
    require (r == b)
    let c ← rd co i
    require (c == b)) ()
  loop s0.toNat (fun i m => loop s1.toNat (fun j m => do
    let z ← zb.get i j
    if z then return m
    else do
      let b ← readSparse f g (blockName i j)
      m.setBlock i j b) m) ⟨blockOffsets, blockOffsets, fun _ _ => none⟩

/-- `MatrixBlocks`, include/linalg_utils.hpp:49-118. -/
structure MBlocks (R : Type) where
  nrows : Nat
  ncols : Nat
  blocks : Nat → Nat → Option (Csr R)

/-- `WriteDataset(hid_t, string, const MatrixBlocks&)`, src/hdf5_utils.cpp:464-492. -/
def writeMBlocks (f : File R) (loc : Loc) (name : String) (m : MBlocks R) :
    Outcome (File R) := do
  let f ← create f ⟨loc, name, false⟩ .group
  let g := name :: loc
  let f ← writeAttr f g "nrows" m.nrows
  let f ← writeAttr f g "ncols" m.ncols
  let zb ← zeroBlocks m.nrows m.ncols m.blocks
  let f ← writeArray2 f g "zero_blocks" zb
  writeBlocks f g m.nrows m.ncols zb m.blocks

/-- `ReadDataset(hid_t, string, MatrixBlocks&)`, src/hdf5_utils.cpp:433-462.  `SetSize` deletes the
target's old blocks and clears the table, so the old contents are not used. -/
def readMBlocks (f : File R) (loc : Loc) (name : String) : Outcome (MBlocks R) := do
  let g ← openGroup f loc name
  let nr ← readAttr f g "nrows"
  let nc ← readAttr f g "ncols"
  let zb : Arr2 Bool ← readArray2 f g "zero_blocks"
  require ((zb.rows : Int) == nr)
  require ((zb.cols : Int) == nc)
  let b ← loop nr.toNat (fun i b => loop nc.toNat (fun j b => do
    let z ← zb.get i j
    if z then return b
    else do
      let m ← readSparse f g (blockName i j)
      return (fun a c => if a = i ∧ c = j then some m else b a c)) b)
      (fun _ _ => none)
  return ⟨nr.toNat, nc.toNat, b⟩

/-! ## Quadrature samples -/

/-- `SampleInfo`, include/hdf5_utils.hpp:24-36. -/
structure Sample (R : Type) where
  el : Int
  qp : Int
  qw : R
deriving DecidableEq, Repr

/-- `IntegratorType`, include/hdf5_utils.hpp:15-22. -/
inductive IntegType where
  | domain
  | interiorFace
  | bdrFace
  | interface
  | numIntegType
deriving DecidableEq, Repr

/-- The `eldset` switch, src/hdf5_utils.cpp:496-505, 537-546 and
src/hyperreduction_integ.cpp:15-24, 57-66. -/
def eldset : IntegType → Outcome String
  | .domain => .ok "elem"
  | .interiorFace => .ok "face"
  | .bdrFace => .ok "be"
  | .interface => .ok "itf"
  | .numIntegType => .error .abort

/-- `WriteDataset(hid_t, string, IntegratorType, const Array<SampleInfo>&)`,
src/hdf5_utils.cpp:535-577, and `EQPElement::Save`, src/hyperreduction_integ.cpp:13-53, which runs the
same statements on the samples' `info`. -/
def writeSamples (f : File R) (loc : Loc) (name : String) (ty : IntegType) (s : List (Sample R)) :
    Outcome (File R) := do
  let e ← eldset ty
  let el := s.map Sample.el
  let qp := s.map Sample.qp
  let qw := s.map (fun x => Dbl.mk x.qw)
  let f ← create f ⟨loc, name, false⟩ .group
  let g := name :: loc
  let f ← writeArray f g e el
  let f ← writeArray f g "quad-pt" qp
  writeArray f g "quad-wt" qw

/-- `ReadDataset(hid_t, string, IntegratorType, Array<SampleInfo>&)`, src/hdf5_utils.cpp:494-533, and
`EQPElement::Load`, src/hyperreduction_integ.cpp:55-88 (which does not release the element's previous
samples: they leak).  The old contents of the target are not used. -/
def readSamples (f : File R) (loc : Loc) (name : String) (ty : IntegType) :
    Outcome (List (Sample R)) := do
  let e ← eldset ty
  let g ← openGroup f loc name
  let el : List Int ← readArray f g e
  let qp : List Int ← readArray f g "quad-pt"
  let qw : List (Dbl R) ← readArray f g "quad-wt"
  loop el.length (fun k s => do
    let a ← rd el k
    let b ← rd qp k
    let c ← rd qw k
    return s ++ [⟨a, b, c.val⟩]) []

/-! ## The legacy sparse format -/

/-- A file written through libROM's `HDFDatabase` (external): named arrays. -/
abbrev OldFile (R : Type) := List (String × Data R)

/-- `HDFDatabase::putIntegerArray`/`putDoubleArray` (external): an empty array is rejected. -/
def oldPut (f : OldFile R) (name : String) (d : Data R) (n : Nat) : Outcome (OldFile R) := do
  require (decide (0 < n))
  return f ++ [(name, d)]

/-- `HDFDatabase::getIntegerArray` (external): copies the whole stored array into the caller's
buffer. -/
def oldGetInt (f : OldFile R) (name : String) (buf : List Int) : Outcome (List Int) :=
  match f.lookup name with
  | some (.ints v) => bufFill buf v
  | _ => .error .abort

/-- `HDFDatabase::getDoubleArray` (external). -/
def oldGetReal (f : OldFile R) (name : String) (buf : List R) : Outcome (List R) :=
  match f.lookup name with
  | some (.reals v) => bufFill buf v
  | _ => .error .abort

/-- `HDFDatabase::getDoubleArraySize` (external). -/
def oldSize (f : OldFile R) (name : String) : Outcome Nat :=
  match f.lookup name with
  | some (.reals v) => .ok v.length
  | _ => .error .abort

/-- `WriteSparseMatrixToHDF`, src/linalg_utils.cpp:396-423. -/
def writeSparseOld (m : Csr R) : Outcome (OldFile R) := do
  require m.finalized
  let i ← bufTake m.I (m.h + 1)
  let nnz ← rd m.I m.h
  let j ← bufTake m.J nnz.toNat
  let d ← bufTake m.data nnz.toNat
  let f ← oldPut [] "I" (.ints i) (m.h + 1)
  let f ← oldPut f "J" (.ints j) nnz.toNat
  let f ← oldPut f "data" (.reals d) nnz.toNat
  oldPut f "size" (.ints [(m.h : Int), (m.w : Int)]) 2

/-- `ReadSparseMatrixFromHDF`, src/linalg_utils.cpp:365-394: both index buffers are sized by the number
of entries.  `junk`, `junkR` stand for uninitialised memory. -/
def readSparseOld (f : OldFile R) (junk : Nat → Int) (junkR : Nat → R) : Outcome (Csr R) := do
  let size ← oldGetInt f "size" [0, 0]
  let s0 ← rd size 0
  let s1 ← rd size 1
  let n ← oldSize f "data"
  let i ← oldGetInt f "I" ((List.range n).map junk)
  let _ ← rdI i s0
  let j ← oldGetInt f "J" ((List.range n).map junk)
  let d ← oldGetReal f "data" ((List.range n).map junkR)
  return ⟨s0.toNat, s1.toNat, i, j, d, true⟩

end Verif.Hdf5
