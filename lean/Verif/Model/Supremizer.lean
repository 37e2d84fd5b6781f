import Verif.Model.Blocks
import Verif.Model.GramSchmidt
import Verif.Model.Hdf5
import Verif.Model.LinAlg
import Verif.Model.Options
import Verif.Model.Snapshots

/-!
# Numbers of basis vectors, and supremizer enrichment of velocity bases

Models `ROMHandlerBase::ParseInputs` (numbers and dimensions of the bases) and `ParseSupremizerInput`,
src/rom_handler.cpp:70-196, `StokesSolver::EnrichSupremizer`, src/stokes_solver.cpp:1290-1363,
`StokesSolver::LoadSupremizer`, src/stokes_solver.cpp:951-1008, and `MFEMROMHandler::AppendReferenceBasis`,
src/rom_handler.cpp:1066-1088.

The assembled divergence operator of a component is a matrix (a parameter).  Reals stand for `double`.  One
process: the broadcasts of `LoadSupremizer` copy the data of rank 0.
-/

namespace Verif.Supremizer

open Verif Verif.Hdf5
open Verif.LinAlg (Mat)
open Verif.Options (Node Conv key pieces lookUpValue option)
open Verif.Snapshots (BasisTag)
open Verif.GramSchmidt (Col orthonormalize)
open Verif.Blocks (Order setBlockSizes)

/-! ## Numbers of basis vectors -/

/-- `GetBasisTagForComponent`, src/rom_handler.cpp:19-27; `names` are the component names. -/
def tagFor (names : List String) (c : Nat) (var : String) : Outcome BasisTag := do
  let n ← rd names c
  return ⟨n, var⟩

/-- `config.FindNode("basis/tags")`; a missing node has size 0, like an empty one. -/
def tagList (cfg : Node) : Outcome Node := do
  let l ← Options.find cfg (pieces '/' (key "basis/tags"))
  return l.getD .null

/-- The first subdomain of component `c`, src/rom_handler.cpp:130-138. -/
def firstOf (meshType : List Nat) (c : Nat) : Outcome Nat :=
  match meshType.findIdx? (· == c) with
  | some m => .ok m
  | none => .error .abort

/-- Size of block `k`, `offsets[k+1] - offsets[k]`. -/
def blockLen (offs : List Nat) (k : Nat) : Outcome Nat := do
  let a ← rd offs k
  let b ← rd offs (k + 1)
  return b - a

/-- `fom_num_vdofs[m]`, src/rom_handler.cpp:50-56. -/
def vdofs (numVar : Nat) (offs : List Nat) (m : Nat) : Outcome Nat :=
  loop numVar (fun v s => do
    let n ← blockLen offs (m * numVar + v)
    return s + n) 0

/-- The tag of reference block `b`, src/rom_handler.cpp:112-117. -/
def refTag (separate : Bool) (vars names : List String) (b : Nat) : Outcome BasisTag :=
  if separate then do
    let v ← rd vars (b % vars.length)
    tagFor names (b / vars.length) v
  else tagFor names b ""

/-- The dimension of reference block `b`, src/rom_handler.cpp:129-145. -/
def refDim (separate : Bool) (numVar : Nat) (meshType offs : List Nat) (b : Nat) : Outcome Nat := do
  let m ← firstOf meshType (if separate then b / numVar else b)
  if separate then blockLen offs (m * numVar + b % numVar) else vdofs numVar offs m

/-- One pass of the loop, src/rom_handler.cpp:109-146. -/
def parseStep (cv : Conv) (list : Node) (dflt : Int) (separate : Bool) (vars names : List String)
    (meshType offs : List Nat) (b : Nat) (s : List Int × List Nat) : Outcome (List Int × List Nat) := do
  let tag ← refTag separate vars names b
  let n ← lookUpValue cv.str cv.int (key "name") tag.print (key "number_of_basis") dflt list
  require (decide (0 ≤ n))
  let d ← refDim separate vars.length meshType offs b
  return (s.1 ++ [n], s.2 ++ [d])

/-- `ParseInputs`, src/rom_handler.cpp:72-152, as far as numbers (`num_ref_basis`) and dimensions
(`dim_ref_basis`) of the bases are concerned. -/
def parseInputs (cv : Conv) (cfg : Node) (separate : Bool) (vars names : List String)
    (meshType offs : List Nat) : Outcome (List Int × List Nat) := do
  require (decide (0 < meshType.length))
  let blocks := if separate then names.length * vars.length else names.length
  let dflt ← option cv.int (key "basis/number_of_basis") (-1) cfg
  require (decide (0 < blocks))
  let found ← Options.find cfg (pieces '/' (key "basis/tags"))
  require (!(found.isNone && decide (dflt ≤ 0)))
  let s ← loop blocks (parseStep cv (found.getD .null) dflt separate vars names meshType offs) ([], [])
  loop s.1.length (fun k _ => do
    let n ← rd s.1 k
    let d ← rd s.2 k
    require (decide (0 < n))
    require (decide (0 < d))) ()
  return s

/-- `ParseSupremizerInput`, src/rom_handler.cpp:169-190: `num_ref_supreme` (`num_supreme` is not used).
`numRef` is `num_ref_basis`. -/
def parseSupremizer (cv : Conv) (cfg : Node) (separate : Bool) (vars names : List String) (numRef : List Int) :
    Outcome (List Int) := do
  require separate
  require (vars.length == 2)
  let list ← tagList cfg
  let nsup ← option cv.int (key "basis/number_of_supremizer") (-1) cfg
  loop names.length (fun b acc => do
    let v ← rd vars 1
    let tag ← tagFor names b v
    let np ← rd numRef (b * 2 + 1)
    let n ← lookUpValue cv.str cv.int (key "name") tag.print (key "number_of_supremizer")
      (if 0 < nsup then nsup else np) list
    return acc ++ [n]) []

/-! ## Enrichment -/

/-- A component: name, numbers of velocity and pressure unknowns, divergence matrix `B` (pressure rows,
velocity columns), src/stokes_solver.cpp:1317-1326. -/
structure Comp where
  name : String
  nu : Nat
  np : Nat
  B : Nat → Nat → ℝ

/-- Supremizer files by name. -/
abbrev Disk := String → Option (File ℝ)

/-- `basis_prefix + "_" + basis_tag.print() + ".h5"` for the tag of variable "sup",
src/stokes_solver.cpp:1342-1352 and :970-982. -/
def fileName (pre name : String) : String := pre ++ "_" ++ (BasisTag.mk name "sup").print ++ ".h5"

/-- `b_comp.MultTranspose(pvec, uvec)` (external): `u_i = Σ_j B j i p_j`. -/
noncomputable def gradient (c : Comp) (p : List ℝ) : Col c.nu := fun i =>
  ((List.range c.np).map fun j => c.B j i * p[j]?.getD 0).sum

/-- The columns of a matrix with `n` rows. -/
noncomputable def colsOf (n : Nat) (m : Mat ℝ) : List (Col n) :=
  (List.range m.w).map fun c => fun i => m.data[c * m.h + i]?.getD 0

/-- The matrix with these columns. -/
def ofCols {n : Nat} (l : List (Col n)) : Mat ℝ := ⟨n, l.length, l.flatMap List.ofFn⟩

/-- The columns `B^T p_k`, src/stokes_solver.cpp:1330-1336.  `GetColumnReference` makes no check.  A negative
number of columns and operators of another size are undefined. -/
noncomputable def images (c : Comp) (nsup : Int) (u p : Mat ℝ) : Outcome (List (Col c.nu)) :=
  if nsup < 0 ∨ u.h ≠ c.nu ∨ p.h ≠ c.np then .error .ub
  else loop nsup.toNat (fun k l => do
    let pv ← p.col k
    return l ++ [gradient c pv]) []

/-- One component of `EnrichSupremizer`, src/stokes_solver.cpp:1308-1359: `u`, `p` are its bases, `numRef`
is `GetRefNumBasis`. -/
noncomputable def enrichOne (pre : String) (c : Comp) (nsup : Int) (numRef : Nat) (u p : Mat ℝ) (d : Disk) :
    Outcome Disk := do
  require (numRef == u.w)
  let sup ← images c nsup u p
  let r ← orthonormalize (colsOf c.nu u) sup
  let f ← writeDense [] [] "supremizer_basis" (ofCols r)
  return Function.update d (fileName pre c.name) (some f)

/-- `EnrichSupremizer`, src/stokes_solver.cpp:1290-1363; `ref` are the reference bases, `nsup` the result of
`parseSupremizer`. -/
noncomputable def enrich (pre : String) (comps : List Comp) (nsup : List Int) (numRef : List Nat)
    (ref : List (Mat ℝ)) (d : Disk) : Outcome Disk :=
  loop comps.length (fun m d => do
    let c ← rd comps m
    let u ← rd ref (m * 2)
    let p ← rd ref (m * 2 + 1)
    let n ← rd nsup m
    let k ← rd numRef (m * 2)
    enrichOne pre c n k u p d) d

/-! ## Loading -/

/-- The ROM handler's bases and sizes: the matrices `ref_basis`, `num_ref_basis`, and `num_basis`,
`rom_block_offsets`, `rom_comp_block_offsets` (`SetBlockSizes`).  `dom_basis` holds pointers into
`ref_basis`, so it needs no update. -/
structure Handler where
  ord : Order
  meshType : List Nat
  numComp : Nat
  ref : List (Mat ℝ)
  numRef : List Nat
  sizes : List Nat × List Nat × List Nat

/-- `mfem::DenseMatrix::SetSubMatrix(0, jbeg, a)` (external). -/
def setSub (m : Mat ℝ) (jbeg : Nat) (a : Mat ℝ) : Outcome (Mat ℝ) := do
  let data ← loop a.w (fun j data => loop a.h (fun i data => do
    let x ← rd a.data (j * a.h + i)
    wr data ((jbeg + j) * m.h + i) x) data) m.data
  return { m with data := data }

/-- `AppendReferenceBasis`, src/rom_handler.cpp:1066-1088 (two variables). -/
def append (idx : Nat) (mat : Mat ℝ) (h : Handler) : Outcome Handler := do
  require (decide (idx < h.numComp * 2))
  let r ← rd h.ref idx
  let n ← rd h.numRef idx
  require (r.h == mat.h)
  require (r.w == n)
  let tmp := r
  let r := r.setSize r.h (n + mat.w)
  let r ← setSub r 0 tmp
  let r ← setSub r n mat
  let ref ← wr h.ref idx r
  let numRef ← wr h.numRef idx (n + mat.w)
  let sizes ← setBlockSizes true h.ord 2 h.numComp h.meshType numRef
  return { h with ref := ref, numRef := numRef, sizes := sizes }

/-- Opening the supremizer file of a component, src/stokes_solver.cpp:979-986; `old` is what
`supreme_data` holds. -/
noncomputable def readSup (pre name : String) (d : Disk) (old : Mat ℝ) : Outcome (Mat ℝ) :=
  match d (fileName pre name) with
  | some f => readDense f [] "supremizer_basis" old
  | none => .error .abort

/-- One pass of `LoadSupremizer`, src/stokes_solver.cpp:967-1007; a negative number is the size of a view
and undefined. -/
noncomputable def loadStep (pre : String) (names : List String) (nsup : List Int) (d : Disk) (m : Nat)
    (s : Mat ℝ × Handler) : Outcome (Mat ℝ × Handler) := do
  let name ← rd names m
  let sup ← readSup pre name d s.1
  let n ← rd nsup m
  require (decide (n ≤ sup.w))
  if n < 0 then .error .ub
  else do
    let h ← append (m * 2) { sup with w := n.toNat } s.2
    return (sup, h)

/-- `LoadSupremizer`, src/stokes_solver.cpp:951-1008. -/
noncomputable def loadSupremizer (pre : String) (names : List String) (nsup : List Int) (d : Disk)
    (h : Handler) : Outcome Handler := do
  let s ← loop names.length (loadStep pre names nsup d) (⟨0, 0, []⟩, h)
  return s.2

end Verif.Supremizer
