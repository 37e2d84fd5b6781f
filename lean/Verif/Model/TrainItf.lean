import Verif.Model.Training
import Verif.Model.EqpItf
import Verif.Model.Snapshots

/-!
# Training of hyper-reduced interface forms

Models `ROMInterfaceForm::TrainEQPForRefPort`, `SetupEQPSystem`, `UpdateInterFaceIntegratorSampling`
(`src/rom_interfaceform.cpp`, `include/rom_interfaceform.hpp`) and the interface part of
`SteadyNSSolver::TrainROMEQPElems` (`src/steady_ns_solver.cpp`).  `TrainEQPForIntegrator` and the
nonnegative least squares solver are those of `Verif.Training`.

Samples are values here; which lists they live in, and who deletes them, is modelled in
`Verif.EqpStore`.  Messages and warnings are left out.  The snapshots of all processes are gathered
before use, so that a snapshot matrix is one matrix.
-/

namespace Verif.TrainItf

open Verif Verif.LinAlg
open Verif.Ports (InterfaceInfo)
open Verif.InterfaceForm (Tr FMesh Space transformations)
open Verif.Eqp (Sample)
open Verif.EqpItf (Integ)
open Verif.Training (put weights transposeMult trainIntegrator)
open Verif.Snapshots (BasisTag PortTag Store lookUpSnapshot lookUpPort)

variable {P R δ : Type}

/-- `GetRefPortInfo` and `GetRefInterfaceInfos` of a reference port
(include/topology_handler.hpp:183-189). -/
structure RefPort where
  c1 : Nat
  c2 : Nat
  a1 : Int
  a2 : Int
  infos : List InterfaceInfo
deriving DecidableEq

/-- The members of `ROMInterfaceForm` (include/rom_interfaceform.hpp:20-66) used in training: the
component meshes, `comp_fes`, `comp_basis` with `comp_basis_dof_offsets`, `fnfi`, the reference ports
and `GetPortType` of the ports, and what `fnfi_ref_sample` and `fnfi_sample` point to. -/
structure RefForm (P R δ : Type) where
  meshes : List (FMesh δ)
  fes : List (Option Space)
  basis : List (Option (Mat R × Int))
  fnfi : List (Option (Integ P R δ))
  ports : List RefPort
  types : List Int
  refs : List (Option (List (Sample P R)))
  views : List (Option (List (Sample P R)))

section
variable [CommRing R]

/-- `el_quad1` and `el_quad2`, src/rom_interfaceform.cpp:531-548: the quadrature vectors of one
interface with weight one, one column per point. -/
def quads (g : Integ P R δ) (nq : Nat) (t1 t2 : Tr δ) (d1 d2 : List Int) (x1 x2 : List R) :
    Outcome (List (List R) × List (List R)) :=
  loop nq (fun q acc => do
    let v1 := g.vec t1 t2 q 1 x1 x2 0
    let v2 := g.vec t1 t2 q 1 x1 x2 1
    if v1.length = d1.length ∧ v2.length = d2.length then .ok (acc.1 ++ [v1], acc.2 ++ [v2])
    else .error .ub) ([], [])

/-- `Vector v_j(basis.GetColumn(j) + offset, fes->GetVSize())`, src/rom_interfaceform.cpp:553, :563. -/
def basisColumn (b : Mat R) (off : Int) (j vsize : Nat) : Outcome (List R) :=
  if off < 0 then .error .ub else getSeg b.data (j * b.h + off.toNat) vsize

/-- The loop over the basis vectors of one side, src/rom_interfaceform.cpp:551-560 and :561-570: the
products go to the rows of the interface and the columns from `col` on. -/
def fillSide (b : Mat R) (off : Int) (vsize nq eidx col : Nat) (dofs : List Int) (qs : List (List R))
    (gt : CMat R) : Outcome (CMat R) :=
  loop b.w (fun j gt => do
    let vj ← basisColumn b off j vsize
    let eltr ← getSubVector vj dofs
    loop nq (fun m gt => do
      let q ← rd qs m
      put gt (m + eidx * nq) (j + col)
        (∑ k ∈ Finset.range dofs.length, q[k]?.getD 0 * eltr[k]?.getD 0)) gt) gt

/-- One side of a reference port: mesh, space, basis and offset of its component. -/
structure Side (R δ : Type) where
  mesh : FMesh δ
  space : Space
  basis : Mat R
  off : Int

/-- A column of a snapshot matrix, src/rom_interfaceform.cpp:509-512: only the first `n` entries. -/
def column (snaps : CMat R) (n c : Nat) : Outcome (List R) :=
  loop n (fun k v => do
    let a ← snaps.get k c
    return v ++ [a]) []

/-- The system matrix of one process, src/rom_interfaceform.cpp:505-577: the process has the `ne`
interfaces from `lo` on.  The second mesh is a copy if the meshes are the same (:462-467), so that the
transformations never share storage. -/
def fillRank (s1 s2 : Side R δ) (g : Integ P R δ) (nq : Nat) (infos : List InterfaceInfo)
    (snap1 snap2 : CMat R) (pairs : List (Nat × Nat)) (lo ne : Nat) (gt : CMat R) :
    Outcome (CMat R) :=
  loop pairs.length (fun i gt => do
    let pr ← rd pairs i
    let v1 ← column snap1 s1.space.vsize pr.1
    let v2 ← column snap2 s2.space.vsize pr.2
    loop ne (fun eidx gt => do
      let info ← rd infos (lo + eidx)
      let t ← transformations false s1.mesh s2.mesh info
      let t1 ← nonNull t.1
      let t2 ← nonNull t.2
      let d1 ← rd s1.space.vdofs t1.elem
      let d2 ← rd s2.space.vdofs t2.elem
      let x1 ← getSubVector v1 d1
      let x2 ← getSubVector v2 d2
      let q ← quads g nq t1 t2 d1 d2 x1 x2
      let gt ← fillSide s1.basis s1.off s1.space.vsize nq eidx
        (i * (s1.basis.w + s2.basis.w)) d1 q.1 gt
      fillSide s2.basis s2.off s2.space.vsize nq eidx
        (s1.basis.w + i * (s1.basis.w + s2.basis.w)) d2 q.2 gt) gt) gt

/-- `SetupEQPSystem`, src/rom_interfaceform.cpp:430-603: the matrices and weights of all processes,
and the right-hand side.  `junk` is the uninitialised contents of the matrix; `split` gives the sizes
`CAROM::split_dimension` chooses. -/
def setup (s1 s2 : Side R δ) (g : Integ P R δ) (nq : Nat) (w : List R) (infos : List InterfaceInfo)
    (snap1 snap2 : CMat R) (pairs : List (Nat × Nat)) (split : Nat → List Nat) (junk : R) :
    Outcome (List (CMat R × List R) × List R) := do
  require (decide (s1.space.vsize ≤ snap1.rows))
  require (decide (s2.space.vsize ≤ snap2.rows))
  let sizes := split infos.length
  require (sizes.sum == infos.length)
  let cols := (s1.basis.w + s2.basis.w) * pairs.length
  let sys ← loop sizes.length (fun r acc => do
    let ne ← rd sizes r
    let rows := ne * nq
    let gt ← fillRank s1 s2 g nq infos snap1 snap2 pairs (sizes.take r).sum ne
      ⟨rows, cols, true, List.replicate (rows * cols) junk⟩
    let wr ← weights w nq ne
    return acc ++ [(gt, wr)]) []
  return (sys, transposeMult cols sys)

end

/-- What does not change during training: the sizes `split_dimension` returns on the processes, the
tolerance, the solver and the contents of fresh memory. -/
structure Setting (R : Type) where
  split : Nat → List Nat
  tol : R
  solve : List (CMat R) → List R → List R → List (List R)
  junk : R

/-- `UpdateInterFaceIntegratorSampling`, include/rom_interfaceform.hpp:88-108. -/
def RefForm.update (f : RefForm P R δ) (i rp : Nat) (v : List (Sample P R)) :
    Outcome (RefForm P R δ) := do
  require (decide (i < f.fnfi.length))
  require (decide (rp < f.ports.length))
  require (f.refs.length == f.fnfi.length * f.ports.length)
  let refs ← wr f.refs (rp + i * f.ports.length) (some v)
  let views ← loop f.types.length (fun p views => do
    let ty ← rd f.types p
    if ty ≠ rp then .ok views else wr views (p + i * f.types.length) (some v)) f.views
  return { f with refs := refs, views := views }

/-- The component data of one side, src/rom_interfaceform.cpp:391-393, :407-411. -/
def RefForm.side (f : RefForm P R δ) (c : Nat) : Outcome (Side R δ) := do
  let s ← rd f.fes c
  let s ← nonNull s
  let m ← rd f.meshes c
  let b ← rd f.basis c
  let b ← nonNull b
  return ⟨m, s, b.1, b.2⟩

section
variable [Field R] [LinearOrder R]

/-- `TrainEQPForRefPort`, src/rom_interfaceform.cpp:381-428.  `w` gives the quadrature weights of an
integrator's rule. -/
def trainRefPort (t : Setting R) (w : Integ P R δ → List R) (snap1 snap2 : CMat R)
    (pairs : List (Nat × Nat)) (p : Nat) (f : RefForm P R δ) : Outcome (RefForm P R δ) := do
  let rp ← rd f.ports p
  let s1 ← f.side rp.c1
  let s2 ← f.side rp.c2
  require (snap1.distributed && snap2.distributed)
  require (decide (s1.space.vsize ≤ snap1.rows))
  require (decide (s2.space.vsize ≤ snap2.rows))
  loop f.fnfi.length (fun it f => do
    let g ← rd f.fnfi it
    let g ← deref g
    let nq ← nonNull g.rule
    let sys ← setup s1 s2 g nq (w g) rp.infos snap1 snap2 pairs t.split t.junk
    let samples ← trainIntegrator nq t.tol t.solve sys.1 sys.2
    f.update it p samples) f

/-- `BasisGenerator::getSnapshotMatrix` of libROM (external): the columns as a row-major matrix with
`n` rows. -/
def snapshotMatrix (n : Nat) (cols : List (List R)) : CMat R :=
  ⟨n, cols.length, true, (List.range (n * cols.length)).map fun k =>
    (cols[k % cols.length]?.getD [])[k / cols.length]?.getD 0⟩

/-- The names and tags of the solver: `GetComponentName`, `separate_variable_basis`, `num_var` and
`GetRefBasisTag` of the ROM handler, and the lengths of the snapshots of a tag. -/
structure Names where
  comps : List String
  separate : Bool
  numVar : Nat
  tags : List BasisTag
  dim : BasisTag → Nat

/-- `rom_handler->GetRefBasisTag(idx)` with `idx = separate ? c * num_var : c`,
src/steady_ns_solver.cpp:1110-1111, :1136-1139. -/
def Names.tagOf (n : Names) (c : Nat) : Outcome BasisTag :=
  rd n.tags (if n.separate then c * n.numVar else c)

/-- The snapshots of the second component, src/steady_ns_solver.cpp:1147-1151: those of the first one
when the tags agree. -/
def secondSnapshots (st : Store (List R)) (tag1 tag2 : BasisTag) (snap1 : List (List R)) :
    Outcome (List (List R)) :=
  if tag1.eqOp tag2 then .ok snap1 else lookUpSnapshot st tag2

/-- The loop over the reference ports of `TrainROMEQPElems`, src/steady_ns_solver.cpp:1121-1163: the
snapshots of the two components, the pairs of columns recorded for the port, and the training. -/
def trainPorts (t : Setting R) (w : Integ P R δ → List R) (n : Names) (st : Store (List R))
    (f : RefForm P R δ) : Outcome (RefForm P R δ) :=
  loop f.ports.length (fun p f => do
    let rp ← rd f.ports p
    let n1 ← rd n.comps rp.c1
    let n2 ← rd n.comps rp.c2
    let tag1 ← n.tagOf rp.c1
    let tag2 ← n.tagOf rp.c2
    let snap1 ← lookUpSnapshot st tag1
    let snap2 ← secondSnapshots st tag1 tag2 snap1
    let pairs ← lookUpPort st ⟨n1, n2, rp.a1, rp.a2⟩
    trainRefPort t w (snapshotMatrix (n.dim tag1) snap1) (snapshotMatrix (n.dim tag2) snap2) pairs p f) f

end

/-- `CollectSamplesByBasis`, src/main_workflow.cpp:246-270: the required tags with the snapshot files
found for each of them. -/
def collectByBasis {V : Type} (rom : Snapshots.Rom V) (fs : Snapshots.FS V) (tags : List BasisTag)
    (files : List (List String)) : Outcome (Store V) :=
  loop tags.length (fun p st => do
    let tag ← rd tags p
    let fl ← rd files p
    Snapshots.collectSnapshotsByBasis rom fs st tag fl) (Store.empty V)

end Verif.TrainItf
