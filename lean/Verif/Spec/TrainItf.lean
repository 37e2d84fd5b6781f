import Verif.Spec.Training
import Verif.Spec.EqpItf
import Verif.Model.TrainItf

/-! # What training of hyper-reduced interface forms should achieve -/

namespace Verif.TrainItf.Spec

open Verif Verif.LinAlg Verif.LinAlg.Spec Verif.Blocks Verif.TrainItf Finset
open Verif.InterfaceForm (Tr FMesh Space Port)
open Verif.InterfaceForm.Spec (dofsOf)
open Verif.Convection.Spec (project)
open Verif.Eqp (Sample)
open Verif.Eqp.Spec (restrict)
open Verif.EqpItf (Integ Form)
open Verif.EqpItf.Spec
open Verif.Training (cutoff)
open Verif.Training.Spec (Extracted)
open Verif.Snapshots (Store)

variable {P R δ : Type}

/-- A reference port joins two components. -/
def asPort (rp : RefPort) : Port := ⟨rp.c1, rp.c2, rp.infos⟩

/-- The components seen as a form of their own: one subdomain per component, one port per reference
port. -/
def asForm (f : RefForm P R δ) : Form P R δ :=
  ⟨f.meshes, f.fes.map (·.getD ⟨0, []⟩), f.basis, none, false, f.fnfi, f.ports.map asPort, f.refs⟩

section
variable [CommRing R]

/-- The degrees of freedom on side `i` of a face. -/
def dofsAt (F : Form P R δ) (p : Port) (t1 t2 : Tr δ) (i : Nat) : List Int :=
  dofsOf (spaceOf F (sideOf p i)) (trSide t1 t2 i).elem

/-- What quadrature point `q` of interface `e`, with weight `w`, contributes to the test with basis
vector `c` of side `i`, at the fields `u1` and `u2` on the two sides. -/
def sidePoint (F : Form P R δ) (p : Port) (g : Integ P R δ) (u1 u2 : Nat → R) (i e q : Nat) (w : R)
    (c : Nat) : R :=
  match faceOf F p e with
  | some (t1, t2) => project (basisOf F (sideOf p i)) (rowsOf F (sideOf p i) (trSide t1 t2 i))
      (g.vec t1 t2 q w (restrict u1 (dofsAt F p t1 t2 0)) (restrict u2 (dofsAt F p t1 t2 1)) i) c
  | none => 0

/-- The test with all points of all interfaces, with the weights of the rule. -/
def fullTest (F : Form P R δ) (p : Port) (g : Integ P R δ) (nq : Nat) (w : List R) (u1 u2 : Nat → R)
    (i c : Nat) : R :=
  ∑ e ∈ range p.infos.length, ∑ q ∈ range nq, sidePoint F p g u1 u2 i e q (ve w q) c

/-- The component of a reference port is complete: space, basis, and the rows of the basis from the
offset on hold the degrees of freedom of the space. -/
structure CompOk (f : RefForm P R δ) (c : Nat) : Prop where
  mesh : c < f.meshes.length
  fes : ∃ s, f.fes[c]? = some (some s)
  basis : ∃ b o, f.basis[c]? = some (some (b, o)) ∧ 0 ≤ o ∧ MatOk b ∧
    o + (spaceOf (asForm f) c).vsize ≤ b.h
  dofs : ∀ rows ∈ (spaceOf (asForm f) c).vdofs, RowsOk rows (spaceOf (asForm f) c).vsize

/-- Both components are complete and every interface has a face on both sides. -/
structure PortOk (f : RefForm P R δ) (rp : RefPort) : Prop where
  comp1 : CompOk f rp.c1
  comp2 : CompOk f rp.c2
  faces : ∀ e < rp.infos.length, ∃ t1 t2, faceOf (asForm f) (asPort rp) e = some (t1, t2) ∧
    t1.elem < (spaceOf (asForm f) rp.c1).vdofs.length ∧ t2.elem < (spaceOf (asForm f) rp.c2).vdofs.length

/-- An integrator with `nq` points of weights `w`, whose vectors have one entry per degree of freedom
of their side and are linear in the weight. -/
structure IntegOk (F : Form P R δ) (p : Port) (g : Integ P R δ) (nq : Nat) (w : List R) : Prop where
  rule : g.rule = some nq
  weights : nq ≤ w.length
  vec : ∀ e t1 t2, faceOf F p e = some (t1, t2) → ∀ q v u1 u2 i, i < 2 →
    (g.vec t1 t2 q v u1 u2 i).length = (dofsAt F p t1 t2 i).length
  linear : ∀ e t1 t2, faceOf F p e = some (t1, t2) → ∀ q v u1 u2 i k, i < 2 →
    k < (dofsAt F p t1 t2 i).length → ve (g.vec t1 t2 q v u1 u2 i) k = v * ve (g.vec t1 t2 q 1 u1 u2 i) k

/-- Snapshot matrices of the two sides that are tall enough, and pairs of their columns. -/
structure SnapsOk (f : RefForm P R δ) (rp : RefPort) (snap1 snap2 : CMat R) (pairs : List (Nat × Nat)) :
    Prop where
  ok1 : CMatOk snap1
  ok2 : CMatOk snap2
  dist1 : snap1.distributed = true
  dist2 : snap2.distributed = true
  rows1 : (spaceOf (asForm f) rp.c1).vsize ≤ snap1.rows
  rows2 : (spaceOf (asForm f) rp.c2).vsize ≤ snap2.rows
  pairs : ∀ pr ∈ pairs, pr.1 < snap1.cols ∧ pr.2 < snap2.cols

/-- The number of tests of a pair of snapshots. -/
def numTests (F : Form P R δ) (p : Port) : Nat := (basisOf F p.mesh1).w + (basisOf F p.mesh2).w

/-- The column of the test with basis vector `c` of side `i` at pair number `k`: the tests of side 0
come before those of side 1. -/
def testCol (F : Form P R δ) (p : Port) (k i c : Nat) : Nat :=
  c + (if i = 0 then 0 else (basisOf F p.mesh1).w) + k * numTests F p

/-- The fields of a snapshot: a column of the snapshot matrix. -/
def field (snap : CMat R) (c : Nat) (k : Nat) : R := cent snap k c

/-- The matrices of the processes: `sizes` are the numbers of interfaces the processes have; the row
of point `q` of a process's interface number `e`, in the column of the test with basis vector `c` of
side `i` at pair number `k`, has the contribution of that point. -/
structure SystemOk (F : Form P R δ) (p : Port) (g : Integ P R δ) (snap1 snap2 : CMat R)
    (pairs : List (Nat × Nat)) (nq : Nat) (sizes : List Nat) (gts : List (CMat R)) : Prop where
  rows : gts.map CMat.rows = sizes.map (· * nq)
  cols : ∀ gt ∈ gts, gt.cols = numTests F p * pairs.length
  entry : ∀ r gt, gts[r]? = some gt → ∀ e q k pr i c, e * nq + q < gt.rows → q < nq →
    pairs[k]? = some pr → i < 2 → c < (basisOf F (sideOf p i)).w →
    cent gt (e * nq + q) (testCol F p k i c) =
      sidePoint F p g (field snap1 pr.1) (field snap2 pr.2) i ((sizes.take r).sum + e) q 1 c

end

/-- One list of samples per integrator and reference port, and per integrator and port. -/
structure Slots (f : RefForm P R δ) : Prop where
  refs : f.refs.length = f.fnfi.length * f.ports.length
  views : f.views.length = f.fnfi.length * f.types.length

/-- The form `f'` is `f` with the samples `val it` for integrator `it` at reference port `p`, seen by
every port of that type. -/
structure Stored (f f' : RefForm P R δ) (p : Nat) (val : Nat → List (Sample P R)) : Prop where
  same : f'.meshes = f.meshes ∧ f'.fes = f.fes ∧ f'.basis = f.basis ∧ f'.fnfi = f.fnfi ∧
    f'.ports = f.ports ∧ f'.types = f.types
  slots : Slots f'
  refs : ∀ it q, it < f.fnfi.length → q < f.ports.length →
    f'.refs[q + it * f.ports.length]? =
      if q = p then some (some (val it)) else f.refs[q + it * f.ports.length]?
  views : ∀ (it k : Nat) ty, it < f.fnfi.length → f.types[k]? = some ty →
    f'.views[k + it * f.types.length]? =
      if ty = (p : Int) then some (some (val it)) else f.views[k + it * f.types.length]?

section
variable [Field R] [LinearOrder R]

/-- The error allowed in a test whose full value is `fullTest`: the tolerance, and the threshold times
the absolute contributions of all points. -/
def allowed (F : Form P R δ) (p : Port) (g : Integ P R δ) (nq : Nat) (w : List R) (tol : R)
    (u1 u2 : Nat → R) (i c : Nat) : R :=
  tol * |fullTest F p g nq w u1 u2 i c| + Training.cutoff *
    ∑ e ∈ range p.infos.length, ∑ q ∈ range nq, |sidePoint F p g u1 u2 i e q 1 c|

end

section
variable [CommRing R]

/-- The field of side `i` given by reduced coefficients, on the degrees of freedom of the space. -/
def liftField (b : Mat R) (off : Int) (x : List R) (r : Nat) : R :=
  Eqp.Spec.liftAll b x (off.toNat + r)

/-- Port `p` of the form `f` is an instance of the reference port `rp`: the same bases, every
interface has a face on both sides, and with the degrees of freedom and the vectors of the reference
interface. -/
structure Instance (ref : Form P R δ) (rp : Port) (f : Form P R δ) (p : Port) (g : Integ P R δ) :
    Prop where
  ne : p.mesh1 ≠ p.mesh2
  count : p.infos.length = rp.infos.length
  basis : ∀ i < 2, basisOf f (sideOf p i) = basisOf ref (sideOf rp i) ∧
    offOf f (sideOf p i) = offOf ref (sideOf rp i)
  faces : ∀ e t1 t2, faceOf ref rp e = some (t1, t2) → ∃ t1' t2', faceOf f p e = some (t1', t2') ∧
    (∀ i < 2, dofsAt f p t1' t2' i = dofsAt ref rp t1 t2 i) ∧
    ∀ q v u1 u2 i, g.vec t1' t2' q v u1 u2 i = g.vec t1 t2 q v u1 u2 i

/-- The contribution of a port with all points of all its interfaces, with the weights of the rule. -/
def fullTerm (f : Form P R δ) (p : Port) (g : Integ P R δ) (nq : Nat) (w : List R) (x : BlockVector R)
    (m c : Nat) : R :=
  ∑ e ∈ range p.infos.length, ∑ q ∈ range nq,
    vecTerm f p g x (⟨(e : Int), (q : Int), ve w q, none⟩ : Sample P R) m c

end

section
variable [CommRing R]

/-- What the collected samples hold for a reference port: the snapshots `cols1` and `cols2` of the
tags of its two components, and the pairs of their columns recorded for its tag. -/
structure Found (n : Names) (st : Snapshots.Store (List R)) (rp : RefPort) (tag1 tag2 : Snapshots.BasisTag)
    (cols1 cols2 : List (List R)) (pairs : List (Nat × Nat)) : Prop where
  names : ∃ n1 n2, n.comps[rp.c1]? = some n1 ∧ n.comps[rp.c2]? = some n2 ∧
    Snapshots.lookUpPort st ⟨n1, n2, rp.a1, rp.a2⟩ = .ok pairs
  first : n.tagOf rp.c1 = .ok tag1
  second : n.tagOf rp.c2 = .ok tag2
  snaps1 : Snapshots.lookUpSnapshot st tag1 = .ok cols1
  snaps2 : Snapshots.lookUpSnapshot st tag2 = .ok cols2

/-- `u1` and `u2` are the snapshots of a pair recorded for a reference port. -/
def Recorded (n : Names) (st : Snapshots.Store (List R)) (rp : RefPort) (u1 u2 : List R) : Prop :=
  ∃ tag1 tag2 cols1 cols2 pairs pr, Found n st rp tag1 tag2 cols1 cols2 pairs ∧ pr ∈ pairs ∧
    cols1[pr.1]? = some u1 ∧ cols2[pr.2]? = some u2

/-- Snapshots are found for a reference port: they have at least the entries of the spaces, and the
pairs are pairs of their columns. -/
def HasSnapshots (f : RefForm P R δ) (n : Names) (st : Snapshots.Store (List R)) (rp : RefPort) : Prop :=
  ∃ tag1 tag2 cols1 cols2 pairs, Found n st rp tag1 tag2 cols1 cols2 pairs ∧
    (spaceOf (asForm f) rp.c1).vsize ≤ n.dim tag1 ∧ (spaceOf (asForm f) rp.c2).vsize ≤ n.dim tag2 ∧
    ∀ pr ∈ pairs, pr.1 < cols1.length ∧ pr.2 < cols2.length

/-- Side `i` of port `p` of the form `F` carries the field `u`, at the reduced state `x`. -/
def Carries (F : Form P R δ) (p : Port) (x : BlockVector R) (i n : Nat) (u : List R) : Prop :=
  ∀ r < n, liftField (basisOf F (sideOf p i)) (offOf F (sideOf p i)) (coeffs F x (sideOf p i)) r = ve u r

/-- A sum over all integrators and ports. -/
def overPorts (F : Form P R δ) (T : Port → Integ P R δ → Nat → R) : R :=
  ∑ it ∈ range F.fnfi.length, ∑ k ∈ range F.ports.length,
    match F.fnfi[it]?, F.ports[k]? with
    | some (some g), some p => T p g (g.rule.getD 0)
    | _, _ => 0

end

section
variable [Field R] [LinearOrder R]

/-- The error allowed in the contribution of a port. -/
def termAllowed (F : Form P R δ) (p : Port) (g : Integ P R δ) (nq : Nat) (w : List R) (tol : R)
    (x : BlockVector R) (m c : Nat) : R :=
  tol * |fullTerm F p g nq w x m c| + Training.cutoff *
    ∑ e ∈ range p.infos.length, ∑ q ∈ range nq,
      |vecTerm F p g x (⟨(e : Int), (q : Int), 1, none⟩ : Sample P R) m c|

/-- What is known of the training problem of integrator `g` at a reference port, and of its
samples. -/
def SamplesFrom (t : Setting R) (w : Integ P R δ → List R) (f : RefForm P R δ) (rp : RefPort)
    (snap1 snap2 : CMat R) (pairs : List (Nat × Nat)) (g : Integ P R δ) (nq : Nat)
    (samples : List (Sample P R)) : Prop :=
  ∃ gts lb ub, SystemOk (asForm f) (asPort rp) g snap1 snap2 pairs nq (t.split rp.infos.length) gts ∧
    lb.length = numTests (asForm f) (asPort rp) * pairs.length ∧
    ub.length = numTests (asForm f) (asPort rp) * pairs.length ∧
    (∀ (k : Nat) pr i c, pairs[k]? = some pr → i < 2 → c < (basisOf (asForm f) (sideOf (asPort rp) i)).w →
      ∀ full, full = fullTest (asForm f) (asPort rp) g nq (w g) (field snap1 pr.1) (field snap2 pr.2) i c →
      ve lb (testCol (asForm f) (asPort rp) k i c) = full - t.tol * |full| ∧
      ve ub (testCol (asForm f) (asPort rp) k i c) = full + t.tol * |full|) ∧
    Extracted (List.range rp.infos.length) nq cutoff (t.solve gts lb ub).flatten samples

/-- The bound on the error of the samples of an integrator, at the pair `pr` of snapshots. -/
def ErrorAt (t : Setting R) (w : Integ P R δ → List R) (F : Form P R δ) (p : Port) (g : Integ P R δ)
    (nq : Nat) (u1 u2 : Nat → R) (samples : List (Sample P R)) : Prop :=
  ∀ i c, i < 2 → c < (basisOf F (sideOf p i)).w →
    |(samples.map fun s => sidePoint F p g u1 u2 i s.el.toNat s.qp.toNat s.qw c).sum -
      fullTest F p g nq (w g) u1 u2 i c| ≤ allowed F p g nq (w g) t.tol u1 u2 i c

/-- The samples stored by training: they name points of the interfaces of the reference port, and
reproduce the full quadrature at every pair of snapshots recorded for it. -/
structure Good (t : Setting R) (w : Integ P R δ → List R) (n : Names) (st : Store (List R))
    (f : RefForm P R δ) (rp : RefPort) (g : Integ P R δ) (nq : Nat) (samples : List (Sample P R)) : Prop where
  points : ∀ s ∈ samples, ∃ e q : Nat, s.el = e ∧ e < rp.infos.length ∧ s.qp = q ∧ q < nq ∧ cutoff < s.qw
  error : ∀ u1 u2, Recorded n st rp u1 u2 →
    ErrorAt t w (asForm f) (asPort rp) g nq (ve u1) (ve u2) samples

end

end Verif.TrainItf.Spec
