import Verif.Model.Eqp
import Verif.Model.Views
import Mathlib.Algebra.Order.Field.Basic

/-!
# Training of hyper-reduced forms

Models `ROMNonlinearForm::TrainEQP`, `SetupEQPSystemFor...Integrator`, `TrainEQPForIntegrator`
(`src/rom_nonlinearform.cpp`) and the sample extraction they share with `ROMInterfaceForm`.

The system matrix is distributed over the processes by elements; `split n` is the list of the sizes
that `CAROM::split_dimension(n)` returns on the processes.  The nonnegative least squares solver of
libROM is an arbitrary function `solve`.  Messages and the norms printed in them are left out;
`DofTransformation`s are absent.
-/

namespace Verif.Training

open Verif Verif.LinAlg
open Verif.Eqp (Sample Integ Space Kind Entry Form)

variable {P R : Type}

/-- `fidxs` and `bidxs`, src/rom_nonlinearform.cpp:1043-1049 and :1171-1180: the faces, or marked
boundary elements, that have a transformation.  (Without a marker all attributes are marked,
:768-769.)  Domain integrators use all elements. -/
def candidates (sp : Space) : Kind → Outcome (List Nat)
  | .domain => .ok (List.range sp.elems.length)
  | .interior => loop sp.faces.length (fun f acc => do
      let tr ← rd sp.faces f
      return if tr.isSome then acc ++ [f] else acc) []
  | .boundary marker => loop sp.bdrs.length (fun b acc => do
      let t ← rd sp.bdrs b
      let v ← match marker with
        | none => .ok 1
        | some m => rdI m (t.1 - 1)
      if v = 0 then .ok acc else
      return if t.2.isSome then acc ++ [b] else acc) []

/-- Writing entry `(i, j)` of a `CAROM::Matrix`. -/
def put (m : CMat R) (i j : Nat) (v : R) : Outcome (CMat R) :=
  if i < m.rows ∧ j < m.cols then do
    let d ← wr m.data (i * m.cols + j) v
    return { m with data := d }
  else .error .ub

section
variable [CommRing R]

/-- `el_quad`, src/rom_nonlinearform.cpp:962-972: the quadrature vectors of one entity with weight
one, as columns of an array with one row per degree of freedom. -/
def quadVectors (g : Integ P R) (nq e : Nat) (rows : List Int) (elx : List R) :
    Outcome (List (List R)) :=
  loop nq (fun q acc => do
    let v := g.vec e e q 1 elx
    if v.length = rows.length then .ok (acc ++ [v]) else .error .ub) []

/-- The loop over test functions, src/rom_nonlinearform.cpp:975-984: `el_quad.MultTranspose(el_tr, r)`
goes to rows `eidx * nqe + m` and column `j + i * NB`. -/
def fillTests (b : Mat R) (vsize nq eidx col : Nat) (rows : List Int) (quads : List (List R))
    (gt : CMat R) : Outcome (CMat R) :=
  loop b.w (fun j gt => do
    let vj ← getSeg b.data (j * b.h) vsize
    let eltr ← getSubVector vj rows
    loop nq (fun m gt => do
      let q ← rd quads m
      put gt (m + eidx * nq) (j + col)
        (∑ k ∈ Finset.range rows.length, q[k]?.getD 0 * eltr[k]?.getD 0)) gt) gt

/-- The system matrix of one process, src/rom_nonlinearform.cpp:944-993 (and :1079-1127, :1211-1257):
the process has the `ne` entities from `lo` on. -/
def fillRank (sp : Space) (vsize : Nat) (b : Mat R) (kind : Kind) (g : Integ P R) (nq : Nat)
    (cands : List Nat) (snaps : CMat R) (lo ne : Nat) (gt : CMat R) : Outcome (CMat R) :=
  loop snaps.cols (fun i gt => do
    let vi ← loop vsize (fun k v => do
      let a ← snaps.get k i
      return v ++ [a]) []
    loop ne (fun eidx gt => do
      let e ← rd cands (lo + eidx)
      let tr ← sp.at_ kind e
      let rows ← nonNull tr
      let elx ← getSubVector vi rows
      let quads ← quadVectors g nq e rows elx
      fillTests b vsize nq eidx (i * b.w) rows quads gt) gt) gt

/-- The quadrature weights repeated for all entities of the process, src/rom_nonlinearform.cpp:996-1000. -/
def weights (w : List R) (nq ne : Nat) : Outcome (List R) :=
  loop ne (fun _ acc => loop nq (fun j acc => do
    let v ← rd w j
    return acc ++ [v]) acc) []

/-- `Gt.transposeMult(w, rhs_Gw)`, src/rom_nonlinearform.cpp:1002-1005: sums over the rows of all
processes. -/
def transposeMult (cols : Nat) (sys : List (CMat R × List R)) : List R :=
  (List.range cols).map fun c =>
    (sys.map fun s => ∑ r ∈ Finset.range s.1.rows, s.1.data[r * s.1.cols + c]?.getD 0 * s.2[r]?.getD 0).sum

/-- `SetupEQPSystemForDomainIntegrator`, `...InteriorFaceIntegrator`, `...BdrFaceIntegrator`,
src/rom_nonlinearform.cpp:896-1272: the matrices and weights of all processes, and the right-hand
side.  `junk` is the uninitialised contents of the matrix. -/
def setup (sp : Space) (vsize : Nat) (b : Mat R) (kind : Kind) (g : Integ P R) (nq : Nat) (w : List R)
    (snaps : CMat R) (split : Nat → List Nat) (junk : R) (cands : List Nat) :
    Outcome (List (CMat R × List R) × List R) := do
  require (decide (vsize ≤ snaps.rows))
  let sizes := split cands.length
  require (sizes.sum == cands.length)
  let sys ← loop sizes.length (fun r acc => do
    let ne ← rd sizes r
    let rows := ne * nq
    let cols := b.w * snaps.cols
    let gt ← fillRank sp vsize b kind g nq cands snaps (sizes.take r).sum ne
      ⟨rows, cols, true, List.replicate (rows * cols) junk⟩
    let wr ← weights w nq ne
    return acc ++ [(gt, wr)]) []
  return (sys, transposeMult (b.w * snaps.cols) sys)

end

section
variable [Field R] [LinearOrder R]

/-- `1.0e-12`, src/rom_nonlinearform.cpp:884 and src/rom_interfaceform.cpp:692. -/
def cutoff : R := 1 / 10 ^ 12

/-- `rhs_lb` and `rhs_ub`, src/rom_nonlinearform.cpp:815-824. -/
def bounds (tol : R) (rhs : List R) : List R × List R :=
  (rhs.map fun v => v - tol * |v|, rhs.map fun v => v + tol * |v|)

/-- The extraction loop, src/rom_nonlinearform.cpp:881-889 and src/rom_interfaceform.cpp:689-697.
Division by `nqe = 0` is undefined. -/
def extract (nq : Nat) (sol : List R) : Outcome (List (Sample P R)) :=
  loop sol.length (fun i acc => do
    let v ← rd sol i
    if cutoff < v then
      if nq = 0 then .error .ub else .ok (acc ++ [⟨((i / nq : Nat) : Int), ((i % nq : Nat) : Int), v, none⟩])
    else .ok acc) []

/-- `samples[s].el = fidxs[samples[s].el]`, src/rom_nonlinearform.cpp:757-758 and :789-790. -/
def renumber (cands : List Nat) (samples : List (Sample P R)) : Outcome (List (Sample P R)) :=
  loop samples.length (fun i acc => do
    let s ← rd samples i
    let e ← rdI cands s.el
    return acc ++ [{ s with el := e }]) []

/-- `TrainEQPForIntegrator`, src/rom_nonlinearform.cpp:794-894 and src/rom_interfaceform.cpp:607-701:
`solve` gives the part of the solution of each process; they are gathered in the order of the
processes. -/
def trainIntegrator (nq : Nat) (tol : R) (solve : List (CMat R) → List R → List R → List (List R))
    (sys : List (CMat R × List R)) (rhs : List R) : Outcome (List (Sample P R)) := do
  let b := bounds tol rhs
  let sols := solve (sys.map Prod.fst) b.1 b.2
  if sols.map List.length = sys.map (fun s => s.1.rows) then
    extract nq sols.flatten
  else .error .ub

/-- What does not change during training. -/
structure Setting (R : Type) where
  vsize : Nat
  split : Nat → List Nat
  tol : R
  solve : List (CMat R) → List R → List R → List (List R)
  junk : R

/-- One integrator in `TrainEQP`, src/rom_nonlinearform.cpp:745-751, :753-760, :766-792, with the
quadrature weights `w` of its rule.  The samples of domain integrators keep their element numbers. -/
def trainEntry (t : Setting R) (sp : Space) (b : Mat R) (snaps : CMat R) (w : List R) (kind : Kind)
    (e : Entry P R) : Outcome (Entry P R) := do
  let cands ← candidates sp kind
  let nq ← deref e.integ.rule
  let s ← setup sp t.vsize b kind e.integ nq w snaps t.split t.junk cands
  let samples ← trainIntegrator nq t.tol t.solve s.1 s.2
  match kind with
  | .domain => return { e with samples := some samples }
  | _ => do
    let samples ← renumber cands samples
    return { e with samples := some samples }

/-- `ROMNonlinearForm::TrainEQP`, src/rom_nonlinearform.cpp:724-792.  `w` gives the quadrature weights
of the integrators.  (That the form is a reference form, asserted when samples are stored, is taken
for granted.) -/
def trainForm (t : Setting R) (w : Integ P R → List R) (snaps : CMat R) (f : Form P R) :
    Outcome (Form P R) := do
  let b ← nonNull f.basis
  require (decide (t.vsize ≤ snaps.rows))
  let d ← loop f.dnfi.length (fun k out => do
    let e ← rd f.dnfi k
    let e ← trainEntry t f.space b snaps (w e.integ) .domain e
    return out ++ [e]) []
  let i ← loop f.fnfi.length (fun k out => do
    let e ← rd f.fnfi k
    let e ← trainEntry t f.space b snaps (w e.integ) .interior e
    return out ++ [e]) []
  let bd ← loop f.bfnfi.length (fun k out => do
    let e ← rd f.bfnfi k
    let e' ← trainEntry t f.space b snaps (w e.1.integ) (.boundary e.2) e.1
    return out ++ [(e', e.2)]) []
  return { f with dnfi := d, fnfi := i, bfnfi := bd }

end

end Verif.Training
