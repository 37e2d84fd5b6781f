import Verif.Model.Snapshots

/-!
# Specification of the snapshot bookkeeping

Small, independent of the data structures of the model: a history of saves is a list, and what must
be filed under a tag is a sub-list of it.
-/

namespace Verif.Snapshots.Spec

open Verif Verif.Snapshots

/-- The vectors of a sequence of tagged vectors carrying tag `t`, in order. -/
def filed {V : Type} (l : List (V × BasisTag)) (t : BasisTag) : List V :=
  (l.filter (fun p => decide (p.2 = t))).map (·.1)

/-- A history of `SaveSnapshot(blocks, tags)` calls as one sequence of tagged vectors. -/
def flat {V : Type} (h : List (List V × List BasisTag)) : List (V × BasisTag) :=
  h.flatMap (fun c => c.1.zip c.2)

/-- One `MultiBlockSolver::SaveSnapshots` call: topology, variable names, solution blocks
(block `m * vars.length + v` is variable `v` of subdomain `m`). -/
structure Sample (V : Type) where
  topo : Topo
  vars : List String
  blocks : List V

/-- Component name of subdomain `m`. -/
def compOf (topo : Topo) (m : Nat) : Option String :=
  (topo.meshType[m]?).bind (fun c => topo.compNames[c]?)

/-- The tag under which a port is collected. -/
def portTagOf (topo : Topo) (p : Port) : Option PortTag :=
  match compOf topo p.mesh1, compOf topo p.mesh2 with
  | some a, some b => some ⟨a, b, p.attr1, p.attr2⟩
  | _, _ => none

/-- The occurrences of a port tag in a history: (sample, port), in order. -/
def occurrences {V : Type} (h : List (Sample V)) (t : PortTag) : List (Sample V × Port) :=
  h.flatMap (fun s => (s.topo.ports.filter (fun p => decide (portTagOf s.topo p = some t))).map
    (fun p => (s, p)))

/-- Column `c` of the collected snapshots `cols` of the component of subdomain `m` is, for every
variable, the block of sample `s` on subdomain `m`. -/
def IsBlock {V : Type} (cols : BasisTag → List V) (s : Sample V) (m c : Nat) : Prop :=
  ∃ comp, compOf s.topo m = some comp ∧ ∀ v w, s.vars[v]? = some w →
    (cols ⟨comp, w⟩)[c]? = s.blocks[m * s.vars.length + v]? ∧
    (s.blocks[m * s.vars.length + v]?).isSome

/-- A sequence of `SaveSnapshot` calls; collects the returned column lists. -/
def runSaves {V : Type} (rom : Rom V) (st : Store V) :
    List (List V × List BasisTag) → Outcome (Store V × List (List Nat))
  | [] => .ok (st, [])
  | c :: cs => do
    let r ← saveSnapshot rom st c.1 c.2
    let q ← runSaves rom r.1 cs
    return (q.1, r.2 :: q.2)

/-- A sequence of `MultiBlockSolver::SaveSnapshots` calls. -/
def runSamples {V : Type} (rom : Rom V) (st : Store V) : List (Sample V) → Outcome (Store V)
  | [] => .ok st
  | s :: ss => do
    let st ← saveSnapshots rom st s.topo s.vars s.blocks
    runSamples rom st ss

/-- A sample is well formed for the variable list `vars`: every subdomain has a component name,
there is at least one subdomain, ports refer to existing subdomains and there is one block per
subdomain and variable. -/
def WellFormed {V : Type} (vars : List String) (s : Sample V) : Prop :=
  s.vars = vars ∧ 0 < s.topo.meshType.length ∧
  (∀ m, m < s.topo.meshType.length → (compOf s.topo m).isSome) ∧
  (∀ p ∈ s.topo.ports, p.mesh1 < s.topo.meshType.length ∧ p.mesh2 < s.topo.meshType.length) ∧
  s.blocks.length = s.topo.meshType.length * vars.length

/-- How many subdomains of the samples are of component `c`. -/
def compCount {V : Type} (h : List (Sample V)) (c : String) : Nat :=
  (h.flatMap (fun s => (List.range s.topo.meshType.length).filter
    (fun m => decide (compOf s.topo m = some c)))).length

end Verif.Snapshots.Spec

namespace Verif.Snapshots.Spec

open Verif Verif.Snapshots

/-- What one run left on disk: its port file, and the columns of the snapshot file of each of its
basis tags. -/
structure Run (V : Type) where
  file : PortFile
  cols : BasisTag → List V

/-- The snapshot files named by the port file of the run contain the columns of the run. -/
def OnDisk {V : Type} (fs : FS V) (r : Run V) : Prop :=
  ∀ t ∈ r.file.basisTags, fs (snapshotFilename r.file.samplePrefix t) = some (r.cols t)

/-- The columns a merge must hold for tag `t`: those of every run that has the tag, in order. -/
def mergedCols {V : Type} (runs : List (Run V)) (t : BasisTag) : List V :=
  runs.flatMap (fun r => if t ∈ r.file.basisTags then r.cols t else [])

/-- Rows recorded for port tag `t` in the runs: (run, row), in order. -/
def mergedRows {V : Type} (runs : List (Run V)) (t : PortTag) : List (Run V × (Nat × Nat)) :=
  runs.flatMap (fun r => (r.file.ports.filter (fun e => decide (e.1 = t))).flatMap
    (fun e => e.2.map (fun row => (r, row))))

/-- Column `c` of component `comp` in the merged snapshots is the column `c0` of the run, for every
variable of that component which the run has (and which reaches column `c0`). -/
def SameVector {V : Type} (cols : BasisTag → List V) (r : Run V) (comp : String) (c c0 : Nat) : Prop :=
  ∀ w, ⟨comp, w⟩ ∈ r.file.basisTags → c0 < (r.cols ⟨comp, w⟩).length →
    (cols ⟨comp, w⟩)[c]? = (r.cols ⟨comp, w⟩)[c0]?

/-- All runs that have a component have it with the same variable names. -/
def UniformVars {V : Type} (runs : List (Run V)) : Prop :=
  ∀ r ∈ runs, ∀ r' ∈ runs, ∀ comp w w', (⟨comp, w⟩ : BasisTag) ∈ r.file.basisTags →
    (⟨comp, w'⟩ : BasisTag) ∈ r'.file.basisTags → (⟨comp, w⟩ : BasisTag) ∈ r'.file.basisTags

end Verif.Snapshots.Spec

namespace Verif.Snapshots.Spec

open Verif Verif.Snapshots

/-- Writing several finished runs to disk: `WriteSnapshots` then `WriteSnapshotPorts` for each
(`GenerateSamples`, src/main_workflow.cpp:144-210). -/
def writeAll {V : Type} (fs : FS V) : List (String × Store V) → Outcome (FS V × List PortFile)
  | [] => .ok (fs, [])
  | (pfx, g) :: rest => do
    let fs ← writeSnapshots g pfx fs
    let file ← writeSnapshotPorts g pfx
    let q ← writeAll fs rest
    return (q.1, file :: q.2)

end Verif.Snapshots.Spec
