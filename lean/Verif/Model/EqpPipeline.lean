import Verif.Model.EqpComp
import Verif.Model.TrainItf
import Verif.Model.Pipeline

/-!
# From training hyper-reduction samples to running with them

`TrainEQP` (`src/main_workflow.cpp:314-382`) for the Navier-Stokes solver, the file it writes, and what the
ROM mode of `SingleRun` (`src/main_workflow.cpp:528-566`) makes of that file in another program run.

Simplifications: the snapshots have been collected (`CollectSamples`, see `Verif.Snapshots` and
`Verif.TrainItf`); samples are stored after all integrators of a form, or all ports, have been trained, and
not after each one (training does not read samples); printed messages are left out; precomputed
coefficients are those of `Verif.Eqp` and `Verif.EqpItf`.
-/

namespace Verif.EqpPipeline

open Verif Verif.LinAlg Verif.Hdf5 Verif.EqpComp
open Verif.EqpStore (Samples Topo Itf)
open Verif.Pipeline (Level Disk readLevel)
open Verif.Options (Node Conv key option)
open Verif.Snapshots (Store lookUpSnapshot)
open Verif.TrainItf (RefForm Names snapshotMatrix)

variable {P Q R δ : Type}

/-- A component of the solver: `GetComponentName`, the velocity space `comp_fes[c * num_var]` with its size,
and `comp->bdr_attributes`. -/
structure Comp where
  name : String
  space : Eqp.Space
  vsize : Nat
  attrs : List Int

/-- The program run that trains: the operator type and `full_dg`, the topology mode, whether the solver is
nonlinear (`IsNonlinear`) and uses a ROM (`UseRom`), the components, the reference bases, the integrators of
`AllocateROMEQPElems` (domain, face, boundary, homogeneous boundary, interface), the meshes, spaces and
reference ports of the interface form, the names and tags, the quadrature weights, and what training uses
(see `Verif.Training.Setting`). -/
structure Trainer (P Q R δ : Type) where
  oper : OperType
  fullDg : Bool
  submesh : Bool
  nonlinear : Bool
  useRom : Bool
  precompute : Bool
  comps : List Comp
  bases : List (Mat R)
  dom : Eqp.Integ P R
  face : Eqp.Integ P R
  bdr : Eqp.Integ P R
  zero : Eqp.Integ P R
  itf : EqpItf.Integ Q R δ
  meshes : List (InterfaceForm.FMesh δ)
  fes : List InterfaceForm.Space
  ports : List TrainItf.RefPort
  types : List Int
  names : Names
  w : Eqp.Integ P R → List R
  wItf : EqpItf.Integ Q R δ → List R
  split : Nat → List Nat
  solve : List (CMat R) → List R → List R → List (List R)
  junk : R

/-- What the storage of samples knows of the components. -/
def Trainer.setup (T : Trainer P Q R δ) : Setup :=
  ⟨T.comps.map Comp.name, T.comps.map fun c => c.attrs.length, T.oper, T.fullDg⟩

/-- What the interface form knows of the topology. -/
def Trainer.topo (T : Trainer P Q R δ) : Topo :=
  ⟨T.comps.map Comp.name, T.ports.map fun p => ⟨p.c1, p.c2, p.a1, p.a2⟩, T.types⟩

/-- `rom_handler->GetReferenceBasis(separate_variable_basis ? c * num_var : c)`,
`src/steady_ns_solver.cpp:1016-1017, 1083-1084`. -/
def Trainer.basis (T : Trainer P Q R δ) (c : Nat) : Outcome (Mat R) :=
  rd T.bases (if T.names.separate then c * T.names.numVar else c)

/-- `bdr_marker`, `src/steady_ns_solver.cpp:1058-1060`: as long as the largest attribute, marking one. -/
def marker (attrs : List Int) (a : Int) : Outcome (List Int) :=
  wrI (List.replicate (attrs.foldl max 0).toNat 0) (a - 1) 1

/-- The boundary integrators of a component, two for each attribute, `src/steady_ns_solver.cpp:1056-1071`. -/
def bdrEntries (T : Trainer P Q R δ) (attrs : List Int) :
    Outcome (List (Eqp.Entry P R × Option (List Int))) :=
  loop attrs.length (fun b l => do
    let a ← rd attrs b
    let m ← marker attrs a
    return l ++ [(⟨T.bdr, none⟩, some m), (⟨T.zero, none⟩, some m)]) []

/-- The component form made by `AllocateROMEQPElems`, `src/steady_ns_solver.cpp:1014-1072`. -/
def allocForm (T : Trainer P Q R δ) (c : Nat) : Outcome (Eqp.Form P R) := do
  let b ← T.basis c
  let k ← rd T.comps c
  match T.oper with
  | .base => return ⟨b.w, b.w, some b, T.precompute, k.space, [⟨T.dom, none⟩], [], []⟩
  | .lf => do
    let bd ← bdrEntries T k.attrs
    return ⟨b.w, b.w, some b, T.precompute, k.space, [⟨T.dom, none⟩],
      if T.fullDg then [⟨T.face, none⟩] else [], bd⟩

/-- The interface form made by `InitROMHandler` and `AllocateROMEQPElems`,
`src/steady_ns_solver.cpp:804-811, 1075-1089`: one integrator, no samples, the bases of the components. -/
def allocItf (T : Trainer P Q R δ) : Outcome (RefForm Q R δ) := do
  let bs ← loop T.comps.length (fun c l => do
    let b ← T.basis c
    return l ++ [some (b, (0 : Int))]) []
  return ⟨T.meshes, T.fes.map some, bs, [some T.itf], T.ports, T.types,
    List.replicate T.ports.length none, List.replicate T.types.length none⟩

/-- A sample without precomputed coefficients, as it is stored. -/
def plain (s : Eqp.Sample P R) : Hdf5.Sample R := ⟨s.el, s.qp, s.qw⟩

/-- The samples of the integrators of one type, as stored for component `c`. -/
def slotOps (c : Nat) (ty : IntegType) (es : List (Eqp.Entry P R)) : Outcome (List (EqpComp.Op R)) :=
  loop es.length (fun k l => do
    let e ← rd es k
    let v ← nonNull e.samples
    return l ++ [.train c ty k (v.map plain)]) []

/-- The calls of `Update...Sampling` in `TrainEQP` of component `c`, `src/rom_nonlinearform.cpp:745-792`. -/
def formOps (c : Nat) (f : Eqp.Form P R) : Outcome (List (EqpComp.Op R)) := do
  let d ← slotOps c .domain f.dnfi
  let i ← slotOps c .interiorFace f.fnfi
  let b ← slotOps c .bdrFace (f.bfnfi.map Prod.fst)
  return d ++ i ++ b

/-- The calls of `UpdateInterFaceIntegratorSampling` for a trained interface form with one integrator,
`src/rom_interfaceform.cpp:381-428`. -/
def portOps (f : RefForm Q R δ) : Outcome (List (EqpStore.Op R)) :=
  loop f.ports.length (fun p l => do
    let v ← rd f.refs p
    let v ← nonNull v
    return l ++ [.update 0 p (v.map plain)]) [.add]

section
variable [Field R] [LinearOrder R]

/-- The two tolerances, `src/steady_ns_solver.cpp:1105, 1123`: that of the interface is the other one unless
given.  `num` is the conversion of a node to a number (external). -/
def tolerances (num : Node → Outcome R) (cfg : Node) : Outcome (R × R) := do
  let t ← option num (key "model_reduction/eqp/relative_tolerance") (1 / 100) cfg
  let ti ← option num (key "model_reduction/eqp/interface/relative_tolerance") t cfg
  return (t, ti)

/-- The training of one component, `src/steady_ns_solver.cpp:1111-1117`. -/
def trainComp (T : Trainer P Q R δ) (tol : R) (st : Store (List R)) (c : Nat) : Outcome (Eqp.Form P R) := do
  let f ← allocForm T c
  let k ← rd T.comps c
  let tag ← T.names.tagOf c
  let snaps ← lookUpSnapshot st tag
  Training.trainForm ⟨k.vsize, T.split, tol, T.solve, T.junk⟩ T.w (snapshotMatrix (T.names.dim tag) snaps) f

/-- The component part of `TrainROMEQPElems`, `src/steady_ns_solver.cpp:1107-1118`: the calls that store
samples. -/
def compOps (T : Trainer P Q R δ) (tol : R) (st : Store (List R)) : Outcome (List (EqpComp.Op R)) :=
  loop T.comps.length (fun c l => do
    let f ← trainComp T tol st c
    let o ← formOps c f
    return l ++ o) []

/-- The trained interface form, `src/steady_ns_solver.cpp:1121-1163`. -/
def trainedItf (T : Trainer P Q R δ) (tol : R) (st : Store (List R)) : Outcome (RefForm Q R δ) := do
  let f ← allocItf T
  TrainItf.trainPorts ⟨T.split, tol, T.solve, T.junk⟩ T.wItf T.names st f

/-- `SaveEQPElems` into a new file, `src/steady_ns_solver.cpp:1168-1224`. -/
def saveEqp (S : Setup) (t : Topo) (s : Comps R) (i : Itf R) : Outcome (File R) := do
  let f ← saveComps S s []
  match S.oper with
  | .base => return f
  | .lf => EqpStore.save t i 0 f [] "interface_integ0"

/-- `TrainROMEQPElems` and `SaveROMNlinElems`, `src/steady_ns_solver.cpp:1094-1224`. -/
def trainElems (num : Node → Outcome R) (cfg : Node) (T : Trainer P Q R δ) (st : Store (List R)) :
    Outcome (File R) := do
  let tols ← tolerances num cfg
  let ops ← compOps T tols.1 st
  let s ← EqpComp.run T.setup ops
  match T.oper with
  | .base => saveEqp T.setup T.topo s {}
  | .lf => do
    let f ← trainedItf T tols.2 st
    let iops ← portOps f
    let i ← EqpStore.run T.topo iops
    saveEqp T.setup T.topo s i

/-- `TrainEQP` after `CollectSamples`, `src/main_workflow.cpp:322-380`: what is on disk afterwards. -/
def trainEQP (c : Conv) (num : Node → Outcome R) (cfg : Node) (T : Trainer P Q R δ) (st : Store (List R))
    (d : Disk R) : Outcome (Disk R) := do
  let s ← option c.str (key "model_reduction/nonlinear_handling") "none" cfg
  require (s == "eqp")
  let lp ← readLevel c cfg
  if T.nonlinear = false then return d
  else do
    require T.useRom
    match lp.1 with
    | .component => do
      require (!T.submesh)
      let f ← trainElems num cfg T st
      return d.put (lp.2 ++ ".eqp.h5") f
    | .global => .error .abort
    | .none => .error .abort

end

/-- A later program run with the ROM: the operator type and `full_dg`, the topology mode, names and numbers
of boundary attributes of its components, reference ports, port types, and its subdomains. -/
structure Runner where
  setup : Setup
  topo : Topo
  submesh : Bool
  bdr : Bdr

/-- What the later run has in the end: the samples of the components, the forms of the subdomains, and the
interface form. -/
structure Loaded (R : Type) where
  comps : Comps R
  subs : List Sub
  itf : Itf R

/-- `LoadEQPElems`, `src/steady_ns_solver.cpp:1226-1286`. -/
def loadEqp (S : Setup) (t : Topo) (f : File R) : Outcome (Comps R × Itf R) := do
  let s ← allocate S
  let s ← loadComps S s f
  match S.oper with
  | .base => return (s, {})
  | .lf => do
    let i := EqpStore.addInteg t ({} : Itf R)
    let i ← EqpStore.load t i 0 f [] "interface_integ0"
    return (s, i)

/-- The samples in `SingleRun` with handling `eqp`: `AllocateROMNlinElems`, `LoadROMNlinElems` and
`AssembleROMNlinOper` at component level, `src/main_workflow.cpp:516-566`; at the other levels the subdomain
forms stay null, which `SolveROM` asserts against (`src/steady_ns_solver.cpp:782-783`). -/
def runEQP (c : Conv) (cfg : Node) (L : Runner) (d : Disk R) : Outcome (Loaded R) := do
  let lp ← readLevel c cfg
  match lp.1 with
  | .component => do
    require (!L.submesh)
    let f ← d.get (lp.2 ++ ".eqp.h5")
    let si ← loadEqp L.setup L.topo f
    let subs ← assemble L.setup L.bdr si.1
    return ⟨si.1, subs, si.2⟩
  | .global => .error .abort
  | .none => .error .abort

end Verif.EqpPipeline
