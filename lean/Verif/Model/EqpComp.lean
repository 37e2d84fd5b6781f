import Verif.Model.EqpStore
import Verif.Model.Boundary

/-!
# Hyper-reduction samples of components and subdomains

Models how `SteadyNSSolver` (src/steady_ns_solver.cpp:999-1378) stores the sample lists of its component
forms (`comp_eqps`, each a reference `ROMNonlinearForm`, include/rom_nonlinearform.hpp and
src/rom_nonlinearform.cpp:15-44, 1274-1386), writes them to and reads them from HDF5, and lends them to
the forms of the subdomains (`subdomain_eqps`).

The integrators themselves, the basis and the precomputed coefficients are not part of this file (see
`Verif.Model.Eqp`); an integrator is its position in the form's list.  The interface form is
`Verif.Model.EqpStore`.
-/

namespace Verif.EqpComp

open Verif Verif.Hdf5 Verif.EqpStore
open Verif.Boundary (BdrType)
open Verif.Topology (arrFind)

variable {R : Type}

/-- The sample pointers of a `ROMNonlinearForm`: `dnfi_sample`, `fnfi_sample` and `bfnfi_sample`, by
integrator type. -/
structure Form where
  dom : List (Option Nat) := []
  face : List (Option Nat) := []
  bdr : List (Option Nat) := []
deriving DecidableEq, Repr

/-- The array selected by the `switch (type)` of src/rom_nonlinearform.cpp:1277-1301, 1310-1335,
1346-1383; the other types are rejected by `mfem_error`. -/
def Form.slots (F : Form) : IntegType → Outcome (List (Option Nat))
  | .domain => .ok F.dom
  | .interiorFace => .ok F.face
  | .bdrFace => .ok F.bdr
  | .interface => .error .abort
  | .numIntegType => .error .abort

/-- Replaces the array selected by the type. -/
def Form.setSlots (F : Form) (l : List (Option Nat)) : IntegType → Form
  | .domain => { F with dom := l }
  | .interiorFace => { F with face := l }
  | .bdrFace => { F with bdr := l }
  | .interface => F
  | .numIntegType => F

/-- `ROMNonlinearForm::GetEQPForIntegrator`, src/rom_nonlinearform.cpp:1274-1305.  The second assertion
there, that every integrator has an entry, holds by construction: entries are appended together. -/
def Form.getEQP (F : Form) (ty : IntegType) (k : Int) : Outcome (Option Nat) := do
  let l ← F.slots ty
  require (decide (0 ≤ k) && decide (k < l.length))
  rdI l k

/-- The operator type `oper_type`, include/steady_ns_solver.hpp. -/
inductive OperType where
  | base
  | lf
deriving DecidableEq, Repr

/-- What the solver knows of its components: names, numbers of boundary attributes
(`comp->bdr_attributes.Size()`), operator type and `full_dg`. -/
structure Setup where
  names : List String
  nbdr : List Nat
  oper : OperType
  fullDg : Bool
deriving DecidableEq, Repr

/-- `comp_eqps` and the heap of sample lists. -/
structure Comps (R : Type) where
  forms : List Form := []
  heap : Heap R := []
deriving DecidableEq, Repr

/-- The integrators `AllocateROMEQPElems` adds to one component form,
src/steady_ns_solver.cpp:1020-1072: samples all null. -/
def newForm (S : Setup) (nb : Nat) : Form :=
  match S.oper with
  | .base => { dom := [none] }
  | .lf => { dom := [none], face := if S.fullDg then [none] else [], bdr := List.replicate (2 * nb) none }

/-- `AllocateROMEQPElems`, src/steady_ns_solver.cpp:999-1092, on a solver without component forms.  (On
a solver that has some, the old ones are forgotten without being deleted.) -/
def allocate (S : Setup) : Outcome (Comps R) := do
  let forms ← loop S.names.length (fun c (l : List Form) => do
    let nb ← rd S.nbdr c
    return l ++ [newForm S nb]) []
  return { forms := forms }

/-- `Update{Domain,InteriorFace,BdrFace}...Sampling`, include/rom_nonlinearform.hpp:98-107, 132-141,
175-184, and the body of `LoadEQPForIntegrator`, src/rom_nonlinearform.cpp:1346-1383 (whose new element is
filled at once), on the reference form of component `c`. -/
def put (s : Comps R) (c : Nat) (ty : IntegType) (k : Int) (v : Samples R) : Outcome (Comps R) := do
  let F ← rd s.forms c
  let l ← F.slots ty
  require (decide (0 ≤ k) && decide (k < l.length))
  let old ← rdI l k
  let h ← s.heap.release old
  let (h, a) := h.new v
  let l ← wrI l k (some a)
  let forms ← wr s.forms c (F.setSlots l ty)
  return ⟨forms, h⟩

/-- One save or load of a component: integrator type, index, and the suffix of its data set. -/
structure Call where
  ty : IntegType
  k : Nat
  suffix : String
deriving DecidableEq, Repr

/-- The calls made for a component with `nb` boundary attributes, in order:
src/steady_ns_solver.cpp:1196-1211 (save) and 1253-1267 (load). -/
def calls (S : Setup) (nb : Nat) : List Call :=
  ⟨.domain, 0, "_integ0"⟩ ::
  match S.oper with
  | .base => []
  | .lf =>
    (if S.fullDg then [⟨.interiorFace, 0, "_integ1"⟩] else []) ++
    (List.range nb).flatMap (fun b =>
      [⟨.bdrFace, 2 * b, "_bdr" ++ toString b⟩, ⟨.bdrFace, 2 * b + 1, "_zero" ++ toString b⟩])

/-- `SaveEQPForIntegrator`, src/rom_nonlinearform.cpp:1307-1338. -/
def saveOne (s : Comps R) (F : Form) (name : String) (g : Loc) (f : File R) (c : Call) :
    Outcome (File R) := do
  let p ← F.getEQP c.ty c.k
  let a ← LinAlg.deref p
  let v ← s.heap.get a
  writeSamples f g (name ++ c.suffix) c.ty v

/-- The component part of `SaveEQPElems`, src/steady_ns_solver.cpp:1168-1215, on process 0; `f` is the
new file. -/
def saveComps (S : Setup) (s : Comps R) (f : File R) : Outcome (File R) := do
  let f ← create f ⟨[], "components", false⟩ .group
  let g : Loc := ["components"]
  require (decide (s.forms.length = S.names.length))
  let f ← writeAttr f g "number_of_components" S.names.length
  loop S.names.length (fun c f => do
    let F ← rd s.forms c
    let name ← rd S.names c
    let nb ← rd S.nbdr c
    (calls S nb).foldlM (saveOne s F name g) f) f

/-- `LoadEQPForIntegrator`, src/rom_nonlinearform.cpp:1340-1386, on component `c`.  The old element is
deleted before the file is read; a failing read aborts. -/
def loadOne (f : File R) (g : Loc) (name : String) (c : Nat) (s : Comps R) (call : Call) :
    Outcome (Comps R) := do
  let v ← readSamples f g (name ++ call.suffix) call.ty
  put s c call.ty call.k v

/-- The component part of `LoadEQPElems`, src/steady_ns_solver.cpp:1226-1278. -/
def loadComps (S : Setup) (s : Comps R) (f : File R) : Outcome (Comps R) := do
  let g ← openGroup f [] "components"
  let n ← readAttr f g "number_of_components"
  require (decide ((S.names.length : Int) ≤ n))
  require (decide (s.forms.length = S.names.length))
  loop S.names.length (fun c s => do
    let name ← rd S.names c
    let nb ← rd S.nbdr c
    (calls S nb).foldlM (loadOne f g name c) s) s

/-- The problem data `AssembleROMEQPOper` uses: `GetMeshType`, `GetBdrAttrComponentToGlobalMap`,
`global_bdr_attributes`, `bdr_type` and whether a boundary condition is assigned (`BCExistsOnBdr`). -/
structure Bdr where
  meshType : List Nat
  c2g : List (List Int)
  attrs : List Int
  types : List BdrType
  hasBC : List Bool
deriving DecidableEq, Repr

/-- One boundary integrator of a subdomain form: the global boundary whose marker restricts it, the
global boundary whose coefficient it uses (none for a Neumann boundary), and its samples. -/
structure BdrInteg where
  marker : Nat
  coeff : Option Nat
  sample : Option Nat
deriving DecidableEq, Repr

/-- A subdomain form of `subdomain_eqps`. -/
structure Sub where
  dom : List (Option Nat)
  face : List (Option Nat)
  bdr : List BdrInteg
deriving DecidableEq, Repr

/-- The loop over boundaries, src/steady_ns_solver.cpp:1341-1366. -/
def linkBdr (B : Bdr) (F : Form) (row : List Int) : Outcome (List BdrInteg) :=
  loop row.length (fun b acc => do
    let a ← rd row b
    let g := arrFind B.attrs a
    if g < 0 then return acc
    else do
      let ty ← rdI B.types g
      let coeff ← (if ty = .neumann then (.ok none : Outcome (Option Nat))
        else do
          let e ← rdI B.hasBC g
          require e
          return some g.toNat)
      let kind : Int := if ty = .zero then 1 else 0
      let p ← F.getEQP .bdrFace (2 * (b : Int) + kind)
      return acc ++ [⟨g.toNat, coeff, p⟩]) []

/-- The body of the loop of `AssembleROMEQPOper` over subdomains, src/steady_ns_solver.cpp:1305-1375. -/
def link (S : Setup) (B : Bdr) (s : Comps R) (m : Nat) : Outcome Sub := do
  let c ← rd B.meshType m
  let F ← rd s.forms c
  match S.oper with
  | .base => do
    let d ← F.getEQP .domain 0
    return ⟨[d], [], []⟩
  | .lf => do
    let d ← F.getEQP .domain 0
    let fc ← (if S.fullDg then do
        let p ← F.getEQP .interiorFace 0
        return [p]
      else return [])
    let row ← rd B.c2g m
    let bd ← linkBdr B F row
    return ⟨[d], fc, bd⟩

/-- `AssembleROMEQPOper`, src/steady_ns_solver.cpp:1288-1378.  (The forms of an earlier call are
forgotten without being deleted.) -/
def assemble (S : Setup) (B : Bdr) (s : Comps R) : Outcome (List Sub) := do
  require (decide (s.forms.length = S.names.length))
  loop B.meshType.length (fun m l => do
    let x ← link S B s m
    return l ++ [x]) []

/-- What an integrator finds behind its sample pointer: nothing, or samples. -/
def view (h : Heap R) : Option Nat → Outcome (Option (Samples R))
  | none => .ok none
  | some a => do
    let v ← h.get a
    return some v

/-- What `GetEQPForIntegrator` of component `c` gives access to. -/
def seen (s : Comps R) (c : Nat) (ty : IntegType) (k : Int) : Outcome (Option (Samples R)) := do
  let F ← rd s.forms c
  let p ← F.getEQP ty k
  view s.heap p

/-- `~ROMNonlinearForm` of one component form, src/rom_nonlinearform.cpp:27-44. -/
def destroyForm (F : Form) (h : Heap R) : Outcome (Heap R) :=
  (F.dom ++ F.face ++ F.bdr).foldlM (fun h p => h.release p) h

/-- `DeletePointers(comp_eqps)`, src/steady_ns_solver.cpp:480.  The subdomain forms own no samples. -/
def destroy (s : Comps R) : Outcome (Heap R) :=
  s.forms.foldlM (fun h F => destroyForm F h) s.heap

/-- The calls that change component samples. -/
inductive Op (R : Type) where
  | train (c : Nat) (ty : IntegType) (k : Int) (v : Samples R)
  | load (f : File R)

/-- One call. -/
def step (S : Setup) (s : Comps R) : Op R → Outcome (Comps R)
  | .train c ty k v => put s c ty k v
  | .load f => loadComps S s f

/-- `AllocateROMEQPElems` followed by a history of calls. -/
def run (S : Setup) (ops : List (Op R)) : Outcome (Comps R) := do
  let s ← allocate S
  ops.foldlM (step S) s

end Verif.EqpComp
