import Verif.Model.Pipeline
import Verif.Model.TensorRom

/-!
# From building a Navier-Stokes ROM to running it

`BuildROM` and the ROM mode of `SingleRun` (`src/main_workflow.cpp:417-605`) for the steady
Navier-Stokes solver with `nonlinear_handling: tensor`: besides the linear operator (`Verif.Pipeline`) the
convection tensors are built, stored and loaded, and the two make up the operator that is handed to the
nonlinear solver (`src/steady_ns_solver.cpp:577-640, 740-790`).

Simplifications: those of `Verif.Pipeline` and `Verif.TensorRom`; the initial guess of the nonlinear
solver (random, or projected from a restart file) is an arbitrary vector; the Jacobian is not passed on.
The handling `eqp` is not modelled here.
-/

namespace Verif.NsPipeline

open Verif Verif.LinAlg Verif.RomAssembly Verif.Hdf5 Verif.Pipeline Verif.TensorRom
open Verif.EqpComp (OperType)
open Verif.Options (Node Conv)
open Verif.Unsteady (mono)

variable {R F : Type}

/-- A program run after `LoadReducedBasis`: the linear part, the operator type, the number of variables of
the solver, the spaces `comp_fes` of the components (one per component and variable) and the velocity
spaces `ufes` of the subdomains. -/
structure NsProb (R F : Type) where
  lin : Prob R F
  oper : OperType
  numVar : Nat
  compFes : List (Fes R)
  ufes : List (Fes R)

/-- The tensor part of `SaveROMOperator`, `src/steady_ns_solver.cpp:581-602`, into a new file. -/
def saveSubTensors (numSub : Nat) (hs : List (Option (Tensor R))) : Outcome (File R) := do
  let f ← create ([] : File R) ⟨[], "ROM_tensors", false⟩ .group
  loop numSub (fun m f => do
    let p ← rd hs m
    let t ← deref p
    writeTensor f ["ROM_tensors"] ("subdomain" ++ toString m) (toTens t)) f

/-- The tensor part of `LoadROMOperatorFromFile`, `src/steady_ns_solver.cpp:614-640`. -/
def loadSubTensors (numSub : Nat) (f : File R) (junk : Nat → R) : Outcome (List (Option (Tensor R))) := do
  let g ← openGroup f [] "ROM_tensors"
  loop numSub (fun m hs => do
    let t ← readTensor f g ("subdomain" ++ toString m) ⟨0, 0, 0, []⟩ junk
    wr hs m (some (ofTens t))) (List.replicate numSub none)

section
variable [CommRing R]

/-- The tensors of the components, `BuildROMTensorElems`. -/
def compTensors (P : NsProb R F) (junk : Nat → R) : Outcome (List (Option (Tensor R))) :=
  build P.oper P.numVar P.lin.names.length P.lin.h.separate P.lin.h.refBasis P.compFes junk

/-- The tensors of the subdomains made by `ProjectOperatorOnReducedBasis`. -/
def domTensors (P : NsProb R F) (junk : Nat → R) : Outcome (List (Option (Tensor R))) :=
  buildGlobal P.oper P.lin.h.numVar P.lin.h.separate P.lin.h.ord P.lin.h.domBasis P.ufes junk

/-- The tensor part of `BuildROM`: `src/main_workflow.cpp:459-463` and
`src/steady_ns_solver.cpp:831-845` at component level, `src/main_workflow.cpp:466-471` with the overridden
functions of the solver at global level. -/
def buildTensors (P : NsProb R F) (lp : Level × String) (junk : Nat → R) (d : Disk R) :
    Outcome (Disk R) :=
  match lp.1 with
  | .component => do
    let ts ← compTensors P junk
    let g ← saveTensors P.lin.names ts []
    return d.put (lp.2 ++ ".tensor.h5") g
  | .global => do
    let ts ← domTensors P junk
    let g ← saveSubTensors P.lin.h.numSub ts
    return d.put (lp.2 ++ ".tensor.h5") g
  | .none => return d

/-- `BuildROM`, `src/main_workflow.cpp:440-476`, for a Navier-Stokes solver. -/
def buildNs (c : Conv) (cfg : Node) (fin : Blk R → Csr R) (P : NsProb R F) (junk : Nat → R) (d : Disk R) :
    Outcome (Disk R) := do
  let d ← buildROM c cfg fin P.lin d
  let lp ← readLevel c cfg
  buildTensors P lp junk d

/-- The tensors of the subdomains in `SingleRun`: `src/main_workflow.cpp:558-562` with
`src/steady_ns_solver.cpp:847-861, 863-877` at component level, `src/main_workflow.cpp:564-569` at global
level, `src/main_workflow.cpp:570-578` otherwise. -/
def subTensors (P : NsProb R F) (lp : Level × String) (junk : Nat → R) (d : Disk R) :
    Outcome (List (Option (Tensor R))) :=
  match lp.1 with
  | .component => do
    let g ← d.get (lp.2 ++ ".tensor.h5")
    let ts ← loadTensors P.lin.names (List.replicate P.lin.names.length none) g junk
    assemble P.lin.names.length P.lin.h.meshType ts
  | .global => do
    let g ← d.get (lp.2 ++ ".tensor.h5")
    loadSubTensors P.lin.h.numSub g junk
  | .none => domTensors P junk

/-- `assert(subdomain_tensors.Size() == numSub)` and a null check for each,
`src/steady_ns_solver.cpp:777-778`. -/
def checkTensors (numSub : Nat) (hs : List (Option (Tensor R))) : Outcome Unit := do
  require (decide (hs.length = numSub))
  require (hs.all Option.isSome)

/-- The operator `SolveROM` hands to the nonlinear solver, `src/main_workflow.cpp:530-580` and
`src/steady_ns_solver.cpp:773-780`.  `sparse` is the matrix `romMat_mono` made by `CreateMonolithic`
(external). -/
def romOper (c : Conv) (cfg : Node) (P : NsProb R F) (sparse : Blk R → Sp R) (junk : Nat → R)
    (d : Disk R) : Outcome (Rom R) := do
  let rom ← reducedOperator c cfg P.lin d
  let lp ← readLevel c cfg
  let hs ← subTensors P lp junk d
  checkTensors P.lin.h.numSub hs
  construct (sparse (mono rom)) P.lin.h.romOffs P.lin.h.numVar P.lin.h.numSub P.lin.h.separate P.lin.h.ord hs

/-- `MFEMROMHandler::NonlinearSolve`, `src/rom_handler.cpp:634-710`.  `nls F b x0` is the vector the
nonlinear solver (Newton or `CGOptimizer`) leaves for `F(x) = b`, started at `x0`. -/
def nonlinearSolve (P : Prob R F) (r : Rom R) (rhs : List R)
    (nls : (List R → Outcome (List R)) → List R → List R → List R) (x0 : List R) (junk : Nat → R) :
    Outcome (List R) := do
  let u := Online.view P.h P.varOffs P.domOffs P.U
  require (u.numBlocks == P.h.numBlocks)
  let v ← P.h.lift ⟨nls (fun x => mult r x junk) rhs x0, P.h.romOffs⟩ u
  return v.data

/-- `SingleRun` in ROM mode, `src/main_workflow.cpp:528-605`, for a Navier-Stokes solver: the state
returned by the ROM. -/
def runNs (c : Conv) (cfg : Node) (P : NsProb R F) (sparse : Blk R → Sp R)
    (nls : (List R → Outcome (List R)) → List R → List R → List R) (x0 : List R) (junk : Nat → R)
    (d : Disk R) : Outcome (List R) := do
  let r ← romOper c cfg P sparse junk d
  let b ← Online.projectRHS P.lin.h P.lin.varOffs P.lin.domOffs P.lin.rhs junk
  nonlinearSolve P.lin r b.data nls x0 junk

end

end Verif.NsPipeline
