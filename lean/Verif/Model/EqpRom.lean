import Verif.Model.TensorRom
import Verif.Model.Eqp
import Verif.Model.EqpItf
import Verif.Model.Sampling

/-!
# The hyper-reduced operator of the Navier-Stokes ROM

Models `SteadyNSEQPROM` (src/steady_ns_solver.cpp:243-412).  The hypre copies of the Jacobian, and the
ownership of the last Jacobian, are not modelled.
-/

namespace Verif.EqpRom

open Verif Verif.LinAlg Verif.Convection
open Verif.Blocks (Order getBlockIndex)
open Verif.InterfaceForm (MatArr)
open Verif.Sampling (partialSum)

variable {R : Type}

/-- The hyper-reduced form of a subdomain: `Mult(x, z)` into a vector of the given size, and
`GetGradient(x)`. -/
structure Dom (R : Type) where
  mult : List R → Nat → Outcome (List R)
  grad : List R → Outcome (Mat R)

/-- The hyper-reduced interface form: `InterfaceAddMult(x, y)` and `InterfaceGetGradient(x, mats)`. -/
structure Itf (R : Type) where
  addMult : List R → List R → Outcome (List R)
  gradient : List R → MatArr R → Outcome (MatArr R)

section
variable [CommRing R]

/-- A modelled `ROMNonlinearForm` as the form of a subdomain; `old` is the matrix left by its previous
`GetGradient`, `junk` the contents of new memory. -/
def Dom.of {P : Type} (f : Eqp.Form P R) (old : Option (Mat R)) (junk : Nat → R) : Dom R :=
  ⟨fun x n => f.mult x (vof n junk) junk, fun x => f.getGradient x old junk⟩

/-- A modelled `ROMInterfaceForm`. -/
def Itf.of {P δ : Type} (f : EqpItf.Form P R δ) (junk : Nat → R) : Itf R :=
  ⟨fun x y => f.addMult x y junk, fun x mats => f.gradient x mats junk⟩

end

/-- `SteadyNSEQPROM`. -/
structure Rom (R : Type) where
  linear : Sp R
  offs : List Nat
  midxs : List Int
  idxs : List (List Int)
  hs : List (Option (Dom R))
  itf : Option (Itf R)
  separate : Bool
  uoffs : List Nat

/-- `u_offsets`, src/steady_ns_solver.cpp:253-269. -/
def velOffsets (offs : List Nat) (numVar numSub : Nat) (separate : Bool) : Outcome (List Nat) :=
  if separate then do
    let s ← loop numSub (fun k acc => do
      let o1 ← rd offs (1 + k * numVar)
      let o ← rd offs (k * numVar)
      return acc ++ [o1 - o]) [0]
    return partialSum s
  else return offs

/-- `SteadyNSEQPROM::SteadyNSEQPROM`, src/steady_ns_solver.cpp:247-272, on top of
`SteadyNSROM::SteadyNSROM`. -/
def construct (linear : Sp R) (offs : List Nat) (numVar : Nat) (separate : Bool) (ord : Order)
    (hs : List (Option (Dom R))) (itf : Option (Itf R)) : Outcome (Rom R) := do
  let r ← TensorRom.construct linear offs numVar hs.length separate ord []
  let u ← velOffsets offs numVar hs.length separate
  return ⟨linear, offs, r.midxs, r.idxs, hs, itf, separate, u⟩

/-- The data seen by the view of block `midxs[m]` of `x`, and where it starts. -/
def velSeg (r : Rom R) (x : List R) (m : Nat) : Outcome (Nat × List R) := do
  let midx ← rd r.midxs m
  let o ← rdI r.offs midx
  let o1 ← rdI r.offs (midx + 1)
  let v ← getSeg x o (o1 - o)
  return (o, v)

/-- The body of the loop of `GetVel`, src/steady_ns_solver.cpp:390-392.  Assigning a longer vector to
the view gives the view memory of its own and leaves `x_u` as it was. -/
def getVelStep (r : Rom R) (x : List R) (m : Nat) (u : List R) : Outcome (List R) := do
  let o ← rd r.uoffs m
  let o1 ← rd r.uoffs (m + 1)
  let v ← velSeg r x m
  if v.2.length ≤ o1 - o then setSeg u o v.2 else return u

/-- `SteadyNSEQPROM::GetVel`, src/steady_ns_solver.cpp:374-394; `u` is the former `x_u`. -/
def getVel (r : Rom R) (x u : List R) : Outcome (List R) :=
  if r.separate then loop r.hs.length (fun m u => getVelStep r x m u) u else return x

section
variable [CommRing R]

/-- `y += v` for the view of `y` with the given start and size; the entries of `v` are read from
position `p` of its buffer. -/
def addFrom (y : List R) (o n : Nat) (v : List R) (p : Nat) : Outcome (List R) :=
  loop n (fun i y => do
    let a ← rd y (o + i)
    let b ← rd v (p + i)
    wr y (o + i) (a + b)) y

/-- The body of the loop of `AddVel`, src/steady_ns_solver.cpp:408-410. -/
def addVelStep (r : Rom R) (yu : List R) (m : Nat) (y : List R) : Outcome (List R) := do
  let v ← velSeg r y m
  let p ← rd r.uoffs m
  addFrom y v.1 v.2.length yu p

/-- `SteadyNSEQPROM::AddVel`, src/steady_ns_solver.cpp:396-412. -/
def addVel (r : Rom R) (yu y : List R) : Outcome (List R) :=
  if r.separate then loop r.hs.length (fun m y => addVelStep r yu m y) y else addFrom y 0 y.length yu 0

/-- The body of the loop of `Mult`, src/steady_ns_solver.cpp:286-290, with the default
`Operator::AddMult` (external): `Mult` into a new vector, which is then added. -/
def multBlock (r : Rom R) (x : List R) (m : Nat) (y : List R) : Outcome (List R) := do
  let xc ← velSeg r x m
  let yc ← velSeg r y m
  let h ← rd r.hs m
  let h ← deref h
  let z ← h.mult xc.2 yc.2.length
  addFrom y yc.1 yc.2.length z 0

/-- `SteadyNSEQPROM::Mult`, src/steady_ns_solver.cpp:274-308; `u` is the former `x_u`. -/
def mult (r : Rom R) (x u : List R) : Outcome (List R) := do
  let y ← r.linear.addMult x (vof r.linear.h (fun _ => 0)) 1
  let y ← loop r.hs.length (fun m y => multBlock r x m y) y
  match r.itf with
  | none => return y
  | some itf => do
    let xu ← getVel r x u
    let n ← rd r.uoffs (r.uoffs.length - 1)
    let yu ← itf.addMult xu (vof n (fun _ => 0))
    addVel r yu y

/-- The sizes `block_offsets[midxs[i]+1] - block_offsets[midxs[i]]`. -/
def velSizes (r : Rom R) : Outcome (List Nat) :=
  loop r.hs.length (fun m acc => do
    let midx ← rd r.midxs m
    let o1 ← rdI r.offs (midx + 1)
    let o ← rdI r.offs midx
    return acc ++ [o1 - o]) []

/-- The new matrices of src/steady_ns_solver.cpp:326-334, given the sizes of the velocity blocks. -/
def newMats (s : List Nat) : MatArr R :=
  ⟨s.length, s.length, fun i j => match s[i]?, s[j]? with
    | some h, some w => some ⟨h, w, []⟩
    | _, _ => none⟩

/-- `MatrixBlocks u_mats(mats)`. -/
def toBlocks (a : MatArr R) : MatBlocks R :=
  ⟨a.nr, a.nc, fun i j => (a.at_ i j).map fun s => ⟨s.h, s.w, fun r c => s.get r c⟩⟩

/-- `jac.Finalize(); tmp = jac.CreateMonolithic(); (*jac_mono) += *tmp`,
src/steady_ns_solver.cpp:342-346.  `Finalize` drops zeros; the entries that are left must be stored in the
finalized matrix `s`. -/
def addMono [DecidableEq R] (b : BlockMat R) (s : Sp R) : Outcome (Sp R) :=
  loop (b.roffs.length - 1) (fun i s => loop (b.coffs.length - 1) (fun j s =>
    match b.blk i j with
    | none => .ok s
    | some m => do
      let o ← rd b.roffs i
      let p ← rd b.coffs j
      loop m.h (fun r s => loop m.w (fun c s =>
        if m.val r c = 0 then return s else TensorRom.addStored s (o + r) (p + c) (m.val r c)) s) s) s) s

/-- src/steady_ns_solver.cpp:319-349. -/
def addItfGrad [DecidableEq R] (r : Rom R) (itf : Itf R) (x u : List R) (jac : Sp R) : Outcome (Sp R) := do
  let s ← velSizes r
  let xu ← getVel r x u
  let mats ← itf.gradient xu (newMats s)
  let b ← addToBlockMatrix r.midxs r.midxs (toBlocks mats) ⟨r.offs, r.offs, true, fun _ _ => none⟩
  addMono b jac

/-- src/steady_ns_solver.cpp:355-363. -/
def addDomGrad [DecidableEq R] (r : Rom R) (x : List R) (m : Nat) (jac : Sp R) : Outcome (Sp R) := do
  let xc ← velSeg r x m
  let h ← rd r.hs m
  let h ← deref h
  let j ← h.grad xc.2
  let idx ← rd r.idxs m
  TensorRom.addSubStored idx j jac

/-- `SteadyNSEQPROM::GetGradient`, src/steady_ns_solver.cpp:310-372; `u` is the former `x_u`. -/
def getGradient [DecidableEq R] (r : Rom R) (x u : List R) : Outcome (Sp R) := do
  let jac ← match r.itf with
    | none => .ok r.linear
    | some itf => addItfGrad r itf x u r.linear
  loop r.hs.length (fun m jac => addDomGrad r x m jac) jac

end

end Verif.EqpRom
