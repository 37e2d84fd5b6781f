import Verif.Model.Hdf5
import Verif.Model.Views

/-!
# Storage of hyper-reduction samples on ports

Models who owns the sample lists (`EQPElement`) of `ROMInterfaceForm` (include/rom_interfaceform.hpp,
src/rom_interfaceform.cpp): one list per integrator and reference port, seen by every port of that
type through a copied pointer, replaced by training and by loading, written to and read from HDF5.

Pointers to `EQPElement` are addresses in an explicit heap, so that a dangling pointer, a double
`delete` and a lost element are visible.  The precomputed coefficients stored next to the samples are
not part of this file (see `Verif.Model.EqpItf`).
-/

namespace Verif.EqpStore

open Verif Verif.Hdf5

variable {R : Type}

/-- The samples held by an `EQPElement`, include/hyperreduction_integ.hpp:36-64. -/
abbrev Samples (R : Type) := List (Sample R)

/-- All `EQPElement`s ever allocated; `none` has been deleted.  An address is a position. -/
abbrev Heap (R : Type) := List (Option (Samples R))

/-- `new EQPElement(samples)`, include/hyperreduction_integ.hpp:44-49. -/
def Heap.new (h : Heap R) (v : Samples R) : Heap R × Nat := (h ++ [some v], h.length)

/-- `delete p` for a non-null `p`; deleting anything but a live element is undefined. -/
def Heap.delete (h : Heap R) (a : Nat) : Outcome (Heap R) :=
  match h[a]? with
  | some (some _) => .ok (h.set a none)
  | _ => .error .ub

/-- `delete p` for any `p`; deleting a null pointer does nothing. -/
def Heap.release (h : Heap R) : Option Nat → Outcome (Heap R)
  | none => .ok h
  | some a => h.delete a

/-- `*p` for a non-null `p`; a dangling pointer is undefined behaviour. -/
def Heap.get (h : Heap R) (a : Nat) : Outcome (Samples R) :=
  match h[a]? with
  | some (some v) => .ok v
  | _ => .error .ub

/-- One row of `TopologyHandler::GetRefPortInfo`, include/topology_handler.hpp:183-189 and
src/component_topology_handler.cpp:96-102. -/
structure RefPort where
  c1 : Nat
  c2 : Nat
  a1 : Int
  a2 : Int
deriving DecidableEq, Repr

/-- The part of the topology handler the form uses: `GetComponentName`, `GetRefPortInfo` and
`GetPortType`. -/
structure Topo where
  names : List String
  refPorts : List RefPort
  types : List Int
deriving DecidableEq, Repr

/-- `ROMInterfaceForm`: `fnfi.Size()`, `fnfi_ref_sample`, `fnfi_sample` and the heap they point into.
The initial value is the constructor's, src/rom_interfaceform.cpp:14-37. -/
structure Itf (R : Type) where
  numInteg : Nat := 0
  refs : List (Option Nat) := []
  views : List (Option Nat) := []
  heap : Heap R := []
deriving DecidableEq, Repr

/-- `AddInterfaceIntegrator`, include/rom_interfaceform.hpp:78-86. -/
def addInteg (t : Topo) (s : Itf R) : Itf R :=
  { s with
    numInteg := s.numInteg + 1
    refs := s.refs ++ List.replicate t.refPorts.length none
    views := s.views ++ List.replicate t.types.length none }

/-- `if (ref[idx]) delete ref[idx]; ref[idx] = new EQPElement(...)`:
include/rom_interfaceform.hpp:96-99 and src/rom_interfaceform.cpp:745-748. -/
def replace (s : Itf R) (idx : Int) (v : Samples R) : Outcome (Itf R) := do
  let old ← rdI s.refs idx
  let h ← s.heap.release old
  let (h, a) := h.new v
  let refs ← wrI s.refs idx (some a)
  return { s with refs := refs, heap := h }

/-- `UpdateInterFaceIntegratorSampling`, include/rom_interfaceform.hpp:88-108. -/
def update (t : Topo) (s : Itf R) (i rp : Int) (v : Samples R) : Outcome (Itf R) := do
  require (decide (0 ≤ i) && decide (i < s.numInteg))
  require (decide (0 ≤ rp) && decide (rp < t.refPorts.length))
  require (decide (s.refs.length = s.numInteg * t.refPorts.length))
  let idx : Int := rp + i * t.refPorts.length
  let s ← replace s idx v
  loop t.types.length (fun p s => do
    let ty ← rd t.types p
    if ty ≠ rp then return s
    else do
      let r ← rdI s.refs idx
      let vs ← wrI s.views ((p : Int) + i * t.types.length) r
      return { s with views := vs }) s

/-- `port_dset`, src/rom_interfaceform.cpp:716-718, 741-743. -/
def portName (t : Topo) (p : Nat) : Outcome String := do
  let rp ← rd t.refPorts p
  let n1 ← rd t.names rp.c1
  let n2 ← rd t.names rp.c2
  return n1 ++ ":" ++ n2 ++ ("-" ++ toString rp.a1 ++ ":" ++ toString rp.a2)

/-- `SaveEQPForIntegrator`, src/rom_interfaceform.cpp:703-726.  The file is given by the handle
`(f, loc)`; there is no check that `k` names an integrator or that it has samples. -/
def save (t : Topo) (s : Itf R) (k : Int) (f : File R) (loc : Loc) (dset : String) :
    Outcome (File R) := do
  let f ← create f ⟨loc, dset, false⟩ .group
  loop t.refPorts.length (fun p f => do
    let name ← portName t p
    let r ← rdI s.refs ((p : Int) + k * t.refPorts.length)
    let a ← LinAlg.deref r
    let v ← s.heap.get a
    writeSamples f (dset :: loc) name .interface v) f

/-- `LoadEQPForIntegrator`, src/rom_interfaceform.cpp:728-766.  The new element is filled as soon as it
is allocated, so `replace` is given the samples read. -/
def load (t : Topo) (s : Itf R) (k : Int) (f : File R) (loc : Loc) (dset : String) :
    Outcome (Itf R) := do
  let g ← openGroup f loc dset
  let s ← loop t.refPorts.length (fun p s => do
    let name ← portName t p
    let v ← readSamples f g name .interface
    replace s ((p : Int) + k * t.refPorts.length) v) s
  loop t.types.length (fun p s => do
    let rp ← rd t.types p
    let r ← rdI s.refs (rp + k * t.refPorts.length)
    let vs ← wrI s.views ((p : Int) + k * t.types.length) r
    return { s with views := vs }) s

/-- What port `p` finds for integrator `k` in `InterfaceAddMult` and `InterfaceGetGradient`
(src/rom_interfaceform.cpp:147, 306): nothing, or the samples behind its pointer. -/
def seen (t : Topo) (s : Itf R) (k p : Nat) : Outcome (Option (Samples R)) := do
  let r ← rd s.views (p + k * t.types.length)
  match r with
  | none => return none
  | some a => do
    let v ← s.heap.get a
    return some v

/-- `~ROMInterfaceForm`, src/rom_interfaceform.cpp:39-42, with `DeletePointers` of include/etc.hpp. -/
def destroy (s : Itf R) : Outcome (Heap R) :=
  loop s.refs.length (fun i h => do
    let r ← rd s.refs i
    h.release r) s.heap

/-- The calls that change the sample lists. -/
inductive Op (R : Type) where
  | add
  | update (i rp : Int) (v : Samples R)
  | load (k : Int) (f : File R) (loc : Loc) (dset : String)

/-- One call. -/
def step (t : Topo) (s : Itf R) : Op R → Outcome (Itf R)
  | .add => .ok (addInteg t s)
  | .update i rp v => update t s i rp v
  | .load k f loc dset => load t s k f loc dset

/-- A history of calls on a fresh form. -/
def run (t : Topo) (ops : List (Op R)) : Outcome (Itf R) := ops.foldlM (step t) {}

end Verif.EqpStore
