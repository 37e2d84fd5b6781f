import Verif.Model.EqpStore

/-!
# The library of reduced component matrices

Models `ROMLinearElement` (include/rom_element_collection.hpp, src/rom_element_collection.cpp): the
reduced matrices of every component, of every boundary of a component and of every reference port, and
how they are written to and read from one HDF5 file, by component name.

Not modelled: the destructor (it leaks `mass`), and `ROMTensorElement`, whose `Save` and `Load` are
empty.
-/

namespace Verif.RomElems

open Verif Verif.Hdf5

variable {R : Type}

/-- The part of the topology handler `ROMLinearElement` uses: `GetComponentName`, `GetRefPortInfo` and
the number of boundary attributes of `GetComponentMesh(c)`. -/
structure Lib where
  topo : EqpStore.Topo
  numBdr : List Nat
deriving DecidableEq, Repr

/-- `ROMLinearElement::comp`, `mass`, `bdr`, `port`, include/rom_element_collection.hpp:47-53. -/
structure Elems (R : Type) where
  comp : List (MBlocks R)
  mass : List (MBlocks R)
  bdr : List (List (MBlocks R))
  port : List (MBlocks R)

/-- `MatrixBlocks(nrow, ncol)`, include/linalg_utils.hpp:49-118: all blocks null. -/
def emptyBlocks (n : Nat) : MBlocks R := ⟨n, n, fun _ _ => none⟩

/-- The constructor, src/rom_element_collection.cpp:10-35; `bs` is `block_size`. -/
def init (t : Lib) (bs : Nat) : Elems R :=
  { comp := t.topo.names.map (fun _ => emptyBlocks bs)
    mass := t.topo.names.map (fun _ => emptyBlocks bs)
    bdr := t.numBdr.map (fun n => List.replicate n (emptyBlocks bs))
    port := t.topo.refPorts.map (fun _ => emptyBlocks (2 * bs)) }

/-- `SaveBdrElems`, src/rom_element_collection.cpp:100-122, into the group `loc` of component `c`. -/
def saveBdr (t : Lib) (e : Elems R) (c : Nat) (f : File R) (loc : Loc) : Outcome (File R) := do
  let f ← create f ⟨loc, "boundary", false⟩ .group
  let bs ← rd e.bdr c
  let nb ← rd t.numBdr c
  require (bs.length == nb)
  let f ← writeAttr f ("boundary" :: loc) "number_of_boundaries" bs.length
  loop bs.length (fun b f => do
    let m ← rd bs b
    writeMBlocks f ("boundary" :: loc) (toString b) m) f

/-- One component of `SaveCompBdrElems`, src/rom_element_collection.cpp:77-93. -/
def saveComp (t : Lib) (e : Elems R) (c : Nat) (f : File R) (loc : Loc) : Outcome (File R) := do
  let name ← rd t.topo.names c
  let f ← create f ⟨loc, name, false⟩ .group
  let m ← rd e.comp c
  let f ← writeMBlocks f (name :: loc) "domain" m
  let m ← rd e.mass c
  let f ← writeMBlocks f (name :: loc) "mass" m
  saveBdr t e c f (name :: loc)

/-- `SaveCompBdrElems`, src/rom_element_collection.cpp:64-98. -/
def saveComps (t : Lib) (e : Elems R) (f : File R) : Outcome (File R) := do
  let f ← create f ⟨[], "components", false⟩ .group
  let f ← writeAttr f ["components"] "number_of_components" t.topo.names.length
  loop t.topo.names.length (fun c f => saveComp t e c f ["components"]) f

/-- `SaveItfaceElems`, src/rom_element_collection.cpp:124-149.  The data set name is built as in
`ROMInterfaceForm` (`EqpStore.portName`). -/
def savePorts (t : Lib) (e : Elems R) (f : File R) : Outcome (File R) := do
  let f ← create f ⟨[], "ports", false⟩ .group
  let f ← writeAttr f ["ports"] "number_of_ports" t.topo.refPorts.length
  loop t.topo.refPorts.length (fun p f => do
    let name ← EqpStore.portName t.topo p
    let m ← rd e.port p
    writeMBlocks f ["ports"] name m) f

/-- `Save`, src/rom_element_collection.cpp:47-62: the contents of the new file. -/
def save (t : Lib) (e : Elems R) : Outcome (File R) := do
  let f ← saveComps t e []
  savePorts t e f

/-- `LoadBdrElems`, src/rom_element_collection.cpp:202-226.  The second assertion (line 217) is an
assignment: `num_bdr` becomes the number of matrices held here, and only zero is rejected. -/
def loadBdr (t : Lib) (c : Nat) (f : File R) (loc : Loc) (e : Elems R) : Outcome (Elems R) := do
  let g ← openGroup f loc "boundary"
  let n ← readAttr f g "number_of_boundaries"
  let nb ← rd t.numBdr c
  require (n == (nb : Int))
  let bs ← rd e.bdr c
  require (bs.length != 0)
  let bs' ← loop bs.length (fun b l => do
    let m ← readMBlocks f g (toString b)
    wr l b m) bs
  let bdr ← wr e.bdr c bs'
  return { e with bdr := bdr }

/-- One component of `LoadCompBdrElems`, src/rom_element_collection.cpp:181-195. -/
def loadComp (t : Lib) (f : File R) (loc : Loc) (c : Nat) (e : Elems R) : Outcome (Elems R) := do
  let name ← rd t.topo.names c
  let g ← openGroup f loc name
  let m ← readMBlocks f g "domain"
  let comp ← wr e.comp c m
  let m ← readMBlocks f g "mass"
  let mass ← wr e.mass c m
  loadBdr t c f g { e with comp := comp, mass := mass }

/-- `LoadCompBdrElems`, src/rom_element_collection.cpp:168-200. -/
def loadComps (t : Lib) (f : File R) (e : Elems R) : Outcome (Elems R) := do
  let g ← openGroup f [] "components"
  let n ← readAttr f g "number_of_components"
  require (decide ((t.topo.names.length : Int) ≤ n))
  loop t.topo.names.length (loadComp t f g) e

/-- `LoadItfaceElems`, src/rom_element_collection.cpp:228-254. -/
def loadPorts (t : Lib) (f : File R) (e : Elems R) : Outcome (Elems R) := do
  let g ← openGroup f [] "ports"
  let n ← readAttr f g "number_of_ports"
  require (decide ((t.topo.refPorts.length : Int) ≤ n))
  loop t.topo.refPorts.length (fun p e => do
    let name ← EqpStore.portName t.topo p
    let m ← readMBlocks f g name
    let port ← wr e.port p m
    return { e with port := port }) e

/-- `Load`, src/rom_element_collection.cpp:151-166, from a file with contents `f`. -/
def load (t : Lib) (f : File R) (e : Elems R) : Outcome (Elems R) := do
  let e ← loadComps t f e
  loadPorts t f e

end Verif.RomElems
