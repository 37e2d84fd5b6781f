import Verif.Model.Eqp
import Verif.Model.InterfaceForm

/-!
# Hyper-reduced interface forms

Models the evaluation routines of `ROMInterfaceForm` (`src/rom_interfaceform.cpp`):
`SetBasisAtComponent`, `UpdateBlockOffsets`, `InterfaceAddMult` and `InterfaceGetGradient`.
Timers and the `printf` of the gradient (line 306) are left out.
-/

namespace Verif.EqpItf

open Verif Verif.LinAlg
open Verif.Blocks (BlockVector)
open Verif.Ports (InterfaceInfo)
open Verif.InterfaceForm (Tr FMesh Space MatArr Port side transformations allSet)
open Verif.Eqp (Sample intPoint)
open Verif.RomHandler (readBlock writeBlock)

variable {P R δ : Type}

/-- `InterfaceNonlinearFormIntegrator` with its hyper-reduction methods (include/interfaceinteg.hpp,
include/hyperreduction_integ.hpp).  The index of a block is the side, 0 or 1.  `grad` takes the
transformations the finite elements were obtained from, and the current ones.  `fastVec` is the
update of one of the two blocks and `fastGrad` that of one of the four matrices (in the code one call
updates them one after the other). -/
structure Integ (P R δ : Type) where
  rule : Option Nat
  vec : Tr δ → Tr δ → Nat → R → List R → List R → Nat → List R
  grad : Tr δ → Tr δ → Tr δ → Tr δ → Nat → R → List R → List R → Nat → Nat → Mat R
  fastVec : Option P → Tr δ → Tr δ → Nat → R → List R → List R → Nat → List R → Outcome (List R)
  fastGrad : Option P → Tr δ → Tr δ → Nat → R → List R → List R → Nat → Nat → Sp R → Outcome (Sp R)

/-- The members of `ROMInterfaceForm` (include/rom_interfaceform.hpp:20-66) used in evaluation.
`basis` holds `basis[m]` and `basis_dof_offsets[m]`, null before `SetBasisAtComponent`; `offsets` is
`block_offsets`, `none` while they are all -1 (src/rom_interfaceform.cpp:27); `samples` is
`fnfi_sample`. -/
structure Form (P R δ : Type) where
  meshes : List (FMesh δ)
  fes : List Space
  basis : List (Option (Mat R × Int))
  offsets : Option (List Nat)
  precompute : Bool
  fnfi : List (Option (Integ P R δ))
  ports : List Port
  samples : List (Option (List (Sample P R)))

section
variable [CommRing R]

/-- `SetBasisAtComponent`, src/rom_interfaceform.cpp:44-61: `types` is `GetMeshType` of the
subdomains, `csize` the `GetTrueVSize` of the component spaces.  The component arrays, used only in
training, are left out. -/
def Form.setBasisAtComponent (f : Form P R δ) (types : List Nat) (csize : List Nat) (c : Nat)
    (b : Mat R) (off : Int) : Outcome (Form P R δ) := do
  let n ← rd csize c
  require (decide ((n : Int) + off ≤ b.h))
  let bs ← loop f.meshes.length (fun m bs => do
    let t ← rd types m
    if t ≠ c then .ok bs else wr bs m (some (b, off))) f.basis
  return { f with basis := bs }

/-- `UpdateBlockOffsets`, src/rom_interfaceform.cpp:63-74. -/
def Form.updateBlockOffsets (f : Form P R δ) : Outcome (Form P R δ) := do
  require (f.basis.length == f.meshes.length)
  let ws ← loop f.meshes.length (fun m ws => do
    let b ← rd f.basis m
    let b ← nonNull b
    return ws ++ [b.1.w]) []
  return { f with offsets := some ((List.range (ws.length + 1)).map (fun k => (ws.take k).sum)) }

/-- `SteadyNSSolver::AllocateROMEQPElems`, src/steady_ns_solver.cpp:1081-1087: the reference basis of every component
is set, then the offsets.  `bases` is what `GetReferenceBasis` returns for the components in order. -/
def Form.setBases (f : Form P R δ) (types : List Nat) (csize : List Nat) (bases : List (Mat R)) :
    Outcome (Form P R δ) := do
  let f ← loop bases.length (fun c f => do
    let b ← rd bases c
    f.setBasisAtComponent types csize c b 0) f
  f.updateBlockOffsets

/-- `GetElementVDofs` followed by the shift, src/rom_interfaceform.cpp:175-183 and :333-341. -/
def sideRows (s : Space) (off : Int) (t : Tr δ) : Outcome (List Int) := do
  let rows ← rd s.vdofs t.elem
  return if 0 < off then rows.map (fun v => v + off) else rows

/-- What the port-level part of the loops fetches, src/rom_interfaceform.cpp:117-145 and :277-301. -/
structure PortData (R δ : Type) where
  port : Port
  m1 : FMesh δ
  m2 : FMesh δ
  s1 : Space
  s2 : Space
  b1 : Option (Mat R × Int)
  b2 : Option (Mat R × Int)
  x1 : List R
  x2 : List R

def Form.portData (f : Form P R δ) (offs : List Nat) (x : List R) (p : Nat) :
    Outcome (PortData R δ) := do
  let pt ← rd f.ports p
  let m1 ← rd f.meshes pt.mesh1
  let m2 ← rd f.meshes pt.mesh2
  let s1 ← rd f.fes pt.mesh1
  let s2 ← rd f.fes pt.mesh2
  let b1 ← rd f.basis pt.mesh1
  let b2 ← rd f.basis pt.mesh2
  let x1 ← readBlock (⟨x, offs⟩ : BlockVector R) pt.mesh1
  let x2 ← readBlock (⟨x, offs⟩ : BlockVector R) pt.mesh2
  return ⟨pt, m1, m2, s1, s2, b1, b2, x1, x2⟩

/-- `GetInterfaceTransformations` for interface `itf` of the port. -/
def PortData.tr (d : PortData R δ) (itf : Int) : Outcome (Option (Tr δ) × Option (Tr δ)) := do
  let i ← rdI d.port.infos itf
  transformations (d.port.mesh1 == d.port.mesh2) d.m1 d.m2 i

/-- Both pointers, dereferenced. -/
def both (t : Option (Tr δ) × Option (Tr δ)) : Outcome (Tr δ × Tr δ) := do
  let t1 ← deref t.1
  let t2 ← deref t.2
  return (t1, t2)

/-- `if ((tr1 == NULL) || (tr2 == NULL)) mfem_error(...)`. -/
def bothNonNull (t : Option (Tr δ) × Option (Tr δ)) : Outcome (Tr δ × Tr δ) := do
  let t1 ← nonNull t.1
  let t2 ← nonNull t.2
  return (t1, t2)

/-! ## `InterfaceAddMult` -/

/-- `prev_itf`, and the pointers `tr1`, `tr2` (`none` before the first assignment). -/
structure TrCache (δ : Type) where
  prev : Int
  tr : Option (Option (Tr δ) × Option (Tr δ))

/-- src/rom_interfaceform.cpp:156-166. -/
def TrCache.refresh (d : PortData R δ) (itf : Int) (c : TrCache δ) : Outcome (TrCache δ) :=
  if itf ≠ c.prev then do
    let t ← d.tr itf
    return ⟨itf, some t⟩
  else .ok c

/-- The fast call, src/rom_interfaceform.cpp:170-176: `y1` and `y2` are views of the two blocks. -/
def fastVecStep (g : Integ P R δ) (nq : Nat) (d : PortData R δ) (sm : Sample P R)
    (t : Option (Tr δ) × Option (Tr δ)) (y : BlockVector R) : Outcome (BlockVector R) := do
  let t ← both t
  let qp ← intPoint nq sm.qp
  let y1 ← readBlock y d.port.mesh1
  let y1 ← g.fastVec sm.pre t.1 t.2 qp sm.qw d.x1 d.x2 0 y1
  let y ← writeBlock y d.port.mesh1 y1
  let y2 ← readBlock y d.port.mesh2
  let y2 ← g.fastVec sm.pre t.1 t.2 qp sm.qw d.x1 d.x2 1 y2
  writeBlock y d.port.mesh2 y2

/-- The slow evaluation, src/rom_interfaceform.cpp:180-210. -/
def slowVecStep (g : Integ P R δ) (nq : Nat) (d : PortData R δ) (junk : Nat → R)
    (sm : Sample P R) (t : Option (Tr δ) × Option (Tr δ)) (y : BlockVector R) :
    Outcome (BlockVector R) := do
  let t ← bothNonNull t
  let b1 ← deref d.b1
  let b2 ← deref d.b2
  let rows1 ← sideRows d.s1 b1.2 t.1
  let rows2 ← sideRows d.s2 b2.2 t.2
  let e1 ← multSubMatrix b1.1 rows1 d.x1 [] junk
  let e2 ← multSubMatrix b2.1 rows2 d.x2 [] junk
  let qp ← intPoint nq sm.qp
  let v1 := g.vec t.1 t.2 qp sm.qw e1 e2 0
  let v2 := g.vec t.1 t.2 qp sm.qw e1 e2 1
  let y1 ← readBlock y d.port.mesh1
  let y1 ← addMultTransposeSubMatrix b1.1 rows1 v1 y1
  let y ← writeBlock y d.port.mesh1 y1
  let y2 ← readBlock y d.port.mesh2
  let y2 ← addMultTransposeSubMatrix b2.1 rows2 v2 y2
  writeBlock y d.port.mesh2 y2

/-- The loop over the samples of a port, src/rom_interfaceform.cpp:149-212. -/
def vecSamples (pre : Bool) (g : Integ P R δ) (nq : Nat) (d : PortData R δ)
    (junk : Nat → R) (l : List (Sample P R)) (y : BlockVector R) : Outcome (BlockVector R) := do
  let st ← loop l.length (fun i (st : TrCache δ × BlockVector R) => do
    let sm ← rd l i
    let c ← st.1.refresh d sm.el
    let t ← deref c.tr
    let y ← if pre then fastVecStep g nq d sm t st.2 else slowVecStep g nq d junk sm t st.2
    return (c, y)) (⟨-1, none⟩, y)
  return st.2

/-- One port, src/rom_interfaceform.cpp:113-213. -/
def Form.portVec (f : Form P R δ) (offs : List Nat) (x : List R) (junk : Nat → R)
    (g : Integ P R δ) (nq k p : Nat) (y : BlockVector R) : Outcome (BlockVector R) := do
  let d ← f.portData offs x p
  let s ← rd f.samples (p + k * f.ports.length)
  match s with
  | none => .ok y
  | some l => vecSamples f.precompute g nq d junk l y

/-- `ROMInterfaceForm::InterfaceAddMult`, src/rom_interfaceform.cpp:76-225. -/
def Form.addMult (f : Form P R δ) (x y : List R) (junk : Nat → R) : Outcome (List R) := do
  let offs ← nonNull f.offsets
  let last ← rd offs (offs.length - 1)
  require (x.length == last)
  require (y.length == last)
  let y ← loop f.fnfi.length (fun k y => do
    let g ← rd f.fnfi k
    let g ← nonNull g
    let nq ← nonNull g.rule
    loop f.ports.length (fun p y => f.portVec offs x junk g nq k p y) y) (⟨y, offs⟩ : BlockVector R)
  return y.data

/-! ## `InterfaceGetGradient` -/

/-- `prev_itf`, and what is kept for the interface: the transformations the finite elements were
obtained from, the degrees of freedom and the lifted values. -/
structure Cache (R δ : Type) where
  prev : Int
  fe : Option (Tr δ × Tr δ)
  rows1 : List Int
  rows2 : List Int
  e1 : List R
  e2 : List R

/-- src/rom_interfaceform.cpp:325-351. -/
def Cache.refresh (d : PortData R δ) (junk : Nat → R) (itf : Int)
    (t : Option (Tr δ) × Option (Tr δ)) (c : Cache R δ) : Outcome (Cache R δ) :=
  if itf ≠ c.prev then do
    let t ← bothNonNull t
    let b1 ← deref d.b1
    let b2 ← deref d.b2
    let rows1 ← sideRows d.s1 b1.2 t.1
    let rows2 ← sideRows d.s2 b2.2 t.2
    let e1 ← multSubMatrix b1.1 rows1 d.x1 c.e1 junk
    let e2 ← multSubMatrix b2.1 rows2 d.x2 c.e2 junk
    return ⟨itf, some t, rows1, rows2, e1, e2⟩
  else .ok c

/-- `mats_p(i, j)` for all `i, j < 2`, src/rom_interfaceform.cpp:356-359. -/
def addFour (a b : Nat) (u : Nat → Nat → Sp R → Outcome (Sp R)) (mats : MatArr R) :
    Outcome (MatArr R) :=
  loop 2 (fun i mats => loop 2 (fun j mats => mats.modify (side a b i) (side a b j) (u i j)) mats) mats

/-- One sample, src/rom_interfaceform.cpp:313-362. -/
def gradStep (pre : Bool) (g : Integ P R δ) (nq : Nat) (d : PortData R δ) (junk : Nat → R)
    (sm : Sample P R) (st : Cache R δ × MatArr R) : Outcome (Cache R δ × MatArr R) := do
  let t ← d.tr sm.el
  let qp ← intPoint nq sm.qp
  if pre then do
    let t ← both t
    let mats ← addFour d.port.mesh1 d.port.mesh2
      (g.fastGrad sm.pre t.1 t.2 qp sm.qw d.x1 d.x2) st.2
    return (st.1, mats)
  else do
    let c ← st.1.refresh d junk sm.el t
    let fe ← deref c.fe
    let t ← both t
    let b1 ← deref d.b1
    let b2 ← deref d.b2
    let q := g.grad fe.1 fe.2 t.1 t.2 qp sm.qw c.e1 c.e2
    let mats ← addFour d.port.mesh1 d.port.mesh2 (fun i j m => addSubMatrixRtAPSparse
      (if i = 0 then b1.1 else b2.1) (if i = 0 then c.rows1 else c.rows2) (q i j)
      (if j = 0 then b1.1 else b2.1) (if j = 0 then c.rows1 else c.rows2) m junk) st.2
    return (c, mats)

/-- The loop over the samples of a port, src/rom_interfaceform.cpp:308-363. -/
def gradSamples (pre : Bool) (g : Integ P R δ) (nq : Nat) (d : PortData R δ) (junk : Nat → R)
    (l : List (Sample P R)) (mats : MatArr R) : Outcome (MatArr R) := do
  let st ← loop l.length (fun i st => do
    let sm ← rd l i
    gradStep pre g nq d junk sm st) ((⟨-1, none, [], [], [], []⟩ : Cache R δ), mats)
  return st.2

/-- One port, src/rom_interfaceform.cpp:273-364. -/
def Form.portGrad (f : Form P R δ) (offs : List Nat) (x : List R) (junk : Nat → R)
    (g : Integ P R δ) (nq k p : Nat) (mats : MatArr R) : Outcome (MatArr R) := do
  let d ← f.portData offs x p
  mats.view d.port.mesh1 d.port.mesh2
  let s ← rd f.samples (p + k * f.ports.length)
  match s with
  | none => .ok mats
  | some l => gradSamples f.precompute g nq d junk l mats

/-- `ROMInterfaceForm::InterfaceGetGradient`, src/rom_interfaceform.cpp:227-380: unlike
`InterfaceAddMult` it checks neither the block offsets nor the size of `x`. -/
def Form.gradient (f : Form P R δ) (x : List R) (mats : MatArr R) (junk : Nat → R) :
    Outcome (MatArr R) := do
  require (mats.nr == f.meshes.length)
  require (mats.nc == f.meshes.length)
  allSet mats
  let offs ← deref f.offsets
  loop f.fnfi.length (fun k mats => do
    let g ← rd f.fnfi k
    let g ← nonNull g
    let nq ← nonNull g.rule
    loop f.ports.length (fun p mats => f.portGrad offs x junk g nq k p mats) mats) mats

end

end Verif.EqpItf
