import Verif.Model.Pipeline
import Verif.Spec.RomElems
import Verif.Spec.Online
import Verif.Spec.Options

/-!
# Specification: from building a ROM to running it
-/

namespace Verif.Pipeline.Spec

open Verif Verif.LinAlg Verif.RomAssembly Verif.Hdf5 Verif.Hdf5.Spec
open Verif.RomHandler (Handler)
open Verif.RomHandler.Spec (vars Ready)
open Verif.RomAssembly.Spec (Setting FormsOk BasesOk LocalOk refB blockLen)
open Verif.InterfaceForm (MatArr)
open Verif.InterfaceForm.Spec (mget sizeIn)
open Verif.CompSetup.Spec (usedPorts)
open Verif.CompSetup (BdrRow PortRow Topo)
open Verif.Ports (InterfaceInfo)
open Verif.Options (Node Conv key pieces)
open Verif.Options.Spec (Named Blocked)
open Verif.Blocks.Spec (HasSizes)
open Verif.RomElems.Spec (LibOk HasBdr)

variable {R F δ : Type} [CommRing R]

/-- The configuration asks for the building level `lvl` and the file prefix `pre`. -/
def Asks (c : Conv) (cfg : Node) (lvl pre : String) : Prop :=
  Named c.str (key "model_reduction/save_operator/level") lvl cfg ∧
    Named c.str (key "model_reduction/save_operator/prefix") pre cfg

/-- The configuration asks for a ROM that is projected from the full-order operator in every run: the level is
`none`, or there is no level. -/
def AsksNone (c : Conv) (cfg : Node) : Prop :=
  Named c.str (key "model_reduction/save_operator/level") "none" cfg ∨
    ¬ Options.Spec.Exists cfg (pieces '/' (key "model_reduction/save_operator/level")) ∧
      ¬ Blocked cfg (pieces '/' (key "model_reduction/save_operator/level"))

/-- Finalising a matrix (external) gives a proper CSR matrix with the same shape and entries. -/
def Finalizes (fin : Blk R → Csr R) : Prop :=
  ∀ b, CsrOk (fin b) ∧ (fin b).h = b.h ∧ (fin b).w = b.w ∧
    ∀ i j, i < b.h → j < b.w → csrEntry (fin b) i j = b.val i j

/-- A Poisson problem on a component-wise topology, with full-order matrix `M`. -/
structure Poisson (P : Prob R F) (f : Forms R δ) (refItfs : List (List InterfaceInfo))
    (zf : List Nat) (M : MatArr R) : Prop where
  lib : P.submesh = false ∧ LibOk P.lib ∧ HasBdr P.lib
  one : vars P.h = 1
  bases : BasesOk P.h P.comps.length
  sizes : ∀ c, c < P.comps.length → (refB P.h c 0).h = sizeIn f.ctest c ∧
    (refB P.h c 0).h = sizeIn f.ctrial c
  setting : ∃ (bdr : List BdrRow) (ports : List PortRow) (t : Topo) (mks : List (List Int))
      (zr : List Nat), Setting P.h P.comps bdr ports P.refPorts refItfs t P.bc mks ∧
    Ready P.h zr zf ∧
    FormsOk f P.h.meshType P.comps (usedPorts ports P.refPorts) t.infos P.refPorts refItfs ∧
    P.c2g = t.c2g ∧ P.rows = usedPorts ports P.refPorts ∧
    fomMats P.bc mks t.mesh f.sub f.itf = .ok M
  locals : P.locals = poissonLocals f P.comps P.refPorts refItfs
  fom : P.fom = .ok (poissonFom M)
  rhs : HasSizes (Online.view P.h P.varOffs P.domOffs P.rhs) zf
  U : HasSizes (Online.view P.h P.varOffs P.domOffs P.U) zf

/-- A Stokes problem on a component-wise topology, with full-order matrices `M` and `B`. -/
structure Stokes (P : Prob R F) (fm fb : Forms R δ) (refItfs : List (List InterfaceInfo))
    (zf : List Nat) (M B : MatArr R) : Prop where
  lib : P.submesh = false ∧ LibOk P.lib ∧ HasBdr P.lib
  two : vars P.h = if P.h.separate then 2 else 1
  bases : BasesOk P.h P.comps.length
  sizes : ∀ c, c < P.comps.length → sizeIn fm.ctrial c = sizeIn fm.ctest c ∧
    sizeIn fb.ctrial c = sizeIn fm.ctest c ∧ ∀ v, v < vars P.h → (refB P.h c v).h =
      blockLen P.h.separate (sizeIn fm.ctest c) (sizeIn fb.ctest c) v
  setting : ∃ (bdr : List BdrRow) (ports : List PortRow) (t : Topo) (mks : List (List Int))
      (zr : List Nat), Setting P.h P.comps bdr ports P.refPorts refItfs t P.bc mks ∧
    Ready P.h zr zf ∧
    FormsOk fm P.h.meshType P.comps (usedPorts ports P.refPorts) t.infos P.refPorts refItfs ∧
    FormsOk fb P.h.meshType P.comps (usedPorts ports P.refPorts) t.infos P.refPorts refItfs ∧
    P.c2g = t.c2g ∧ P.rows = usedPorts ports P.refPorts ∧
    fomMats P.bc mks t.mesh fm.sub fm.itf = .ok M ∧ fomMixed P.bc mks t.mesh fb.sub fb.itf = .ok B
  locals : P.locals = stokesLocals P.h.separate fm fb P.comps P.refPorts refItfs
  fom : P.fom = .ok (stokesFom P.h.separate M B)
  rhs : HasSizes (Online.view P.h P.varOffs P.domOffs P.rhs) zf
  U : HasSizes (Online.view P.h P.varOffs P.domOffs P.U) zf

/-- Any linear problem, component-wise or not: its full-order operators are `G`. -/
structure Linear (P : Prob R F) (zf : List Nat) (G : Nat → Nat → Local R) : Prop where
  ready : ∃ zr, Ready P.h zr zf
  bases : ∃ nc, BasesOk P.h nc
  fom : ∃ L, P.fom = .ok L ∧ ∀ i j, i < P.h.numSub → j < P.h.numSub → L i j = .ok (G i j)
  ops : ∀ i j, i < P.h.numSub → j < P.h.numSub →
    LocalOk P.h (P.h.meshType[i]?.getD 0) (P.h.meshType[j]?.getD 0) (G i j)
  rhs : HasSizes (Online.view P.h P.varOffs P.domOffs P.rhs) zf
  U : HasSizes (Online.view P.h P.varOffs P.domOffs P.U) zf

/-- Every component and reference port of `P'` is known in `P` by name, with the same boundaries, the
same interface and the same bases. -/
structure Knows (P P' : Prob R F) (refItfs refItfs' : List (List InterfaceInfo)) : Prop where
  separate : P.h.separate = P'.h.separate
  vars : vars P.h = vars P'.h
  names : ∀ n ∈ P'.names, n ∈ P.names
  comp : ∀ (c c' : Nat) n, P.names[c]? = some n → P'.names[c']? = some n →
    P.comps[c]? = P'.comps[c']? ∧ ∀ v, v < RomHandler.Spec.vars P.h → refB P.h c v = refB P'.h c' v
  ports : ∀ p', p' < P'.refPorts.length →
    ∃ p, p < P.refPorts.length ∧ EqpStore.Spec.SamePort P.lib.topo P'.lib.topo p p'
  itfs : ∀ p p', EqpStore.Spec.SamePort P.lib.topo P'.lib.topo p p' → refItfs[p]? = refItfs'[p']?

/-- Components of the same name carry the same forms, meshes and spaces in both problems, and the
interface integrators are the same. -/
structure SameForms (P P' : Prob R F) (f f' : Forms R δ) : Prop where
  integs : f.itf.fnfi = f'.itf.fnfi
  comp : ∀ (c c' : Nat) n, P.names[c]? = some n → P'.names[c']? = some n →
    f.comp[c]? = f'.comp[c']? ∧ f.cmeshes[c]? = f'.cmeshes[c']? ∧ f.ctest[c]? = f'.ctest[c']? ∧
      f.ctrial[c]? = f'.ctrial[c']?

/-- `u` is the Galerkin solution of `A u = rhs` for problem `P`: it lies in the span of the bases, its
residual is orthogonal to them, and it is the full-order solution if that lies in the span. -/
structure Galerkin (P : Prob R F) (zf : List Nat) (A : Nat → Nat → Nat → Nat → Nat → Nat → R)
    (u : List R) : Prop where
  size : HasSizes (Online.view P.h P.varOffs P.domOffs u) zf
  span : Online.Spec.InSpan P.h (Online.view P.h P.varOffs P.domOffs u)
  orth : Online.Spec.Orthogonal P.h A (Online.view P.h P.varOffs P.domOffs P.rhs)
    (Online.view P.h P.varOffs P.domOffs u)
  exact : ∀ u' : List R, HasSizes (Online.view P.h P.varOffs P.domOffs u') zf →
    Online.Spec.InSpan P.h (Online.view P.h P.varOffs P.domOffs u') →
    Online.Spec.Solves P.h A (Online.view P.h P.varOffs P.domOffs P.rhs)
      (Online.view P.h P.varOffs P.domOffs u') → u = u'

/-- What a stored ROM promises: only the file named by the prefix is written, and every later run of
`P'` with configuration `cfg'` that finds this file returns the Galerkin solution, the one a run without
stored operator returns. -/
def Serves (c : Conv) (cfg cfg' : Node) (pre : String) (fin : Blk R → Csr R) (P P' : Prob R F)
    (zf : List Nat) (A : Nat → Nat → Nat → Nat → Nat → Nat → R) : Prop :=
  ∀ d : Disk R, ∃ d', buildROM c cfg fin P d = .ok d' ∧ (∀ n, n ≠ pre ++ ".h5" → d' n = d n) ∧
    ∀ e : Disk R, e (pre ++ ".h5") = d' (pre ++ ".h5") → Online.Spec.Regular P'.h A →
    ∀ solver : Blk R → List R → List R → List R, Online.Spec.Exact solver → ∀ junk, ∃ u,
      singleRun c cfg' P' solver junk e = .ok u ∧ Galerkin P' zf A u ∧
      ∀ cfg0, AsksNone c cfg0 → ∀ junk0 e0, singleRun c cfg0 P' solver junk0 e0 = .ok u

end Verif.Pipeline.Spec
