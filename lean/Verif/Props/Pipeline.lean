import Verif.Proofs.Pipeline
import Verif.Props.Online
import Verif.Props.Options

/-! # Property C93: a ROM built in one program run and used in another -/

namespace Verif.Pipeline

open Verif Verif.LinAlg Verif.RomAssembly Verif.Hdf5 Verif.Hdf5.Spec Spec
open Verif.RomHandler (Handler)
open Verif.RomHandler.Spec (vars Ready romBlock)
open Verif.RomAssembly.Spec (galerkin refB)
open Verif.InterfaceForm (MatArr)
open Verif.InterfaceForm.Spec (mget sizeIn)
open Verif.Ports (InterfaceInfo)
open Verif.Options (Node Conv)
open Verif.Blocks.Spec (HasSizes)
open Verif.Online (Projects stokesA)
open Verif.Online.Spec (Regular Exact)
open Verif.RomElems.Spec (LibOk HasBdr)
open Verif.Unsteady (Shapes)

variable {R F δ : Type} [Field R]

/-- What every linear problem gives: the projected operator. -/
structure PCore (P : Prob R F) (zr zf : List Nat) (A : Nat → Nat → Nat → Nat → Nat → Nat → R)
    (rom' : BlockMat R) : Prop where
  ready : Ready P.h zr zf
  prj : projected P = .ok rom'
  p2 : Projects P.h zr A rom'
  owns : rom'.ownsBlocks = true
  rhs : HasSizes (Online.view P.h P.varOffs P.domOffs P.rhs) zf
  U : HasSizes (Online.view P.h P.varOffs P.domOffs P.U) zf

/-- What component-wise problems give besides: elements and the assembled operator. -/
structure Core (P : Prob R F) (zr zf : List Nat) (A : Nat → Nat → Nat → Nat → Nat → Nat → R)
    (el : RomAssembly.RomElems R) (rom rom' : BlockMat R) : Prop extends PCore P zr zf A rom' where
  elems : buildElems P.h P.comps P.refPorts P.locals = .ok el
  asm : assembleROM P.h P.bc P.c2g P.rows el = .ok rom
  p1 : Projects P.h zr A rom

theorem linear_core {P : Prob R F} {zf : List Nat} {G : Nat → Nat → Local R} (h : Linear P zf G) :
    ∃ zr rom, PCore P zr zf (fun m m' v w => RomAssembly.Spec.lent (G m m') v w) rom := by
  obtain ⟨zr, hr⟩ := h.ready
  obtain ⟨nc, hb⟩ := h.bases
  obtain ⟨L, eL, hL⟩ := h.fom
  obtain ⟨rom, e, -, hv⟩ := projectFom_entries hr hb hL h.ops
  obtain ⟨t1, t2, t3⟩ := Online.projectFom_shapes hr e
  exact ⟨zr, rom, hr, by unfold projected; rw [eL, ok_bind, e], ⟨t2, t3, t1, hv⟩, projectFom_owns e,
    h.rhs, h.U⟩

theorem core_of {P : Prob R F} {zr zf : List Nat} (hr : Ready P.h zr zf)
    {A : Nat → Nat → Nat → Nat → Nat → Nat → R} {el : RomAssembly.RomElems R} {rom rom' : BlockMat R}
    {L : Nat → Nat → Outcome (Local R)} (hL : P.fom = .ok L)
    (e1 : buildElems P.h P.comps P.refPorts P.locals = .ok el)
    (e2 : assembleROM P.h P.bc P.c2g P.rows el = .ok rom) (e3 : projectFom P.h L = .ok rom')
    (hval : ∀ m m' v w p q, m < P.h.numSub → m' < P.h.numSub → v < vars P.h → w < vars P.h →
      p < (Online.Spec.V P.h m v).w → q < (Online.Spec.V P.h m' w).w →
      bval rom (romBlock P.h m v) (romBlock P.h m' w) p q =
        bval rom' (romBlock P.h m v) (romBlock P.h m' w) p q ∧
      bval rom (romBlock P.h m v) (romBlock P.h m' w) p q =
        galerkin (Online.Spec.V P.h m v) (Online.Spec.V P.h m' w) (A m m' v w) p q)
    (hR : HasSizes (Online.view P.h P.varOffs P.domOffs P.rhs) zf)
    (hU : HasSizes (Online.view P.h P.varOffs P.domOffs P.U) zf) : Core P zr zf A el rom rom' := by
  obtain ⟨s1, s2, s3⟩ := Online.assembleROM_shapes hr.offs e2
  obtain ⟨t1, t2, t3⟩ := Online.projectFom_shapes hr e3
  refine ⟨⟨hr, ?_, ⟨t2, t3, t1, ?_⟩, projectFom_owns e3, hR, hU⟩, e1, e2,
    ⟨s2.unique hr.offs, s3.unique hr.offs, s1,
      fun m m' v w p q a b c d e f => (hval m m' v w p q a b c d e f).2⟩⟩
  · unfold projected; rw [hL, ok_bind, e3]
  · intro m m' v w p q a b c d e f
    rw [← (hval m m' v w p q a b c d e f).1, (hval m m' v w p q a b c d e f).2]

theorem poisson_core {P : Prob R F} {f : Forms R δ} {refItfs : List (List InterfaceInfo)}
    {zf : List Nat} {M : MatArr R} (h : Poisson P f refItfs zf M) :
    ∃ zr el rom rom', Core P zr zf (fun m m' _ _ => mget M m m') el rom rom' := by
  obtain ⟨bdr, ports, t, mks, zr, S, hr, hf, c2g, rows, eM⟩ := h.setting
  obtain ⟨M', el, rom, rom', eM', e1, e2, e3, e4⟩ := poisson_assembly S hr h.one h.bases hf h.sizes
  rw [eM] at eM'
  cases eM'
  refine ⟨zr, el, rom, rom', core_of hr h.fom (by rw [h.locals]; exact e1)
    (by rw [c2g, rows]; exact e2) e3 (fun m m' v w p q hm hm' hv hw hp hq => ?_) h.rhs h.U⟩
  have h1 := h.one
  have hv0 : v = 0 := by omega
  have hw0 : w = 0 := by omega
  subst hv0 hw0
  exact e4 m m' p q hm hm' hp hq

theorem stokes_core {P : Prob R F} {fm fb : Forms R δ} {refItfs : List (List InterfaceInfo)}
    {zf : List Nat} {M B : MatArr R} (h : Stokes P fm fb refItfs zf M B) :
    ∃ zr el rom rom', Core P zr zf (stokesA P.h (sizeIn fm.itf.test) M B) el rom rom' := by
  obtain ⟨bdr, ports, t, mks, zr, S, hr, hf, hd, c2g, rows, eM, eB⟩ := h.setting
  obtain ⟨M', B', el, rom, rom', eM', eB', e1, e2, e3, e4⟩ :=
    stokes_assembly S hr h.two h.bases hf hd h.sizes
  rw [eM] at eM'
  cases eM'
  rw [eB] at eB'
  cases eB'
  exact ⟨zr, el, rom, rom', core_of hr h.fom (by rw [h.locals]; exact e1)
    (by rw [c2g, rows]; exact e2) e3 e4 h.rhs h.U⟩

omit [Field R] in
theorem data_of_view {h : Handler R} {varOffs domOffs : List Nat} {x y : List R}
    (e : Online.view h varOffs domOffs x = Online.view h varOffs domOffs y) : x = y := by
  unfold Online.view at e
  split at e <;> exact congrArg Blocks.BlockVector.data e

/-- The run with a reduced operator that projects `A`. -/
theorem run_core {P : Prob R F} {zr zf : List Nat} (hr : Ready P.h zr zf)
    {A : Nat → Nat → Nat → Nat → Nat → Nat → R} {rom : BlockMat R} (hp : Projects P.h zr A rom)
    (hreg : Regular P.h A) {solver : Blk R → List R → List R → List R} (hs : Exact solver)
    (hR : HasSizes (Online.view P.h P.varOffs P.domOffs P.rhs) zf)
    (hU : HasSizes (Online.view P.h P.varOffs P.domOffs P.U) zf) (junk : Nat → R) :
    ∃ u, Online.online P.h rom solver P.varOffs P.domOffs P.rhs P.U junk = .ok u ∧ Galerkin P zf A u := by
  obtain ⟨u, g1, g2, g3, g4⟩ := Online.online_galerkin hr hp hreg hs hR hU junk
  exact ⟨u, g1, g2, g3, g4, fun u' k1 k2 k3 => data_of_view
    (Online.galerkin_unique hr hreg g2 k1 g3 k2 g4 (Online.solves_orthogonal k3))⟩

theorem galerkin_eq {P : Prob R F} {zr zf : List Nat} (hr : Ready P.h zr zf)
    {A : Nat → Nat → Nat → Nat → Nat → Nat → R} (hreg : Regular P.h A) {u u' : List R}
    (h : Galerkin P zf A u) (h' : Galerkin P zf A u') : u = u' :=
  data_of_view (Online.galerkin_unique hr hreg h.size h'.size h.span h'.span h.orth h'.orth)

omit [Field R] in
theorem put_self (d : Disk R) (n : String) (f : File R) : (d.put n f) n = some f := if_pos rfl

omit [Field R] in
theorem put_ne (d : Disk R) {n k : String} (f : File R) (h : k ≠ n) : (d.put n f) k = d k := if_neg h

/-- A run with an operator that projects `A` returns what the run without stored operator returns. -/
theorem serves_run {c : Conv} {cfg' : Node} {P' : Prob R F} {zr zf : List Nat}
    {A : Nat → Nat → Nat → Nat → Nat → Nat → R} {rom' r : BlockMat R}
    (K : PCore P' zr zf A rom') {e : Disk R} (he : reducedOperator c cfg' P' e = .ok r)
    (hp : Projects P'.h zr A r) (hreg : Regular P'.h A) {solver : Blk R → List R → List R → List R}
    (hs : Exact solver) (junk : Nat → R) : ∃ u,
      singleRun c cfg' P' solver junk e = .ok u ∧ Galerkin P' zf A u ∧
      ∀ cfg0, AsksNone c cfg0 → ∀ junk0 e0, singleRun c cfg0 P' solver junk0 e0 = .ok u := by
  obtain ⟨u, u1, u2⟩ := run_core K.ready hp hreg hs K.rhs K.U junk
  refine ⟨u, ?_, u2, fun cfg0 h0 junk0 e0 => ?_⟩
  · unfold singleRun; rw [he, ok_bind, u1]
  · obtain ⟨u', u1', u2'⟩ := run_core K.ready K.p2 hreg hs K.rhs K.U junk0
    have := galerkin_eq K.ready hreg u2 u2'
    subst this
    unfold singleRun reducedOperator
    rw [readLevel_none h0, ok_bind]
    dsimp only
    rw [K.prj, ok_bind, u1']

theorem component_serves {P P' : Prob R F} {refItfs refItfs' : List (List InterfaceInfo)}
    (hk : Knows P P' refItfs refItfs') (hsl : SameLocals P P')
    (hl : P.submesh = false ∧ LibOk P.lib ∧ HasBdr P.lib)
    (hl' : P'.submesh = false ∧ LibOk P'.lib ∧ HasBdr P'.lib)
    (hb : RomAssembly.Spec.BasesOk P.h P.comps.length)
    (hb' : RomAssembly.Spec.BasesOk P'.h P'.comps.length) (hv : 0 < vars P.h)
    {zr zf zr' zf' : List Nat} {A A' : Nat → Nat → Nat → Nat → Nat → Nat → R}
    {el el' : RomAssembly.RomElems R} {r1 r2 r1' r2' : BlockMat R} (K : Core P zr zf A el r1 r2)
    (K' : Core P' zr' zf' A' el' r1' r2') {fin : Blk R → Csr R} (hf : Finalizes fin) {c : Conv}
    {cfg cfg' : Node} {pre : String} (ha : Asks c cfg "component" pre) (ha' : Asks c cfg' "component" pre) :
    Serves c cfg cfg' pre fin P P' zf' A' := by
  intro d
  obtain ⟨f, rom, ef, er, hn⟩ := component_near hk hsl hl.2.1 hl'.2.1 hl'.2.2 hb hb' hv hf K.elems
    K'.elems K'.asm
  refine ⟨d.put (pre ++ ".h5") f, ?_, fun n hne => put_ne _ _ hne, fun e he hreg solver hs junk => ?_⟩
  · unfold buildROM
    rw [readLevel_component ha, ok_bind]
    dsimp only
    rw [hl.1, Bool.not_false, require_true, ok_bind, ef, ok_bind]
    rfl
  · rw [put_self] at he
    refine serves_run K'.toPCore (r := rom) ?_ ?_ hreg hs junk
    · unfold reducedOperator
      rw [readLevel_component ha', ok_bind]
      dsimp only
      rw [hl'.1, Bool.not_false, require_true, ok_bind]
      unfold Disk.get
      rw [he]
      dsimp only
      rw [ok_bind, er]
    · refine near_projects K'.ready K'.p1 hn ?_
      unfold loadComponent at er
      obtain ⟨e2, -, er⟩ := bind_eq_ok.1 er
      exact (Online.assembleROM_shapes K'.ready.offs er).1

theorem global_serves {P P' : Prob R F} (hh : P.h = P'.h) (hv : 0 < vars P.h) (h0 : 0 < P.h.numSub)
    {zr zf zr' zf' : List Nat} {A : Nat → Nat → Nat → Nat → Nat → Nat → R}
    {r2 r2' : BlockMat R} (K : PCore P zr zf A r2) (K' : PCore P' zr' zf' A r2') {fin : Blk R → Csr R} (hf : Finalizes fin) {c : Conv}
    {cfg cfg' : Node} {pre : String} (ha : Asks c cfg "global" pre) (ha' : Asks c cfg' "global" pre) :
    Serves c cfg cfg' pre fin P P' zf' A := by
  intro d
  have hlen : 0 < zr.length := by
    rw [K.ready.lenR]; exact Nat.mul_pos h0 hv
  have hzz : zr = zr' := by
    refine List.ext_getElem? fun i => ?_
    have l1 := K.ready.lenR
    have l2 := K'.ready.lenR
    rw [← hh] at l2
    by_cases hi : i < zr.length
    · have h1 := K.ready.offs
      have h2 := K'.ready.offs
      rw [← hh] at h2
      obtain ⟨o1, a1, a2⟩ := h1.2.2 i _ (List.getElem?_eq_getElem hi)
      obtain ⟨o2, b1, b2⟩ := h2.2.2 i _ (List.getElem?_eq_getElem (show i < zr'.length by omega))
      rw [a1] at b1
      cases b1
      rw [a2] at b2
      rw [List.getElem?_eq_getElem hi, List.getElem?_eq_getElem (show i < zr'.length by omega)]
      have := Option.some.inj b2
      congr 1
      omega
    · rw [List.getElem?_eq_none (by omega), List.getElem?_eq_none (by omega)]
  subst hzz
  obtain ⟨f, rom, ef, er, hn, hsh, -, -⟩ := global_near K.ready.offs hlen hf K.p2.shapes K.p2.roffs
    K.p2.coffs K.owns
  refine ⟨d.put (pre ++ ".h5") f, ?_, fun n hne => put_ne _ _ hne, fun e he hreg solver hs junk => ?_⟩
  · unfold buildROM
    rw [readLevel_global ha, ok_bind]
    dsimp only
    rw [K.prj, ok_bind, ef, ok_bind]
    rfl
  · rw [put_self] at he
    refine serves_run K' (r := rom) ?_ ?_ hreg hs junk
    · unfold reducedOperator
      rw [readLevel_global ha', ok_bind]
      dsimp only
      unfold Disk.get
      rw [he]
      dsimp only
      rw [ok_bind, ← hh, er]
    · rw [← hh]
      exact near_projects K.ready K.p2 hn hsh

/-! ## The theorems -/

/-- **C93**, Poisson, component level. -/
theorem poisson_component {P P' : Prob R F} {f f' : Forms R δ} {refItfs refItfs' : List (List InterfaceInfo)}
    {zf zf' : List Nat} {M M' : MatArr R} (h : Poisson P f refItfs zf M)
    (h' : Poisson P' f' refItfs' zf' M') (hk : Knows P P' refItfs refItfs') (hs : SameForms P P' f f')
    {fin : Blk R → Csr R} (hf : Finalizes fin) {c : Conv} {cfg cfg' : Node} {pre : String}
    (ha : Asks c cfg "component" pre) (ha' : Asks c cfg' "component" pre) :
    Serves c cfg cfg' pre fin P P' zf' (fun m m' _ _ => mget M' m m') := by
  obtain ⟨zr, el, r1, r2, K⟩ := poisson_core h
  obtain ⟨zr', el', r1', r2', K'⟩ := poisson_core h'
  exact component_serves hk (poisson_same hk hs h.locals h'.locals) h.lib h'.lib h.bases h'.bases
    (by rw [h.one]; exact Nat.one_pos) K K' hf ha ha'

/-- **C93**, Stokes, component level, with separate or common bases. -/
theorem stokes_component {P P' : Prob R F} {fm fb fm' fb' : Forms R δ}
    {refItfs refItfs' : List (List InterfaceInfo)} {zf zf' : List Nat} {M B M' B' : MatArr R}
    (h : Stokes P fm fb refItfs zf M B) (h' : Stokes P' fm' fb' refItfs' zf' M' B')
    (hk : Knows P P' refItfs refItfs') (hs : SameForms P P' fm fm') (hd : SameForms P P' fb fb')
    {fin : Blk R → Csr R} (hf : Finalizes fin) {c : Conv} {cfg cfg' : Node} {pre : String}
    (ha : Asks c cfg "component" pre) (ha' : Asks c cfg' "component" pre) :
    Serves c cfg cfg' pre fin P P' zf' (stokesA P'.h (sizeIn fm'.itf.test) M' B') := by
  obtain ⟨zr, el, r1, r2, K⟩ := stokes_core h
  obtain ⟨zr', el', r1', r2', K'⟩ := stokes_core h'
  exact component_serves hk (stokes_same hk hs hd h.locals h'.locals) h.lib h'.lib h.bases h'.bases
    (by rw [h.two]; split <;> decide) K K' hf ha ha'

/-- **C93**, global level, for every linear problem. -/
theorem linear_global {P P' : Prob R F} {zf zf' : List Nat} {G : Nat → Nat → Local R} (h : Linear P zf G)
    (h' : Linear P' zf' G) (hh : P.h = P'.h) (hv : 0 < vars P.h) (h0 : 0 < P.h.numSub)
    {fin : Blk R → Csr R} (hf : Finalizes fin) {c : Conv} {cfg cfg' : Node} {pre : String}
    (ha : Asks c cfg "global" pre) (ha' : Asks c cfg' "global" pre) :
    Serves c cfg cfg' pre fin P P' zf' (fun m m' v w => RomAssembly.Spec.lent (G m m') v w) := by
  obtain ⟨zr, r, K⟩ := linear_core h
  obtain ⟨zr', r', K'⟩ := linear_core h'
  exact global_serves hh hv h0 K K' hf ha ha'

/-- **C93**, Poisson, global level. -/
theorem poisson_global {P P' : Prob R F} {f f' : Forms R δ} {refItfs refItfs' : List (List InterfaceInfo)}
    {zf zf' : List Nat} {M : MatArr R} (h : Poisson P f refItfs zf M)
    (h' : Poisson P' f' refItfs' zf' M) (hh : P.h = P'.h) (h0 : 0 < P.h.numSub)
    {fin : Blk R → Csr R} (hf : Finalizes fin) {c : Conv} {cfg cfg' : Node} {pre : String}
    (ha : Asks c cfg "global" pre) (ha' : Asks c cfg' "global" pre) :
    Serves c cfg cfg' pre fin P P' zf' (fun m m' _ _ => mget M m m') := by
  obtain ⟨zr, el, r1, r2, K⟩ := poisson_core h
  obtain ⟨zr', el', r1', r2', K'⟩ := poisson_core h'
  exact global_serves hh (by rw [h.one]; exact Nat.one_pos) h0 K.toPCore K'.toPCore hf ha ha'

/-- **C93**, Stokes, global level. -/
theorem stokes_global {P P' : Prob R F} {fm fb fb' : Forms R δ}
    {refItfs refItfs' : List (List InterfaceInfo)} {zf zf' : List Nat} {M B : MatArr R}
    (h : Stokes P fm fb refItfs zf M B) (h' : Stokes P' fm fb' refItfs' zf' M B) (hh : P.h = P'.h)
    (h0 : 0 < P.h.numSub) {fin : Blk R → Csr R} (hf : Finalizes fin) {c : Conv} {cfg cfg' : Node}
    {pre : String} (ha : Asks c cfg "global" pre) (ha' : Asks c cfg' "global" pre) :
    Serves c cfg cfg' pre fin P P' zf' (stokesA P'.h (sizeIn fm.itf.test) M B) := by
  obtain ⟨zr, el, r1, r2, K⟩ := stokes_core h
  obtain ⟨zr', el', r1', r2', K'⟩ := stokes_core h'
  rw [hh] at K
  exact global_serves hh (by rw [h.two]; split <;> decide) h0 K.toPCore K'.toPCore hf ha ha'

section
variable {c : Conv} {cfg cfg' : Node} {pre : String} {solver : Blk R → List R → List R → List R}

/-- A run whose file is missing stops. -/
theorem missing_file_aborts {lvl : String} (hlvl : lvl = "component" ∨ lvl = "global")
    (ha : Asks c cfg lvl pre) (P : Prob R F) (junk : Nat → R) (d : Disk R) (hd : d (pre ++ ".h5") = none) :
    singleRun c cfg P solver junk d = .error .abort := by
  unfold singleRun reducedOperator
  rcases hlvl with rfl | rfl
  · rw [readLevel_component ha, ok_bind]
    dsimp only
    cases P.submesh
    · rw [Bool.not_false, require_true, ok_bind]
      unfold Disk.get
      rw [hd]; rfl
    · rfl
  · rw [readLevel_global ha, ok_bind]
    dsimp only
    unfold Disk.get
    rw [hd]; rfl

/-- Component-wise building needs a component-wise topology, in both programs. -/
theorem submesh_aborts (ha : Asks c cfg "component" pre) {P : Prob R F} (hP : P.submesh = true)
    (fin : Blk R → Csr R) (junk : Nat → R) (d : Disk R) : buildROM c cfg fin P d = .error .abort ∧
      singleRun c cfg P solver junk d = .error .abort := by
  constructor
  · unfold buildROM
    rw [readLevel_component ha, ok_bind]
    dsimp only
    rw [hP]; rfl
  · unfold singleRun reducedOperator
    rw [readLevel_component ha, ok_bind]
    dsimp only
    rw [hP]; rfl

/-- Without stored operator nothing is written. -/
theorem none_writes_nothing (ha : AsksNone c cfg) (fin : Blk R → Csr R) (P : Prob R F) (d : Disk R) :
    buildROM c cfg fin P d = .ok d := by
  unfold buildROM
  rw [readLevel_none ha, ok_bind]
  rfl

/-- A file built at component level does not serve a run at global level. -/
theorem component_then_global {zr zf : List Nat} {A : Nat → Nat → Nat → Nat → Nat → Nat → R}
    {el : RomAssembly.RomElems R} {r1 r2 : BlockMat R} {P : Prob R F} (K : Core P zr zf A el r1 r2)
    (hl : LibOk P.lib) (hv : 0 < vars P.h) {fin : Blk R → Csr R} (hf : Finalizes fin)
    (ha : Asks c cfg "component" pre) (ha' : Asks c cfg' "global" pre) {d d' : Disk R}
    (hb : buildROM c cfg fin P d = .ok d') (P' : Prob R F) (junk : Nat → R) :
    singleRun c cfg' P' solver junk d' = .error .abort := by
  unfold buildROM at hb
  rw [readLevel_component ha, ok_bind] at hb
  dsimp only at hb
  obtain ⟨_, _, hb⟩ := bind_eq_ok.1 hb
  obtain ⟨f, ef, hb⟩ := bind_eq_ok.1 hb
  cases hb
  unfold singleRun reducedOperator
  rw [readLevel_global ha', ok_bind]
  dsimp only
  unfold Disk.get
  rw [put_self]
  dsimp only
  rw [ok_bind, component_file_rejected hl hv hf K.elems ef]
  rfl

/-- A file built at global level does not serve a run at component level. -/
theorem global_then_component {zr zf : List Nat} {A : Nat → Nat → Nat → Nat → Nat → Nat → R}
    {r2 : BlockMat R} {P : Prob R F} (K : PCore P zr zf A r2)
    (h0 : 0 < P.h.numSub) (hv : 0 < vars P.h) {fin : Blk R → Csr R} (hf : Finalizes fin)
    (ha : Asks c cfg "global" pre) (ha' : Asks c cfg' "component" pre) {d d' : Disk R}
    (hb : buildROM c cfg fin P d = .ok d') (P' : Prob R F) (junk : Nat → R) :
    singleRun c cfg' P' solver junk d' = .error .abort := by
  have hlen : 0 < zr.length := by
    rw [K.ready.lenR]; exact Nat.mul_pos h0 hv
  unfold buildROM at hb
  rw [readLevel_global ha, ok_bind] at hb
  dsimp only at hb
  obtain ⟨r, er, hb⟩ := bind_eq_ok.1 hb
  obtain ⟨f, ef, hb⟩ := bind_eq_ok.1 hb
  cases hb
  rw [K.prj] at er
  cases er
  unfold singleRun reducedOperator
  rw [readLevel_component ha', ok_bind]
  dsimp only
  unfold Disk.get
  rw [put_self]
  dsimp only
  cases P'.submesh
  · rw [Bool.not_false, require_true, ok_bind, ok_bind,
      global_file_rejected K.ready.offs hlen hf K.p2.shapes K.p2.roffs K.p2.coffs ef]
    rfl
  · rfl

end

/-- **C93**, levels: the two kinds of files are not mistaken for each other, for Poisson problems. -/
theorem poisson_wrong_level {P : Prob R F} {f : Forms R δ} {refItfs : List (List InterfaceInfo)}
    {zf : List Nat} {M : MatArr R} (h : Poisson P f refItfs zf M) (h0 : 0 < P.h.numSub)
    {fin : Blk R → Csr R} (hf : Finalizes fin) {c : Conv} {cfg cfg' : Node} {pre lvl lvl' : String}
    (ha : Asks c cfg lvl pre) (ha' : Asks c cfg' lvl' pre)
    (hlvl : lvl = "component" ∧ lvl' = "global" ∨ lvl = "global" ∧ lvl' = "component")
    {d d' : Disk R} (hb : buildROM c cfg fin P d = .ok d') (P' : Prob R F)
    (solver : Blk R → List R → List R → List R) (junk : Nat → R) :
    singleRun c cfg' P' solver junk d' = .error .abort := by
  obtain ⟨zr, el, r1, r2, K⟩ := poisson_core h
  have hv : 0 < vars P.h := by rw [h.one]; exact Nat.one_pos
  rcases hlvl with ⟨rfl, rfl⟩ | ⟨rfl, rfl⟩
  · exact component_then_global K h.lib.2.1 hv hf ha ha' hb P' junk
  · exact global_then_component K.toPCore h0 hv hf ha ha' hb P' junk

/-- **C93**, levels: the same for Stokes problems. -/
theorem stokes_wrong_level {P : Prob R F} {fm fb : Forms R δ} {refItfs : List (List InterfaceInfo)}
    {zf : List Nat} {M B : MatArr R} (h : Stokes P fm fb refItfs zf M B) (h0 : 0 < P.h.numSub)
    {fin : Blk R → Csr R} (hf : Finalizes fin) {c : Conv} {cfg cfg' : Node} {pre lvl lvl' : String}
    (ha : Asks c cfg lvl pre) (ha' : Asks c cfg' lvl' pre)
    (hlvl : lvl = "component" ∧ lvl' = "global" ∨ lvl = "global" ∧ lvl' = "component")
    {d d' : Disk R} (hb : buildROM c cfg fin P d = .ok d') (P' : Prob R F)
    (solver : Blk R → List R → List R → List R) (junk : Nat → R) :
    singleRun c cfg' P' solver junk d' = .error .abort := by
  obtain ⟨zr, el, r1, r2, K⟩ := stokes_core h
  have hv : 0 < vars P.h := by rw [h.two]; split <;> decide
  rcases hlvl with ⟨rfl, rfl⟩ | ⟨rfl, rfl⟩
  · exact component_then_global K h.lib.2.1 hv hf ha ha' hb P' junk
  · exact global_then_component K.toPCore h0 hv hf ha ha' hb P' junk

/-! ## A concrete case: a ROM built on one component serves two of them joined by a port -/

section Example

open Verif.CompSetup (exComps exRef exTopo Topo BdrRow)
open Verif.CompSetup.Spec (usedPorts)
open Verif.InterfaceForm (exMesh exSpace)
open Verif.InterfaceForm.Spec (SpaceOk)
open Verif.RomAssembly.Spec
open Verif.Online (exHQ exPQ exPQ_ok exHQ_ready exHQ_bases exM ex_regular exact exact_exact exOffs2)
open Verif.Options (key)

/-- All entries of a block, row by row. -/
def dense {K : Type} (b : Blk K) : Csr K :=
  ⟨b.h, b.w, tab (b.h + 1) (fun i => ((i * b.w : Nat) : Int)), tab (b.h * b.w) (fun k => ((k % b.w : Nat) : Int)),
    tab (b.h * b.w) (fun k => b.val (k / b.w) (k % b.w)), true⟩

theorem dense_ok {K : Type} [CommRing K] : Finalizes (dense (K := K)) := by
  intro b
  have hI : ∀ i, i ≤ b.h → (dense b).I[i]?.getD 0 = ((i * b.w : Nat) : Int) := by
    intro i hi
    show (tab (b.h + 1) (fun i => ((i * b.w : Nat) : Int)))[i]?.getD 0 = _
    rw [getElem?_tab, if_pos (by omega)]; rfl
  have hn : nnz (dense b) = b.h * b.w := by
    unfold nnz
    rw [show (dense b).h = b.h from rfl, hI b.h le_rfl, Int.toNat_natCast]
  refine ⟨⟨rfl, by simp [dense, length_tab], ?_, ?_, ?_, ?_, ?_⟩, rfl, rfl, ?_⟩
  · show (tab (b.h + 1) (fun i => ((i * b.w : Nat) : Int)))[0]? = _
    rw [getElem?_tab, if_pos (by omega), Nat.zero_mul]; rfl
  · intro i hi
    have hi' : i < b.h := hi
    rw [hI i (by omega), hI (i + 1) (by omega)]
    exact_mod_cast Nat.mul_le_mul_right _ (Nat.le_succ i)
  · rw [hn]; simp [dense, length_tab]
  · rw [hn]; simp [dense, length_tab]
  · intro k hk
    rw [hn] at hk
    have hw : 0 < b.w := by
      rcases Nat.eq_zero_or_pos b.w with h | h
      · rw [h, Nat.mul_zero] at hk; omega
      · exact h
    have : (dense b).J[k]?.getD 0 = ((k % b.w : Nat) : Int) := by
      show (tab (b.h * b.w) (fun k => ((k % b.w : Nat) : Int)))[k]?.getD 0 = _
      rw [getElem?_tab, if_pos hk]; rfl
    rw [this]
    exact ⟨Int.natCast_nonneg _, by exact_mod_cast Nat.mod_lt _ hw⟩
  · intro i j hi hj
    unfold csrEntry
    rw [hI i (by omega), hI (i + 1) (by omega), Int.toNat_natCast, Int.toNat_natCast]
    have hlt : i * b.w + j < b.h * b.w := by
      calc i * b.w + j < i * b.w + b.w := by omega
        _ = (i + 1) * b.w := by rw [Nat.add_mul, Nat.one_mul]
        _ ≤ b.h * b.w := Nat.mul_le_mul_right _ hi
    have hdiv : ∀ k, i * b.w ≤ k → k < (i + 1) * b.w → k / b.w = i ∧ k % b.w = k - i * b.w := by
      intro k h1 h2
      have h3 : k = i * b.w + (k - i * b.w) := by omega
      rw [Nat.add_mul, Nat.one_mul] at h2
      constructor
      · rw [h3, Nat.mul_comm, Nat.mul_add_div (by omega), Nat.div_eq_of_lt (by rw [Nat.mul_comm]; omega), Nat.add_zero]
      · rw [h3, Nat.mul_comm, Nat.mul_add_mod, Nat.mod_eq_of_lt (by rw [Nat.mul_comm]; omega), Nat.mul_comm]
        omega
    have hJ : ∀ k, k < b.h * b.w → (dense b).J[k]? = some ((k % b.w : Nat) : Int) := by
      intro k hk
      show (tab (b.h * b.w) (fun k => ((k % b.w : Nat) : Int)))[k]? = _
      rw [getElem?_tab, if_pos hk]
    have hup : (i + 1) * b.w ≤ b.h * b.w := Nat.mul_le_mul_right _ hi
    rw [Finset.sum_eq_single (i * b.w + j)]
    · have hk := hdiv (i * b.w + j) (by omega) (by rw [Nat.add_mul, Nat.one_mul]; omega)
      rw [hJ _ hlt, hk.2, if_pos (by congr 2; omega)]
      show (tab (b.h * b.w) (fun k => b.val (k / b.w) (k % b.w)))[i * b.w + j]?.getD 0 = _
      rw [getElem?_tab, if_pos hlt, hk.1, hk.2]
      show b.val i _ = _
      congr 1; omega
    · intro k hk hne
      rw [Finset.mem_Ico] at hk
      rw [hJ k (by omega), (hdiv k hk.1 hk.2).2, if_neg]
      intro h
      have := Int.ofNat.inj (Option.some.inj h)
      omega
    · intro hn'
      exact absurd (Finset.mem_Ico.2 ⟨by omega, by rw [Nat.add_mul, Nat.one_mul]; omega⟩) hn'

/-- One copy of the component of `exTopo`. -/
def exTopo1 : Topo := ⟨[[5, 6, 5]], [5, 6], [], [], [([5, 6, 5, 6], [5, 6])]⟩

def exBC1 : Boundary.BC Int := ⟨[5, 6], [some 1, none], [.dirichlet, .dirichlet], false⟩

/-- Its handler, with the basis of `exHQ`. -/
def exH1Q : Handler ℚ := ⟨false, .domain, 1, [0], [0, 1], [⟨2, 1, [1, 3]⟩], [⟨2, 1, [1, 3]⟩], true⟩

/-- Its forms: those of `exPQ` on components. -/
def exP1 : Forms ℚ Nat :=
  { exPQ with
    sub := exPQ.comp
    itf := ⟨[exMesh], [exSpace], [exSpace], exPQ.itf.fnfi, []⟩ }

theorem exSetting1 : Setting exH1Q exComps [⟨5, 0, 1⟩, ⟨6, 0, 2⟩, ⟨5, 0, 7⟩] [] exRef [[⟨1, 0, 0, 1⟩]]
    exTopo1 exBC1 [[0, 0, 0, 0, 1, 0], [0, 0, 0, 0, 0, 1]] where
  topo := by decide
  bcs := ⟨⟨rfl, rfl⟩, rfl⟩
  marks := by decide
  comps := (exSetting exHQ rfl).comps
  itfs := rfl

theorem exP1_ok : FormsOk exP1 [0] exComps (usedPorts [] exRef) exTopo1.infos exRef [[⟨1, 0, 0, 1⟩]] where
  forms := rfl
  copy m c hm := by
    match m, hm with
    | 0, hm => simp at hm; subst hm; exact ⟨rfl, rfl, rfl⟩
    | m + 1, hm => simp at hm
  counts := exPQ_ok.counts
  comp := exPQ_ok.comp
  itf := ⟨rfl, ⟨rfl, rfl, fun p hp => by simp [exP1] at hp⟩, fun p hp => by simp [exP1] at hp⟩
  ports := rfl
  refs := exPQ_ok.refs
  faces r hr := by simp [usedPorts] at hr

theorem exOffs1 (k : Nat) : Blocks.Spec.IsOffsets [0, k] [k] := by
  refine ⟨rfl, rfl, ?_⟩
  intro i s hs
  have : i < 1 := (List.getElem?_eq_some_iff.1 hs).1
  interval_cases i
  simp at hs; subst hs; exact ⟨_, rfl, by simp⟩

theorem exH1Q_ready : Ready exH1Q [1] [2] where
  loaded := rfl
  basis m v hm hv := by
    have hm2 : m < 1 := hm
    have hv1 : v < 1 := hv
    interval_cases m; interval_cases v; rfl
  offs := exOffs1 1
  lenR := rfl
  lenF := rfl
  szR m v hm hv := by
    have hm2 : m < 1 := hm
    have hv1 : v < 1 := hv
    interval_cases m; interval_cases v; rfl
  szF m v hm hv := by
    have hm2 : m < 1 := hm
    have hv1 : v < 1 := hv
    interval_cases m; interval_cases v; rfl

theorem exH1Q_bases : BasesOk exH1Q exComps.length := ⟨rfl, rfl, by
  intro b hb
  simp [exH1Q] at hb
  subst hb; exact Nat.le_refl _, by decide⟩

/-- The full-order matrix of the single component. -/
def exM1 : MatArr ℚ := match fomMats exBC1 [[0, 0, 0, 0, 1, 0], [0, 0, 0, 0, 0, 1]] exTopo1.mesh exP1.sub
    exP1.itf with
  | .ok M => M
  | .error _ => ⟨0, 0, fun _ _ => none⟩

/-- The program that builds the ROM. -/
def exProb1 : Prob ℚ Int :=
  ⟨exH1Q, false, ["c"], exComps, exRef, exBC1, exTopo1.c2g, [],
    poissonLocals exP1 exComps exRef [[⟨1, 0, 0, 1⟩]], .ok (poissonFom exM1), [], [0, 2], [1, 1], [0, 0]⟩

/-- The program that uses it. -/
def exProb2 : Prob ℚ Int :=
  ⟨exHQ, false, ["c"], exComps, exRef, exBC, exTopo.c2g, [⟨0, 1, 2, 1, 0⟩],
    poissonLocals exPQ exComps exRef [[⟨1, 0, 0, 1⟩]], .ok (poissonFom exM), [], [0, 2, 4],
    [-4, 34, 18, 28], [9, 9, 9, 9]⟩

theorem exLibs : LibOk exProb1.lib ∧ HasBdr exProb1.lib ∧ LibOk exProb2.lib ∧ HasBdr exProb2.lib :=
  ⟨⟨⟨by decide, by decide⟩, ⟨by decide, by decide, by decide, by decide⟩, rfl⟩,
    by unfold HasBdr; decide,
    ⟨⟨by decide, by decide⟩, ⟨by decide, by decide, by decide, by decide⟩, rfl⟩,
    by unfold HasBdr; decide⟩

theorem exSizes (h : Handler ℚ) (f : Forms ℚ Nat) (h0 : (refB h 0 0).h = sizeIn f.ctest 0 ∧
    (refB h 0 0).h = sizeIn f.ctrial 0) : ∀ c, c < exComps.length →
      (refB h c 0).h = sizeIn f.ctest c ∧ (refB h c 0).h = sizeIn f.ctrial c := by
  intro c hc
  have : c < 1 := hc
  interval_cases c
  exact h0

theorem exPoisson1 : Poisson exProb1 exP1 [[⟨1, 0, 0, 1⟩]] [2] exM1 where
  lib := ⟨rfl, exLibs.1, exLibs.2.1⟩
  one := rfl
  bases := exH1Q_bases
  sizes := exSizes _ _ ⟨rfl, rfl⟩
  setting := by
    obtain ⟨M, _, _, _, eM, -⟩ := poisson_assembly exSetting1 exH1Q_ready rfl exH1Q_bases exP1_ok
      (exSizes _ _ ⟨rfl, rfl⟩)
    refine ⟨_, _, _, _, _, exSetting1, exH1Q_ready, exP1_ok, rfl, rfl, ?_⟩
    have : exM1 = M := by unfold exM1; rw [eM]
    rw [this]; exact eM
  locals := rfl
  fom := rfl
  rhs := ⟨exOffs1 2, rfl⟩
  U := ⟨exOffs1 2, rfl⟩

theorem exPoisson2 : Poisson exProb2 exPQ [[⟨1, 0, 0, 1⟩]] [2, 2] exM where
  lib := ⟨rfl, exLibs.2.2.1, exLibs.2.2.2⟩
  one := rfl
  bases := exHQ_bases
  sizes := exSizes _ _ ⟨rfl, rfl⟩
  setting := by
    obtain ⟨M, _, _, _, eM, -⟩ := poisson_assembly (exSetting exHQ rfl) exHQ_ready rfl exHQ_bases exPQ_ok
      (exSizes _ _ ⟨rfl, rfl⟩)
    refine ⟨_, _, _, _, _, exSetting exHQ rfl, exHQ_ready, exPQ_ok, rfl, rfl, ?_⟩
    have : exM = M := by unfold exM; rw [eM]
    rw [this]; exact eM
  locals := rfl
  fom := rfl
  rhs := ⟨exOffs2, rfl⟩
  U := ⟨exOffs2, rfl⟩

theorem exOne {i : Nat} {n m : String} (h : [n][i]? = some m) : i = 0 := by
  match i, h with
  | 0, _ => rfl
  | i + 1, h => simp at h

theorem exKnows : Knows exProb1 exProb2 [[⟨1, 0, 0, 1⟩]] [[⟨1, 0, 0, 1⟩]] where
  separate := rfl
  vars := rfl
  names n hn := hn
  comp c c' n h1 h2 := by
    have e1 := exOne h1
    have e2 := exOne h2
    subst e1 e2
    refine ⟨rfl, fun v hv => ?_⟩
    have hv1 : v < 1 := hv
    interval_cases v; rfl
  ports p hp := by
    have hp1 : p < 1 := hp
    interval_cases p
    exact ⟨0, by decide, ⟨0, 0, 2, 1⟩, ⟨0, 0, 2, 1⟩, "c", "c", rfl, rfl, rfl, rfl, rfl, rfl, rfl, rfl⟩
  itfs p p' h := by
    obtain ⟨rp, rp', -, -, h1, h2, -⟩ := h
    have e1 : p < 1 := (List.getElem?_eq_some_iff.1 h1).1
    have e2 : p' < 1 := (List.getElem?_eq_some_iff.1 h2).1
    interval_cases p; interval_cases p'; rfl

theorem exSame : SameForms exProb1 exProb2 exP1 exPQ where
  integs := rfl
  comp c c' n h1 h2 := by
    have e1 := exOne h1
    have e2 := exOne h2
    subst e1 e2
    exact ⟨rfl, rfl, rfl, rfl⟩

/-- A configuration with a building level and a prefix. -/
def exConf (lvl : String) : Node :=
  .map [(key "model_reduction", .map [(key "save_operator", .map [(key "level", .scalar lvl.toList),
    (key "prefix", .scalar (key "rom"))])])]

theorem exAsks (lvl : String) : Asks Options.exConv (exConf lvl) lvl "rom" := by
  refine ⟨⟨.scalar lvl.toList, ?_, ?_⟩, ⟨.scalar (key "rom"), ?_, ?_⟩⟩
  · exact (Options.find_some_iff _ _ _).1 rfl
  · show Except.ok (String.ofList lvl.toList) = _
    rw [String.ofList_toList]
  · exact (Options.find_some_iff _ _ _).1 rfl
  · rfl

/-- The hypotheses hold: the file built on the single component lets the joined ones be solved, and the
full-order solution `[1, 3, 2, 6]`, which lies in the span of the bases, is returned. -/
example : ∃ d', buildROM Options.exConv (exConf "component") dense exProb1 (fun _ => none) = .ok d' ∧
    singleRun Options.exConv (exConf "component") exProb2 exact (fun _ => 7) d' = .ok [1, 3, 2, 6] ∧
    singleRun Options.exConv (exConf "none") exProb2 exact (fun _ => 7) d' = .ok [1, 3, 2, 6] ∧
    singleRun Options.exConv (exConf "global") exProb2 exact (fun _ => 7) d' = .error .abort := by
  obtain ⟨d', h1, -, h2⟩ := poisson_component exPoisson1 exPoisson2 exKnows exSame dense_ok
    (exAsks "component") (exAsks "component") (fun _ => none)
  obtain ⟨u, h3, h4, h5⟩ := h2 d' rfl ex_regular exact exact_exact (fun _ => 7)
  have hu := h4.exact [1, 3, 2, 6] ⟨exOffs2, rfl⟩ ⟨fun m _ _ => m + 1, by
    intro m v k hm hv hk
    have hm2 : m < 2 := hm
    have hv1 : v < 1 := hv
    have hv0 : v = 0 := by omega
    subst hv0
    interval_cases m
    · have hk2 : k < 2 := hk
      interval_cases k <;> decide +kernel
    · have hk2 : k < 2 := hk
      interval_cases k <;> decide +kernel⟩ (by
    intro m v k hm hv hk
    have hm2 : m < 2 := hm
    have hv1 : v < 1 := hv
    have hv0 : v = 0 := by omega
    subst hv0
    interval_cases m
    · have hk2 : k < 2 := hk
      interval_cases k <;> decide +kernel
    · have hk2 : k < 2 := hk
      interval_cases k <;> decide +kernel)
  subst hu
  exact ⟨d', h1, h3, h5 _ (.inl (exAsks "none").1) _ _,
    poisson_wrong_level exPoisson1 Nat.one_pos dense_ok (exAsks "component") (exAsks "global")
      (.inl ⟨rfl, rfl⟩) h1 _ _ _⟩

/-- The hypotheses of the theorem on the global level hold. -/
example : ∃ d', buildROM Options.exConv (exConf "global") dense exProb2 (fun _ => none) = .ok d' ∧
    (∃ u, singleRun Options.exConv (exConf "global") { exProb2 with rhs := [1, 2, 3, 4] } exact
      (fun _ => 7) d' = .ok u) ∧
    singleRun Options.exConv (exConf "component") exProb2 exact (fun _ => 7) d' = .error .abort := by
  have h2 : Poisson { exProb2 with rhs := [1, 2, 3, 4] } exPQ [[⟨1, 0, 0, 1⟩]] [2, 2] exM :=
    { exPoisson2 with rhs := ⟨exOffs2, rfl⟩ }
  obtain ⟨d', g1, -, g2⟩ := poisson_global exPoisson2 h2 rfl Nat.two_pos dense_ok
    (exAsks "global") (exAsks "global") (fun _ => none)
  obtain ⟨u, g3, -, -⟩ := g2 d' rfl ex_regular exact exact_exact (fun _ => 7)
  exact ⟨d', g1, ⟨u, g3⟩, poisson_wrong_level exPoisson2 Nat.two_pos dense_ok (exAsks "global")
    (exAsks "component") (.inr ⟨rfl, rfl⟩) g1 _ _ _⟩

end Example

end Verif.Pipeline
