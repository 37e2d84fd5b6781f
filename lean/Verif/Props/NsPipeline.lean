import Verif.Proofs.NsPipeline
import Verif.Props.Pipeline
import Verif.Proofs.PortFile

/-! # Property C94: a Navier-Stokes ROM built in one program run and used in another -/

namespace Verif.NsPipeline

open Verif Verif.LinAlg Verif.LinAlg.Spec Verif.RomAssembly Verif.Hdf5 Verif.Hdf5.Spec Verif.TensorRom Spec
open Verif.TensorRom.Spec (FesOk convForm vec velBlock IsTensor)
open Verif.Blocks (BlockVector)
open Verif.Blocks.Spec (HasSizes)
open Verif.RomHandler (Handler)
open Verif.RomHandler.Spec (vars bent romBlock fomBlock Ready basisOf)
open Verif.RomAssembly.Spec (refB BasesOk)
open Verif.InterfaceForm (MatArr)
open Verif.InterfaceForm.Spec (sizeIn)
open Verif.Ports (InterfaceInfo)
open Verif.Options (Node Conv)
open Verif.Online (Projects stokesA)
open Verif.Online.Spec (V apply Combines InSpan)
open Verif.Pipeline (Disk Prob Core PCore stokes_core linear_core component_near global_near near_projects
  readLevel_component readLevel_global readLevel_none buildROM reducedOperator put_self put_ne SameLocals
  stokes_same projected loadComponent)
open Verif.Pipeline.Spec (Asks AsksNone Finalizes Stokes Linear Knows SameForms)
open Verif.RomElems.Spec (LibOk HasBdr)
open Finset

variable {R F δ : Type} [Field R]

/-! ## What a run does with the operators it finds -/

/-- The tensors at hand are those of the velocity spaces of the subdomains. -/
def GoodTensors (h : Handler R) (W : Nat → Fes R) (hs : List (Option (Tensor R))) : Prop :=
  hs.length = h.numSub ∧ ∀ m, m < h.numSub → ∃ t, hs[m]? = some (some t) ∧ IsTensor t (V h m 0) (W m)

theorem GoodTensors.check {h : Handler R} {W : Nat → Fes R} {hs : List (Option (Tensor R))}
    (H : GoodTensors h W hs) : checkTensors h.numSub hs = .ok () := by
  unfold checkTensors
  have : hs.all Option.isSome = true := by
    rw [List.all_eq_true]
    intro x hx
    obtain ⟨m, hm⟩ := List.mem_iff_getElem?.1 hx
    have hlt := (List.getElem?_eq_some_iff.1 hm).1
    obtain ⟨t, ht, -⟩ := H.2 m (by rw [← H.1]; exact hlt)
    rw [hm] at ht
    rw [Option.some.inj ht]; rfl
  rw [H.1, this, decide_eq_true rfl, require_true, ok_bind]

theorem runsOn {P : NsProb R F} {zr zf : List Nat} (hr : Ready P.lin.h zr zf) {W : Nat → Fes R}
    (hc : Convective P W) {A : Nat → Nat → Nat → Nat → Nat → Nat → R}
    (hR : HasSizes (Online.view P.lin.h P.lin.varOffs P.lin.domOffs P.lin.rhs) zf)
    (hU : HasSizes (Online.view P.lin.h P.lin.varOffs P.lin.domOffs P.lin.U) zf)
    {sparse : Blk R → Sp R} (hsp : Sparse sparse) {c : Conv} {cfg : Node} {e : Disk R} {rom : BlockMat R}
    (e1 : reducedOperator c cfg P.lin e = .ok rom) (hp : Projects P.lin.h zr A rom)
    {lp : Pipeline.Level × String} (e2 : Pipeline.readLevel c cfg = .ok lp)
    (e3 : ∀ junk, ∃ hs, subTensors P lp junk e = .ok hs ∧ GoodTensors P.lin.h W hs) :
    RunsOn c cfg P sparse zr zf A W e := by
  intro junk
  obtain ⟨hs, eh, hg⟩ := e3 junk
  obtain ⟨r, er, hcomp⟩ := computes hr (by rw [← hc.vars.1]; exact hc.vars.2) hp hsp
    (fun m hm => ⟨(hc.spaces m hm).2.1, (hc.spaces m hm).2.2.1⟩) hg.2
  have eo : romOper c cfg P sparse junk e = .ok r := by
    unfold romOper
    rw [e1, ok_bind, e2, ok_bind, eh, ok_bind, hg.check, ok_bind, er]
  refine ⟨r, eo, hcomp, fun nls x0 hsol => ?_⟩
  obtain ⟨b, u, f1, f2, f3⟩ := runs hr hR hU hcomp hsol
  exact ⟨u, by unfold runNs; rw [eo, ok_bind, f1, ok_bind, f2], f3⟩

/-! ## Tensors of the subdomains -/

theorem domTensors_good {P : NsProb R F} {zr zf : List Nat} (hr : Ready P.lin.h zr zf) {W : Nat → Fes R}
    (hc : Convective P W) (junk : Nat → R) :
    ∃ hs, domTensors P junk = .ok hs ∧ GoodTensors P.lin.h W hs := by
  have hv0 := vars_pos (h := P.lin.h) (by rw [← hc.vars.1]; exact hc.vars.2)
  obtain ⟨hs, e, l, h⟩ := buildGlobal_spec hc.oper (numVar := P.lin.h.numVar) (separate := P.lin.h.separate)
    (ord := P.lin.h.ord) (domBasis := P.lin.h.domBasis) (ufes := P.ufes) (B := fun m => V P.lin.h m 0) (V := W)
    (fun m hm => by
      rw [velBlock_eq]
      exact hr.basis m 0 (by rw [← hc.count]; exact hm) hv0)
    (fun m hm => (hc.spaces m (by rw [← hc.count]; exact hm)).1)
    (fun m hm => by
      obtain ⟨-, a, b, c, -⟩ := hc.spaces m (by rw [← hc.count]; exact hm)
      exact ⟨c, a, b⟩) junk
  rw [hc.count] at l h
  exact ⟨hs, e, l, h⟩

theorem isTensor_pos {t : Tensor R} {b : Mat R} {E : Fes R} (h : IsTensor t b E) (hb : 0 < b.w) :
    0 < t.nI ∧ 0 < t.nJ ∧ 0 < t.nK := by
  rw [h.i, h.j, h.k]; exact ⟨hb, hb, hb⟩

/-- Stored and loaded tensors of subdomains. -/
theorem stored_good {h : Handler R} {W : Nat → Fes R} {hs : List (Option (Tensor R))}
    (hw : ∀ m, m < h.numSub → 0 < (V h m 0).w) (H : GoodTensors h W hs) :
    ∃ f, saveSubTensors h.numSub hs = .ok f ∧ find f ⟨[], "ROM_tensors", false⟩ = some .group ∧
      ∀ junk, ∃ hs', loadSubTensors h.numSub f junk = .ok hs' ∧ GoodTensors h W hs' := by
  have : Inhabited (Tensor R) := ⟨⟨0, 0, 0, []⟩⟩
  choose! T hT using H.2
  obtain ⟨f, e, e0, h'⟩ := subTensors_roundTrip (n := h.numSub) (hs := hs) (T := T) (fun m hm => (hT m hm).1)
    (fun m hm => isTensor_pos (hT m hm).2 (hw m hm)) (fun m hm => (hT m hm).2.ok)
  refine ⟨f, e, e0, fun junk => ?_⟩
  obtain ⟨hs', e', l', g'⟩ := h' junk
  refine ⟨hs', e', l', fun m hm => ?_⟩
  obtain ⟨t, a, b⟩ := g' m hm
  exact ⟨t, a, isTensor_loaded (hT m hm).2 (hw m hm) b⟩

/-! ## Tensors of the components -/

omit [Field R] in
theorem refIdx (h : Handler R) (c : Nat) : (if h.separate then c * h.numVar else c) = c * vars h + 0 := by
  unfold vars; cases h.separate <;> simp

omit [Field R] in
theorem refB_get {h : Handler R} {nc : Nat} (hb : BasesOk h nc) (hv : 0 < vars h) {c : Nat} (hc : c < nc) :
    h.refBasis[c * vars h + 0]? = some (refB h c 0) ∧ MatOk (refB h c 0) := by
  have hlt : c * vars h + 0 < h.refBasis.length := by
    rw [hb.count]
    calc c * vars h + 0 < c * vars h + vars h := by omega
      _ = (c + 1) * vars h := by rw [Nat.add_mul, Nat.one_mul]
      _ ≤ nc * vars h := Nat.mul_le_mul_right _ hc
  have e : h.refBasis[c * vars h + 0]? = some (refB h c 0) := by
    unfold refB; rw [List.getElem?_eq_getElem hlt]; rfl
  exact ⟨e, hb.mats _ (List.mem_of_getElem? e)⟩

/-- The tensors of the components, stored by one run and loaded by another. -/
theorem component_tensors {P P' : NsProb R F} {refItfs refItfs' : List (List InterfaceInfo)}
    (hk : Knows P.lin P'.lin refItfs refItfs') (hss : SameSpaces P P')
    (ho : P.oper ≠ .lf) (hn : P.numVar = P.lin.h.numVar ∧ 0 < P.numVar)
    (hn' : P'.numVar = P'.lin.h.numVar ∧ 0 < P'.numVar)
    {W W' : Nat → Fes R} (hC : Componentwise P W) (hC' : Componentwise P' W')
    (hl : LibOk P.lin.lib) (hl' : LibOk P'.lin.lib)
    (hb : BasesOk P.lin.h P.lin.comps.length) (hb' : BasesOk P'.lin.h P'.lin.comps.length) (junk : Nat → R) :
    ∃ ts f, compTensors P junk = .ok ts ∧ saveTensors P.lin.names ts [] = .ok f ∧
      find f ⟨[], "components", false⟩ = some .group ∧
      ∀ (d : Disk R) pre, d (pre ++ ".tensor.h5") = some f → ∀ junk', ∃ hs,
        subTensors P' (.component, pre) junk' d = .ok hs ∧ GoodTensors P'.lin.h W' hs := by
  have nl : P.lin.comps.length = P.lin.names.length := by
    have := hl.bdr
    rwa [show P.lin.lib.numBdr.length = P.lin.comps.length from List.length_map _] at this
  have nl' : P'.lin.comps.length = P'.lin.names.length := by
    have := hl'.bdr
    rwa [show P'.lin.lib.numBdr.length = P'.lin.comps.length from List.length_map _] at this
  rw [nl] at hb
  rw [nl'] at hb'
  have hv := vars_pos (h := P.lin.h) (by rw [← hn.1]; exact hn.2)
  have hv' := vars_pos (h := P'.lin.h) (by rw [← hn'.1]; exact hn'.2)
  have : Inhabited (Tensor R) := ⟨⟨0, 0, 0, []⟩⟩
  have : Inhabited (Fes R) := ⟨⟨0, []⟩⟩
  choose! E hE using hC.comps
  obtain ⟨ts, e1, l1, h1⟩ := build_spec ho (numVar := P.numVar) (numComp := P.lin.names.length)
    (sepBasis := P.lin.h.separate) (refBasis := P.lin.h.refBasis) (compFes := P.compFes)
    (B := fun c => refB P.lin.h c 0) (V := E)
    (fun c hc => by
      rw [hn.1, refIdx]
      exact (refB_get hb hv hc).1)
    (fun c hc => (hE c hc).1)
    (fun c hc => ⟨(refB_get hb hv hc).2, (hE c hc).2.1, (hE c hc).2.2.1⟩) junk
  choose! T hT using h1
  have hpos := fun c (hc : c < P.lin.names.length) => isTensor_pos (hT c hc).2 (hE c hc).2.2.2
  obtain ⟨f, e2, h2⟩ := tensors_roundTrip l1 (fun c hc => (hT c hc).1) hl.names.names hpos
    (fun c hc => (hT c hc).2.ok)
  obtain ⟨f2, e2', e0, -⟩ := saveTensors_holds l1 (fun c hc => (hT c hc).1) hl.names.names hpos
    (fun c hc => (hT c hc).2.ok)
  rw [e2] at e2'
  cases e2'
  refine ⟨ts, f, e1, e2, e0, fun d pre hd junk' => ?_⟩
  obtain ⟨ts2, e3, l3, h3⟩ := h2 P'.lin.names (List.replicate P'.lin.names.length none) junk'
    (List.length_replicate ..) hk.names
  have hT' : ∀ c', c' < P'.lin.names.length → ∃ t E', ts2[c']? = some (some t) ∧
      P'.compFes[c' * P'.numVar]? = some E' ∧ IsTensor t (refB P'.lin.h c' 0) E' := by
    intro c' hc'
    have hmem := hk.names _ (List.getElem_mem hc')
    obtain ⟨c, hc⟩ := List.mem_iff_getElem?.1 hmem
    have hclt := (List.getElem?_eq_some_iff.1 hc).1
    have hn1 : P'.lin.names[c']? = some P'.lin.names[c'] := List.getElem?_eq_getElem hc'
    obtain ⟨t, a, b⟩ := h3 c' c _ hn1 hc
    refine ⟨t, E c, a, ?_, ?_⟩
    · rw [← hss c c' _ hc hn1]; exact (hE c hclt).1
    · have := (hk.comp c c' _ hc hn1).2 0 hv
      rw [← this]
      exact isTensor_loaded (hT c hclt).2 (hE c hclt).2.2.2 b
  choose! T' E' hT' using hT'
  obtain ⟨subs, e4, l4, h4⟩ := assemble_spec (meshType := P'.lin.h.meshType) l3
    (fun c hc => (hT' c hc).1) hb'.types
  refine ⟨subs, ?_, l4, fun m hm => ?_⟩
  · unfold subTensors
    dsimp only
    unfold Disk.get
    rw [hd]
    dsimp only
    rw [ok_bind, e3, ok_bind, e4]
  · have hm' : m < P'.lin.h.meshType.length := hm
    have hmt : P'.lin.h.meshType[m]? = some P'.lin.h.meshType[m] := List.getElem?_eq_getElem hm'
    have hclt := hb'.types _ (List.getElem_mem hm')
    refine ⟨_, h4 m _ hmt, ?_⟩
    obtain ⟨-, a, b⟩ := hT' _ hclt
    have hW := hC'.copies m _ hmt
    rw [a] at hW
    have hW := Option.some.inj hW
    rw [show V P'.lin.h m 0 = refB P'.lin.h P'.lin.h.meshType[m] 0 by
      show basisOf P'.lin.h P'.lin.h.refBasis m 0 = _
      unfold basisOf refB; rw [hmt]; rfl, ← hW]
    exact b

/-! ## The theorems -/

theorem names_ne (pre : String) : pre ++ ".h5" ≠ pre ++ ".tensor.h5" := by
  intro h
  have := congrArg String.toList h
  rw [String.toList_append, String.toList_append] at this
  exact absurd (List.append_cancel_left this) (by decide)

theorem none_runs {P : NsProb R F} {zr zf : List Nat} {A : Nat → Nat → Nat → Nat → Nat → Nat → R}
    {rom : BlockMat R} (K : PCore P.lin zr zf A rom) {W : Nat → Fes R} (hc : Convective P W)
    {sparse : Blk R → Sp R} (hsp : Sparse sparse) {c : Conv} {cfg0 : Node} (h0 : AsksNone c cfg0)
    (e0 : Disk R) : RunsOn c cfg0 P sparse zr zf A W e0 := by
  refine runsOn K.ready hc K.rhs K.U hsp (rom := rom) ?_ K.p2 (readLevel_none h0) fun junk => ?_
  · unfold reducedOperator
    rw [readLevel_none h0, ok_bind]
    exact K.prj
  · exact domTensors_good K.ready hc junk

theorem component_serves {P P' : NsProb R F} {refItfs refItfs' : List (List InterfaceInfo)}
    (hk : Knows P.lin P'.lin refItfs refItfs') (hsl : SameLocals P.lin P'.lin) (hss : SameSpaces P P')
    (hl : P.lin.submesh = false ∧ LibOk P.lin.lib ∧ HasBdr P.lin.lib)
    (hl' : P'.lin.submesh = false ∧ LibOk P'.lin.lib ∧ HasBdr P'.lin.lib)
    (hb : BasesOk P.lin.h P.lin.comps.length) (hb' : BasesOk P'.lin.h P'.lin.comps.length)
    {W W' : Nat → Fes R} (hc : Convective P W) (hc' : Convective P' W') (hC : Componentwise P W)
    (hC' : Componentwise P' W')
    {zr zf zr' zf' : List Nat} {A A' : Nat → Nat → Nat → Nat → Nat → Nat → R}
    {el el' : RomAssembly.RomElems R} {r1 r2 r1' r2' : BlockMat R} (K : Core P.lin zr zf A el r1 r2)
    (K' : Core P'.lin zr' zf' A' el' r1' r2') {fin : Blk R → Csr R} (hf : Finalizes fin)
    {sparse : Blk R → Sp R} (hsp : Sparse sparse) {c : Conv}
    {cfg cfg' : Node} {pre : String} (ha : Asks c cfg "component" pre) (ha' : Asks c cfg' "component" pre) :
    ServesNs c cfg cfg' pre fin sparse P P' zr' zf' A' W' := by
  intro d junk
  have hv := vars_pos (h := P.lin.h) (by rw [← hc.vars.1]; exact hc.vars.2)
  obtain ⟨f, rom, ef, er, hn⟩ := component_near hk hsl hl.2.1 hl'.2.1 hl'.2.2 hb hb' hv hf K.elems
    K'.elems K'.asm
  obtain ⟨ts, g, eg1, eg2, -, hg⟩ := component_tensors hk hss hc.oper hc.vars hc'.vars hC hC' hl.2.1 hl'.2.1
    hb hb' junk
  refine ⟨(d.put (pre ++ ".h5") f).put (pre ++ ".tensor.h5") g, ?_, fun n h1 h2 => ?_,
    fun e he hte => ⟨?_, fun cfg0 h0 e0 => none_runs K'.toPCore hc' hsp h0 e0⟩⟩
  · unfold buildNs buildROM
    rw [readLevel_component ha, ok_bind]
    dsimp only
    rw [hl.1, Bool.not_false, require_true, ok_bind, ef, ok_bind]
    show buildTensors P (.component, pre) junk (d.put (pre ++ ".h5") f) = _
    unfold buildTensors
    dsimp only
    rw [eg1, ok_bind, eg2, ok_bind]
    rfl
  · rw [put_ne _ _ h2, put_ne _ _ h1]
  · rw [put_self] at hte
    rw [put_ne _ _ (names_ne pre), put_self] at he
    refine runsOn K'.ready hc' K'.rhs K'.U hsp (rom := rom) ?_ ?_ (readLevel_component ha') (hg e pre hte)
    · unfold reducedOperator
      rw [readLevel_component ha', ok_bind]
      dsimp only
      rw [hl'.1, Bool.not_false, require_true, ok_bind]
      unfold Disk.get
      rw [he]
      dsimp only
      rw [ok_bind, er]
    · refine near_projects K'.ready K'.p1 hn ?_
      unfold loadComponent at er
      obtain ⟨e2, -, er⟩ := bind_eq_ok.1 er
      exact (Online.assembleROM_shapes K'.ready.offs er).1

omit [Field R] in
theorem sizes_unique {h : Handler R} {zr zf zr' zf' : List Nat} (K : Ready h zr zf) (K' : Ready h zr' zf') :
    zr = zr' := by
  refine List.ext_getElem? fun i => ?_
  have l1 := K.lenR
  have l2 := K'.lenR
  by_cases hi : i < zr.length
  · obtain ⟨o1, a1, a2⟩ := K.offs.2.2 i _ (List.getElem?_eq_getElem hi)
    obtain ⟨o2, b1, b2⟩ := K'.offs.2.2 i _ (List.getElem?_eq_getElem (show i < zr'.length by omega))
    rw [a1] at b1
    cases b1
    rw [a2] at b2
    rw [List.getElem?_eq_getElem hi, List.getElem?_eq_getElem (show i < zr'.length by omega)]
    have := Option.some.inj b2
    congr 1
    omega
  · rw [List.getElem?_eq_none (by omega), List.getElem?_eq_none (by omega)]

theorem global_serves {P P' : NsProb R F} (hh : P.lin.h = P'.lin.h) (h0 : 0 < P.lin.h.numSub)
    {W : Nat → Fes R} (hc : Convective P W) (hc' : Convective P' W)
    {zr zf zr' zf' : List Nat} {A : Nat → Nat → Nat → Nat → Nat → Nat → R}
    {r2 r2' : BlockMat R} (K : PCore P.lin zr zf A r2) (K' : PCore P'.lin zr' zf' A r2')
    {fin : Blk R → Csr R} (hf : Finalizes fin) {sparse : Blk R → Sp R} (hsp : Sparse sparse) {c : Conv}
    {cfg cfg' : Node} {pre : String} (ha : Asks c cfg "global" pre) (ha' : Asks c cfg' "global" pre) :
    ServesNs c cfg cfg' pre fin sparse P P' zr' zf' A W := by
  intro d junk
  have hv := vars_pos (h := P.lin.h) (by rw [← hc.vars.1]; exact hc.vars.2)
  have hlen : 0 < zr.length := by
    rw [K.ready.lenR]; exact Nat.mul_pos h0 hv
  obtain ⟨f, rom, ef, er, hn, hsh, -, -⟩ := global_near K.ready.offs hlen hf K.p2.shapes K.p2.roffs
    K.p2.coffs K.owns
  obtain ⟨ts, et, ht⟩ := domTensors_good K.ready hc junk
  obtain ⟨g, eg, -, hg⟩ := stored_good (fun m hm => (hc.spaces m hm).2.2.2.2) ht
  have hzz : zr = zr' := by
    have k' := K'.ready
    rw [← hh] at k'
    exact sizes_unique K.ready k'
  subst hzz
  refine ⟨(d.put (pre ++ ".h5") f).put (pre ++ ".tensor.h5") g, ?_, fun n h1 h2 => ?_,
    fun e he hte => ⟨?_, fun cfg0 h0 e0 => none_runs K' hc' hsp h0 e0⟩⟩
  · unfold buildNs buildROM
    rw [readLevel_global ha, ok_bind]
    dsimp only
    rw [K.prj, ok_bind, ef, ok_bind]
    show buildTensors P (.global, pre) junk (d.put (pre ++ ".h5") f) = _
    unfold buildTensors
    dsimp only
    rw [et, ok_bind, eg, ok_bind]
    rfl
  · rw [put_ne _ _ h2, put_ne _ _ h1]
  · rw [put_self] at hte
    rw [put_ne _ _ (names_ne pre), put_self] at he
    refine runsOn K'.ready hc' K'.rhs K'.U hsp (rom := rom) ?_ ?_ (readLevel_global ha') fun junk' => ?_
    · unfold reducedOperator
      rw [readLevel_global ha', ok_bind]
      dsimp only
      unfold Disk.get
      rw [he]
      dsimp only
      rw [ok_bind, ← hh, er]
    · rw [← hh]
      exact near_projects K.ready K.p2 hn hsh
    · obtain ⟨hs', e1, e2⟩ := hg junk'
      refine ⟨hs', ?_, by rw [← hh]; exact e2⟩
      unfold subTensors
      dsimp only
      unfold Disk.get
      rw [hte]
      dsimp only
      rw [ok_bind, ← hh, e1]

/-- **C94**, component level. -/
theorem ns_component {P P' : NsProb R F} {fm fb fm' fb' : Forms R δ}
    {refItfs refItfs' : List (List InterfaceInfo)} {zf zf' : List Nat} {M B M' B' : MatArr R}
    (h : Stokes P.lin fm fb refItfs zf M B) (h' : Stokes P'.lin fm' fb' refItfs' zf' M' B')
    (hk : Knows P.lin P'.lin refItfs refItfs') (hs : SameForms P.lin P'.lin fm fm')
    (hd : SameForms P.lin P'.lin fb fb') {W W' : Nat → Fes R} (hc : Convective P W)
    (hc' : Convective P' W') (hC : Componentwise P W) (hC' : Componentwise P' W') (hss : SameSpaces P P')
    {fin : Blk R → Csr R} (hf : Finalizes fin) {sparse : Blk R → Sp R} (hsp : Sparse sparse) {c : Conv}
    {cfg cfg' : Node} {pre : String} (ha : Asks c cfg "component" pre) (ha' : Asks c cfg' "component" pre) :
    ∃ zr, Ready P'.lin.h zr zf' ∧
      ServesNs c cfg cfg' pre fin sparse P P' zr zf' (stokesA P'.lin.h (sizeIn fm'.itf.test) M' B') W' := by
  obtain ⟨zr, el, r1, r2, K⟩ := stokes_core h
  obtain ⟨zr', el', r1', r2', K'⟩ := stokes_core h'
  exact ⟨zr', K'.ready, component_serves hk (stokes_same hk hs hd h.locals h'.locals) hss h.lib h'.lib
    h.bases h'.bases hc hc' hC hC' K K' hf hsp ha ha'⟩

/-- **C94**, global level: for every problem whose linear part has the full-order operators `G`. -/
theorem ns_global {P P' : NsProb R F} {zf zf' : List Nat} {G : Nat → Nat → Local R}
    (h : Linear P.lin zf G) (h' : Linear P'.lin zf' G) (hh : P.lin.h = P'.lin.h) (h0 : 0 < P.lin.h.numSub)
    {W : Nat → Fes R} (hc : Convective P W) (hc' : Convective P' W)
    {fin : Blk R → Csr R} (hf : Finalizes fin) {sparse : Blk R → Sp R} (hsp : Sparse sparse) {c : Conv}
    {cfg cfg' : Node} {pre : String} (ha : Asks c cfg "global" pre) (ha' : Asks c cfg' "global" pre) :
    ∃ zr, Ready P'.lin.h zr zf' ∧ ServesNs c cfg cfg' pre fin sparse P P' zr zf'
      (fun m m' v w => RomAssembly.Spec.lent (G m m') v w) W := by
  obtain ⟨zr, r, K⟩ := linear_core h
  obtain ⟨zr', r', K'⟩ := linear_core h'
  exact ⟨zr', K'.ready, global_serves hh h0 hc hc' K K' hf hsp ha ha'⟩

/-- **C94**, global level, with the saddle-point matrices of the Stokes part. -/
theorem ns_stokes_global {P P' : NsProb R F} {fm fb fb' : Forms R δ}
    {refItfs refItfs' : List (List InterfaceInfo)} {zf zf' : List Nat} {M B : MatArr R}
    (h : Stokes P.lin fm fb refItfs zf M B) (h' : Stokes P'.lin fm fb' refItfs' zf' M B)
    (hh : P.lin.h = P'.lin.h) (h0 : 0 < P.lin.h.numSub) {W : Nat → Fes R} (hc : Convective P W)
    (hc' : Convective P' W) {fin : Blk R → Csr R} (hf : Finalizes fin) {sparse : Blk R → Sp R}
    (hsp : Sparse sparse) {c : Conv} {cfg cfg' : Node} {pre : String} (ha : Asks c cfg "global" pre)
    (ha' : Asks c cfg' "global" pre) :
    ∃ zr, Ready P'.lin.h zr zf' ∧
      ServesNs c cfg cfg' pre fin sparse P P' zr zf' (stokesA P'.lin.h (sizeIn fm.itf.test) M B) W := by
  obtain ⟨zr, el, r1, r2, K⟩ := stokes_core h
  obtain ⟨zr', el', r1', r2', K'⟩ := stokes_core h'
  rw [hh] at K
  exact ⟨zr', K'.ready, global_serves hh h0 hc hc' K.toPCore K'.toPCore hf hsp ha ha'⟩

/-! ## Full-order solutions -/

/-- The form is linear in the test function. -/
theorem convForm_test {E : Fes R} (hE : FesOk E) (w u v : Nat → R) :
    convForm E w u v = ∑ k ∈ range E.size, v k * convForm E w u (fun t => if t = k then 1 else 0) := by
  obtain ⟨y, -, -, h⟩ := formMult_spec hE w u
  rw [← h v]
  refine sum_congr rfl fun k hk => ?_
  rw [← h]
  simp only [ite_mul, one_mul, zero_mul]
  rw [sum_ite_eq' (range E.size) k, if_pos hk]

/-- The form does not see test functions outside the space. -/
theorem convForm_outside {E : Fes R} (hE : FesOk E) (w u : Nat → R) {k : Nat} (hk : E.size ≤ k) :
    convForm E w u (fun t => if t = k then 1 else 0) = 0 := by
  rw [convForm_test hE]
  refine sum_eq_zero fun t ht => ?_
  rw [if_neg (by have := mem_range.1 ht; omega), zero_mul]

/-- A full-order solution, tested with the bases. -/
theorem solution_tested {P : NsProb R F} {W : Nat → Fes R} (hc : Convective P W)
    {A : Nat → Nat → Nat → Nat → Nat → Nat → R} {u : BlockVector R} (hs : SolvesNs P A W u) {m v : Nat}
    (hm : m < P.lin.h.numSub) (hv : v < vars P.lin.h) (p : Nat) :
    tested P.lin.h A W u m v p =
      ∑ k ∈ range (V P.lin.h m v).h, ent (V P.lin.h m v) k p *
        bent (Online.view P.lin.h P.lin.varOffs P.lin.domOffs P.lin.rhs) (fomBlock P.lin.h m v) k := by
  unfold tested
  have hS : (∑ k ∈ range (V P.lin.h m v).h, ent (V P.lin.h m v) k p *
      bent (Online.view P.lin.h P.lin.varOffs P.lin.domOffs P.lin.rhs) (fomBlock P.lin.h m v) k) =
      ∑ k ∈ range (V P.lin.h m v).h, ent (V P.lin.h m v) k p * (apply P.lin.h A u m v k +
        (if v = 0 then convForm (W m) (velocity P.lin.h u m) (velocity P.lin.h u m)
          (fun t => if t = k then 1 else 0) else 0)) :=
    sum_congr rfl fun k hk => by rw [hs m v k hm hv (mem_range.1 hk)]
  rw [hS]
  simp only [mul_add]
  rw [sum_add_distrib]
  congr 1
  by_cases h0 : v = 0
  · subst h0
    simp only [if_true]
    obtain ⟨-, hW, hle, -⟩ := hc.spaces m hm
    rw [convForm_test hW]
    refine sum_subset (fun k hk => mem_range.2 (by have := mem_range.1 hk; omega)) fun k _ hk => ?_
    rw [convForm_outside hW _ _ (by have := mem_range.not.1 hk; omega), mul_zero]
  · simp only [if_neg h0, mul_zero, sum_const_zero]

/-- **C94**, exactness: the coefficients of a full-order solution that lies in the span of the bases solve
the reduced system handed to the nonlinear solver. -/
theorem solution_is_root {P : NsProb R F} {zr zf : List Nat} (hr : Ready P.lin.h zr zf) {W : Nat → Fes R}
    (hc : Convective P W) {A : Nat → Nat → Nat → Nat → Nat → Nat → R} {r : Rom R}
    (hcomp : Computes P.lin.h zr zf A W r)
    (hR : HasSizes (Online.view P.lin.h P.lin.varOffs P.lin.domOffs P.lin.rhs) zf)
    {x : List R} (hx : HasSizes ⟨x, P.lin.h.romOffs⟩ zr) {u : BlockVector R} (hu : HasSizes u zf)
    (hcb : Combines P.lin.h (fun m v p => bent ⟨x, P.lin.h.romOffs⟩ (romBlock P.lin.h m v) p) u)
    (hs : SolvesNs P A W u) (junk : Nat → R) :
    ∃ b, Online.projectRHS P.lin.h P.lin.varOffs P.lin.domOffs P.lin.rhs junk = .ok b ∧
      mult r x junk = .ok b.data := by
  obtain ⟨b, e1, hbs, hbo, hbv⟩ := RomHandler.project_spec hr _ hR junk
  obtain ⟨y, ey, hys, hy⟩ := hcomp x u junk hx hu hcb
  refine ⟨b, e1, ?_⟩
  rw [ey]
  congr 1
  have : (⟨y, P.lin.h.romOffs⟩ : BlockVector R) = b := by
    refine RomHandler.bent_ext hys hbs fun i s k hi hk => ?_
    obtain ⟨m, v, hm, hv, rfl⟩ := RomHandler.romBlock_surj P.lin.h
      (i := i) (by rw [RomHandler.numBlocks_eq, ← hr.lenR]; exact (List.getElem?_eq_some_iff.1 hi).1)
    rw [hr.szR m v hm hv] at hi
    have hk' : k < (V P.lin.h m v).w := by rw [Option.some.inj hi]; exact hk
    rw [hy m v k hm hv hk', hbv m v k hm hv hk', solution_tested hc hs hm hv]
  exact congrArg BlockVector.data this

/-! ## What is refused -/

section
variable {c : Conv} {cfg cfg' : Node} {pre : String}

/-- Without stored operators nothing is written. -/
theorem none_writes_nothing (ha : AsksNone c cfg) (fin : Blk R → Csr R) (P : NsProb R F) (junk : Nat → R)
    (d : Disk R) : buildNs c cfg fin P junk d = .ok d := by
  unfold buildNs
  rw [Pipeline.none_writes_nothing ha, ok_bind, readLevel_none ha, ok_bind]
  rfl

/-- A run whose file of tensors is missing stops, whatever else there is. -/
theorem missing_tensors_stop {lvl : String} (hlvl : lvl = "component" ∨ lvl = "global")
    (ha : Asks c cfg lvl pre) (P : NsProb R F) (sparse : Blk R → Sp R)
    (nls : (List R → Outcome (List R)) → List R → List R → List R) (x0 : List R) (junk : Nat → R)
    (d : Disk R) (hd : d (pre ++ ".tensor.h5") = none) : ¬ ∃ u, runNs c cfg P sparse nls x0 junk d = .ok u := by
  rintro ⟨u, e⟩
  unfold runNs romOper at e
  obtain ⟨r, e, -⟩ := bind_eq_ok.1 e
  obtain ⟨rom, -, e⟩ := bind_eq_ok.1 e
  obtain ⟨lp, elp, e⟩ := bind_eq_ok.1 e
  obtain ⟨hs, e, -⟩ := bind_eq_ok.1 e
  rcases hlvl with rfl | rfl
  · rw [readLevel_component ha] at elp
    cases elp
    unfold subTensors Disk.get at e
    rw [hd] at e
    exact absurd e (by simp [bind, Except.bind])
  · rw [readLevel_global ha] at elp
    cases elp
    unfold subTensors Disk.get at e
    rw [hd] at e
    exact absurd e (by simp [bind, Except.bind])

theorem reducedTensor_lf (b : Option (Mat R)) (E : Option (Fes R)) (junk : Nat → R) (t : Tensor R) :
    reducedTensor .lf b E junk ≠ .ok t := by
  intro e
  unfold reducedTensor at e
  obtain ⟨_, -, e⟩ := bind_eq_ok.1 e
  obtain ⟨_, -, e⟩ := bind_eq_ok.1 e
  obtain ⟨_, -, e⟩ := bind_eq_ok.1 e
  obtain ⟨_, e, -⟩ := bind_eq_ok.1 e
  exact absurd (require_eq_ok.1 e) (by decide)

/-- The tensors of the Lax-Friedrichs operator are never built, stored or used. -/
theorem lax_friedrichs_rejected {P : NsProb R F} (hP : P.oper = .lf) {lvl : String}
    (hlvl : lvl = "component" ∧ 0 < P.lin.names.length ∨ lvl = "global" ∧ 0 < P.ufes.length)
    (ha : Asks c cfg lvl pre) (fin : Blk R → Csr R) (junk : Nat → R) (d : Disk R) :
    ¬ ∃ d', buildNs c cfg fin P junk d = .ok d' := by
  rintro ⟨d', e⟩
  unfold buildNs at e
  obtain ⟨d1, -, e⟩ := bind_eq_ok.1 e
  obtain ⟨lp, elp, e⟩ := bind_eq_ok.1 e
  rcases hlvl with ⟨rfl, h0⟩ | ⟨rfl, h0⟩
  · rw [readLevel_component ha] at elp
    cases elp
    unfold buildTensors compTensors TensorRom.build at e
    dsimp only at e
    obtain ⟨ts, e, -⟩ := bind_eq_ok.1 e
    obtain ⟨st, -, -, h⟩ := loop_trace e
    have := h 0 h0
    obtain ⟨_, -, this⟩ := bind_eq_ok.1 this
    obtain ⟨_, -, this⟩ := bind_eq_ok.1 this
    obtain ⟨_, this, -⟩ := bind_eq_ok.1 this
    rw [hP] at this
    exact reducedTensor_lf _ _ _ _ this
  · rw [readLevel_global ha] at elp
    cases elp
    unfold buildTensors domTensors buildGlobal at e
    dsimp only at e
    obtain ⟨ts, e, -⟩ := bind_eq_ok.1 e
    obtain ⟨st, -, -, h⟩ := loop_trace e
    have := h 0 h0
    obtain ⟨_, -, this⟩ := bind_eq_ok.1 this
    obtain ⟨_, -, this⟩ := bind_eq_ok.1 this
    obtain ⟨_, -, this⟩ := bind_eq_ok.1 this
    obtain ⟨_, this, -⟩ := bind_eq_ok.1 this
    rw [hP] at this
    exact reducedTensor_lf _ _ _ _ this

/-- **C94**, levels: files built at one level do not serve a run at the other. -/
theorem ns_wrong_level {P : NsProb R F} {fm fb : Forms R δ} {refItfs : List (List InterfaceInfo)}
    {zf : List Nat} {M B : MatArr R} (h : Stokes P.lin fm fb refItfs zf M B) (h0 : 0 < P.lin.h.numSub)
    {fin : Blk R → Csr R} (hf : Finalizes fin) {lvl lvl' : String}
    (ha : Asks c cfg lvl pre) (ha' : Asks c cfg' lvl' pre)
    (hlvl : lvl = "component" ∧ lvl' = "global" ∨ lvl = "global" ∧ lvl' = "component")
    {d d' : Disk R} {junk : Nat → R} (hb : buildNs c cfg fin P junk d = .ok d') (P' : NsProb R F)
    (sparse : Blk R → Sp R) (nls : (List R → Outcome (List R)) → List R → List R → List R) (x0 : List R)
    (junk' : Nat → R) : runNs c cfg' P' sparse nls x0 junk' d' = .error .abort := by
  obtain ⟨zr, el, r1, r2, K⟩ := stokes_core h
  have hv : 0 < vars P.lin.h := by rw [h.two]; split <;> decide
  unfold buildNs buildROM at hb
  unfold runNs romOper reducedOperator
  rcases hlvl with ⟨rfl, rfl⟩ | ⟨rfl, rfl⟩
  · rw [readLevel_component ha] at hb
    simp only [ok_bind] at hb
    obtain ⟨d1, hb1, hb⟩ := bind_eq_ok.1 hb
    obtain ⟨_, _, hb1⟩ := bind_eq_ok.1 hb1
    obtain ⟨f, ef, hb1⟩ := bind_eq_ok.1 hb1
    cases hb1
    unfold buildTensors at hb
    dsimp only at hb
    obtain ⟨_, _, hb⟩ := bind_eq_ok.1 hb
    obtain ⟨g, _, hb⟩ := bind_eq_ok.1 hb
    cases hb
    rw [readLevel_global ha', ok_bind]
    dsimp only
    unfold Disk.get
    rw [put_ne _ _ (names_ne pre), put_self]
    dsimp only
    rw [ok_bind, Pipeline.component_file_rejected h.lib.2.1 hv hf K.elems ef]
    rfl
  · rw [readLevel_global ha] at hb
    simp only [ok_bind] at hb
    obtain ⟨d1, hb1, hb⟩ := bind_eq_ok.1 hb
    obtain ⟨r, er, hb1⟩ := bind_eq_ok.1 hb1
    obtain ⟨f, ef, hb1⟩ := bind_eq_ok.1 hb1
    cases hb1
    unfold buildTensors at hb
    dsimp only at hb
    obtain ⟨_, _, hb⟩ := bind_eq_ok.1 hb
    obtain ⟨g, _, hb⟩ := bind_eq_ok.1 hb
    cases hb
    rw [K.prj] at er
    cases er
    have hlen : 0 < zr.length := by
      rw [K.ready.lenR]; exact Nat.mul_pos h0 hv
    rw [readLevel_component ha', ok_bind]
    dsimp only
    unfold Disk.get
    rw [put_ne _ _ (names_ne pre), put_self]
    dsimp only
    cases P'.lin.submesh
    · rw [Bool.not_false, require_true, ok_bind, ok_bind,
        Pipeline.global_file_rejected K.ready.offs hlen hf K.p2.shapes K.p2.roffs K.p2.coffs ef]
      rfl
    · rfl

end

/-! ## A concrete case: a ROM built on one component serves two of them joined by a port -/

section Example

open Verif.CompSetup (exComps exRef exTopo)
open Verif.CompSetup.Spec (usedPorts)
open Verif.InterfaceForm (exMesh exSpace)
open Verif.RomAssembly.Spec
open Verif.Convection (Pt)
open Verif.Convection.Spec (PtOk)
open Verif.Online (exH2Q exPQ exDQ exPQ_ok exDQ_ok exH2Q_ready exH2Q_bases exM exB exOffs4)
open Verif.Pipeline (exTopo1 exBC1 exP1 exP1_ok exM1 exOne exConf exAsks dense dense_ok exLibs exSetting1)

/-- All entries of a block. -/
def exSparse (b : Blk ℚ) : Sp ℚ :=
  ⟨b.h, b.w, (List.range b.h).flatMap fun i => (List.range b.w).map fun j => ((i, j), b.val i j)⟩

theorem find_unique {α : Type} {l : List ((Nat × Nat) × α)} {i j : Nat} {v : α} (hm : ((i, j), v) ∈ l)
    (hu : ∀ e ∈ l, e.1 = (i, j) → e.2 = v) : ((l.find? (fun e => e.1 == (i, j))).map Prod.snd) = some v := by
  cases h : l.find? (fun e => e.1 == (i, j)) with
  | none => exact absurd (List.find?_eq_none.1 h _ hm) (by simp)
  | some e =>
    have h1 := List.find?_some h
    rw [Option.map_some, hu e (List.mem_of_find?_eq_some h) (by simpa using h1)]

theorem exSparse_ok : Sparse exSparse := by
  intro b
  refine ⟨rfl, rfl, fun i j hi hj => ?_⟩
  unfold Sp.get exSparse
  rw [find_unique (v := b.val i j)]
  · rfl
  · exact List.mem_flatMap.2 ⟨i, List.mem_range.2 hi, List.mem_map.2 ⟨j, List.mem_range.2 hj, rfl⟩⟩
  · intro e he h
    obtain ⟨a, -, he⟩ := List.mem_flatMap.1 he
    obtain ⟨b, -, rfl⟩ := List.mem_map.1 he
    cases h; rfl

/-- A quadrature point of a one-dimensional element with two shape functions. -/
def exPt : Pt ℚ :=
  { nd := 2, dim := 1, shape := [1 / 2, 1 / 2], dref := ⟨2, 1, [-1, 1]⟩, dshape := ⟨2, 1, [-2, 2]⟩,
    invJ := ⟨1, 1, [2]⟩, adjJ := ⟨1, 1, [1]⟩, weight := 1 / 2, q := some 3, vq := none }

theorem exPt_ok : PtOk exPt := by
  refine ⟨rfl, rfl, rfl, rfl, rfl, rfl, rfl, rfl, rfl, ?_, ?_⟩
  · intro k e (hk : k < 2) (he : e < 1)
    interval_cases k <;> interval_cases e <;> decide +kernel
  · intro k e (hk : k < 1) (he : e < 1)
    interval_cases k; interval_cases e; decide +kernel

/-- The velocity space of the component: one element. -/
def exW : Fes ℚ := ⟨2, [⟨2, 1, [0, -2], [(exPt, 1)]⟩]⟩

theorem exW_ok : FesOk exW := by
  intro E hE
  simp only [exW, List.mem_cons, List.not_mem_nil, or_false] at hE
  subst hE
  refine ⟨by decide, rfl, fun pw hpw => ?_⟩
  simp only [List.mem_cons, List.not_mem_nil, or_false] at hpw
  subst hpw
  exact ⟨exPt_ok, rfl, rfl⟩

/-- One copy of the component, with the bases of `exH2Q`. -/
def exH21 : Handler ℚ :=
  ⟨true, .variable, 2, [0], [0, 1, 2], [⟨2, 1, [1, 3]⟩, ⟨1, 1, [2]⟩], [⟨2, 1, [1, 3]⟩, ⟨1, 1, [2]⟩], true⟩

/-- Its divergence form. -/
def exD1 : Forms ℚ Nat :=
  { exDQ with
    sub := exDQ.comp
    itf := ⟨[exMesh], [⟨1, [[0]]⟩], [exSpace], exDQ.itf.fnfi, []⟩ }

theorem exD1_ok : FormsOk exD1 [0] exComps (usedPorts [] exRef) exTopo1.infos exRef [[⟨1, 0, 0, 1⟩]] where
  forms := rfl
  copy m c hm := by
    match m, hm with
    | 0, hm => simp at hm; subst hm; exact ⟨rfl, rfl, rfl⟩
    | m + 1, hm => simp at hm
  counts := exDQ_ok.counts
  comp := exDQ_ok.comp
  itf := ⟨rfl, ⟨rfl, rfl, fun p hp => by simp [exD1] at hp⟩, fun p hp => by simp [exD1] at hp⟩
  ports := rfl
  refs := exDQ_ok.refs
  faces r hr := by simp [usedPorts] at hr

theorem exOffs21 (a b : Nat) : Blocks.Spec.IsOffsets [0, a, a + b] [a, b] := by
  refine ⟨rfl, rfl, ?_⟩
  intro i s hs
  have : i < 2 := (List.getElem?_eq_some_iff.1 hs).1
  interval_cases i <;> simp at hs <;> subst hs <;> exact ⟨_, rfl, by simp⟩

theorem exH21_ready : Ready exH21 [1, 1] [2, 1] where
  loaded := rfl
  basis m v hm hv := by
    have hm2 : m < 1 := hm
    have hv1 : v < 2 := hv
    interval_cases m; interval_cases v <;> rfl
  offs := exOffs21 1 1
  lenR := rfl
  lenF := rfl
  szR m v hm hv := by
    have hm2 : m < 1 := hm
    have hv1 : v < 2 := hv
    interval_cases m; interval_cases v <;> rfl
  szF m v hm hv := by
    have hm2 : m < 1 := hm
    have hv1 : v < 2 := hv
    interval_cases m; interval_cases v <;> rfl

theorem exH21_bases : BasesOk exH21 exComps.length := ⟨rfl, rfl, by
  intro b hb
  simp [exH21] at hb
  rcases hb with rfl | rfl <;> exact Nat.le_refl _, by decide⟩

theorem exSetting21 : Setting exH21 exComps [⟨5, 0, 1⟩, ⟨6, 0, 2⟩, ⟨5, 0, 7⟩] [] exRef [[⟨1, 0, 0, 1⟩]]
    exTopo1 exBC1 [[0, 0, 0, 0, 1, 0], [0, 0, 0, 0, 0, 1]] where
  topo := by decide
  bcs := exSetting1.bcs
  marks := by decide
  comps := exSetting1.comps
  itfs := rfl

def exB1 : MatArr ℚ := match fomMixed exBC1 [[0, 0, 0, 0, 1, 0], [0, 0, 0, 0, 0, 1]] exTopo1.mesh exD1.sub
    exD1.itf with
  | .ok M => M
  | .error _ => ⟨0, 0, fun _ _ => none⟩

/-- The program that builds the ROM. -/
def exNs1 : NsProb ℚ Int :=
  ⟨⟨exH21, false, ["c"], exComps, exRef, exBC1, exTopo1.c2g, [],
    stokesLocals true exP1 exD1 exComps exRef [[⟨1, 0, 0, 1⟩]], .ok (stokesFom true exM1 exB1), [0, 2, 3], [],
    [1, 1, 1], [0, 0, 0]⟩, .base, 2, [exW, ⟨1, []⟩], [exW]⟩

/-- The right-hand side of the second problem: that of the state `exState`. -/
def exRhs : List ℚ := [36, 0, 20, 24, 22, 9]

def exState : List ℚ := [1, 3, 2, 2, 6, -2]

/-- The program that uses it. -/
def exNs2 : NsProb ℚ Int :=
  ⟨⟨exH2Q, false, ["c"], exComps, exRef, exBC, exTopo.c2g, [⟨0, 1, 2, 1, 0⟩],
    stokesLocals true exPQ exDQ exComps exRef [[⟨1, 0, 0, 1⟩]], .ok (stokesFom true exM exB), [0, 2, 3, 5, 6], [],
    exRhs, [9, 9, 9, 9, 9, 9]⟩, .base, 2, [exW, ⟨1, []⟩], [exW, exW]⟩

theorem exSizes21 : ∀ c, c < exComps.length → sizeIn exP1.ctrial c = sizeIn exP1.ctest c ∧
    sizeIn exD1.ctrial c = sizeIn exP1.ctest c ∧ ∀ v, v < vars exH21 → (refB exH21 c v).h =
      blockLen exH21.separate (sizeIn exP1.ctest c) (sizeIn exD1.ctest c) v := by
  intro c hc
  have : c < 1 := hc
  interval_cases c
  refine ⟨rfl, rfl, fun v hv => ?_⟩
  have hv2 : v < 2 := hv
  interval_cases v <;> rfl

theorem exSizes22 : ∀ c, c < exComps.length → sizeIn exPQ.ctrial c = sizeIn exPQ.ctest c ∧
    sizeIn exDQ.ctrial c = sizeIn exPQ.ctest c ∧ ∀ v, v < vars exH2Q → (refB exH2Q c v).h =
      blockLen exH2Q.separate (sizeIn exPQ.ctest c) (sizeIn exDQ.ctest c) v := by
  intro c hc
  have : c < 1 := hc
  interval_cases c
  refine ⟨rfl, rfl, fun v hv => ?_⟩
  have hv2 : v < 2 := hv
  interval_cases v <;> rfl

theorem exStokes1 : Stokes exNs1.lin exP1 exD1 [[⟨1, 0, 0, 1⟩]] [2, 1] exM1 exB1 where
  lib := ⟨rfl, exLibs.1, exLibs.2.1⟩
  two := rfl
  bases := exH21_bases
  sizes := exSizes21
  setting := by
    obtain ⟨M, B, _, _, _, eM, eB, -⟩ := stokes_assembly exSetting21 exH21_ready rfl exH21_bases exP1_ok exD1_ok
      exSizes21
    refine ⟨_, _, _, _, _, exSetting21, exH21_ready, exP1_ok, exD1_ok, rfl, rfl, ?_, ?_⟩
    · have : exM1 = M := by unfold exM1; rw [eM]
      rw [this]; exact eM
    · have : exB1 = B := by unfold exB1; rw [eB]
      rw [this]; exact eB
  locals := rfl
  fom := rfl
  rhs := ⟨exOffs21 2 1, rfl⟩
  U := ⟨exOffs21 2 1, rfl⟩

theorem exStokes2 : Stokes exNs2.lin exPQ exDQ [[⟨1, 0, 0, 1⟩]] [2, 1, 2, 1] exM exB where
  lib := ⟨rfl, exLibs.2.2.1, exLibs.2.2.2⟩
  two := rfl
  bases := exH2Q_bases
  sizes := exSizes22
  setting := by
    obtain ⟨M, B, _, _, _, eM, eB, -⟩ := stokes_assembly (exSetting exH2Q rfl) exH2Q_ready rfl exH2Q_bases
      exPQ_ok exDQ_ok exSizes22
    refine ⟨_, _, _, _, _, exSetting exH2Q rfl, exH2Q_ready, exPQ_ok, exDQ_ok, rfl, rfl, ?_, ?_⟩
    · have : exM = M := by unfold exM; rw [eM]
      rw [this]; exact eM
    · have : exB = B := by unfold exB; rw [eB]
      rw [this]; exact eB
  locals := rfl
  fom := rfl
  rhs := ⟨exOffs4, rfl⟩
  U := ⟨exOffs4, rfl⟩

theorem exKnowsNs : Knows exNs1.lin exNs2.lin [[⟨1, 0, 0, 1⟩]] [[⟨1, 0, 0, 1⟩]] where
  separate := rfl
  vars := rfl
  names n hn := hn
  comp c c' n h1 h2 := by
    have e1 := exOne h1
    have e2 := exOne h2
    subst e1 e2
    refine ⟨rfl, fun v hv => ?_⟩
    have hv1 : v < 2 := hv
    interval_cases v <;> rfl
  ports p hp := by
    have hp1 : p < 1 := hp
    interval_cases p
    exact ⟨0, by decide, ⟨0, 0, 2, 1⟩, ⟨0, 0, 2, 1⟩, "c", "c", rfl, rfl, rfl, rfl, rfl, rfl, rfl, rfl⟩
  itfs p p' h := by
    obtain ⟨rp, rp', -, -, h1, h2, -⟩ := h
    have e1 : p < 1 := (List.getElem?_eq_some_iff.1 h1).1
    have e2 : p' < 1 := (List.getElem?_eq_some_iff.1 h2).1
    interval_cases p; interval_cases p'; rfl

theorem exSameM : SameForms exNs1.lin exNs2.lin exP1 exPQ where
  integs := rfl
  comp c c' n h1 h2 := by
    have e1 := exOne h1
    have e2 := exOne h2
    subst e1 e2
    exact ⟨rfl, rfl, rfl, rfl⟩

theorem exSameB : SameForms exNs1.lin exNs2.lin exD1 exDQ where
  integs := rfl
  comp c c' n h1 h2 := by
    have e1 := exOne h1
    have e2 := exOne h2
    subst e1 e2
    exact ⟨rfl, rfl, rfl, rfl⟩

theorem exConv1 : Convective exNs1 (fun _ => exW) where
  oper := by decide
  vars := ⟨rfl, by decide⟩
  count := rfl
  spaces m hm := by
    have hm1 : m < 1 := hm
    interval_cases m
    exact ⟨rfl, exW_ok, Nat.le_refl _, Nat.le_refl _, Nat.one_pos⟩

theorem exConv2 : Convective exNs2 (fun _ => exW) where
  oper := by decide
  vars := ⟨rfl, by decide⟩
  count := rfl
  spaces m hm := by
    have hm1 : m < 2 := hm
    interval_cases m
    · exact ⟨rfl, exW_ok, Nat.le_refl _, Nat.le_refl _, Nat.one_pos⟩
    · exact ⟨rfl, exW_ok, Nat.le_refl _, Nat.le_refl _, Nat.one_pos⟩

theorem exCw1 : Componentwise exNs1 (fun _ => exW) where
  comps c hc := by
    have : c < 1 := hc
    interval_cases c
    exact ⟨exW, rfl, exW_ok, Nat.le_refl _, Nat.one_pos⟩
  copies m c hm := by
    match m, hm with
    | 0, hm => simp [exNs1, exH21] at hm; subst hm; rfl
    | m + 1, hm => simp [exNs1, exH21] at hm

theorem exCw2 : Componentwise exNs2 (fun _ => exW) where
  comps c hc := by
    have : c < 1 := hc
    interval_cases c
    exact ⟨exW, rfl, exW_ok, Nat.le_refl _, Nat.one_pos⟩
  copies m c hm := by
    match m, hm with
    | 0, hm => simp [exNs2, exH2Q] at hm; subst hm; rfl
    | 1, hm => simp [exNs2, exH2Q] at hm; subst hm; rfl
    | m + 2, hm => simp [exNs2, exH2Q] at hm

theorem exSpaces : SameSpaces exNs1 exNs2 := by
  intro c c' n h1 h2
  have e1 := exOne h1
  have e2 := exOne h2
  subst e1 e2
  rfl

/-- The state solves the full-order equations. -/
theorem exSolves : SolvesNs exNs2 (stokesA exNs2.lin.h (sizeIn exPQ.itf.test) exM exB) (fun _ => exW)
    ⟨exState, [0, 2, 3, 5, 6]⟩ := by
  intro m v k hm hv hk
  have hm2 : m < 2 := hm
  have hv2 : v < 2 := hv
  interval_cases m <;> interval_cases v
  · have hk2 : k < 2 := hk
    interval_cases k <;> decide +kernel
  · have hk2 : k < 1 := hk
    interval_cases k; decide +kernel
  · have hk2 : k < 2 := hk
    interval_cases k <;> decide +kernel
  · have hk2 : k < 1 := hk
    interval_cases k; decide +kernel

/-- It lies in the span of the bases. -/
theorem exCombines : Combines exNs2.lin.h (fun m v p => bent ⟨[1, 2, 1, -1], exNs2.lin.h.romOffs⟩
    (romBlock exNs2.lin.h m v) p) ⟨exState, [0, 2, 3, 5, 6]⟩ := by
  intro m v k hm hv hk
  have hm2 : m < 2 := hm
  have hv2 : v < 2 := hv
  interval_cases m <;> interval_cases v
  · have hk2 : k < 2 := hk
    interval_cases k <;> decide +kernel
  · have hk2 : k < 1 := hk
    interval_cases k; decide +kernel
  · have hk2 : k < 2 := hk
    interval_cases k <;> decide +kernel
  · have hk2 : k < 1 := hk
    interval_cases k; decide +kernel

/-- The hypotheses hold: with the files built on the single component, the run on the joined ones hands the
nonlinear solver a system that the coefficients of the full-order solution solve; if the solver finds them,
the run returns a Galerkin solution.  The same files do not serve a run at global level. -/
example : ∃ d', buildNs Options.exConv (exConf "component") dense exNs1 (fun _ => 0) (fun _ => none) = .ok d' ∧
    (∃ u, runNs Options.exConv (exConf "component") exNs2 exSparse (fun _ _ _ => [1, 2, 1, -1]) []
      (fun _ => 7) d' = .ok u ∧
      Galerkin exNs2 [2, 1, 2, 1] (stokesA exNs2.lin.h (sizeIn exPQ.itf.test) exM exB) (fun _ => exW) u) ∧
    runNs Options.exConv (exConf "global") exNs2 exSparse (fun _ _ _ => [1, 2, 1, -1]) [] (fun _ => 7) d' =
      .error .abort := by
  obtain ⟨zr, hr, H⟩ := ns_component exStokes1 exStokes2 exKnowsNs exSameM exSameB exConv1 exConv2 exCw1 exCw2
    exSpaces dense_ok exSparse_ok (exAsks "component") (exAsks "component")
  obtain rfl := sizes_unique exH2Q_ready hr
  obtain ⟨d', h1, -, h2⟩ := H (fun _ => none) (fun _ => 0)
  obtain ⟨r, -, hc, h3⟩ := (h2 d' rfl rfl).1 (fun _ => 7)
  refine ⟨d', h1, h3 _ _ fun b eb => ?_, ns_wrong_level exStokes1 Nat.one_pos dense_ok (exAsks "component")
    (exAsks "global") (.inl ⟨rfl, rfl⟩) h1 _ _ _ _ _⟩
  obtain ⟨b', eb', em⟩ := solution_is_root exH2Q_ready exConv2 hc ⟨exOffs4, rfl⟩
    (x := [1, 2, 1, -1]) ⟨exH2Q_ready.offs, rfl⟩ ⟨exOffs4, rfl⟩ exCombines exSolves (fun _ => 7)
  have : b = b' := Except.ok.inj (eb.symm.trans eb')
  subst this
  refine ⟨?_, em⟩
  obtain ⟨y, ey, hy, -⟩ := hc [1, 2, 1, -1] ⟨exState, [0, 2, 3, 5, 6]⟩ (fun _ => 7) ⟨exH2Q_ready.offs, rfl⟩
    ⟨exOffs4, rfl⟩ exCombines
  have : y = b.data := Except.ok.inj (ey.symm.trans em)
  subst this
  exact hy.2.symm

/-- The hypotheses of the theorem on the global level hold. -/
example : ∃ d', buildNs Options.exConv (exConf "global") dense exNs2 (fun _ => 0) (fun _ => none) = .ok d' ∧
    ∃ r, romOper Options.exConv (exConf "global") exNs2 exSparse (fun _ => 7) d' = .ok r := by
  obtain ⟨zr, hr, H⟩ := ns_stokes_global exStokes2 exStokes2 rfl Nat.two_pos exConv2 exConv2 dense_ok exSparse_ok
    (exAsks "global") (exAsks "global")
  obtain ⟨d', h1, -, h2⟩ := H (fun _ => none) (fun _ => 0)
  obtain ⟨r, h3, -, -⟩ := (h2 d' rfl rfl).1 (fun _ => 7)
  exact ⟨d', h1, r, h3⟩

end Example

end Verif.NsPipeline
