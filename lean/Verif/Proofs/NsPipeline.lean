import Verif.Spec.NsPipeline
import Verif.Proofs.Pipeline
import Verif.Props.TensorRom
import Verif.Props.Online
import Verif.Props.Options

/-! # Lemmas on building, storing and using a Navier-Stokes ROM -/

namespace Verif.NsPipeline

open Verif Verif.LinAlg Verif.LinAlg.Spec Verif.RomAssembly Verif.Hdf5 Verif.Hdf5.Spec Verif.TensorRom Spec
open Verif.TensorRom.Spec (FesOk convForm vec field velBlock start InBlock linAt IsTensor System)
open Verif.LinAlg.Spec (TensorOk)
open Verif.Blocks (BlockVector)
open Verif.Blocks.Spec (HasSizes IsOffsets)
open Verif.RomHandler (Handler romBlock_inj romBlock_lt)
open Verif.RomHandler.Spec (vars bent romBlock fomBlock Ready)
open Verif.Online (pos pos_lt pos_surj sum_pos bent_pos Projects mono_projects apply_combines)
open Verif.Online.Spec (V apply Combines)
open Verif.InterfaceForm.Spec (gather dofPos dofSign)
open Verif.Unsteady (mono mono_dims)
open Finset

variable {R F : Type} [CommRing R]

theorem gather_congr {f g : Nat → R} {dofs : List Int} (h : ∀ d ∈ dofs, f (dofPos d) = g (dofPos d)) :
    gather f dofs = gather g dofs := by
  unfold gather
  exact List.map_congr_left fun d hd => by rw [h d hd]

/-- The form looks at the degrees of freedom of the space only. -/
theorem convForm_congr {E : Fes R} (hE : FesOk E) {w w' u u' v v' : Nat → R}
    (hw : ∀ k, k < E.size → w k = w' k) (hu : ∀ k, k < E.size → u k = u' k)
    (hv : ∀ k, k < E.size → v k = v' k) : convForm E w u v = convForm E w' u' v' := by
  unfold convForm
  congr 1
  refine List.map_congr_left fun el hel => ?_
  have hd := (hE el hel).1
  rw [gather_congr (f := w) (g := w') fun d h => hw _ (hd d h),
    gather_congr (f := u) (g := u') fun d h => hu _ (hd d h),
    gather_congr (f := v) (g := v') fun d h => hv _ (hd d h)]

omit [CommRing R] in
theorem velBlock_eq (h : Handler R) (m : Nat) :
    velBlock h.separate h.ord h.numVar m = romBlock h m 0 := by
  unfold velBlock romBlock vars
  cases hs : h.separate <;> cases ho : h.ord <;> simp

/-- The reduced system of a handler. -/
def system (h : Handler R) (zr : List Nat) (W : Nat → Fes R) : System R :=
  ⟨h.numSub, velBlock h.separate h.ord h.numVar, fun m => V h m 0, W, zr⟩

omit [CommRing R] in
theorem vars_pos {h : Handler R} (hv : 0 < h.numVar) : 0 < vars h := by
  unfold vars; split
  · exact hv
  · exact Nat.one_pos

theorem system_ok {h : Handler R} {zr zf : List Nat} (hr : Ready h zr zf) (hv : 0 < h.numVar)
    {rom : BlockMat R} (hro : rom.roffs = h.romOffs) (hco : rom.coffs = h.romOffs)
    {sparse : Blk R → Sp R} (hsp : Sparse sparse)
    {W : Nat → Fes R} {hs : List (Option (Tensor R))}
    (hT : ∀ m, m < h.numSub → ∃ t, hs[m]? = some (some t) ∧ IsTensor t (V h m 0) (W m)) :
    (system h zr W).Ok (sparse (mono rom)) h.romOffs h.numVar h.separate h.ord hs := by
  have hdim := mono_dims (b := rom) (zr := zr) (zc := zr) (by rw [hro]; exact hr.offs)
    (by rw [hco]; exact hr.offs)
  refine ⟨hv, rfl, hr.offs, ?_, ?_, ?_, ?_, hT⟩
  · rw [show (system h zr W).z = zr from rfl, hr.lenR]; rfl
  · intro m hm
    show zr[velBlock h.separate h.ord h.numVar m]? = _
    rw [velBlock_eq]
    exact hr.szR m 0 hm (vars_pos hv)
  · rw [(hsp _).1, hdim.1]; rfl
  · rw [(hsp _).2.1, hdim.2]; rfl

/-- The operator made of a projected linear operator and the tensors of the subdomains computes the tested
residual. -/
theorem computes {h : Handler R} {zr zf : List Nat} (hr : Ready h zr zf) (hv : 0 < h.numVar)
    {A : Nat → Nat → Nat → Nat → Nat → Nat → R} {rom : BlockMat R} (hp : Projects h zr A rom)
    {sparse : Blk R → Sp R} (hsp : Sparse sparse) {W : Nat → Fes R} {hs : List (Option (Tensor R))}
    (hW : ∀ m, m < h.numSub → FesOk (W m) ∧ (W m).size ≤ (V h m 0).h)
    (hT : ∀ m, m < h.numSub → ∃ t, hs[m]? = some (some t) ∧ IsTensor t (V h m 0) (W m)) :
    ∃ r, construct (sparse (mono rom)) h.romOffs h.numVar h.numSub h.separate h.ord hs = .ok r ∧
      Computes h zr zf A W r := by
  have S := system_ok hr hv hp.roffs hp.coffs hsp hT
  have hv0 := vars_pos hv
  obtain ⟨r, e, hm⟩ := mult_galerkin S
  refine ⟨r, e, fun x u junk hx hu hc => ?_⟩
  obtain ⟨y, ey, ly, hy⟩ := hm x junk hx.2
  have hys : HasSizes (⟨y, h.romOffs⟩ : BlockVector R) zr := ⟨hr.offs, ly⟩
  refine ⟨y, ey, hys, fun m v p hmm hvv hpp => ?_⟩
  have hlt := pos_lt hr hmm hvv hpp
  have hdim := mono_dims (b := rom) (zr := zr) (zc := zr) (by rw [hp.roffs]; exact hr.offs)
    (by rw [hp.coffs]; exact hr.offs)
  rw [bent_pos hr hys hmm hvv hpp]
  show ve y _ = _
  rw [hy _ hlt]
  unfold tested
  rw [apply_combines A hc]
  congr 1
  · unfold linAt
    rw [(hsp _).2.1, hdim.2, sum_pos hr]
    refine sum_congr rfl fun m' hm' => sum_congr rfl fun w hw => sum_congr rfl fun q hq => ?_
    have a := mem_range.1 hm'
    have b := mem_range.1 hw
    have c := mem_range.1 hq
    rw [(hsp _).2.2 _ _ (by rw [hdim.1]; exact hlt) (by rw [hdim.2]; exact pos_lt hr a b c),
      mono_projects hr hp hmm a hvv b hpp c, bent_pos hr hx a b c]
  · by_cases h0 : v = 0
    · subst h0
      rw [if_pos rfl]
      have := conv_block S (ve x) hmm (k := p) hpp
      rw [show start (system h zr W).z ((system h zr W).blk m) + p = pos h zr m 0 p by
        show (zr.take (velBlock h.separate h.ord h.numVar m)).sum + p = _
        rw [velBlock_eq]; rfl] at this
      rw [this]
      have hvel : ∀ k, k < (W m).size → (system h zr W).velocity (ve x) m k = velocity h u m k := by
        intro k hk
        have hk' : k < (V h m 0).h := by have := (hW m hmm).2; omega
        show field (V h m 0) (fun i => ve x (start zr (velBlock h.separate h.ord h.numVar m) + i)) k = _
        unfold velocity field
        rw [hc m 0 k hmm hv0 hk']
        refine sum_congr rfl fun q hq => ?_
        dsimp only
        rw [bent_pos hr hx hmm hv0 (mem_range.1 hq), velBlock_eq, mul_comm]; rfl
      exact convForm_congr (hW m hmm).1 hvel hvel fun k _ => rfl
    · rw [if_neg h0]
      refine conv_outside _ _ fun m' hm' hin => ?_
      have hin' : InBlock zr (romBlock h m' 0) (V h m' 0).w (pos h zr m v p) := by
        rw [← velBlock_eq]; exact hin
      refine block_disjoint zr (hr.szR m' 0 hm' hv0) (hr.szR m v hmm hvv) hpp ?_ hin'
      intro hb
      exact h0 (romBlock_inj h hm' hmm hv0 hvv hb).2.symm

/-! ## The run -/

/-- What a run does with such an operator. -/
theorem runs {P : NsProb R F} {zr zf : List Nat} (hr : Ready P.lin.h zr zf)
    {A : Nat → Nat → Nat → Nat → Nat → Nat → R} {W : Nat → Fes R}
    (hR : HasSizes (Online.view P.lin.h P.lin.varOffs P.lin.domOffs P.lin.rhs) zf)
    (hU : HasSizes (Online.view P.lin.h P.lin.varOffs P.lin.domOffs P.lin.U) zf) {r : Rom R}
    (hc : Computes P.lin.h zr zf A W r) {junk : Nat → R}
    {nls : (List R → Outcome (List R)) → List R → List R → List R} {x0 : List R}
    (hs : ∀ b, Online.projectRHS P.lin.h P.lin.varOffs P.lin.domOffs P.lin.rhs junk = .ok b →
        Solved nls (fun x => mult r x junk) b.data x0) :
    ∃ b u, Online.projectRHS P.lin.h P.lin.varOffs P.lin.domOffs P.lin.rhs junk = .ok b ∧
      nonlinearSolve P.lin r b.data nls x0 junk = .ok u ∧ Galerkin P zf A W u := by
  obtain ⟨b, e1, hbs, hbo, hbv⟩ := RomHandler.project_spec hr _ hR junk
  obtain ⟨s1, s2⟩ := hs b e1
  have hx : HasSizes (⟨nls (fun x => mult r x junk) b.data x0, P.lin.h.romOffs⟩ : BlockVector R) zr :=
    ⟨hr.offs, s1.trans hbs.2⟩
  obtain ⟨u, e2, hus, huv⟩ := RomHandler.lift_spec hr _ _ hx hU
  have hview : Online.view P.lin.h P.lin.varOffs P.lin.domOffs u.data = u := by
    have h1 : IsOffsets (Online.view P.lin.h P.lin.varOffs P.lin.domOffs P.lin.U).offsets zf := hU.1
    have h2 := h1.unique hus.1
    unfold Online.view at h2 ⊢
    split at h2 <;> rename_i hh
    · rw [if_pos hh]; exact congrArg (BlockVector.mk u.data) h2
    · rw [if_neg hh]; exact congrArg (BlockVector.mk u.data) h2
  refine ⟨b, u.data, e1, ?_, ?_⟩
  · unfold nonlinearSolve
    have hn : (Online.view P.lin.h P.lin.varOffs P.lin.domOffs P.lin.U).numBlocks = P.lin.h.numBlocks := by
      rw [hU.numBlocks, hr.lenF, RomHandler.numBlocks_eq]
    dsimp only
    rw [hn, beq_self_eq_true, require_true, ok_bind, e2, ok_bind]; rfl
  · have hcomb : Combines P.lin.h (fun m v p => bent ⟨nls (fun x => mult r x junk) b.data x0,
        P.lin.h.romOffs⟩ (romBlock P.lin.h m v) p) u := fun m v k hm hv hk => huv m v k hm hv hk
    obtain ⟨y, ey, hys, hy⟩ := hc _ u junk hx hus hcomb
    have : y = b.data := Except.ok.inj (ey.symm.trans s2)
    subst this
    refine ⟨by rw [hview]; exact hus, by rw [hview]; exact ⟨_, hcomb⟩, fun m v p hm hv hp => ?_⟩
    rw [hview, ← hy m v p hm hv hp, ← hbv m v p hm hv hp, ← hbo]

/-! ## Storing the tensors of the subdomains -/

section
omit [CommRing R]

theorem subName_inj {i j : Nat} (h : "subdomain" ++ toString i = "subdomain" ++ (toString j : String)) :
    i = j := by
  refine RomElems.toString_inj ?_
  apply String.toList_inj.1
  have := congrArg String.toList h
  rw [String.toList_append, String.toList_append] at this
  exact List.append_cancel_left this

theorem subTensors_roundTrip {n : Nat} {hs : List (Option (Tensor R))} {T : Nat → Tensor R}
    (hT : ∀ m, m < n → hs[m]? = some (some (T m)))
    (hpos : ∀ m, m < n → 0 < (T m).nI ∧ 0 < (T m).nJ ∧ 0 < (T m).nK)
    (hok : ∀ m, m < n → TensorOk (T m)) :
    ∃ f, saveSubTensors n hs = .ok f ∧ find f ⟨[], "ROM_tensors", false⟩ = some .group ∧
      ∀ junk, ∃ hs', loadSubTensors n f junk = .ok hs' ∧ hs'.length = n ∧
        ∀ m, m < n → ∃ t, hs'[m]? = some (some t) ∧ SameTens (toTens (T m)) (toTens t) := by
  have c0 : CanWrite ([] : File R) [] "ROM_tensors" := ⟨valid_empty, rfl, rfl⟩
  unfold saveSubTensors
  rw [create_ok c0.2.1 c0.2.2, ok_bind]
  obtain ⟨f, e, -, h1, h2⟩ := loop_total (n := n) (fun (j : Nat) (f : File R) =>
      (∀ i, i < n → j ≤ i → CanWrite f ["ROM_tensors"] ("subdomain" ++ toString i)) ∧
      find f ⟨[], "ROM_tensors", false⟩ = some .group ∧
      ∀ i, i < n → i < j → ∀ f'', Later f f'' → ∀ target junk, ∃ r,
        readTensor f'' ["ROM_tensors"] ("subdomain" ++ toString i) target junk = .ok r ∧
          SameTens (toTens (T i)) r)
    (body := fun m f => do
      let p ← rd hs m
      let t ← deref p
      writeTensor f ["ROM_tensors"] ("subdomain" ++ toString m) (toTens t))
    (s := (⟨[], "ROM_tensors", false⟩, .group) :: [])
    ⟨fun i h _ => CanWrite.group c0 _, find_cons_self _ _ _, fun i _ hi => absurd hi (Nat.not_lt_zero _)⟩ (by
      intro j f hj ⟨h1, h2, h3⟩
      obtain ⟨f', e', v', l', o', rt⟩ := Hdf5.tensor_roundTrip _ _ _ (h1 j hj (Nat.le_refl _))
        (toTens (T j)) (hpos j hj).1 (hpos j hj).2.1 (hpos j hj).2.2 (hok j hj)
      have w : Wrote f f' ["ROM_tensors"] ("subdomain" ++ toString j) := ⟨v', l', o'⟩
      refine ⟨f', ?_, ?_, l' _ _ h2, ?_⟩
      · rw [rd_eq_ok.2 (hT j hj), ok_bind]
        exact e'
      · intro i hi hji
        refine (h1 i hi (by omega)).step w ?_
        intro hne
        have := subName_inj hne
        omega
      · intro i hi hij f'' hlt
        by_cases hi' : i < j
        · exact h3 i hi hi' f'' (w.later.trans hlt)
        · obtain rfl : i = j := by omega
          exact fun target junk => rt f'' target junk hlt)
  refine ⟨f, e, h1, fun junk => ?_⟩
  unfold loadSubTensors
  rw [openGroup_of h1, ok_bind]
  exact fill_spec (n := n) (P := fun m t => SameTens (toTens (T m)) (toTens t)) fun m ts hm hl => by
    obtain ⟨r, er, hr⟩ := h2 m hm hm f (fun _ _ h => h) ⟨0, 0, 0, []⟩ junk
    exact ⟨ofTens r, hr, by rw [er, ok_bind]⟩

end

end Verif.NsPipeline
