import Verif.Proofs.DivideJacReal
import Verif.Props.DivideNS

/-!
# C115: dividing a mesh does not change the Newton matrix
-/

namespace Verif.Divide

open Verif Verif.LinAlg Verif.LinAlg.Spec Verif.SubMesh Verif.SubMesh.Spec Finset Spec
open Verif.InterfaceForm (Space Integ MatArr)
open Verif.InterfaceForm.Spec (dofsOf dofAt dofPos SpaceOk sizeIn mget MatsOk)
open Verif.RomAssembly (loop_collect pickMarkers bdrMarkers assembleBdr domainStep domainMatrix fomArray fomMats
  maxOr)
open Verif.Boundary (BC)
open Verif.Blocks (BlockVector)
open Verif.Blocks.Spec (HasSizes)
open Verif.RomHandler (readBlock_eq)
open Verif.RomHandler.Spec (bent)

variable {R δ F : Type} [CommRing R] {pm : Parent} {subs : List Sub} {φ : Nat → Nat → Nat} {g : Int}
variable {G : Grad R F} {ints : List (ITr δ → List R → Mat R)} {views : List (GView R δ F)}
variable {fnfi : List (Option (Integ R δ))} {bc : BC F} {x : BlockVector R} {ξ : Nat → Nat → R}

theorem forms_at {views : List (View R δ)} {ints : List (ITr δ → Mat R)}
    {fs : List (RomAssembly.BForm R)} (h : forms views ints = .ok fs) :
    fs.length = views.length ∧ ∀ (k : Nat) v, views[k]? = some v → ∃ s, base v ints = .ok s ∧
      fs[k]? = some ⟨s, v.bel⟩ := by
  unfold forms at h
  have := loop_inv (fun k (acc : List (RomAssembly.BForm R)) => acc.length = k ∧ ∀ (j : Nat) v, j < k →
    views[j]? = some v → ∃ s, base v ints = .ok s ∧ acc[j]? = some ⟨s, v.bel⟩)
    ⟨rfl, by intro j _ hj; omega⟩ (by
      rintro k acc acc' hk ⟨hl, hI⟩ hs
      simp only [bind_eq_ok] at hs
      obtain ⟨v, hv, s, hb, hs⟩ := hs
      cases hs
      refine ⟨by rw [List.length_append, hl]; rfl, ?_⟩
      intro j w hj hw
      by_cases hjk : j = k
      · subst hjk
        rw [rd_eq_ok, hw] at hv; cases hv
        exact ⟨s, hb, by rw [List.getElem?_append_right (by omega), hl, Nat.sub_self]; rfl⟩
      · obtain ⟨s', h1, h2⟩ := hI j w (by omega) hw
        exact ⟨s', h1, by rw [List.getElem?_append_left (by omega)]; exact h2⟩) h
  exact ⟨this.1, fun k v hk => this.2 k v (List.getElem?_eq_some_iff.1 hk).1 hk⟩

theorem blockLen_eq {z : List Nat} (hx : HasSizes x z) (k : Nat) : blockLen x k = z[k]?.getD 0 := by
  unfold blockLen
  cases h : z[k]? with
  | some s =>
    obtain ⟨y, h1, h2⟩ := hx.1.2.2 k s h
    rw [h1, h2, Option.getD_some, Option.getD_some, Option.getD_some]
    omega
  | none =>
    have hk := List.getElem?_eq_none_iff.1 h
    rw [List.getElem?_eq_none (i := k + 1) (by rw [hx.1.1]; omega)]
    exact Nat.zero_sub _

/-- With the Lax-Friedrichs flux. -/
theorem convGrad_lf (D : Division pm subs φ g) (hbc : Conditions pm bc) (hfun : HasFunctions bc)
    (hF : GFits G pm subs φ views ints fnfi) (hx : HasSizes x (views.map fun v => v.space.vsize))
    (hX : ∀ (k i e b : Nat) sm v, subs[k]? = some sm → views[k]? = some v → sm.elemMap[i]? = some e →
      b < G.n e → bent x k (pos v.space i b) = ξ e b) :
    ∃ J, convGrad true true bc pm subs views ints fnfi x = .ok J ∧
      MatsOk J subs.length (sizeIn (views.map (·.space))) (sizeIn (views.map (·.space))) ∧
      ∀ (k i e k' i' e' a b : Nat) sm v sm' v', subs[k]? = some sm → views[k]? = some v →
        sm.elemMap[i]? = some e → subs[k']? = some sm' → views[k']? = some v' →
        sm'.elemMap[i']? = some e' → a < G.n e → b < G.n e' →
        mget J k k' (pos v.space i a) (pos v'.space i' b) = gradAt true G pm bc ξ e a e' b := by
  obtain ⟨st, fms, mesh, mks, mx, hst, hmesh, hmks, hmk, hall⟩ := setup D hbc
  obtain ⟨st', fms', bes, hst', hC, hE⟩ := submeshes2D_correct pm subs φ g D.max D.pos D.wf
  rw [hst] at hst'
  obtain ⟨rfl, rfl⟩ := Prod.mk.inj (Except.ok.inj hst')
  have T : Result pm subs φ g st fms bes := ⟨hC, hE⟩
  obtain ⟨mesh', hmesh', hml, _⟩ := attributes_spec D T
  rw [hmesh] at hmesh'; cases hmesh'
  set c : Nat → Nat → Option F := fun k b =>
    (condN bc (((mesh[k]?).map (fun e => e.1[b]?.getD 0)).getD 0)).getD none with hcdef
  have hc : ∀ (k b : Nat) sm be q, subs[k]? = some sm → sm.bes[b]? = some be → q ∈ pm.bdr →
      q.1 = φ k be.face → c k b = (condN bc q.2).getD none := by
    intro k b sm be q hk hb hq hqf
    obtain ⟨l', u, m1, _, _, _, _, m6⟩ := hall k sm hk
    obtain ⟨be', g1, g2⟩ := m6 b be hb
    rw [hcdef]
    dsimp only
    rw [m1, Option.map_some, Option.getD_some, List.getElem?_map, g1, Option.map_some, Option.getD_some]
    rcases g2 with ⟨q', hq', hf', ha'⟩ | ⟨hfree, _⟩
    · have : q' = q := List.inj_on_of_nodup_map D.bdrOnce hq' hq (hf'.trans hqf.symm)
      rw [ha', this]
    · exact absurd hqf (hfree q hq)
  have hFits := gviews_fits (bc := bc) (c := c) D hF hX hc
  obtain ⟨M, hM, hMok, hMe⟩ := operator_spec false D (bcN_conditions hbc) hFits
  have hsp1 : (gviews views x c).map (·.test) = views.map (·.space) := by
    apply List.ext_getElem?
    intro k
    unfold gviews
    rw [List.getElem?_map, List.getElem?_mapIdx, List.getElem?_map]
    cases views[k]? <;> rfl
  have hsp2 : (gviews views x c).map (·.trial) = views.map (·.space) := by
    apply List.ext_getElem?
    intro k
    unfold gviews
    rw [List.getElem?_map, List.getElem?_mapIdx, List.getElem?_map]
    cases views[k]? <;> rfl
  rw [hsp1, hsp2] at hMok
  refine ⟨M, ?_, hMok, ?_⟩
  · -- the two runs agree
    unfold operator at hM
    rw [hst, ok_bind] at hM
    dsimp only at hM
    rw [hmesh, ok_bind, show bdrMarkers (bcN bc).attrs mesh = .ok mks from hmks, ok_bind] at hM
    rw [bind_eq_ok] at hM
    obtain ⟨fs, hfs, hM⟩ := hM
    rw [if_neg (by simp)] at hM
    unfold fomMats fomArray at hM
    rw [bind_assoc, bind_eq_ok] at hM
    obtain ⟨ds, hds, hM⟩ := hM
    obtain ⟨hfl, hfa⟩ := forms_at hfs
    have hgl : (gviews views x c).length = views.length := by unfold gviews; exact List.length_mapIdx
    -- the boundary terms
    obtain ⟨ts, hts, htl, hta⟩ := loop_collect (n := mesh.length)
      (body := fun k (acc : List (List (Nat × Option F) × List (List Int))) => do
        let e ← rd mesh k
        let act ← if true then nlBC bc e.2 else .ok []
        let ms ← pickMarkers (act.map fun c => (c.1, ())) mks
        return acc ++ [(act, ms)])
      (fun k t => ∀ e, mesh[k]? = some e → ∃ act', Boundary.lhsBC (bcN bc) e.2 = .ok act' ∧
        pickMarkers act' mks = .ok t.2 ∧ t.1.length = t.2.length ∧
        ∀ (a : Int) (k : Nat) mk z, 0 < a → a ≤ mx → t.2[k]? = some mk → rdI mk (a - 1) = .ok z → z ≠ 0 →
          (t.1[k]?).map Prod.snd = some ((condN bc a).getD none)) (by
        intro k acc hk
        obtain ⟨act, act', ms, h1, h2, h3, h4, h5, h6⟩ := nlTerm_at hbc hfun hmk (mesh[k]).2
        refine ⟨(act, ms), ?_, ?_⟩
        · rw [rd_of_lt hk, ok_bind, if_pos rfl, h1, ok_bind]
          dsimp only
          rw [h2, h4, ok_bind]; rfl
        · intro e he
          rw [List.getElem?_eq_getElem hk] at he; cases he
          exact ⟨act', h3, h4, h5, h6⟩)
    have hloop : loop views.length (fun k (acc : List (Sp R)) => do
        let v ← rd views k
        let e ← rd mesh k
        let t ← rd ts k
        let xk ← RomHandler.readBlock x k
        let s ← gForm v ints e t xk
        return acc ++ [s]) [] = .ok ds := by
      rw [hfl, hgl] at hds
      rw [← hds]
      refine loop_congr ?_
      intro k acc hk
      obtain ⟨sm, hs⟩ : ∃ sm, subs[k]? = some sm :=
        ⟨_, List.getElem?_eq_getElem (show k < subs.length by rw [← hF.count]; exact hk)⟩
      have hv := List.getElem?_eq_getElem hk
      have V := hF.view _ _ _ hs hv
      obtain ⟨s, b1, b2⟩ := hfa k _ (gviews_at hv)
      obtain ⟨l', u, m1, m2, m3, m4, m5, m6⟩ := hall k _ hs
      obtain ⟨t, t1, t2⟩ := hta k (by rw [hml, ← hF.count]; exact hk)
      obtain ⟨act', p1, p2, p3, p4⟩ := t2 _ m1
      unfold domainStep domainMatrix
      rw [rd_eq_ok.2 hv, ok_bind, rd_eq_ok.2 m1, ok_bind, ok_bind, rd_eq_ok.2 t1, ok_bind,
        readBlock_eq hx (s := views[k].space.vsize) (by rw [List.getElem?_map, hv]; rfl), ok_bind,
        rd_eq_ok.2 b2, ok_bind]
      dsimp only
      rw [p1, ok_bind, p2, ok_bind]
      have key := gForm_eq (v := views[k]) (X := bent x k) (ints := ints)
        (e := (l'.map (fun b => b.attr), u)) (act := t.1) (ms := t.2) (c := c k) V.space.inside (by
          intro b hb d hd
          obtain ⟨j, hj⟩ := List.mem_iff_getElem?.1 hb
          have hjl : j < sm.bes.length := by
            rw [← V.belCount]; exact (List.getElem?_eq_some_iff.1 hj).1
          obtain ⟨r1, _⟩ := V.bel j _ b (List.getElem?_eq_getElem hjl) hj
          obtain ⟨_, y, _, _, hy, _⟩ := D.wf.onFace _ _ _ _ hs (List.getElem?_eq_getElem hjl)
          rw [r1] at hd
          exact (sized_dofs V.space hy).2.2 d hd) p3 (by
          intro i a j mk z hi hj hz hz0
          have hmem := List.mem_of_getElem? hi
          have ha := m5 a hmem
          have hle : a ≤ mx := by
            have h1 : a ∈ u := (m3.complete a).2 hmem
            exact le_trans (RomAssembly.maxOr_ge h1) m2
          rw [p4 a j mk z ha hle hj hz hz0, hcdef]
          dsimp only
          rw [m1, Option.map_some, Option.getD_some]
          dsimp only at hi
          rw [hi, Option.getD_some])
      rw [show t = (t.1, t.2) from rfl, key, b1, ok_bind]
    unfold convGrad
    rw [hst, ok_bind]
    dsimp only
    rw [hmesh, ok_bind, hmks, ok_bind]
    have hnl : nlTerms true bc mks mesh = .ok ts := hts
    rw [hnl, ok_bind]
    simp only [Bool.and_self, if_true]
    unfold hopGrad
    rw [hloop, ok_bind]
    show (itf (views.map gAsView) fnfi st).gradient x _ = _
    rw [gradient_eq c hx (by
      intro v hv
      obtain ⟨j, hj⟩ := List.mem_iff_getElem?.1 hv
      have hjl : j < subs.length := by rw [← hF.count]; exact (List.getElem?_eq_some_iff.1 hj).1
      exact (hF.view j _ v (List.getElem?_eq_getElem hjl) hj).space.inside)]
    rw [← hM]
    show _ = (itf (gviews views x c) (gfnfi fnfi) st).assemble _
    congr 1
    rw [hfl, hgl]
    have hlen : ∀ i, blockLen x i = ((views.map fun v => v.space)[i]?.getD (⟨0, []⟩ : Space)).vsize := by
      intro i
      rw [blockLen_eq hx, List.getElem?_map, List.getElem?_map]
      cases views[i]? <;> rfl
    congr 1
    funext i j
    rw [hlen, hlen, show (itf (gviews views x c) (gfnfi fnfi) st).test = views.map (·.space) from hsp1,
      show (itf (gviews views x c) (gfnfi fnfi) st).trial = views.map (·.space) from hsp2]
  · intro k i e k' i' e' a b sm v sm' v' hk hv hi hk' hv' hi' ha hb
    have := hMe k i e k' i' e' a b sm _ sm' _ hk (gviews_at hv) hi hk' (gviews_at hv') hi' ha hb
    rw [entry_wholeOf D hbc] at this
    exact this

/-- Without face terms. -/
theorem plain_fits {k : Nat} {sm : Sub} {v : GView R δ F} (hv : GViewFits G pm subs φ ints k sm v) :
    GViewFits { G with face := fun _ _ _ _ _ _ => 0 } pm subs φ [] k sm v := by
  refine ⟨hv.space, hv.dom, hv.faceCount, hv.outer, ?_, hv.belCount, hv.bel, hv.outerBdr⟩
  intro s fc hs hfc hin
  obtain ⟨t, o, x1, x2, h1, h2, h3, h4, h5, _, _⟩ := hv.inner s fc hs hfc hin
  exact ⟨t, o, x1, x2, h1, h2, h3, h4, h5, by simp, by simp⟩

/-- Without the Lax-Friedrichs flux. -/
theorem convGrad_plain (fullDg : Bool) (D : Division pm subs φ g) (hbc : Conditions pm bc)
    (hF : GFits G pm subs φ views ints fnfi) (hx : HasSizes x (views.map fun v => v.space.vsize))
    (hX : ∀ (k i e b : Nat) sm v, subs[k]? = some sm → views[k]? = some v → sm.elemMap[i]? = some e →
      b < G.n e → bent x k (pos v.space i b) = ξ e b) :
    ∃ J, convGrad false fullDg bc pm subs views ints fnfi x = .ok J ∧
      MatsOk J subs.length (sizeIn (views.map (·.space))) (sizeIn (views.map (·.space))) ∧
      ∀ (k i e k' i' e' a b : Nat) sm v sm' v', subs[k]? = some sm → views[k]? = some v →
        sm.elemMap[i]? = some e → subs[k']? = some sm' → views[k']? = some v' →
        sm'.elemMap[i']? = some e' → a < G.n e → b < G.n e' →
        mget J k k' (pos v.space i a) (pos v'.space i' b) = gradAt false G pm bc ξ e a e' b := by
  obtain ⟨st, fms, mesh, mks, mx, hst, hmesh, hmks, hmk, hall⟩ := setup D hbc
  obtain ⟨st', fms', bes, hst', hC, hE⟩ := submeshes2D_correct pm subs φ g D.max D.pos D.wf
  rw [hst] at hst'
  obtain ⟨rfl, rfl⟩ := Prod.mk.inj (Except.ok.inj hst')
  have T : Result pm subs φ g st fms bes := ⟨hC, hE⟩
  obtain ⟨mesh', hmesh', hml, _⟩ := attributes_spec D T
  rw [hmesh] at hmesh'; cases hmesh'
  obtain ⟨ts, hts, htl, hta⟩ := loop_collect (n := mesh.length)
    (body := fun k (acc : List (List (Nat × Option F) × List (List Int))) => do
      let e ← rd mesh k
      let act ← if false then nlBC bc e.2 else .ok []
      let ms ← pickMarkers (act.map fun c => (c.1, ())) mks
      return acc ++ [(act, ms)])
    (fun _ t => t = ([], [])) (by
      intro k acc hk
      refine ⟨([], []), ?_, rfl⟩
      rw [rd_of_lt hk, ok_bind]; rfl)
  obtain ⟨ds, hds, hdl, hda⟩ := loop_collect (n := views.length)
    (body := fun k (acc : List (Sp R)) => do
      let v ← rd views k
      let e ← rd mesh k
      let t ← rd ts k
      let xk ← RomHandler.readBlock x k
      let s ← gForm v [] e t xk
      return acc ++ [s])
    (fun k s => ∀ sm v, subs[k]? = some sm → views[k]? = some v →
      (s.h = v.space.vsize ∧ s.w = v.space.vsize) ∧
      ∀ i e i' e' a b, sm.elemMap[i]? = some e → sm.elemMap[i']? = some e' → a < G.n e → b < G.n e' →
        s.get (pos v.space i a) (pos v.space i' b) = gradAt false G pm bc ξ e a e' b) (by
      intro k acc hk
      obtain ⟨sm, hs⟩ : ∃ sm, subs[k]? = some sm :=
        ⟨_, List.getElem?_eq_getElem (show k < subs.length by rw [← hF.count]; exact hk)⟩
      have hv := List.getElem?_eq_getElem hk
      have V := hF.view _ _ _ hs hv
      have V0 := plain_fits V
      have hV := gview_fits (bc := (⟨[], [], [], false⟩ : BC F)) (c := fun _ => none) (X := bent x k) (ξ := ξ)
        D hs V0 (fun i e b hi hb => hX k i e b sm _ hs hv hi hb) (by
          intro b be q _ _ _
          simp [condN])
      obtain ⟨s, b1, b2, b3⟩ := base_spec D hs hV
      have hm := List.getElem?_eq_getElem (show k < mesh.length by rw [hml, ← hF.count]; exact hk)
      obtain ⟨t, t1, t2⟩ := hta k (by rw [hml, ← hF.count]; exact hk)
      subst t2
      refine ⟨s, ?_, ?_⟩
      · rw [rd_eq_ok.2 hv, ok_bind, rd_eq_ok.2 hm, ok_bind, rd_eq_ok.2 t1, ok_bind,
          readBlock_eq hx (s := views[k].space.vsize) (by rw [List.getElem?_map, hv]; rfl), ok_bind,
          gForm_eq (c := fun _ => none) V.space.inside (by
            intro b hb d hd
            obtain ⟨j, hj⟩ := List.mem_iff_getElem?.1 hb
            have hjl : j < sm.bes.length := by
              rw [← V.belCount]; exact (List.getElem?_eq_some_iff.1 hj).1
            obtain ⟨r1, _⟩ := V.bel j _ b (List.getElem?_eq_getElem hjl) hj
            obtain ⟨_, y, _, _, hy, _⟩ := D.wf.onFace _ _ _ _ hs (List.getElem?_eq_getElem hjl)
            rw [r1] at hd
            exact (sized_dofs V.space hy).2.2 d hd) rfl (by simp), b1, ok_bind]
        rfl
      · intro sm' v' h1 h2
        rw [hs] at h1; cases h1
        rw [hv] at h2; cases h2
        refine ⟨b2, ?_⟩
        intro i e i' e' a b hi hi' ha hb
        have := congrFun (congrFun b3 (pos views[k].space i a)) (pos views[k].space i' b)
        rw [this, Pi.add_apply, Pi.add_apply, Finset.sum_apply, Finset.sum_apply, Finset.sum_apply,
          Finset.sum_apply]
        have h1 := elem_sum D hs hV hi hi' ha hb
        refine Eq.trans (congrArg₂ (· + ·) h1 (sum_eq_zero fun q _ => ?_)) ?_
        · have h0 : ∀ (w : View R (δ × List R)) (q : Nat), innerTerm w [] q = 0 := by
            intro w q
            unfold innerTerm
            split <;> rfl
          exact congrFun (congrFun (h0 _ q) _) _
        · unfold gradAt wholeOf
          simp)
  have hlen : ∀ i, blockLen x i = sizeIn (views.map fun v => v.space) i := by
    intro i
    unfold sizeIn
    rw [blockLen_eq hx, List.getElem?_map, List.getElem?_map]
    cases views[i]? <;> rfl
  refine ⟨⟨views.length, views.length, fun i j => if i = j then ds[i]? else
    some ⟨blockLen x i, blockLen x j, []⟩⟩, ?_, ⟨hF.count, hF.count, ?_⟩, ?_⟩
  · unfold convGrad
    rw [hst, ok_bind]
    dsimp only
    rw [hmesh, ok_bind, hmks, ok_bind]
    have hnl : nlTerms false bc mks mesh = .ok ts := hts
    rw [hnl, ok_bind]
    unfold hopGrad
    simp only [Bool.false_and, Bool.false_eq_true, if_false]
    rw [hds]
    rfl
  · intro i j hi hj
    dsimp only
    by_cases hij : i = j
    · subst hij
      rw [if_pos rfl]
      obtain ⟨s, s1, s2⟩ := hda i (by rw [hF.count]; exact hi)
      have hv := List.getElem?_eq_getElem (show i < views.length by rw [hF.count]; exact hi)
      obtain ⟨s3, _⟩ := s2 _ _ (List.getElem?_eq_getElem hi) hv
      refine ⟨s, s1, ?_, ?_⟩
      · unfold sizeIn; rw [List.getElem?_map, hv]; exact s3.1
      · unfold sizeIn; rw [List.getElem?_map, hv]; exact s3.2
    · rw [if_neg hij]
      exact ⟨_, rfl, hlen i, hlen j⟩
  · intro k i e k' i' e' a b sm v sm' v' hk hv hi hk' hv' hi' ha hb
    unfold mget
    dsimp only
    by_cases hkk : k = k'
    · subst hkk
      rw [hk] at hk'; cases hk'
      rw [hv] at hv'; cases hv'
      rw [if_pos rfl]
      obtain ⟨s, s1, s2⟩ := hda k (List.getElem?_eq_some_iff.1 hv).1
      rw [s1]
      exact (s2 sm v hk hv).2 i e i' e' a b hi hi' ha hb
    · rw [if_neg hkk]
      have hne : e ≠ e' := fun h => hkk
        ((At.eq_iff D (show At subs k i e from ⟨sm, hk, hi⟩) (show At subs k' i' e' from ⟨sm', hk', hi'⟩)).2 h).1
      unfold gradAt
      rw [if_neg hne]
      simp
      rfl

/-- C115: on every division of a mesh the program assembles the gradient of the convective terms of the
undivided mesh: the entry for two degrees of freedom depends only on the elements of the parent mesh they
belong to and on the discrete function. -/
theorem gradient_spec (lf fullDg : Bool) (D : Division pm subs φ g) (hbc : Conditions pm bc)
    (hfun : lf = true → HasFunctions bc) (hdg : lf = true → fullDg = true)
    (hF : GFits G pm subs φ views ints fnfi) (hx : HasSizes x (views.map fun v => v.space.vsize))
    (hξ : Represents subs (views.map (·.space)) G.n (bent x) ξ) :
    ∃ J, convGrad lf fullDg bc pm subs views ints fnfi x = .ok J ∧
      MatsOk J subs.length (sizeIn (views.map (·.space))) (sizeIn (views.map (·.space))) ∧
      ∀ (k i e k' i' e' a b : Nat) sm v sm' v', subs[k]? = some sm → views[k]? = some v →
        sm.elemMap[i]? = some e → subs[k']? = some sm' → views[k']? = some v' →
        sm'.elemMap[i']? = some e' → a < G.n e → b < G.n e' →
        mget J k k' (pos v.space i a) (pos v'.space i' b) = gradAt lf G pm bc ξ e a e' b := by
  have hX : ∀ (k i e b : Nat) sm v, subs[k]? = some sm → views[k]? = some v → sm.elemMap[i]? = some e →
      b < G.n e → bent x k (pos v.space i b) = ξ e b := by
    intro k i e b sm v hk hv hi hb
    exact hξ k sm v.space i e b hk (by rw [List.getElem?_map, hv]; rfl) hi hb
  cases lf with
  | true =>
    rw [hdg rfl]
    exact convGrad_lf D hbc (hfun rfl) hF hx hX
  | false => exact convGrad_plain fullDg D hbc hF hx hX

/-- C115: on two divisions of the same mesh the entries of the gradient at the same discrete function are
the same. -/
theorem gradient_agree (lf fullDg : Bool) {subs₂ : List Sub} {φ₂ : Nat → Nat → Nat}
    {views₂ : List (GView R δ F)} {x₂ : BlockVector R} (hbc : Conditions pm bc)
    (hfun : lf = true → HasFunctions bc) (hdg : lf = true → fullDg = true)
    (D : Division pm subs φ g) (hcov : Covers pm subs) (hF : GFits G pm subs φ views ints fnfi)
    (hx : HasSizes x (views.map fun v => v.space.vsize))
    (D₂ : Division pm subs₂ φ₂ g) (hcov₂ : Covers pm subs₂) (hF₂ : GFits G pm subs₂ φ₂ views₂ ints fnfi)
    (hx₂ : HasSizes x₂ (views₂.map fun v => v.space.vsize))
    (hsame : SameFunction G.n subs (views.map (·.space)) (bent x) subs₂ (views₂.map (·.space)) (bent x₂)) :
    ∃ J J₂, convGrad lf fullDg bc pm subs views ints fnfi x = .ok J ∧
      convGrad lf fullDg bc pm subs₂ views₂ ints fnfi x₂ = .ok J₂ ∧
      ∀ (k i k' i' l j l' j' e e' a b : Nat) sm v sm' v' sm₂ v₂ sm₂' v₂',
        subs[k]? = some sm → views[k]? = some v → sm.elemMap[i]? = some e →
        subs[k']? = some sm' → views[k']? = some v' → sm'.elemMap[i']? = some e' →
        subs₂[l]? = some sm₂ → views₂[l]? = some v₂ → sm₂.elemMap[j]? = some e →
        subs₂[l']? = some sm₂' → views₂[l']? = some v₂' → sm₂'.elemMap[j']? = some e' →
        a < G.n e → b < G.n e' →
        mget J k k' (pos v.space i a) (pos v'.space i' b) =
          mget J₂ l l' (pos v₂.space j a) (pos v₂'.space j' b) := by
  obtain ⟨ξ, hξ⟩ := represents_of (n := G.n) (spaces := views.map (·.space)) D (bent x)
  have hξ₂ := represents_same hcov hcov₂ (by rw [List.length_map, hF.count]) hsame hξ
  obtain ⟨J, e1, _, h1⟩ := gradient_spec lf fullDg D hbc hfun hdg hF hx hξ
  obtain ⟨J₂, e2, _, h2⟩ := gradient_spec lf fullDg D₂ hbc hfun hdg hF₂ hx₂ hξ₂
  refine ⟨J, J₂, e1, e2, ?_⟩
  intro k i k' i' l j l' j' e e' a b sm v sm' v' sm₂ v₂ sm₂' v₂' a1 a2 a3 a4 a5 a6 b1 b2 b3 b4 b5 b6 ha hb
  rw [h1 k i e k' i' e' a b sm v sm' v' a1 a2 a3 a4 a5 a6 ha hb,
    h2 l j e l' j' e' a b sm₂ v₂ sm₂' v₂' b1 b2 b3 b4 b5 b6 ha hb]

/-- C115: with the Lax-Friedrichs flux a boundary with a condition other than Neumann and without a
function ends the program. -/
theorem gradient_needs_functions (fullDg : Bool) (D : Division pm subs φ g) (hbc : Conditions pm bc)
    {b : Nat} (hb : b < bc.attrs.length) (hn : bc.types[b]? ≠ some .neumann)
    (hf : bc.coeffs[b]? = some none) :
    convGrad true fullDg bc pm subs views ints fnfi x = .error .abort := by
  obtain ⟨st, fms, mesh, mks, h1, h2, h3, h4⟩ := terms_abort D hbc hb hn hf
  unfold convGrad
  rw [h1, ok_bind]
  dsimp only
  rw [h2, ok_bind, h3, ok_bind, h4]
  rfl

/-- The rows of the gradient applied to a discrete function. -/
theorem grad_row {J : MatArr R} {lf : Bool} {z ζ : Nat → Nat → R} {uspaces : List Space}
    (D : Division pm subs φ g) (hcov : Covers pm subs) (hst : Spaces subs G.n uspaces)
    (hsp : views.map (·.space) = uspaces)
    (hJ : ∀ (k i e k' i' e' a b : Nat) sm v sm' v', subs[k]? = some sm → views[k]? = some v →
        sm.elemMap[i]? = some e → subs[k']? = some sm' → views[k']? = some v' →
        sm'.elemMap[i']? = some e' → a < G.n e → b < G.n e' →
        mget J k k' (pos v.space i a) (pos v'.space i' b) = gradAt lf G pm bc ξ e a e' b)
    (hz : Represents subs uspaces G.n z ζ) {k i e a : Nat} {sm : Sub} {s : Space}
    (hk : subs[k]? = some sm) (hs : uspaces[k]? = some s) (hi : sm.elemMap[i]? = some e)
    (ha : a < G.n e) :
    rowMult J subs.length (sizeIn uspaces) z k (pos s i a) = gradApplied lf G pm bc ξ ζ e a := by
  have view : ∀ {k : Nat} {s : Space}, uspaces[k]? = some s → ∃ v, views[k]? = some v ∧ v.space = s := by
    intro k s hs
    rw [← hsp, List.getElem?_map] at hs
    cases hv : views[k]? with
    | none => rw [hv] at hs; cases hs
    | some v => rw [hv] at hs; cases hs; exact ⟨v, rfl, rfl⟩
  obtain ⟨v, hv, rfl⟩ := view hs
  unfold rowMult gradApplied
  refine sum_blocks D hcov hst (fun k' c => mget J k k' (pos v.space i a) c * z k' c)
    (fun e' b => gradAt lf G pm bc ξ e a e' b * ζ e' b) ?_
  intro k' i' e' b sm' s' hk' hs' hi' hb
  obtain ⟨v', hv', rfl⟩ := view hs'
  rw [hJ k i e k' i' e' a b sm v sm' v' hk hv hi hk' hv' hi' ha hb, hz k' sm' v'.space i' e' b hk' hs' hi' hb]

/-! ## Newton steps -/

variable {W W' : Whole R} {Ld Ld' : Loads R F} {sviews sviews' : List (View R δ)}
variable {sints sints' : List (ITr δ → Mat R)} {sfnfi sfnfi' : List (Option (Integ R δ))}
variable {Ls Ls' : List (LView R F)}

/-- C115: increments solve the equations of a Newton step on a division exactly if the discrete functions
solve those of the undivided mesh. -/
theorem newton_step_iff (lf fullDg : Bool) {uspaces pspaces : List Space} (hn : W.ns = W.nt)
    (hn' : W'.ns = W.nt) (hnn : G.n = W.nt) (D : Division pm subs φ g) (hbc : Conditions pm bc)
    (hfun : lf = true → HasFunctions bc) (hdg : lf = true → fullDg = true) (hcov : Covers pm subs)
    (S : StokesForms W W' Ld Ld' pm subs φ uspaces pspaces sviews sviews' sints sints' sfnfi sfnfi' Ls Ls')
    (hF : GFits G pm subs φ views ints fnfi) (hsp : views.map (·.space) = uspaces) :
    ∃ f h M B, stokesEquations bc pm subs sviews sviews' sints sints' sfnfi sfnfi' Ls Ls' =
        .ok ((f, h), (M, B)) ∧
      ∀ (u : BlockVector R) ru rp du dp υ ρ σ μ π, HasSizes u (uspaces.map (·.vsize)) →
        Represents subs uspaces W.nt (bent u) υ →
        Represents subs uspaces W.nt ru ρ → Represents subs pspaces W'.nt rp σ →
        Represents subs uspaces W.nt du μ → Represents subs pspaces W'.nt dp π →
        ∃ J, convGrad lf fullDg bc pm subs views ints fnfi u = .ok J ∧
          (SolvesNewton J M B subs.length (sizeIn uspaces) (sizeIn pspaces) ru rp du dp ↔
            (∀ e a, e < pm.elemEdges.length → a < W.nt e →
              gradApplied lf G pm bc υ μ e a + (applied W pm bc μ e a + appliedT W' pm bc π e a) =
                ρ e a) ∧
            ∀ e a, e < pm.elemEdges.length → a < W'.nt e → applied W' pm bc μ e a = σ e a) := by
  obtain ⟨f, f1, _, f3⟩ := rhs_spec D hbc S.momentum
  obtain ⟨h, h1, _, h3⟩ := rhs_spec D hbc S.mass
  obtain ⟨M, m1, m2⟩ := entries_of_operator false D hbc S.viscous
  obtain ⟨B, b1, b2⟩ := entries_of_operator true D hbc S.divergence
  refine ⟨f, h, M, B, ?_, ?_⟩
  · unfold stokesEquations
    rw [f1, ok_bind, h1, ok_bind, m1, ok_bind, b1, ok_bind]; rfl
  · intro u ru rp du dp υ ρ σ μ π hsz hu hru hrp hdu hdp
    have hst : Spaces subs W.nt uspaces := by
      have := spaces_test S.viscous (fun v hv => S.ucomplete _ (by
        rw [← S.utest]; exact List.mem_map.2 ⟨v, hv, rfl⟩))
      rw [S.utest] at this; exact this
    have hpt : Spaces subs W'.nt pspaces := by
      have := spaces_test S.divergence (fun v hv => S.pcomplete _ (by
        rw [← S.pdiv]; exact List.mem_map.2 ⟨v, hv, rfl⟩))
      rw [S.pdiv] at this; exact this
    rw [S.utest, S.utrial] at m2
    rw [S.pdiv, S.udiv] at b2
    obtain ⟨J, j1, _, j3⟩ := gradient_spec lf fullDg D hbc hfun hdg hF (x := u) (ξ := υ)
      (by rw [← hsp, List.map_map] at hsz; exact hsz) (by rw [hsp, hnn]; exact hu)
    refine ⟨J, j1, and_congr ?_ ?_⟩
    · refine all_entries hcov hst ?_
      intro k i e a sm s hk hs hi ha
      rw [grad_row D hcov (by rw [hnn]; exact hst) hsp j3 (by rw [hnn]; exact hdu) hk hs hi
          (by rw [hnn]; exact ha),
        row_eq D hcov m2 (by rw [hn]; exact hst) (by rw [hn]; exact hdu) hk hs hi ha,
        col_eq D hcov b2 hpt hdp hk hs hi (by rw [hn']; exact ha), hru k sm s i e a hk hs hi ha]
    · refine all_entries hcov hpt ?_
      intro k i e a sm s hk hs hi ha
      rw [row_eq D hcov b2 (by rw [hn']; exact hst) (by rw [hn']; exact hdu) hk hs hi ha,
        hrp k sm s i e a hk hs hi ha]

/-- C115: two divisions of the same mesh have the same Newton steps. -/
theorem newton_steps_agree (lf fullDg : Bool) {uspaces pspaces uspaces₂ pspaces₂ : List Space}
    {subs₂ : List Sub} {φ₂ : Nat → Nat → Nat} {sviews₂ sviews₂' : List (View R δ)}
    {Ls₂ Ls₂' : List (LView R F)} {views₂ : List (GView R δ F)}
    (hn : W.ns = W.nt) (hn' : W'.ns = W.nt) (hnn : G.n = W.nt) (hbc : Conditions pm bc)
    (hfun : lf = true → HasFunctions bc) (hdg : lf = true → fullDg = true)
    (D : Division pm subs φ g) (hcov : Covers pm subs)
    (S : StokesForms W W' Ld Ld' pm subs φ uspaces pspaces sviews sviews' sints sints' sfnfi sfnfi' Ls Ls')
    (hF : GFits G pm subs φ views ints fnfi) (hsp : views.map (·.space) = uspaces)
    (D₂ : Division pm subs₂ φ₂ g) (hcov₂ : Covers pm subs₂)
    (S₂ : StokesForms W W' Ld Ld' pm subs₂ φ₂ uspaces₂ pspaces₂ sviews₂ sviews₂' sints sints' sfnfi sfnfi'
      Ls₂ Ls₂')
    (hF₂ : GFits G pm subs₂ φ₂ views₂ ints fnfi) (hsp₂ : views₂.map (·.space) = uspaces₂) :
    ∃ f h M B f₂ h₂ M₂ B₂,
      stokesEquations bc pm subs sviews sviews' sints sints' sfnfi sfnfi' Ls Ls' = .ok ((f, h), (M, B)) ∧
      stokesEquations bc pm subs₂ sviews₂ sviews₂' sints sints' sfnfi sfnfi' Ls₂ Ls₂' =
        .ok ((f₂, h₂), (M₂, B₂)) ∧
      ∀ (u u₂ : BlockVector R) ru ru₂ rp rp₂ du du₂ dp dp₂, HasSizes u (uspaces.map (·.vsize)) →
        HasSizes u₂ (uspaces₂.map (·.vsize)) →
        SameFunction W.nt subs uspaces (bent u) subs₂ uspaces₂ (bent u₂) →
        SameFunction W.nt subs uspaces ru subs₂ uspaces₂ ru₂ →
        SameFunction W'.nt subs pspaces rp subs₂ pspaces₂ rp₂ →
        SameFunction W.nt subs uspaces du subs₂ uspaces₂ du₂ →
        SameFunction W'.nt subs pspaces dp subs₂ pspaces₂ dp₂ →
        ∃ J J₂, convGrad lf fullDg bc pm subs views ints fnfi u = .ok J ∧
          convGrad lf fullDg bc pm subs₂ views₂ ints fnfi u₂ = .ok J₂ ∧
          (SolvesNewton J M B subs.length (sizeIn uspaces) (sizeIn pspaces) ru rp du dp ↔
            SolvesNewton J₂ M₂ B₂ subs₂.length (sizeIn uspaces₂) (sizeIn pspaces₂) ru₂ rp₂ du₂ dp₂) := by
  obtain ⟨f, h, M, B, e1, h1⟩ := newton_step_iff lf fullDg hn hn' hnn D hbc hfun hdg hcov S hF hsp
  obtain ⟨f₂, h₂, M₂, B₂, e2, h2⟩ := newton_step_iff lf fullDg hn hn' hnn D₂ hbc hfun hdg hcov₂ S₂ hF₂ hsp₂
  refine ⟨f, h, M, B, f₂, h₂, M₂, B₂, e1, e2, ?_⟩
  intro u u₂ ru ru₂ rp rp₂ du du₂ dp dp₂ hz hz₂ hu hru hrp hdu hdp
  have lu : uspaces.length = subs.length := by
    rw [← S.utest, List.length_map, S.viscous.count]
  have lp : pspaces.length = subs.length := by
    rw [← S.pdiv, List.length_map, S.divergence.count]
  obtain ⟨υ, hυ⟩ := represents_of (n := W.nt) (spaces := uspaces) D (bent u)
  obtain ⟨ρ, hρ⟩ := represents_of (n := W.nt) (spaces := uspaces) D ru
  obtain ⟨σ, hσ⟩ := represents_of (n := W'.nt) (spaces := pspaces) D rp
  obtain ⟨μ, hμ⟩ := represents_of (n := W.nt) (spaces := uspaces) D du
  obtain ⟨π, hπ⟩ := represents_of (n := W'.nt) (spaces := pspaces) D dp
  obtain ⟨J, c1, c2⟩ := h1 u ru rp du dp υ ρ σ μ π hz hυ hρ hσ hμ hπ
  obtain ⟨J₂, d1, d2⟩ := h2 u₂ ru₂ rp₂ du₂ dp₂ υ ρ σ μ π hz₂ (represents_same hcov hcov₂ lu hu hυ)
    (represents_same hcov hcov₂ lu hru hρ) (represents_same hcov hcov₂ lp hrp hσ)
    (represents_same hcov hcov₂ lu hdu hμ) (represents_same hcov hcov₂ lp hdp hπ)
  exact ⟨J, J₂, c1, d1, by rw [c2, d2]⟩

/-! Non-vacuity: the strip of three cells, as in C111; the gradients are those of `demoConv`. -/

/-- The derivatives of the integrals of `demoConv`. -/
def demoGrad : Grad Int Int where
  n _ := 1
  vol _ l _ _ := 2 * l.headD 0
  face _ I J l _ _ := (if I then -1 else 1) *
    (if J then -2 * (l false).headD 0 else 2 * (l false).headD 0 - 2 * (l true).headD 0)
  bdr _ c l _ _ := match c with | some c => c | none => 2 * l.headD 0

/-- The theorem applies to the two and the three submeshes. -/
example (u u₂ : BlockVector Int)
    (hz : HasSizes u ((grealize demoGrad demoParent twoSubs twoPhi demoFlips).map fun v => v.space.vsize))
    (hz₂ : HasSizes u₂ ((grealize demoGrad demoParent demoSubs demoPhi demoFlips).map
      fun v => v.space.vsize))
    (hsame : SameFunction demoGrad.n twoSubs
      ((grealize demoGrad demoParent twoSubs twoPhi demoFlips).map (·.space)) (bent u) demoSubs
      ((grealize demoGrad demoParent demoSubs demoPhi demoFlips).map (·.space)) (bent u₂)) :
    ∃ J J₂, convGrad true true demoBC demoParent twoSubs
        (grealize demoGrad demoParent twoSubs twoPhi demoFlips) [innerGrad demoGrad]
        [some (itfGrad demoGrad)] u = .ok J ∧
      convGrad true true demoBC demoParent demoSubs
        (grealize demoGrad demoParent demoSubs demoPhi demoFlips) [innerGrad demoGrad]
        [some (itfGrad demoGrad)] u₂ = .ok J₂ := by
  obtain ⟨J, J₂, h1, h2, _⟩ := gradient_agree true true demo_conditions (fun _ => demo_functions)
    (fun _ => rfl) two_division demo_covers.2.1 (grealize_fits demoGrad demoFlips two_division) hz
    three_division demo_covers.2.2 (grealize_fits demoGrad demoFlips three_division) hz₂ hsame
  exact ⟨J, J₂, h1, h2⟩

/-- Entries of the gradient at the function with values 1, 2, 3 on the cells; the positions of the cells
in the blocks are given. -/
def entriesAt (subs : List Sub) (φ : Nat → Nat → Nat) (x : BlockVector Int) (p : List (Nat × Nat)) :
    Outcome (List (List Int)) :=
  (convGrad true true demoBC demoParent subs (grealize demoGrad demoParent subs φ demoFlips)
    [innerGrad demoGrad] [some (itfGrad demoGrad)] x).map fun J =>
      p.map fun a => p.map fun b => mget J a.1 b.1 a.2 b.2

example :
    entriesAt oneSub onePhi ⟨[1, 2, 3], [0, 3]⟩ [(0, 0), (0, 1), (0, 2)] =
      .ok [[5, -2, 0], [2, 16, -2], [0, -6, 13]] ∧
    entriesAt twoSubs twoPhi ⟨[2, 1, 3], [0, 2, 3]⟩ [(0, 1), (0, 0), (1, 0)] =
      .ok [[5, -2, 0], [2, 16, -2], [0, -6, 13]] ∧
    entriesAt demoSubs demoPhi ⟨[1, 2, 3], [0, 1, 2, 3]⟩ [(0, 0), (1, 0), (2, 0)] =
      .ok [[5, -2, 0], [2, 16, -2], [0, -6, 13]] := by
  decide +kernel

/-- The theorem on Newton steps applies to the one and the three meshes. -/
example : ∃ f h M B f₂ h₂ M₂ B₂,
    stokesEquations demoBC demoParent oneSub (realize demoSquare demoParent oneSub onePhi demoFlips)
      (realize demoDiv demoParent oneSub onePhi demoFlips) [innerInt demoSquare] [innerInt demoDiv]
      [some (itfInt demoSquare)] [some (itfInt demoDiv)]
      (realizeLoads demoLoads demoSquare.nt oneSub onePhi)
      (realizeLoads demoLoads demoDiv.nt oneSub onePhi) = .ok ((f, h), (M, B)) ∧
    stokesEquations demoBC demoParent demoSubs (realize demoSquare demoParent demoSubs demoPhi demoFlips)
      (realize demoDiv demoParent demoSubs demoPhi demoFlips) [innerInt demoSquare] [innerInt demoDiv]
      [some (itfInt demoSquare)] [some (itfInt demoDiv)]
      (realizeLoads demoLoads demoSquare.nt demoSubs demoPhi)
      (realizeLoads demoLoads demoDiv.nt demoSubs demoPhi) = .ok ((f₂, h₂), (M₂, B₂)) := by
  obtain ⟨f, h, M, B, f₂, h₂, M₂, B₂, h1, h2, _⟩ := newton_steps_agree true true (G := demoGrad)
    (W := demoSquare) (W' := demoDiv) rfl rfl rfl demo_conditions (fun _ => demo_functions) (fun _ => rfl)
    one_division demo_covers.1
    (realize_stokes demoSquare demoDiv demoLoads demoLoads rfl rfl demoFlips one_division)
    (grealize_fits demoGrad demoFlips one_division) (grealize_sizes _ _ _ _ _)
    three_division demo_covers.2.2
    (realize_stokes demoSquare demoDiv demoLoads demoLoads rfl rfl demoFlips three_division)
    (grealize_fits demoGrad demoFlips three_division) (grealize_sizes _ _ _ _ _)
  exact ⟨f, h, M, B, f₂, h₂, M₂, B₂, h1, h2⟩

example (x : BlockVector Int) : convGrad true true noFunction demoParent demoSubs
    (grealize demoGrad demoParent demoSubs demoPhi demoFlips) [innerGrad demoGrad]
    [some (itfGrad demoGrad)] x = .error .abort :=
  gradient_needs_functions true three_division noFunction_conditions (b := 0) (by decide) (by decide) rfl

end Verif.Divide
