import Verif.Props.DivideNS
import Verif.Proofs.FomSolve
import Verif.Spec.DivideFlow

/-!
# Lemmas for C116
-/

namespace Verif.Divide

open Verif Verif.LinAlg Verif.LinAlg.Spec Verif.SubMesh Verif.SubMesh.Spec Finset Spec
open Verif.InterfaceForm (Space Integ MatArr)
open Verif.InterfaceForm.Spec (dofsOf dofAt sizeIn mget MatsOk formVec)
open Verif.RomAssembly (loop_collect pickMarkers bdrMarkers)
open Verif.Boundary (BC)
open Verif.Blocks (BlockVector)
open Verif.Blocks.Spec (HasSizes IsOffsets)
open Verif.RomHandler.Spec (bent)
open Verif.Unsteady (bySub bySub_take bySub_take_odd bySub_get first_bound first_disjoint locate mono)
open Verif.Unsteady.Spec (first part vecOf ConvOk Problem Direct)
open Verif.FomSolve (setBlocks blkOf transpose)

section
variable {R δ F : Type} [CommRing R] {pm : Parent} {subs : List Sub} {φ : Nat → Nat → Nat} {g : Int}

/-! ### The right-hand side -/

omit [CommRing R] in
theorem flatten_at (L : List (List R)) {i k : Nat} {l : List R} (h : L[i]? = some l) (hk : k < l.length) :
    L.flatten[((L.map List.length).take i).sum + k]? = l[k]? := by
  induction L generalizing i with
  | nil => cases h
  | cons a L ih =>
    cases i with
    | zero =>
      simp only [List.getElem?_cons_zero, Option.some.injEq] at h
      subst h
      simp only [List.take_zero, List.sum_nil, Nat.zero_add, List.flatten_cons]
      rw [List.getElem?_append_left hk]
    | succ i =>
      simp only [List.getElem?_cons_succ] at h
      simp only [List.map_cons, List.take_succ_cons, List.sum_cons, List.flatten_cons]
      rw [List.getElem?_append_right (by omega), show a.length + ((L.map List.length).take i).sum + k -
        a.length = ((L.map List.length).take i).sum + k by omega]
      exact ih h

omit [CommRing R] in
theorem rhsVec_sizes {f h : List (List R)} {n : Nat} {nu np : Nat → Nat} (hf : f.length = n)
    (hh : h.length = n) (lf : ∀ m l, f[m]? = some l → l.length = nu m)
    (lh : ∀ m l, h[m]? = some l → l.length = np m) :
    HasSizes (rhsVec f h) (bySub n nu np) ∧
      (∀ m k, m < n → k < nu m →
        (rhsVec f h).data[first nu m + first np m + k]? = (f[m]?.getD [])[k]?) ∧
      ∀ m k, m < n → k < np m →
        (rhsVec f h).data[first nu (m + 1) + first np m + k]? = (h[m]?.getD [])[k]? := by
  have hblocks : (List.zip f h).flatMap (fun x => x.1 ++ x.2) =
      ((List.zip f h).flatMap fun x => [x.1, x.2]).flatten := by
    induction List.zip f h with
    | nil => rfl
    | cons x l ih => simp [List.flatMap_cons, ih]
  have hz : ((List.zip f h).flatMap fun x => [x.1, x.2]).map List.length = bySub n nu np := by
    have hl : (List.zip f h).length = n := by rw [List.length_zip, hf, hh, Nat.min_self]
    unfold bySub
    rw [List.map_flatMap]
    have : List.zip f h = (List.range n).map fun m => (f[m]?.getD [], h[m]?.getD []) := by
      apply List.ext_getElem?
      intro i
      rw [List.getElem?_map]
      by_cases hi : i < n
      · rw [List.getElem?_eq_getElem (by rw [hl]; exact hi), List.getElem_zip,
          List.getElem?_eq_getElem (by rw [List.length_range]; exact hi), List.getElem_range]
        simp [List.getElem?_eq_getElem (show i < f.length by omega),
          List.getElem?_eq_getElem (show i < h.length by omega)]
      · rw [List.getElem?_eq_none (by omega), List.getElem?_eq_none (by rw [List.length_range]; omega)]
        rfl
    rw [this, List.flatMap_map]
    apply List.flatMap_congr
    intro m hm
    have hm := List.mem_range.1 hm
    have e1 := List.getElem?_eq_getElem (show m < f.length by omega)
    have e2 := List.getElem?_eq_getElem (show m < h.length by omega)
    rw [e1, e2]
    simp [lf m _ e1, lh m _ e2]
  have hz' : (List.zip f h).flatMap (fun x => [x.1.length, x.2.length]) = bySub n nu np := by
    rw [← hz, List.map_flatMap]; rfl
  have hget : ∀ m, m < n → ((List.zip f h).flatMap fun x => [x.1, x.2])[2 * m]? = some (f[m]?.getD []) ∧
      ((List.zip f h).flatMap fun x => [x.1, x.2])[2 * m + 1]? = some (h[m]?.getD []) := by
    intro m hm
    have e1 := List.getElem?_eq_getElem (show m < f.length by omega)
    have e2 := List.getElem?_eq_getElem (show m < h.length by omega)
    have hx : (List.zip f h)[m]? = some (f[m]?.getD [], h[m]?.getD []) := by
      rw [List.getElem?_zip_eq_some, e1, e2]; exact ⟨rfl, rfl⟩
    have h0 := Blocks.getElem?_flatMap_const (List.zip f h) (fun x => [x.1, x.2]) 2 (fun _ => rfl) hx
      (show 0 < 2 by omega)
    have h1 := Blocks.getElem?_flatMap_const (List.zip f h) (fun x => [x.1, x.2]) 2 (fun _ => rfl) hx
      (show 1 < 2 by omega)
    exact ⟨h0, h1⟩
  refine ⟨⟨?_, ?_⟩, ?_, ?_⟩
  · unfold rhsVec
    dsimp only
    rw [hz']
    exact Blocks.isOffsets_partialSum _
  · unfold rhsVec
    dsimp only
    rw [hblocks, List.length_flatten, hz]
  · intro m k hm hk
    have e1 := List.getElem?_eq_getElem (show m < f.length by omega)
    have := flatten_at _ (hget m hm).1 (k := k) (by rw [e1]; exact (lf m _ e1).symm ▸ hk)
    rw [hz, bySub_take (by omega)] at this
    unfold rhsVec
    dsimp only
    rw [hblocks, this]
  · intro m k hm hk
    have e1 := List.getElem?_eq_getElem (show m < h.length by omega)
    have := flatten_at _ (hget m hm).2 (k := k) (by rw [e1]; exact (lh m _ e1).symm ▸ hk)
    rw [hz, bySub_take_odd hm] at this
    unfold rhsVec
    dsimp only
    rw [hblocks, this]

/-! ### The mass forms -/

variable {W : Whole R} {views : List (View R δ)} {ints : List (ITr δ → Mat R)}
variable {fnfi : List (Option (Integ R δ))} {mass : Nat → Nat → Nat → R} {mvols : List (List (Mat R))}

theorem massForms_spec (D : Division pm subs φ g) (hn : W.ns = W.nt)
    (hF : Fits W pm subs φ views ints fnfi) (hM : MassFits W.nt mass subs mvols) :
    ∃ ms, massForms views mvols = .ok ms ∧ ms.length = subs.length ∧
      ∀ (k : Nat) sm v, subs[k]? = some sm → views[k]? = some v → ∃ s, ms[k]? = some s ∧
        (s.h = v.test.vsize ∧ s.w = v.trial.vsize) ∧
        ∀ i e i' e' a b, sm.elemMap[i]? = some e → sm.elemMap[i']? = some e' → a < W.nt e →
          b < W.nt e' → s.get (pos v.test i a) (pos v.trial i' b) = if e = e' then mass e a b else 0 := by
  obtain ⟨ms, e, hl, h⟩ := loop_collect (n := views.length)
    (body := fun k (acc : List (Sp R)) => do
      let v ← rd views k
      let l ← rd mvols k
      let s ← addElems { v with vols := l } ⟨v.test.vsize, v.trial.vsize, []⟩
      return acc ++ [s])
    (fun k s => ∀ sm v, subs[k]? = some sm → views[k]? = some v →
        (s.h = v.test.vsize ∧ s.w = v.trial.vsize) ∧
        ∀ i e i' e' a b, sm.elemMap[i]? = some e → sm.elemMap[i']? = some e' → a < W.nt e →
          b < W.nt e' → s.get (pos v.test i a) (pos v.trial i' b) = if e = e' then mass e a b else 0) (by
      intro k acc hk
      have hlt : k < subs.length := by rw [← hF.count]; exact hk
      have hs := List.getElem?_eq_getElem hlt
      have hv := List.getElem?_eq_getElem hk
      have hm := List.getElem?_eq_getElem (show k < mvols.length by rw [hM.count]; exact hlt)
      have V := hF.view _ _ _ hs hv
      obtain ⟨c1, c2⟩ := hM.each _ _ _ hs hm
      have V' : ViewFits { W with vol := mass } pm subs φ ints k (subs[k])
          { views[k] with vols := mvols[k]'(by rw [hM.count]; exact hlt) } :=
        ⟨V.test, V.trial, c1, fun i e m hi hm => by rw [hn]; exact c2 i e m hi hm, V.faceCount, V.outer,
          V.inner, V.belCount, V.bel, V.outerBdr⟩
      obtain ⟨s, e1, e2, e3⟩ := addElems_spec V' (s := ⟨views[k].test.vsize, views[k].trial.vsize, []⟩) rfl rfl
      refine ⟨s, ?_, ?_⟩
      · rw [rd_eq_ok.2 hv, ok_bind, rd_eq_ok.2 hm, ok_bind, e1, ok_bind]; rfl
      · intro sm v h1 h2
        rw [hs] at h1; cases h1
        rw [hv] at h2; cases h2
        refine ⟨e2, ?_⟩
        intro i e i' e' a b hi hi' ha hb
        have := congrFun (congrFun e3 (pos views[k].test i a)) (pos views[k].trial i' b)
        rw [this, Pi.add_apply, Pi.add_apply, Finset.sum_apply, Finset.sum_apply]
        have := elem_sum D hs V' hi hi' ha (by show b < W.ns e'; rw [hn]; exact hb)
        dsimp only at this ⊢
        rw [this]
        show 0 + _ = _
        rw [zero_add])
  refine ⟨ms, e, hl.trans hF.count, ?_⟩
  intro k sm v hs hv
  obtain ⟨s, h1, h2⟩ := h k (List.getElem?_eq_some_iff.1 hv).1
  exact ⟨s, h1, h2 sm v hs hv⟩

/-! ### Convection -/

variable {N : R → Conv R F} {nviews : R → List (NView R δ F)} {nints : List (ITr δ → List R → List R)}
variable {nfnfi : List (Option (Integ R δ))} {bc : BC F} {n : Nat → Nat} {uspaces : List Space}

theorem getElem_of_map {α β : Type} {f : α → β} {l : List α} {k : Nat} {y : β} (h : (l.map f)[k]? = some y) :
    ∃ x, l[k]? = some x ∧ f x = y := by
  rw [List.getElem?_map] at h
  exact Option.map_eq_some_iff.1 h

theorem sizeIn_of {l : List Space} {k : Nat} {s : Space} (h : l[k]? = some s) : sizeIn l k = s.vsize := by
  unfold sizeIn; rw [h]; rfl

theorem sizes_tab (l : List Space) : l.map (·.vsize) = tab l.length (sizeIn l) := by
  apply List.ext_getElem?
  intro i
  rw [List.getElem?_map, getElem?_tab]
  by_cases hi : i < l.length
  · rw [if_pos hi, List.getElem?_eq_getElem hi, sizeIn_of (List.getElem?_eq_getElem hi)]; rfl
  · rw [if_neg hi, List.getElem?_eq_none (by omega)]; rfl

theorem flowConv_spec (D : Division pm subs φ g) (hbc : Conditions pm bc) (hfun : HasFunctions bc)
    (hF : ∀ t, NFits (N t) pm subs φ (nviews t) nints nfnfi) (hsp : ∀ t, (nviews t).map (·.space) = uspaces)
    (hn : ∀ t, (N t).n = n) {offs : List Nat} (ho : IsOffsets offs (tab subs.length (sizeIn uspaces))) :
    ∃ st fms mesh mks ts, buildSubMeshes2D pm subs = .ok (st, fms) ∧
      attributes subs.length st = .ok mesh ∧ bdrMarkers bc.attrs mesh = .ok mks ∧
      nlTerms true bc mks mesh = .ok ts ∧
      ∃ Fd It, ConvOk (flowConv true offs st mesh ts nviews nints nfnfi) subs.length (sizeIn uspaces) Fd It ∧
        ∀ (t : R) (u : Nat → R) υ,
          Represents subs uspaces n (fun k r => u (first (sizeIn uspaces) k + r)) υ →
          ∀ (k i e a : Nat) sm s, subs[k]? = some sm → uspaces[k]? = some s → sm.elemMap[i]? = some e →
            a < n e → Fd t k (part (sizeIn uspaces) u k) (pos s i a) +
              It t (vecOf (first (sizeIn uspaces) subs.length) u) k (pos s i a) =
                convAt true (N t) pm bc υ e a := by
  classical
  obtain ⟨st, fms, mesh, mks, mx, hst, hmesh, hmks, hmk, hall⟩ := setup D hbc
  obtain ⟨st', fms', bes, hst', hC, hE⟩ := submeshes2D_correct pm subs φ g D.max D.pos D.wf
  rw [hst] at hst'
  obtain ⟨rfl, rfl⟩ := Prod.mk.inj (Except.ok.inj hst')
  have T : Result pm subs φ g st fms bes := ⟨hC, hE⟩
  obtain ⟨mesh', hmesh', hml, _⟩ := attributes_spec D T
  rw [hmesh] at hmesh'; cases hmesh'
  have cnt : ∀ t, (nviews t).length = subs.length := fun t => (hF t).count
  have ulen : uspaces.length = subs.length := by rw [← hsp 0, List.length_map, cnt]
  have view_at : ∀ (t : R) (k : Nat), k < subs.length → ∃ v s, (nviews t)[k]? = some v ∧
      uspaces[k]? = some s ∧ v.space = s ∧ sizeIn uspaces k = v.space.vsize := by
    intro t k hk
    have hkl : k < (nviews t).length := by rw [cnt]; exact hk
    have hv := List.getElem?_eq_getElem hkl
    have hs : uspaces[k]? = some (nviews t)[k].space := by rw [← hsp t, List.getElem?_map, hv]; rfl
    exact ⟨_, _, hv, hs, rfl, sizeIn_of hs⟩
  -- one form
  obtain ⟨ts, hts, htl, hta⟩ := loop_collect (n := mesh.length)
    (body := fun k (acc : List (List (Nat × Option F) × List (List Int))) => do
      let e ← rd mesh k
      let act ← if true then nlBC bc e.2 else .ok []
      let ms ← pickMarkers (act.map fun c => (c.1, ())) mks
      return acc ++ [(act, ms)])
    (fun k b => ∀ (t : R) sm v e X υ, subs[k]? = some sm → (nviews t)[k]? = some v → mesh[k]? = some e →
      (∀ (i e b : Nat), sm.elemMap[i]? = some e → b < n e → X (pos v.space i b) = υ e b) →
      ∃ y, nlForm v nints e b (tab v.space.vsize X) = .ok y ∧
        y.length = v.space.vsize ∧ ∀ (i e a : Nat), sm.elemMap[i]? = some e → a < n e →
          ve y (pos v.space i a) = insideAt true (N t) pm subs bc υ k e a) (by
      intro k acc hk
      have hlt : k < subs.length := by rw [← hml]; exact hk
      have hs := List.getElem?_eq_getElem hlt
      obtain ⟨l', u, m1, m2, m3, m4, m5, m6⟩ := hall k _ hs
      obtain ⟨v0, _, hv0, _⟩ := view_at 0 k hlt
      obtain ⟨act, ms, y0, c1, c2, -⟩ := form_lf (N := N 0) (X := fun _ => 0) (ξ := fun _ _ => 0) D hbc hfun hs
        ((hF 0).view _ _ _ hs hv0) (fun _ _ _ _ _ => rfl) hmk m2 m3 m5 m4 m6
      refine ⟨(act, ms), ?_, ?_⟩
      · rw [rd_eq_ok.2 m1, ok_bind, if_pos rfl, c1, ok_bind]
        dsimp only
        rw [c2, ok_bind]; rfl
      · intro t sm v e X υ h1 h2 h3 hX
        rw [hs] at h1; cases h1
        rw [m1] at h3; cases h3
        obtain ⟨act', ms', y, d1, d2, d3, d4, d5⟩ := form_lf (N := N t) (X := X) (ξ := υ) D hbc hfun hs
          ((hF t).view _ _ _ hs h2) (fun i e b hi hb => hX i e b hi (by rw [← hn t]; exact hb))
          hmk m2 m3 m5 m4 m6
        rw [c1] at d1; cases d1
        rw [c2] at d2; cases d2
        exact ⟨y, d3, d4, fun i e a hi ha => d5 i e a hi (by rw [hn t]; exact ha)⟩)
  -- the interface form
  have hsz : ∀ t, InterfaceForm.sizes (itf ((nviews t).map asView) nfnfi st) =
      tab subs.length (sizeIn uspaces) := by
    intro t
    rw [← ulen, ← sizes_tab, ← hsp t]
    show (((nviews t).map asView).map _).map _ = _
    rw [List.map_map, List.map_map, List.map_map]; rfl
  have hsum : (tab subs.length (sizeIn uspaces)).sum = first (sizeIn uspaces) subs.length := by
    rw [EqpRom.tab_sum]; rfl
  have sized : ∀ x : List R, x.length = first (sizeIn uspaces) subs.length →
      HasSizes (⟨x, offs⟩ : BlockVector R) (tab subs.length (sizeIn uspaces)) :=
    fun x hx => ⟨ho, by rw [hsum]; exact hx⟩
  have bent_at : ∀ (x : List R) (m k : Nat), x.length = first (sizeIn uspaces) subs.length → m < subs.length →
      k < sizeIn uspaces m → bent (⟨x, offs⟩ : BlockVector R) m k = ve x (first (sizeIn uspaces) m + k) := by
    intro x m k hx hm hk
    rw [RomHandler.bent_eq (sized x hx) (by rw [getElem?_tab, if_pos hm]) hk,
      EqpRom.tab_take_sum _ _ (by omega)]
    rfl
  have form : ∀ (t : R) (m : Nat) (x : List R) υ, m < subs.length → x.length = sizeIn uspaces m →
      (∀ (i e b : Nat) sm s, subs[m]? = some sm → uspaces[m]? = some s → sm.elemMap[i]? = some e → b < n e →
        ve x (pos s i b) = υ e b) →
      ∃ y, (flowConv true offs st mesh ts nviews nints nfnfi).dom t m x (sizeIn uspaces m) = .ok y ∧
        y.length = sizeIn uspaces m ∧ ∀ (i e a : Nat) sm s, subs[m]? = some sm → uspaces[m]? = some s →
          sm.elemMap[i]? = some e → a < n e →
          ve y (pos s i a) = insideAt true (N t) pm subs bc υ m e a := by
    intro t m x υ hm hx hX
    have hs := List.getElem?_eq_getElem hm
    obtain ⟨v, s, hv, hsp', rfl, hsz'⟩ := view_at t m hm
    have hmm := List.getElem?_eq_getElem (show m < mesh.length by rw [hml]; exact hm)
    obtain ⟨b, hb, hb'⟩ := hta m (by rw [hml]; exact hm)
    obtain ⟨y, y1, y2, y3⟩ := hb' t _ _ _ (ve x) υ hs hv hmm (fun i e b hi hb => hX i e b _ _ hs hsp' hi hb)
    have hxt : tab v.space.vsize (ve x) = x := by
      rw [← hsz', ← hx]
      apply List.ext_getElem?
      intro i
      rw [getElem?_tab]
      by_cases hi : i < x.length
      · rw [if_pos hi, List.getElem?_eq_getElem hi]
        unfold ve
        rw [List.getElem?_eq_getElem hi]; rfl
      · rw [if_neg hi, List.getElem?_eq_none (by omega)]
    rw [hxt] at y1
    refine ⟨y, ?_, by rw [y2, hsz'], ?_⟩
    · unfold flowConv
      dsimp only
      rw [rd_eq_ok.2 hv, ok_bind, rd_eq_ok.2 hmm, ok_bind, rd_eq_ok.2 hb, ok_bind, if_pos rfl]
      exact y1
    · intro i e a sm s h1 h2 hi ha
      rw [hs] at h1; cases h1
      rw [hsp'] at h2; cases h2
      exact y3 i e a hi ha
  let Fd : R → Nat → List R → Nat → R := fun t m x k =>
    match (flowConv true offs st mesh ts nviews nints nfnfi).dom t m x (sizeIn uspaces m) with
    | .ok z => ve z k
    | .error _ => 0
  let It : R → List R → Nat → Nat → R := fun t x m k =>
    formVec (itf ((nviews t).map asView) nfnfi st) ⟨x, offs⟩ m k
  refine ⟨st, fms, mesh, mks, ts, hst, hmesh, hmks, hts, Fd, It, ⟨?_, ?_⟩, ?_⟩
  · intro t m x hm hx
    obtain ⟨υ, hυ⟩ := represents_of (n := n) (spaces := uspaces) D (fun k r => if k = m then ve x r else 0)
    obtain ⟨y, y1, y2, -⟩ := form t m x υ hm hx (fun i e b sm s h1 h2 hi hb => by
      have := hυ m sm s i e b h1 h2 hi hb
      dsimp only at this
      rw [if_pos rfl] at this
      exact this)
    refine ⟨y, y1, y2, fun k _ => ?_⟩
    show ve y k = match (flowConv true offs st mesh ts nviews nints nfnfi).dom t m x (sizeIn uspaces m) with
      | .ok z => ve z k
      | .error _ => 0
    rw [y1]
  · intro t x y hx hy
    obtain ⟨fo, vo⟩ := nitf_ok D T (hF t)
    obtain ⟨y', a1, a2, a3⟩ := InterfaceForm.addMult_spec fo vo (x := ⟨x, offs⟩) (y := ⟨y, offs⟩)
      (by rw [hsz]; exact sized x hx) (by rw [hsz]; exact sized y hy)
    rw [hsz] at a2
    refine ⟨y'.data, ?_, by rw [a2.2, hsum], ?_⟩
    · unfold flowConv
      dsimp only
      rw [a1, ok_bind]; rfl
    · intro m k hm hk
      have h1 := a3 m k
      rw [bent_at y m k hy hm hk, RomHandler.bent_eq a2 (by rw [getElem?_tab, if_pos hm]) hk,
        EqpRom.tab_take_sum _ _ (by omega)] at h1
      exact h1
  · intro t u υ hu k i e a sm s hk hs hi ha
    have hlt := (List.getElem?_eq_some_iff.1 hk).1
    obtain ⟨v, s', hv, hs', rfl, hsz'⟩ := view_at t k hlt
    rw [hs] at hs'; cases hs'
    have fits : ∀ {k : Nat} {sm s}, subs[k]? = some sm → uspaces[k]? = some s → SpaceFits sm.elemMap n s := by
      intro k sm s hk hs
      obtain ⟨v, s', hv, hs', rfl, -⟩ := view_at t k (List.getElem?_eq_some_iff.1 hk).1
      rw [hs] at hs'; cases hs'
      rw [← hn t]
      exact ((hF t).view _ _ _ hk hv).space
    have small : ∀ {k i e b : Nat} {sm s}, subs[k]? = some sm → uspaces[k]? = some s →
        sm.elemMap[i]? = some e → b < n e → pos s i b < sizeIn uspaces k := by
      intro k i e b sm s hk hs hi hb
      obtain ⟨_, b2, b3⟩ := sized_dofs (fits hk hs) hi
      rw [sizeIn_of hs]
      refine b3 _ ?_
      unfold dofAt
      rw [List.getElem?_eq_getElem (by rw [b2]; exact hb)]
      exact List.getElem_mem _
    obtain ⟨y, y1, y2, y3⟩ := form t k (part (sizeIn uspaces) u k) υ hlt (by simp [part])
      (fun i e b sm s h1 h2 hi hb => by
        rw [show part (sizeIn uspaces) u k = tab (sizeIn uspaces k) fun r => u (first (sizeIn uspaces) k + r)
          from rfl, LinAlg.ve_tab (small h1 h2 hi hb)]
        exact hu k sm s i e b h1 h2 hi hb)
    have hval : Fd t k (part (sizeIn uspaces) u k) (pos v.space i a) = insideAt true (N t) pm subs bc υ k e a := by
      show (match (flowConv true offs st mesh ts nviews nints nfnfi).dom t k (part (sizeIn uspaces) u k)
        (sizeIn uspaces k) with
      | .ok z => ve z (pos v.space i a)
      | .error _ => 0) = _
      rw [y1]
      exact y3 i e a _ _ hk hs hi ha
    have lv : (vecOf (first (sizeIn uspaces) subs.length) u).length = first (sizeIn uspaces) subs.length := by
      simp [vecOf]
    have hX : Values (N t) subs (nviews t) ⟨vecOf (first (sizeIn uspaces) subs.length) u, offs⟩ υ := by
      intro k' i' e' b sm' v' hk' hv' hi' hb
      have hs' : uspaces[k']? = some v'.space := by rw [← hsp t, List.getElem?_map, hv']; rfl
      have hlt' := (List.getElem?_eq_some_iff.1 hk').1
      have hb' : b < n e' := by rw [← hn t]; exact hb
      have hp := small hk' hs' hi' hb'
      rw [bent_at _ k' _ lv hlt' hp, Unsteady.ve_vecOf _ _ (by
        have := first_bound (sizeIn uspaces) hlt'; omega)]
      exact hu k' sm' v'.space i' e' b hk' hs' hi' hb'
    rw [hval]
    show _ + formVec (itf ((nviews t).map asView) nfnfi st) _ k (pos v.space i a) = _
    rw [nform_sum D T (hF t) hX hk hv hi (by rw [hn t]; exact ha)]
    unfold insideAt convAt
    rw [if_pos rfl, if_pos rfl, ← nface_split D (show At subs k i e from ⟨sm, hk, hi⟩) a]
    ring

/-! ### The problem -/

/-- Every entry of a block vector belongs to a degree of freedom of an element. -/
theorem dof_at {spaces : List Space} (hcov : Covers pm subs) (hsp : Spaces subs n spaces) {k r : Nat}
    (hk : k < subs.length) (hr : r < sizeIn spaces k) :
    ∃ sm s i e a, subs[k]? = some sm ∧ spaces[k]? = some s ∧ sm.elemMap[i]? = some e ∧ a < n e ∧
      r = pos s i a :=
  (all_entries hcov hsp (P := fun k r => ∃ sm s i e a, subs[k]? = some sm ∧ spaces[k]? = some s ∧
      sm.elemMap[i]? = some e ∧ a < n e ∧ r = pos s i a) (Q := fun _ _ => True)
    (fun k i e a sm s h1 h2 h3 h4 => iff_of_true ⟨sm, s, i, e, a, h1, h2, h3, h4, rfl⟩ trivial)).2
    (fun _ _ _ _ => trivial) k r hk hr

theorem dof_lt {spaces : List Space} (hsp : Spaces subs n spaces) {k i e a : Nat} {sm : Sub} {s : Space}
    (hk : subs[k]? = some sm) (hs : spaces[k]? = some s) (hi : sm.elemMap[i]? = some e) (ha : a < n e) :
    pos s i a < sizeIn spaces k := by
  obtain ⟨f1, _⟩ := hsp.2 k _ _ hk hs
  obtain ⟨_, b2, b3⟩ := sized_dofs f1 hi
  rw [sizeIn_of hs]
  refine b3 _ ?_
  unfold dofAt
  rw [List.getElem?_eq_getElem (by rw [b2]; exact ha)]
  exact List.getElem_mem _

/-- A vector with given blocks. -/
theorem flat_vec (m : Nat) (w : Nat → Nat) (x : Nat → Nat → R) :
    ∃ u : Nat → R, ∀ k r, k < m → r < w k → u (first w k + r) = x k r := by
  classical
  refine ⟨fun c => if h : ∃ p : Nat × Nat, p.2 < w p.1 ∧ first w p.1 + p.2 = c then
    x h.choose.1 h.choose.2 else 0, ?_⟩
  intro k r _ hr
  have hex : ∃ p : Nat × Nat, p.2 < w p.1 ∧ first w p.1 + p.2 = first w k + r := ⟨(k, r), hr, rfl⟩
  dsimp only
  rw [dif_pos hex]
  have hc := hex.choose_spec
  generalize hex.choose = p at hc ⊢
  obtain ⟨h1, h2⟩ := hc
  have hk : p.1 = k := by
    by_contra hne
    exact first_disjoint w hne hr ⟨by omega, by omega⟩
  subst hk
  have : p.2 = r := by omega
  rw [this]

/-- A mass form acts on every element by itself. -/
theorem mass_row {s : Space} {sm : Sub} {k i e a : Nat} {G : Nat → R} {x : Nat → R} {ξ : Nat → Nat → R}
    (D : Division pm subs φ g) (hk : subs[k]? = some sm) (hs : SpaceFits sm.elemMap n s) (hc : Complete s)
    (hi : sm.elemMap[i]? = some e)
    (hG : ∀ (i' e' b : Nat), sm.elemMap[i']? = some e' → b < n e' →
      G (pos s i' b) = if e = e' then mass e a b else 0)
    (hx : ∀ (i' e' b : Nat), sm.elemMap[i']? = some e' → b < n e' → x (pos s i' b) = ξ e' b) :
    ∑ c ∈ range s.vsize, G c * x c = ∑ b ∈ range (n e), mass e a b * ξ e b := by
  rw [sum_block hs hc]
  have hlt := (List.getElem?_eq_some_iff.1 hi).1
  rw [Finset.sum_eq_single i]
  · rw [hi]
    refine sum_congr rfl fun b hb => ?_
    rw [mem_range] at hb
    rw [hG i e b hi hb, if_pos rfl, hx i e b hi hb]
  · intro i' hi' hne
    rw [mem_range] at hi'
    have he' := List.getElem?_eq_getElem hi'
    rw [he']
    refine Finset.sum_eq_zero fun b hb => ?_
    rw [mem_range] at hb
    have hee : e ≠ sm.elemMap[i'] := by
      intro h
      refine hne ((List.Nodup.getElem_inj_iff (hi := hi') (hj := hlt) (D.nodup k sm hk)).1 ?_)
      rw [← h]
      exact (Option.some.inj ((List.getElem?_eq_getElem hlt).symm.trans hi)).symm
    rw [hG i' _ b he' hb, if_neg hee, zero_mul]
  · intro h; exact absurd (mem_range.2 hlt) h

end

section
variable {R δ F : Type} [Field R] [LinearOrder R] [IsStrictOrderedRing R] {pm : Parent} {subs : List Sub}
variable {φ : Nat → Nat → Nat} {g : Int} {E : FlowEq R F} {bc : BC F} {I : FlowInput R δ F}
variable {uspaces pspaces : List Space}

omit [LinearOrder R] [IsStrictOrderedRing R] in
theorem Spec.FlowForms.uspace (H : FlowForms E pm subs φ uspaces pspaces I) : Spaces subs E.W.nt uspaces := by
  have := spaces_test H.stokes.viscous (fun v hv => H.stokes.ucomplete _ (by
    rw [← H.stokes.utest]; exact List.mem_map.2 ⟨v, hv, rfl⟩))
  rw [H.stokes.utest] at this; exact this

omit [LinearOrder R] [IsStrictOrderedRing R] in
theorem Spec.FlowForms.pspace (H : FlowForms E pm subs φ uspaces pspaces I) : Spaces subs E.W'.nt pspaces := by
  have := spaces_test H.stokes.divergence (fun v hv => H.stokes.pcomplete _ (by
    rw [← H.stokes.pdiv]; exact List.mem_map.2 ⟨v, hv, rfl⟩))
  rw [H.stokes.pdiv] at this; exact this

/-- Block vectors as the parts of a vector. -/
def blocksOf (w : Nat → Nat) (u : Nat → R) (k r : Nat) : R := u (first w k + r)

/-- The solver set up on a division is set up for a problem whose steps are those of the undivided mesh. -/
theorem flow_problem (hE : E.Consistent) (hdt : 0 < E.dt) (D : Division pm subs φ g) (hcov : Covers pm subs)
    (hbc : Conditions pm bc) (hfun : HasFunctions bc) (H : FlowForms E pm subs φ uspaces pspaces I)
    (presDbc : Bool) :
    ∃ s rhs P, flowSetup true bc pm subs I presDbc E.dt = .ok (s, rhs) ∧ Problem.Ok P s ∧ P.RhsOk rhs ∧
      s.presDbc = presDbc ∧ P.n = subs.length ∧ P.nu = sizeIn uspaces ∧ P.np = sizeIn pspaces ∧
      (∀ t u u' q υ υ' π, Represents subs uspaces E.W.nt (blocksOf (sizeIn uspaces) u) υ →
        Represents subs uspaces E.W.nt (blocksOf (sizeIn uspaces) u') υ' →
        Represents subs pspaces E.W'.nt (blocksOf (sizeIn pspaces) q) π →
        (P.Momentum t u u' q ∧ P.Continuity u' ↔ E.Step pm bc t υ υ' π)) ∧
      (E.Symmetric pm bc → P.Symmetric) := by
  have hut := H.uspace
  have hpt := H.pspace
  have S := H.stokes
  obtain ⟨f, f1, f2, f3⟩ := rhs_spec D hbc S.momentum
  obtain ⟨h, h1, h2, h3⟩ := rhs_spec D hbc S.mass
  obtain ⟨M, m1, m0, -⟩ := operator_spec false D hbc S.viscous
  obtain ⟨M', m1', m2⟩ := entries_of_operator false D hbc S.viscous
  rw [m1] at m1'; cases m1'
  obtain ⟨B, b1, b0, -⟩ := operator_spec true D hbc S.divergence
  obtain ⟨B', b1', b2⟩ := entries_of_operator true D hbc S.divergence
  rw [b1] at b1'; cases b1'
  rw [S.utest, S.utrial] at m0 m2
  rw [S.pdiv, S.udiv] at b0 b2
  obtain ⟨ms, s1, s2, s3⟩ := massForms_spec D hE.viscous S.viscous H.mass
  have hu : IsOffsets (Sampling.partialSum (0 :: I.views'.map fun v => v.trial.vsize))
      (tab subs.length (sizeIn uspaces)) := by
    rw [← hut.1, ← sizes_tab, ← S.udiv, List.map_map]
    exact Blocks.isOffsets_partialSum _
  have hp : IsOffsets (Sampling.partialSum (0 :: I.views'.map fun v => v.test.vsize))
      (tab subs.length (sizeIn pspaces)) := by
    rw [← hpt.1, ← sizes_tab, ← S.pdiv, List.map_map]
    exact Blocks.isOffsets_partialSum _
  obtain ⟨mm, k1, -, -, -, k2, k3, k4⟩ := FomSolve.setBlocks_ok hu hu m0
  obtain ⟨bm, l1, -, -, -, l2, l3, l4⟩ := FomSolve.setBlocks_ok hp hu b0
  obtain ⟨st, fms, mesh, mks, ts, c1, c2, c3, c4, Fd, It, c5, c6⟩ := flowConv_spec (N := E.N)
    (n := E.W.nt) D hbc hfun H.convection H.space hE.convection hu
  have row : ∀ (Q : MatArr R) (v : Nat → R) (rz cz : Nat → Nat) (val : Nat → Nat → R) k r,
      (∀ i j k l, i < subs.length → j < subs.length → k < rz i → l < cz j →
        val (first rz i + k) (first cz j + l) = mget Q i j k l) → k < subs.length → r < rz k →
      ∑ c ∈ range (first cz subs.length), val (first rz k + r) c * v c =
        rowMult Q subs.length cz (blocksOf cz v) k r := by
    intro Q v rz cz val k r hv hk hr
    rw [SteadyNS.sum_blocks_eq]
    unfold rowMult
    refine sum_congr rfl fun k' hk' => sum_congr rfl fun c hc => ?_
    rw [hv k k' r c hk (mem_range.1 hk') hr (mem_range.1 hc)]; rfl
  have col : ∀ (Q : MatArr R) (v : Nat → R) (rz cz : Nat → Nat) (val : Nat → Nat → R) k r,
      (∀ i j k l, i < subs.length → j < subs.length → k < rz i → l < cz j →
        val (first rz i + k) (first cz j + l) = mget Q i j k l) → k < subs.length → r < cz k →
      ∑ c ∈ range (first rz subs.length), val c (first cz k + r) * v c =
        colMult Q subs.length rz (blocksOf rz v) k r := by
    intro Q v rz cz val k r hv hk hr
    rw [SteadyNS.sum_blocks_eq]
    unfold colMult
    refine sum_congr rfl fun k' hk' => sum_congr rfl fun c hc => ?_
    rw [hv k' k c r (mem_range.1 hk') hk (mem_range.1 hc) hr]; rfl
  let P : Problem R := ⟨subs.length, sizeIn uspaces, sizeIn pspaces,
    fun m k l => ((ms[m]?).map (fun s => s.get k l)).getD 0, (mono mm).val, fun r c => (mono bm).val c r,
    (mono bm).val, Fd, It, fun m k => ve (f[m]?.getD []) k, fun m k => ve (h[m]?.getD []) k, E.dt⟩
  have massAt : ∀ m, m < subs.length → ∃ sm v s, subs[m]? = some sm ∧ I.views[m]? = some v ∧
      ms[m]? = some s ∧ uspaces[m]? = some v.test ∧ v.trial = v.test ∧
      (s.h = sizeIn uspaces m ∧ s.w = sizeIn uspaces m) ∧
      ∀ i e i' e' a b, sm.elemMap[i]? = some e → sm.elemMap[i']? = some e' → a < E.W.nt e →
          b < E.W.nt e' → s.get (pos v.test i a) (pos v.test i' b) = if e = e' then E.mass e a b else 0 := by
    intro m hm
    have hs := List.getElem?_eq_getElem hm
    have hml : m < I.views.length := by rw [S.viscous.count]; exact hm
    have hv := List.getElem?_eq_getElem hml
    have e1 : uspaces[m]? = some I.views[m].test := by rw [← S.utest, List.getElem?_map, hv]; rfl
    have e2 : uspaces[m]? = some I.views[m].trial := by rw [← S.utrial, List.getElem?_map, hv]; rfl
    have e3 : I.views[m].trial = I.views[m].test := Option.some.inj (e2.symm.trans e1)
    obtain ⟨s, t1, t2, t3⟩ := s3 m _ _ hs hv
    refine ⟨_, _, s, hs, hv, t1, e1, e3, ?_, ?_⟩
    · rw [sizeIn_of e1, ← e3]
      exact ⟨t2.1.trans (by rw [e3]), t2.2⟩
    · rw [e3] at t3; exact t3
  refine ⟨⟨subs.length, _, _, ms.map blkOf, mono mm, mono bm, transpose (mono bm), _, presDbc, E.dt⟩,
    rhsVec f h, P, ?_, ⟨rfl, rfl, hdt, hu, hp, ?_, ?_, ?_, ?_, c5⟩, ?_, rfl, rfl, rfl, rfl, ?_, ?_⟩
  · unfold flowSetup
    rw [c1, ok_bind]
    dsimp only
    rw [c2, ok_bind, c3, ok_bind, c4, ok_bind]
    unfold stokesEquations
    rw [f1, ok_bind, h1, ok_bind, m1, ok_bind, b1, ok_bind]
    show (massForms I.views I.mvols >>= _) = _
    rw [s1, ok_bind]
    dsimp only
    rw [k1, ok_bind, l1, ok_bind]
    rfl
  · intro m hm
    obtain ⟨sm, v, s, t1, t2, t3, t4, t5, t6, t7⟩ := massAt m hm
    show (ms.map blkOf)[m]? = some ⟨sizeIn uspaces m, sizeIn uspaces m,
      fun k l => ((ms[m]?).map (fun s => s.get k l)).getD 0⟩
    rw [List.getElem?_map, t3]
    simp only [Option.map_some, Option.getD_some]
    unfold blkOf
    rw [t6.1, t6.2]
  · show mono mm = ⟨first (sizeIn uspaces) subs.length, first (sizeIn uspaces) subs.length, (mono mm).val⟩
    rw [← k2]
    conv_rhs => rw [show (mono mm).h = (mono mm).h from rfl]
    cases hmm : mono mm with
    | mk a b c =>
      rw [hmm] at k2 k3
      simp only at k2 k3 ⊢
      rw [k2, k3]
  · show transpose (mono bm) = ⟨first (sizeIn uspaces) subs.length, first (sizeIn pspaces) subs.length,
      fun r c => (mono bm).val c r⟩
    unfold transpose
    rw [l2, l3]
  · show mono bm = ⟨first (sizeIn pspaces) subs.length, first (sizeIn uspaces) subs.length, (mono bm).val⟩
    rw [← l2, ← l3]
  · have sz : ∀ (n : Nat → Nat) (Ld : Loads R F) (L : List (LView R F)) (sps : List Space) (y : List (List R)),
        L.map (·.space) = sps → sps.length = subs.length →
        (∀ (k : Nat) sm v, subs[k]? = some sm → L[k]? = some v → ∃ z, y[k]? = some z ∧
          z.length = v.space.vsize ∧ ∀ (i e a : Nat), sm.elemMap[i]? = some e → a < n e →
            ve z (pos v.space i a) = loadAt Ld pm bc e a) → y.length = subs.length →
        ∀ m l, y[m]? = some l → l.length = sizeIn sps m := by
      intro n Ld L sps y hL hl hy hyl m l hm
      have hlt : m < subs.length := by rw [← hyl]; exact (List.getElem?_eq_some_iff.1 hm).1
      have hml : m < L.length := by rw [← hl, ← hL, List.length_map] at hlt; exact hlt
      have hv := List.getElem?_eq_getElem hml
      obtain ⟨z, z1, z2, -⟩ := hy m _ _ (List.getElem?_eq_getElem hlt) hv
      rw [hm] at z1; cases z1
      rw [z2, sizeIn_of (show sps[m]? = some L[m].space by rw [← hL, List.getElem?_map, hv]; rfl)]
    obtain ⟨r1, r2, r3⟩ := rhsVec_sizes f2 h2 (sz _ _ _ _ _ S.uload hut.1 f3 f2) (sz _ _ _ _ _ S.pload hpt.1 h3 h2)
    refine ⟨r1, ?_, ?_⟩
    · intro m k hm hk
      show ve _ _ = ve _ _
      unfold ve
      rw [r2 m k hm hk]
    · intro m k hm hk
      show ve _ _ = ve _ _
      unfold ve
      rw [r3 m k hm hk]
  · intro t u u' q υ υ' π hυ hυ' hπ
    refine and_congr ?_ ?_
    · refine all_entries (P := fun m k => ∑ l ∈ range (sizeIn uspaces m), P.mass m k l *
          ((u' (first P.nu m + l) - u (first P.nu m + l)) / E.dt) +
        ∑ c ∈ range P.NU, P.K (first P.nu m + k) c * u' c +
        ∑ c ∈ range P.NP, P.Bt (first P.nu m + k) c * q c = P.f m k - P.conv t u m k) hcov hut ?_
      intro k i e a sm s hk hs hi ha
      have hlt := (List.getElem?_eq_some_iff.1 hk).1
      have hr := dof_lt hut hk hs hi ha
      obtain ⟨sm', v, z, t1, t2, t3, t4, t5, t6, t7⟩ := massAt k hlt
      rw [hk] at t1; cases t1
      rw [hs] at t4; cases t4
      have e1 : ∑ l ∈ range (sizeIn uspaces k), P.mass k (pos v.test i a) l *
          ((u' (first P.nu k + l) - u (first P.nu k + l)) / E.dt) =
          ∑ b ∈ range (E.W.nt e), E.mass e a b * ((υ' e b - υ e b) / E.dt) := by
        rw [sizeIn_of hs]
        obtain ⟨g1, g2⟩ := hut.2 k _ _ hk hs
        refine mass_row (n := E.W.nt) (ξ := fun e b => (υ' e b - υ e b) / E.dt)
          (x := fun l => (u' (first P.nu k + l) - u (first P.nu k + l)) / E.dt) D hk g1 g2 hi ?_ ?_
        · intro i' e' b hi' hb
          show ((ms[k]?).map _).getD 0 = _
          rw [t3]
          exact t7 i e i' e' a b hi hi' ha hb
        · intro i' e' b hi' hb
          rw [show u' (first P.nu k + pos v.test i' b) = υ' e' b from hυ' k sm _ i' e' b hk hs hi' hb,
            show u (first P.nu k + pos v.test i' b) = υ e' b from hυ k sm _ i' e' b hk hs hi' hb]
      have e2 : ∑ c ∈ range P.NU, P.K (first P.nu k + pos v.test i a) c * u' c = applied E.W pm bc υ' e a := by
        rw [← row_eq D hcov m2 (by rw [hE.viscous]; exact hut) (by rw [hE.viscous]; exact hυ') hk hs hi ha]
        exact row M u' _ _ _ k _ k4 hlt hr
      have e3 : ∑ c ∈ range P.NP, P.Bt (first P.nu k + pos v.test i a) c * q c = appliedT E.W' pm bc π e a := by
        rw [← col_eq D hcov b2 hpt hπ hk hs hi (by rw [hE.divergence]; exact ha)]
        exact col B q _ _ _ k _ l4 hlt hr
      have e4 : P.f k (pos v.test i a) = loadAt E.Ld pm bc e a := rhs_at S.uload f3 hk hs hi ha
      have e5 : P.conv t u k (pos v.test i a) = convAt true (E.N t) pm bc υ e a :=
        c6 t u υ hυ k i e a sm _ hk hs hi ha
      rw [e1, e2, e3, e4, e5]
    · refine all_entries (P := fun m k => ∑ c ∈ range P.NU, P.B (first P.np m + k) c * u' c = P.g m k)
        hcov hpt ?_
      intro k i e a sm s hk hs hi ha
      have hlt := (List.getElem?_eq_some_iff.1 hk).1
      have hr := dof_lt hpt hk hs hi ha
      have e2 : ∑ c ∈ range P.NU, P.B (first P.np k + pos s i a) c * u' c = applied E.W' pm bc υ' e a := by
        rw [← row_eq D hcov b2 (by rw [hE.divergence]; exact hut) (by rw [hE.divergence]; exact hυ') hk hs hi ha]
        exact row B u' _ _ _ k _ l4 hlt hr
      have e4 : P.g k (pos s i a) = loadAt E.Ld' pm bc e a := rhs_at S.pload h3 hk hs hi ha
      rw [e2, e4]
  · rintro ⟨y1, y2⟩
    refine ⟨?_, ?_, fun _ _ _ _ => rfl⟩
    · intro m k l hm hk hl
      obtain ⟨sm, v, z, t1, t2, t3, t4, t5, t6, t7⟩ := massAt m hm
      obtain ⟨sm₁, s₁, i, e, a, d1, d2, d3, d4, rfl⟩ := dof_at hcov hut hm hk
      obtain ⟨sm₂, s₂, i', e', b, d1', d2', d3', d4', rfl⟩ := dof_at hcov hut hm hl
      rw [t1] at d1 d1'; cases d1; cases d1'
      rw [t4] at d2 d2'; cases d2; cases d2'
      show ((ms[m]?).map _).getD 0 = ((ms[m]?).map _).getD 0
      rw [t3]
      simp only [Option.map_some, Option.getD_some]
      rw [t7 i e i' e' a b d3 d3' d4 d4', t7 i' e' i e b a d3' d3 d4' d4]
      by_cases hee : e = e'
      · subst hee
        rw [if_pos rfl, if_pos rfl, y1 e a b d4 d4']
      · rw [if_neg hee, if_neg (Ne.symm hee)]
    · intro r c hr hc
      obtain ⟨m, k, hm, hk, rfl⟩ := locate _ _ hr
      obtain ⟨m', k', hm', hk', rfl⟩ := locate _ _ hc
      show (mono mm).val _ _ = (mono mm).val _ _
      rw [k4 m m' k k' hm hm' hk hk', k4 m' m k' k hm' hm hk' hk]
      obtain ⟨sm₁, s₁, i, e, a, d1, d2, d3, d4, rfl⟩ := dof_at hcov hut hm hk
      obtain ⟨sm₂, s₂, i', e', b, d1', d2', d3', d4', rfl⟩ := dof_at hcov hut hm' hk'
      rw [m2 m i e m' i' e' a b _ _ _ _ d1 d2 d3 d1' d2' d3' d4 (by rw [hE.viscous]; exact d4'),
        m2 m' i' e' m i e b a _ _ _ _ d1' d2' d3' d1 d2 d3 d4' (by rw [hE.viscous]; exact d4)]
      exact y2 e a e' b d4 d4'

end

end Verif.Divide
