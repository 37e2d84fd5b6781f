import Verif.Proofs.RomCopies

/-!
# Property C41: component-wise ROM assembly equals projection of the global operator
-/

namespace Verif.RomAssembly

open Verif Verif.LinAlg Verif.LinAlg.Spec Finset Spec
open Verif.InterfaceForm (side Form MatArr Port Integ FMesh Space Tr refSides)
open Verif.InterfaceForm.Spec (sizeIn MatsOk mget)
open Verif.Boundary (BC weakOf)
open Verif.CompSetup (Comp PortRow Topo BdrRow)
open Verif.CompSetup.Spec (usedPorts)
open Verif.Ports (PortData InterfaceInfo)
open Verif.RomHandler (Handler)
open Verif.RomHandler.Spec (vars romBlock basisOf Ready)

variable {R δ F : Type} [CommRing R]

/-! ## Entries of operators -/

theorem unit_get {n c k : Nat} (hk : k < n) :
    ve ((List.range n).map fun k => if k = c then (1 : R) else 0) k = if k = c then 1 else 0 :=
  ve_tab (f := fun k => if k = c then (1 : R) else 0) hk

/-- An operator given by entries `E` is linear with these entries. -/
theorem isLinear_of {a : Op R} {E : Nat → Nat → R}
    (hl : ∀ x : List R, x.length = a.w → (a.mult x).length = a.h)
    (h : ∀ (x : List R) (r : Nat), x.length = a.w → r < a.h →
      ve (a.mult x) r = ∑ c ∈ range a.w, E r c * ve x c) :
    IsLinear a ∧ ∀ r c, r < a.h → c < a.w → opEnt a r c = E r c := by
  have hent : ∀ r c, r < a.h → c < a.w → opEnt a r c = E r c := by
    intro r c hr hc
    unfold opEnt
    rw [h _ r (by simp) hr, sum_eq_single c]
    · rw [unit_get hc, if_pos rfl, mul_one]
    · intro k hk hkc
      rw [unit_get (mem_range.1 hk), if_neg hkc, mul_zero]
    · intro hn; exact absurd (mem_range.2 hc) hn
  refine ⟨⟨hl, ?_⟩, hent⟩
  intro x r hx
  by_cases hr : r < a.h
  · rw [h x r hx hr]
    exact sum_congr rfl fun c hc => by rw [hent r c hr (mem_range.1 hc)]
  · have h0 : ∀ y : List R, y.length = a.w → ve (a.mult y) r = 0 := by
      intro y hy
      unfold ve
      rw [List.getElem?_eq_none (by rw [hl y hy]; omega)]; rfl
    rw [h0 x hx, sum_eq_zero]
    intro c _
    unfold opEnt
    rw [h0 _ (by simp), zero_mul]

theorem spOp_mult (s : Sp R) (x : List R) {r : Nat} (hr : r < s.h) :
    ve ((spOp s).mult x) r = ∑ c ∈ range s.w, s.get r c * ve x c :=
  ve_tab (f := fun r => ∑ c ∈ range s.w, s.get r c * x[c]?.getD 0) hr

theorem spOp_linear (s : Sp R) :
    IsLinear (spOp s) ∧ ∀ r c, r < s.h → c < s.w → opEnt (spOp s) r c = s.get r c :=
  isLinear_of (a := spOp s) (E := s.get) (fun x _ => by simp [spOp]) (fun x _ _ hr => spOp_mult s x hr)

theorem find_swap (l : List ((Nat × Nat) × R)) (r c : Nat) :
    (((l.map fun e => ((e.1.2, e.1.1), e.2)).find? (fun e => e.1 == (r, c))).map Prod.snd) =
      ((l.find? (fun e => e.1 == (c, r))).map Prod.snd) := by
  induction l with
  | nil => rfl
  | cons e l ih =>
    obtain ⟨⟨i, j⟩, v⟩ := e
    simp only [List.map_cons, List.find?_cons]
    by_cases h : i = c ∧ j = r
    · obtain ⟨rfl, rfl⟩ := h
      simp
    · have h1 : (((j, i) : Nat × Nat) == (r, c)) = false := by
        simp only [beq_eq_false_iff_ne, ne_eq, Prod.mk.injEq]
        exact fun hh => h ⟨hh.2, hh.1⟩
      have h2 : (((i, j) : Nat × Nat) == (c, r)) = false := by
        simp only [beq_eq_false_iff_ne, ne_eq, Prod.mk.injEq]
        exact h
      rw [h1, h2]; exact ih

theorem spTranspose_get (s : Sp R) (r c : Nat) : (spTranspose s).get r c = s.get c r := by
  unfold Sp.get spTranspose
  dsimp only
  rw [find_swap]

theorem lent_one {a : Op R} {k l : Nat} : lent (oneLocal a) 0 0 k l = opEnt a k l := by
  unfold lent oneLocal; rw [if_pos ⟨rfl, rfl⟩]

/-! ## Component-wise assembly in general -/

section
variable {h : Handler R} {comps : List Comp} {bdr : List BdrRow} {ports : List PortRow}
  {refPorts : List PortData} {refItfs : List (List InterfaceInfo)} {t : Topo} {bc : BC F}
  {mks : List (List Int)} {zr zf : List Nat}

theorem topoOk (S : Setting h comps bdr ports refPorts refItfs t bc mks) :
    TopoOk h comps refPorts bc t.c2g (usedPorts ports refPorts) (actOf bc t) where
  sub m hm := by
    have htype := List.getElem?_eq_getElem (show m < h.meshType.length from hm)
    obtain ⟨comp, row, e, hcomp, hrow, _, hrl, _⟩ := sub_facts S htype
    refine ⟨_, comp, row, htype, hcomp, hrow, actOf_ok S hrow, ?_⟩
    intro b hb
    rw [← hrl]; exact actOf_lt S hrow b hb
  port r hr := by
    obtain ⟨p, hp⟩ := List.mem_iff_getElem?.1 hr
    obtain ⟨_, k, m1, m2, q, i, a1, a2, a3, _, a5, _, _, a8, a9, _⟩ :=
      CompSetup.ports_attached S.topo hp
    exact ⟨k, m1, m2, q, a1, a2, a3, a5, types_get' a8, types_get' a9⟩

/-- If the local systems of the components add up to the global system, the ROM assembled from
component elements is the projection of the global system. -/
theorem assembly_is_projection (S : Setting h comps bdr ports refPorts refItfs t bc mks)
    (hr : Ready h zr zf) (hv0 : 0 < vars h) (hb : BasesOk h comps.length)
    {l : LocalOf R} {P : Pieces R} (hg : l.Gives comps refPorts.length P)
    (hp : PiecesOk h comps refPorts P) {L : Nat → Nat → Outcome (Local R)} {G : Nat → Nat → Local R}
    (hl : ∀ i j, i < h.numSub → j < h.numSub → L i j = .ok (G i j))
    (hG : ∀ i j, i < h.numSub → j < h.numSub → LocalOk h (typeOf h i) (typeOf h j) (G i j))
    (hsum : ∀ m m' v w k l, m < h.numSub → m' < h.numSub → v < vars h → w < vars h →
      k < (refB h (typeOf h m) v).h → l < (refB h (typeOf h m') w).h →
      lent (G m m') v w k l = (if m = m' then lent (P.comp (typeOf h m)) v w k l +
              ((actOf bc t m).map fun b => lent (P.bdr (typeOf h m) b) v w k l).sum else 0) +
            ((usedPorts ports refPorts).map fun r => ∑ i ∈ range 2, ∑ j ∈ range 2,
              if side r.mesh1.toNat r.mesh2.toNat i = m ∧ side r.mesh1.toNat r.mesh2.toNat j = m' then
                lent (P.port r.type.toNat i j) v w k l else 0).sum) :
    ∃ el rom rom', buildElems h comps refPorts l = .ok el ∧
      assembleROM h bc t.c2g (usedPorts ports refPorts) el = .ok rom ∧
      projectFom h L = .ok rom' ∧
      ∀ m m' v w p q, m < h.numSub → m' < h.numSub → v < vars h → w < vars h →
        p < (basisOf h h.refBasis m v).w → q < (basisOf h h.refBasis m' w).w →
        bval rom (romBlock h m v) (romBlock h m' w) p q =
          bval rom' (romBlock h m v) (romBlock h m' w) p q ∧
        bval rom (romBlock h m v) (romBlock h m' w) p q =
          galerkin (basisOf h h.refBasis m v) (basisOf h h.refBasis m' w)
            (lent (G m m') v w) p q := by
  obtain ⟨el, e1, hel⟩ := buildElems_spec hb hg hp
  obtain ⟨rom, e2, _, h2⟩ := assembleROM_entries hr hv0 hel (topoOk S)
  obtain ⟨rom', e3, _, h3⟩ := projectFom_entries hr hb hl hG
  refine ⟨el, rom, rom', e1, e2, e3, ?_⟩
  intro m m' v w p q hm hm' hv hw hpp hq
  have key : bval rom (romBlock h m v) (romBlock h m' w) p q =
      galerkin (basisOf h h.refBasis m v) (basisOf h h.refBasis m' w) (lent (G m m') v w) p q := by
    rw [h2 m m' v w p q hm hm' hv hw hpp hq]
    exact galerkin_congr fun k l hk hl => (hsum m m' v w k l hm hm' hv hw hk hl).symm
  exact ⟨by rw [key, h3 m m' v w p q hm hm' hv hw hpp hq], key⟩

theorem type_lt (S : Setting h comps bdr ports refPorts refItfs t bc mks) {m : Nat}
    (hm : m < h.numSub) : h.meshType[m]? = some (typeOf h m) ∧ typeOf h m < comps.length ∧
      ∃ comp, comps[typeOf h m]? = some comp ∧ ∀ b ∈ actOf bc t m, b < comp.bdrAttributes.length := by
  have htype := List.getElem?_eq_getElem (show m < h.meshType.length from hm)
  obtain ⟨comp, row, e, hcomp, hrow, _, hrl, _⟩ := sub_facts S htype
  have := typeOf_eq htype
  rw [this]
  exact ⟨htype, (List.getElem?_eq_some_iff.1 hcomp).1, comp, hcomp, fun b hb => by
    rw [← hrl]; exact actOf_lt S hrow b hb⟩

/-! ## Poisson -/

theorem mget_of {M : MatArr R} {a b : Nat} {s : Sp R} (h : M.at_ a b = some s) (r c : Nat) :
    mget M a b r c = s.get r c := by unfold mget; rw [h]; rfl

theorem pairs_ok {f : Nat → Nat → Outcome (Local R)} {x : Nat → Nat → Local R}
    (h : ∀ i j, i < 2 → j < 2 → f i j = .ok (x i j)) :
    ∃ y, pairs f = .ok y ∧ ∀ i j, i < 2 → j < 2 → y i j = x i j := by
  refine ⟨_, by
    unfold pairs
    simp only [loop, loopFrom, h 0 0 (by omega) (by omega), h 0 1 (by omega) (by omega),
      h 1 0 (by omega) (by omega), h 1 1 (by omega) (by omega), ok_bind]
    rfl, ?_⟩
  intro i j hi hj
  interval_cases i <;> interval_cases j <;> simp

/-- **C41** for Poisson problems: on every accepted topology of copies of components, the ROM assembled
from component, boundary and port elements equals the projected full-order operator, and both are the
Galerkin projections of the blocks of the full-order operator. -/
theorem poisson_assembly (S : Setting h comps bdr ports refPorts refItfs t bc mks)
    (hr : Ready h zr zf) (hv : vars h = 1) (hb : BasesOk h comps.length) {f : Forms R δ}
    (hf : FormsOk f h.meshType comps (usedPorts ports refPorts) t.infos refPorts refItfs)
    (hz : ∀ c, c < comps.length → (refB h c 0).h = sizeIn f.ctest c ∧
      (refB h c 0).h = sizeIn f.ctrial c) :
    ∃ M el rom rom', fomMats bc mks t.mesh f.sub f.itf = .ok M ∧
      buildElems h comps refPorts (poissonLocals f comps refPorts refItfs) = .ok el ∧
      assembleROM h bc t.c2g (usedPorts ports refPorts) el = .ok rom ∧
      projectFom h (poissonFom M) = .ok rom' ∧
      ∀ m m' p q, m < h.numSub → m' < h.numSub →
        p < (basisOf h h.refBasis m 0).w → q < (basisOf h h.refBasis m' 0).w →
        bval rom (romBlock h m 0) (romBlock h m' 0) p q =
          bval rom' (romBlock h m 0) (romBlock h m' 0) p q ∧
        bval rom (romBlock h m 0) (romBlock h m' 0) p q =
          galerkin (basisOf h h.refBasis m 0) (basisOf h h.refBasis m' 0) (mget M m m') p q := by
  obtain ⟨M, eM, -, okM, entM⟩ := fomMats_spec S hf
  -- the pieces
  have hport : ∀ k, ∃ a : MatArr R, k < refPorts.length → f.atPort refPorts refItfs k = .ok a ∧
      (∀ q, refPorts[k]? = some q → MatsOk a 2 (fun i => sizeIn f.ctest (side q.comp1 q.comp2 i))
        (fun i => sizeIn f.ctrial (side q.comp1 q.comp2 i))) ∧
      ∀ i j r c, mget a i j r c = portOf f refPorts refItfs k i j r c := by
    intro k
    by_cases hk : k < refPorts.length
    · obtain ⟨a, h1, h2, h3⟩ := atPort_spec hf (List.getElem?_eq_getElem hk)
        (List.getElem?_eq_getElem (show k < refItfs.length by rw [S.itfs]; exact hk))
      refine ⟨a, fun _ => ⟨h1, ?_, h3⟩⟩
      intro q hq
      rw [List.getElem?_eq_getElem hk] at hq
      rw [← Option.some.inj hq]; exact h2
    · exact ⟨⟨0, 0, fun _ _ => none⟩, fun h => absurd h hk⟩
  choose A hA using hport
  have hbdr : ∀ c b, ∃ s : Sp R, ∀ comp, comps[c]? = some comp → b < comp.bdrAttributes.length →
      (∃ g, f.comp[c]? = some g ∧ compBdrMatrix comp g b = .ok s) ∧
      (s.h = sizeIn f.ctest c ∧ s.w = sizeIn f.ctrial c) ∧
      ∀ r k, s.get r k = bdrOf f comps c b r k := by
    intro c b
    by_cases hc : ∃ comp, comps[c]? = some comp ∧ b < comp.bdrAttributes.length
    · obtain ⟨comp, hc, hbb⟩ := hc
      obtain ⟨g, s, h1, h2, h3, h4⟩ := compBdr_spec S hf hc hbb
      refine ⟨s, fun comp' hc' _ => ?_⟩
      rw [hc] at hc'; cases hc'
      exact ⟨⟨g, h1, h2⟩, h3, h4⟩
    · exact ⟨⟨0, 0, []⟩, fun comp h1 h2 => absurd ⟨comp, h1, h2⟩ hc⟩
  choose B hB using hbdr
  let P : Pieces R := ⟨fun c => oneLocal (spOp ((f.comp[c]?.map (·.base)).getD ⟨0, 0, []⟩)),
    fun c b => oneLocal (spOp (B c b)),
    fun k i j => oneLocal (spOp (((A k).at_ i j).getD ⟨0, 0, []⟩))⟩
  have hgives : (poissonLocals f comps refPorts refItfs).Gives comps refPorts.length P := by
    refine ⟨?_, ?_, ?_⟩
    · intro c hc
      obtain ⟨g, hg⟩ := comp_get hf hc
      show (do let b ← rd f.comp c; return oneLocal (spOp b.base)) = _
      rw [rd_eq_ok.2 hg, ok_bind]
      show _ = Except.ok (oneLocal (spOp ((f.comp[c]?.map (·.base)).getD ⟨0, 0, []⟩)))
      rw [hg]; rfl
    · intro c comp b hc hbb
      obtain ⟨⟨g, h1, h2⟩, -⟩ := hB c b comp hc hbb
      show (do
        let comp ← rd comps c
        let g ← rd f.comp c
        let s ← compBdrMatrix comp g b
        return oneLocal (spOp s)) = _
      rw [rd_eq_ok.2 hc, ok_bind, rd_eq_ok.2 h1, ok_bind, h2, ok_bind]; rfl
    · intro k hk
      obtain ⟨h1, h2, h3⟩ := hA k hk
      have h2 := h2 _ (List.getElem?_eq_getElem hk)
      obtain ⟨y, hy, hyy⟩ := pairs_ok (f := poissonPair (A k)) (x := P.port k) (by
        intro i j hi hj
        obtain ⟨s, hs, _⟩ := h2.2.2 i j hi hj
        show (do let x ← deref ((A k).at_ i j); return oneLocal (spOp x)) =
          Except.ok (oneLocal (spOp (((A k).at_ i j).getD ⟨0, 0, []⟩)))
        rw [hs]; rfl)
      refine ⟨y, ?_, hyy⟩
      show (do let a ← f.atPort refPorts refItfs k; pairs (poissonPair a)) = _
      rw [h1, ok_bind, hy]
  have hone : ∀ (c c' : Nat) (s : Sp R), s.h = (refB h c 0).h → s.w = (refB h c' 0).h →
      LocalOk h c c' (oneLocal (spOp s)) := by
    intro c c' s h1 h2 v w a hv' hw' ha
    rw [hv] at hv' hw'
    have e1 : v = 0 := by omega
    have e2 : w = 0 := by omega
    subst e1 e2
    unfold oneLocal at ha
    rw [if_pos ⟨rfl, rfl⟩] at ha
    cases ha
    exact ⟨(spOp_linear s).1, h1, h2⟩
  have hcomp : ∀ c, c < comps.length → ∃ g, f.comp[c]? = some g ∧ g.base.h = (refB h c 0).h ∧
      g.base.w = (refB h c 0).h := by
    intro c hc
    obtain ⟨g, hg⟩ := comp_get hf hc
    obtain ⟨_, b2, b3⟩ := hf.comp c _ g (List.getElem?_eq_getElem hc) hg
    exact ⟨g, hg, by rw [b2, (hz c hc).1], by rw [b3, (hz c hc).2]⟩
  have hBs : ∀ c comp b, comps[c]? = some comp → b < comp.bdrAttributes.length →
      (B c b).h = (refB h c 0).h ∧ (B c b).w = (refB h c 0).h := by
    intro c comp b hc hbb
    obtain ⟨-, ⟨z1, z2⟩, -⟩ := hB c b comp hc hbb
    have hlt := (List.getElem?_eq_some_iff.1 hc).1
    exact ⟨by rw [z1, (hz c hlt).1], by rw [z2, (hz c hlt).2]⟩
  have hAs : ∀ k q i j, refPorts[k]? = some q → i < 2 → j < 2 → q.comp1 < comps.length ∧
      q.comp2 < comps.length ∧ ∃ s, (A k).at_ i j = some s ∧
        s.h = (refB h (side q.comp1 q.comp2 i) 0).h ∧ s.w = (refB h (side q.comp1 q.comp2 j) 0).h := by
    intro k q i j hq hi hj
    have hk := (List.getElem?_eq_some_iff.1 hq).1
    obtain ⟨h1, h2, h3⟩ := hA k hk
    obtain ⟨c1, c2, _⟩ := hf.refs k q _ hq
      (List.getElem?_eq_getElem (show k < refItfs.length by rw [S.itfs]; exact hk))
    obtain ⟨s, hs, z1, z2⟩ := (h2 q hq).2.2 i j hi hj
    have hside : ∀ i, side q.comp1 q.comp2 i < comps.length := by
      intro i; unfold side; split <;> assumption
    exact ⟨c1, c2, s, hs, by rw [z1, (hz _ (hside i)).1], by rw [z2, (hz _ (hside j)).2]⟩
  have hpieces : PiecesOk h comps refPorts P := by
    refine ⟨?_, ?_, ?_⟩
    · intro c hc
      obtain ⟨g, hg, z1, z2⟩ := hcomp c hc
      show LocalOk h c c (oneLocal (spOp ((f.comp[c]?.map (·.base)).getD ⟨0, 0, []⟩)))
      rw [hg]
      exact hone c c _ z1 z2
    · intro c comp b hc hbb
      obtain ⟨z1, z2⟩ := hBs c comp b hc hbb
      exact hone c c _ z1 z2
    · intro k q hq
      refine ⟨(hAs k q 0 0 hq (by omega) (by omega)).1, (hAs k q 0 0 hq (by omega) (by omega)).2.1, ?_⟩
      intro i j hi hj
      obtain ⟨_, _, s, hs, z1, z2⟩ := hAs k q i j hq hi hj
      show LocalOk h _ _ (oneLocal (spOp (((A k).at_ i j).getD ⟨0, 0, []⟩)))
      rw [hs]
      exact hone _ _ _ z1 z2
  -- the full-order blocks
  have hM : ∀ m m', m < h.numSub → m' < h.numSub → ∃ s, M.at_ m m' = some s ∧
      s.h = (refB h (typeOf h m) 0).h ∧ s.w = (refB h (typeOf h m') 0).h := by
    intro m m' hm hm'
    obtain ⟨t1, l1, _⟩ := type_lt S hm
    obtain ⟨t2, l2, _⟩ := type_lt S hm'
    obtain ⟨s, hs, z1, z2⟩ := okM.2.2 m m' hm hm'
    refine ⟨s, hs, ?_, ?_⟩
    · rw [z1, (sizeIn_test hf t1).1, (hz _ l1).1]
    · rw [z2, (sizeIn_test hf t2).2, (hz _ l2).2]
  let G : Nat → Nat → Local R := fun m m' => oneLocal (spOp ((M.at_ m m').getD ⟨0, 0, []⟩))
  have hGl : ∀ i j, i < h.numSub → j < h.numSub → poissonFom M i j = .ok (G i j) := by
    intro i j hi hj
    obtain ⟨s, hs, _⟩ := hM i j hi hj
    show Except.ok (fun v w => if v = 0 ∧ w = 0 then (M.at_ i j).map spOp else none) =
      Except.ok (oneLocal (spOp ((M.at_ i j).getD ⟨0, 0, []⟩)))
    rw [hs]; rfl
  have hGok : ∀ i j, i < h.numSub → j < h.numSub → LocalOk h (typeOf h i) (typeOf h j) (G i j) := by
    intro i j hi hj
    obtain ⟨s, hs, z1, z2⟩ := hM i j hi hj
    show LocalOk h _ _ (oneLocal (spOp ((M.at_ i j).getD ⟨0, 0, []⟩)))
    rw [hs]
    exact hone _ _ _ z1 z2
  have hGent : ∀ m m' k l, m < h.numSub → m' < h.numSub → k < (refB h (typeOf h m) 0).h →
      l < (refB h (typeOf h m') 0).h → lent (G m m') 0 0 k l = mget M m m' k l := by
    intro m m' k l hm hm' hk hl
    obtain ⟨s, hs, z1, z2⟩ := hM m m' hm hm'
    show lent (oneLocal (spOp ((M.at_ m m').getD ⟨0, 0, []⟩))) 0 0 k l = _
    rw [lent_one, hs, Option.getD_some, (spOp_linear s).2 k l (by omega) (by omega), mget_of hs]
  obtain ⟨el, rom, rom', e1, e2, e3, e4⟩ := assembly_is_projection S hr (by omega) hb hgives hpieces
    hGl hGok (by
      intro m m' v w k l hm hm' hv' hw' hk hl
      rw [hv] at hv' hw'
      have e1 : v = 0 := by omega
      have e2 : w = 0 := by omega
      subst e1 e2
      rw [hGent m m' k l hm hm' hk hl, entM m m' k l hm hm']
      unfold fomEntry
      congr 1
      · by_cases hmm : m = m'
        · subst hmm
          rw [if_pos rfl, if_pos rfl]
          obtain ⟨t1, l1, comp, hc, hact⟩ := type_lt S hm
          obtain ⟨g, hg, z1, z2⟩ := hcomp _ l1
          congr 1
          · show _ = lent (oneLocal (spOp ((f.comp[typeOf h m]?.map (·.base)).getD ⟨0, 0, []⟩))) 0 0 k l
            unfold baseOf
            rw [lent_one, hg]
            exact ((spOp_linear g.base).2 k l (by omega) (by omega)).symm
          · congr 1
            apply List.map_congr_left
            intro b hbm
            obtain ⟨z1, z2⟩ := hBs _ comp b hc (hact b hbm)
            show _ = lent (oneLocal (spOp (B (typeOf h m) b))) 0 0 k l
            rw [lent_one, (spOp_linear _).2 k l (by omega) (by omega),
              (hB _ b comp hc (hact b hbm)).2.2]
        · rw [if_neg hmm, if_neg hmm]
      · congr 1
        apply List.map_congr_left
        intro x hx
        refine sum_congr rfl fun i hi => sum_congr rfl fun j hj => ?_
        rw [mem_range] at hi hj
        split
        · rename_i hside
          obtain ⟨k', m1, m2, q, hpa⟩ := (topoOk S).port x hx
          have hty : x.type.toNat = k' := by rw [hpa.type]; rfl
          have e1 : x.mesh1.toNat = m1 := by rw [hpa.mesh1]; rfl
          have e2 : x.mesh2.toNat = m2 := by rw [hpa.mesh2]; rfl
          have ht : ∀ i, typeOf h (side m1 m2 i) = side q.comp1 q.comp2 i := by
            intro i
            unfold side
            split
            · exact typeOf_eq hpa.comp1
            · exact typeOf_eq hpa.comp2
          rw [e1, e2] at hside
          obtain ⟨_, _, s, hs, z1, z2⟩ := hAs k' q i j hpa.ref hi hj
          rw [← ht, hside.1] at z1
          rw [← ht, hside.2] at z2
          rw [hty]
          show _ = lent (oneLocal (spOp (((A k').at_ i j).getD ⟨0, 0, []⟩))) 0 0 k l
          rw [lent_one, hs, Option.getD_some, (spOp_linear s).2 k l (by omega) (by omega),
            ← (hA k' (List.getElem?_eq_some_iff.1 hpa.ref).1).2.2, mget_of hs]
        · rfl)
  refine ⟨M, el, rom, rom', eM, e1, e2, e3, ?_⟩
  intro m m' p q hm hm' hp hq
  obtain ⟨g1, g2⟩ := e4 m m' 0 0 p q hm hm' (by omega) (by omega) hp hq
  refine ⟨g1, g2.trans ?_⟩
  exact galerkin_congr fun k l hk hl => hGent m m' k l hm hm' hk hl

/-! ## Stokes -/

/-- Matrices of components, component boundaries and reference ports of a form. -/
theorem form_pieces (S : Setting h comps bdr ports refPorts refItfs t bc mks) {f : Forms R δ}
    (hf : FormsOk f h.meshType comps (usedPorts ports refPorts) t.infos refPorts refItfs) :
    ∃ (C : Nat → Sp R) (B : Nat → Nat → Sp R) (A : Nat → Nat → Nat → Sp R),
      (∀ c, c < comps.length → (∃ g, f.comp[c]? = some g ∧ g.base = C c) ∧
        (C c).h = sizeIn f.ctest c ∧ (C c).w = sizeIn f.ctrial c ∧ ∀ r k, (C c).get r k = baseOf f c r k) ∧
      (∀ c comp b, comps[c]? = some comp → b < comp.bdrAttributes.length →
        (∃ g, f.comp[c]? = some g ∧ compBdrMatrix comp g b = .ok (B c b)) ∧
        (B c b).h = sizeIn f.ctest c ∧ (B c b).w = sizeIn f.ctrial c ∧
        ∀ r k, (B c b).get r k = bdrOf f comps c b r k) ∧
      ∀ k q, refPorts[k]? = some q → q.comp1 < comps.length ∧ q.comp2 < comps.length ∧
        ∃ a, f.atPort refPorts refItfs k = .ok a ∧ ∀ i j, i < 2 → j < 2 →
          a.at_ i j = some (A k i j) ∧ (A k i j).h = sizeIn f.ctest (side q.comp1 q.comp2 i) ∧
          (A k i j).w = sizeIn f.ctrial (side q.comp1 q.comp2 j) ∧
          ∀ r c, (A k i j).get r c = portOf f refPorts refItfs k i j r c := by
  have hbdr : ∀ c b, ∃ s : Sp R, ∀ comp, comps[c]? = some comp → b < comp.bdrAttributes.length →
      (∃ g, f.comp[c]? = some g ∧ compBdrMatrix comp g b = .ok s) ∧
      s.h = sizeIn f.ctest c ∧ s.w = sizeIn f.ctrial c ∧
      ∀ r k, s.get r k = bdrOf f comps c b r k := by
    intro c b
    by_cases hc : ∃ comp, comps[c]? = some comp ∧ b < comp.bdrAttributes.length
    · obtain ⟨comp, hc, hbb⟩ := hc
      obtain ⟨g, s, h1, h2, h3, h4⟩ := compBdr_spec S hf hc hbb
      refine ⟨s, fun comp' hc' _ => ?_⟩
      rw [hc] at hc'; cases hc'
      exact ⟨⟨g, h1, h2⟩, h3.1, h3.2, h4⟩
    · exact ⟨⟨0, 0, []⟩, fun comp h1 h2 => absurd ⟨comp, h1, h2⟩ hc⟩
  choose B hB using hbdr
  have hport : ∀ k, ∃ a : MatArr R, ∀ q, refPorts[k]? = some q →
      f.atPort refPorts refItfs k = .ok a ∧
      MatsOk a 2 (fun i => sizeIn f.ctest (side q.comp1 q.comp2 i))
        (fun i => sizeIn f.ctrial (side q.comp1 q.comp2 i)) ∧
      ∀ i j r c, mget a i j r c = portOf f refPorts refItfs k i j r c := by
    intro k
    by_cases hk : k < refPorts.length
    · obtain ⟨a, h1, h2, h3⟩ := atPort_spec hf (List.getElem?_eq_getElem hk)
        (List.getElem?_eq_getElem (show k < refItfs.length by rw [S.itfs]; exact hk))
      refine ⟨a, fun q hq => ⟨h1, ?_, h3⟩⟩
      rw [List.getElem?_eq_getElem hk] at hq
      rw [← Option.some.inj hq]; exact h2
    · exact ⟨⟨0, 0, fun _ _ => none⟩, fun q hq => absurd (List.getElem?_eq_some_iff.1 hq).1 hk⟩
  choose A hA using hport
  refine ⟨fun c => (f.comp[c]?.map (·.base)).getD ⟨0, 0, []⟩, B,
    fun k i j => ((A k).at_ i j).getD ⟨0, 0, []⟩, ?_, fun c comp b hc hb => hB c b comp hc hb, ?_⟩
  · intro c hc
    obtain ⟨g, hg⟩ := comp_get hf hc
    obtain ⟨_, b2, b3⟩ := hf.comp c _ g (List.getElem?_eq_getElem hc) hg
    dsimp only
    rw [hg]
    exact ⟨⟨g, rfl, rfl⟩, b2, b3, fun r k => by unfold baseOf; rw [hg]; rfl⟩
  · intro k q hq
    have hk := (List.getElem?_eq_some_iff.1 hq).1
    obtain ⟨c1, c2, _⟩ := hf.refs k q _ hq
      (List.getElem?_eq_getElem (show k < refItfs.length by rw [S.itfs]; exact hk))
    obtain ⟨h1, h2, h3⟩ := hA k q hq
    refine ⟨c1, c2, A k, h1, fun i j hi hj => ?_⟩
    obtain ⟨s, hs, z1, z2⟩ := h2.2.2 i j hi hj
    dsimp only
    rw [hs]
    exact ⟨rfl, z1, z2, fun r c => by rw [← h3, mget_of hs]; rfl⟩

/-- Entries of the local saddle-point system of matrices `x`, `y`, `zᵀ`. -/
def sadEnt (x y z : Sp R) (v w k l : Nat) : R :=
  if v = 0 ∧ w = 0 then x.get k l
  else if v = 1 ∧ w = 0 then y.get k l
  else if v = 0 ∧ w = 1 then z.get l k
  else 0

theorem ve_append_left {a b : List R} {i : Nat} (h : i < a.length) : ve (a ++ b) i = ve a i := by
  unfold ve; rw [List.getElem?_append_left h]

theorem ve_append_right {a b : List R} {i : Nat} (h : a.length ≤ i) :
    ve (a ++ b) i = ve b (i - a.length) := by
  unfold ve; rw [List.getElem?_append_right h]

theorem ve_take {a : List R} {n i : Nat} (h : i < n) : ve (a.take n) i = ve a i := by
  unfold ve; rw [List.getElem?_take_of_lt h]

theorem ve_drop {a : List R} {n i : Nat} : ve (a.drop n) i = ve a (n + i) := by
  unfold ve; rw [List.getElem?_drop]

theorem ve_zip_add {a b : List R} {i : Nat} (h1 : i < a.length) (h2 : i < b.length) :
    ve (List.zipWith (· + ·) a b) i = ve a i + ve b i := by
  unfold ve
  rw [List.getElem?_zipWith, List.getElem?_eq_getElem h1, List.getElem?_eq_getElem h2]; rfl

theorem formBlockMatrix_spec {x y z : Sp R} (h1 : y.w = x.w) (h2 : z.w = x.h) :
    ∃ a, formBlockMatrix x y (spTranspose z) = .ok a ∧ a.h = x.h + y.h ∧ a.w = x.w + z.h ∧
      IsLinear a ∧ ∀ k l, k < a.h → l < a.w → opEnt a k l =
        sadEnt x y z (varPos false x.h 0 k).1 (varPos false x.w 0 l).1 (varPos false x.h 0 k).2
          (varPos false x.w 0 l).2 := by
  refine ⟨⟨x.h + y.h, x.w + z.h, fun u =>
    List.zipWith (· + ·) ((spOp x).mult (u.take x.w)) ((spOp (spTranspose z)).mult (u.drop x.w)) ++
      (spOp y).mult (u.take x.w)⟩, ?_, rfl, rfl, ?_⟩
  · unfold formBlockMatrix
    have : (spTranspose z).h = x.h := h2
    rw [h1, this, beq_self_eq_true, require_true, ok_bind, beq_self_eq_true, require_true, ok_bind]
    rfl
  · have hlen1 : ∀ u : List R, (List.zipWith (· + ·) ((spOp x).mult (u.take x.w))
        ((spOp (spTranspose z)).mult (u.drop x.w))).length = x.h := by
      intro u; simp [spOp, spTranspose, h2]
    refine isLinear_of (a := ⟨x.h + y.h, x.w + z.h, fun u => List.zipWith (· + ·)
        ((spOp x).mult (u.take x.w)) ((spOp (spTranspose z)).mult (u.drop x.w)) ++
        (spOp y).mult (u.take x.w)⟩)
      (E := fun k l => sadEnt x y z (varPos false x.h 0 k).1 (varPos false x.w 0 l).1
        (varPos false x.h 0 k).2 (varPos false x.w 0 l).2) ?_ ?_
    · intro u _
      dsimp only
      rw [List.length_append, hlen1]; simp [spOp]
    · intro u r hu hr
      dsimp only at hu hr ⊢
      rw [sum_range_add]
      have v1 : ∀ l, l < x.w → varPos false x.w 0 l = (0, l) := by
        intro l hl; simp [varPos, hl]
      have v2 : ∀ l, varPos false x.w 0 (x.w + l) = (1, l) := by
        intro l; simp [varPos]
      by_cases hrx : r < x.h
      · rw [ve_append_left (by rw [hlen1]; exact hrx), ve_zip_add (by simpa [spOp] using hrx)
          (by simpa [spOp, spTranspose, h2] using hrx), spOp_mult x _ hrx,
          spOp_mult (spTranspose z) _ (by show r < z.w; omega)]
        have vr : varPos false x.h 0 r = (0, r) := by simp [varPos, hrx]
        rw [vr]
        congr 1
        · refine sum_congr rfl fun c hc => ?_
          rw [mem_range] at hc
          rw [v1 c hc, ve_take hc]; simp [sadEnt]
        · refine sum_congr rfl fun c hc => ?_
          rw [v2, ve_drop, spTranspose_get]; simp [sadEnt]
      · rw [ve_append_right (by rw [hlen1]; omega), hlen1, spOp_mult y _ (by omega), h1]
        have vr : varPos false x.h 0 r = (1, r - x.h) := by simp [varPos, hrx]
        rw [vr]
        have hz : ∑ c ∈ range z.h, sadEnt x y z 1 (varPos false x.w 0 (x.w + c)).1 (r - x.h)
            (varPos false x.w 0 (x.w + c)).2 * ve u (x.w + c) = 0 := by
          apply sum_eq_zero
          intro c _
          rw [v2]; simp [sadEnt]
        rw [hz, add_zero]
        refine sum_congr rfl fun c hc => ?_
        rw [mem_range] at hc
        rw [v1 c hc, ve_take hc]; simp [sadEnt]

/-- The local saddle-point system, with or without separate bases. -/
theorem stokesLocal_spec (sep : Bool) {x y z : Sp R} (h1 : y.w = x.w) (h2 : z.w = x.h) :
    ∃ L, stokesLocal sep x y (spTranspose z) = .ok L ∧
      (∀ v w a, v < 2 → w < 2 → (sep = false → v = 0 ∧ w = 0) → L v w = some a → IsLinear a ∧
        a.h = blockLen sep x.h y.h v ∧ a.w = blockLen sep x.w z.h w) ∧
      ∀ v w k l, v < 2 → w < 2 → (sep = false → v = 0 ∧ w = 0) → k < blockLen sep x.h y.h v →
        l < blockLen sep x.w z.h w → lent L v w k l =
          sadEnt x y z (varPos sep x.h v k).1 (varPos sep x.w w l).1 (varPos sep x.h v k).2
            (varPos sep x.w w l).2 := by
  cases sep with
  | true =>
    refine ⟨splitLocal x y (spTranspose z), rfl, ?_, ?_⟩
    · intro v w a hv hw _ ha
      interval_cases v <;> interval_cases w <;> simp [splitLocal] at ha <;> subst ha
      · exact ⟨(spOp_linear x).1, rfl, rfl⟩
      · exact ⟨(spOp_linear _).1, h2, rfl⟩
      · exact ⟨(spOp_linear y).1, rfl, h1⟩
    · intro v w k l hv hw _ hk hl
      interval_cases v <;> interval_cases w <;>
        simp only [blockLen, varPos, sadEnt, lent, splitLocal] at hk hl ⊢ <;> simp at hk hl ⊢
      · exact (spOp_linear x).2 k l hk hl
      · rw [(spOp_linear (spTranspose z)).2 k l (by show k < z.w; omega) hl, spTranspose_get]
      · exact (spOp_linear y).2 k l hk (by omega)
  | false =>
    obtain ⟨a, e, e1, e2, e3, e4⟩ := formBlockMatrix_spec h1 h2
    refine ⟨oneLocal a, by unfold stokesLocal; simp only [Bool.false_eq_true, if_false]; rw [e, ok_bind]; rfl, ?_, ?_⟩
    · intro v w a' hv hw hs ha
      obtain ⟨rfl, rfl⟩ := hs rfl
      unfold oneLocal at ha
      rw [if_pos ⟨rfl, rfl⟩] at ha
      cases ha
      exact ⟨e3, e1, e2⟩
    · intro v w k l hv hw hs hk hl
      obtain ⟨rfl, rfl⟩ := hs rfl
      rw [lent_one]
      exact e4 k l (by rw [e1]; exact hk) (by rw [e2]; exact hl)

/-- The local saddle-point system of matrices `x`, `y`, `zᵀ`. -/
def sadLocal (sep : Bool) (x y z : Sp R) : Local R :=
  match stokesLocal sep x y (spTranspose z) with
  | .ok l => l
  | .error _ => fun _ _ => none

theorem sadLocal_spec (sep : Bool) {x y z : Sp R} (h1 : y.w = x.w) (h2 : z.w = x.h) :
    stokesLocal sep x y (spTranspose z) = .ok (sadLocal sep x y z) ∧
      (∀ v w a, v < 2 → w < 2 → (sep = false → v = 0 ∧ w = 0) → sadLocal sep x y z v w = some a →
        IsLinear a ∧ a.h = blockLen sep x.h y.h v ∧ a.w = blockLen sep x.w z.h w) ∧
      ∀ v w k l, v < 2 → w < 2 → (sep = false → v = 0 ∧ w = 0) → k < blockLen sep x.h y.h v →
        l < blockLen sep x.w z.h w → lent (sadLocal sep x y z) v w k l =
          sadEnt x y z (varPos sep x.h v k).1 (varPos sep x.w w l).1 (varPos sep x.h v k).2
            (varPos sep x.w w l).2 := by
  obtain ⟨L, e, h⟩ := stokesLocal_spec sep h1 h2
  have : sadLocal sep x y z = L := by unfold sadLocal; rw [e]
  rw [this]
  exact ⟨e, h⟩

/-- **C41** for Stokes problems, with separate bases for velocity and pressure or one basis for both:
the ROM assembled from component, boundary and port elements equals the projected full-order operator,
and both are the Galerkin projections of the saddle-point system `[M Bᵀ; B 0]`. -/
theorem stokes_assembly (S : Setting h comps bdr ports refPorts refItfs t bc mks)
    (hr : Ready h zr zf) (hv : vars h = if h.separate then 2 else 1) (hb : BasesOk h comps.length)
    {fm fb : Forms R δ}
    (hm : FormsOk fm h.meshType comps (usedPorts ports refPorts) t.infos refPorts refItfs)
    (hd : FormsOk fb h.meshType comps (usedPorts ports refPorts) t.infos refPorts refItfs)
    (hz : ∀ c, c < comps.length → sizeIn fm.ctrial c = sizeIn fm.ctest c ∧
      sizeIn fb.ctrial c = sizeIn fm.ctest c ∧ ∀ v, v < vars h → (refB h c v).h =
        blockLen h.separate (sizeIn fm.ctest c) (sizeIn fb.ctest c) v) :
    ∃ M B el rom rom', fomMats bc mks t.mesh fm.sub fm.itf = .ok M ∧
      fomMixed bc mks t.mesh fb.sub fb.itf = .ok B ∧
      buildElems h comps refPorts (stokesLocals h.separate fm fb comps refPorts refItfs) = .ok el ∧
      assembleROM h bc t.c2g (usedPorts ports refPorts) el = .ok rom ∧
      projectFom h (stokesFom h.separate M B) = .ok rom' ∧
      ∀ m m' v w p q, m < h.numSub → m' < h.numSub → v < vars h → w < vars h →
        p < (basisOf h h.refBasis m v).w → q < (basisOf h h.refBasis m' w).w →
        bval rom (romBlock h m v) (romBlock h m' w) p q =
          bval rom' (romBlock h m v) (romBlock h m' w) p q ∧
        bval rom (romBlock h m v) (romBlock h m' w) p q =
          galerkin (basisOf h h.refBasis m v) (basisOf h h.refBasis m' w) (fun k l =>
            saddle M B m m' (varPos h.separate (sizeIn fm.itf.test m) v k).1
              (varPos h.separate (sizeIn fm.itf.test m') w l).1
              (varPos h.separate (sizeIn fm.itf.test m) v k).2
              (varPos h.separate (sizeIn fm.itf.test m') w l).2) p q := by
  obtain ⟨M, eM, -, okM, entM⟩ := fomMats_spec S hm
  obtain ⟨B, -, eB, okB, entB⟩ := fomMats_spec S hd
  obtain ⟨C1, B1, A1, c1, b1, a1⟩ := form_pieces S hm
  obtain ⟨C2, B2, A2, c2, b2, a2⟩ := form_pieces S hd
  have hv2 : ∀ v, v < vars h → v < 2 ∧ (h.separate = false → v = 0) := by
    intro v hvv
    rw [hv] at hvv
    split at hvv
    · rename_i hs; exact ⟨by omega, fun h0 => by rw [hs] at h0; cases h0⟩
    · exact ⟨by omega, fun _ => by omega⟩
  -- sizes of the matrices of pieces and blocks
  have hcc : ∀ c, c < comps.length → (C1 c).h = sizeIn fm.ctest c ∧ (C1 c).w = sizeIn fm.ctest c ∧
      (C2 c).h = sizeIn fb.ctest c ∧ (C2 c).w = sizeIn fm.ctest c := by
    intro c hc
    obtain ⟨-, x1, x2, -⟩ := c1 c hc
    obtain ⟨-, y1, y2, -⟩ := c2 c hc
    obtain ⟨z1, z2, -⟩ := hz c hc
    exact ⟨x1, x2.trans z1, y1, y2.trans z2⟩
  have hbb : ∀ c comp b, comps[c]? = some comp → b < comp.bdrAttributes.length →
      (B1 c b).h = sizeIn fm.ctest c ∧ (B1 c b).w = sizeIn fm.ctest c ∧
      (B2 c b).h = sizeIn fb.ctest c ∧ (B2 c b).w = sizeIn fm.ctest c := by
    intro c comp b hc hbl
    obtain ⟨-, x1, x2, -⟩ := b1 c comp b hc hbl
    obtain ⟨-, y1, y2, -⟩ := b2 c comp b hc hbl
    obtain ⟨z1, z2, -⟩ := hz c (List.getElem?_eq_some_iff.1 hc).1
    exact ⟨x1, x2.trans z1, y1, y2.trans z2⟩
  have haa : ∀ k q i j, refPorts[k]? = some q → i < 2 → j < 2 →
      side q.comp1 q.comp2 i < comps.length ∧
      (A1 k i j).h = sizeIn fm.ctest (side q.comp1 q.comp2 i) ∧
      (A1 k i j).w = sizeIn fm.ctest (side q.comp1 q.comp2 j) ∧
      (A2 k i j).h = sizeIn fb.ctest (side q.comp1 q.comp2 i) ∧
      (A2 k i j).w = sizeIn fm.ctest (side q.comp1 q.comp2 j) := by
    intro k q i j hq hi hj
    obtain ⟨l1, l2, a, -, ha⟩ := a1 k q hq
    obtain ⟨-, -, a', -, ha'⟩ := a2 k q hq
    obtain ⟨-, x1, x2, -⟩ := ha i j hi hj
    obtain ⟨-, y1, y2, -⟩ := ha' i j hi hj
    have hside : ∀ i, side q.comp1 q.comp2 i < comps.length := by
      intro i; unfold side; split <;> assumption
    obtain ⟨z1, z2, -⟩ := hz _ (hside j)
    exact ⟨hside i, x1, x2.trans z1, y1, y2.trans z2⟩
  have hMB : ∀ m m', m < h.numSub → m' < h.numSub → ∃ x y z, M.at_ m m' = some x ∧
      B.at_ m m' = some y ∧ B.at_ m' m = some z ∧
      x.h = sizeIn fm.ctest (typeOf h m) ∧ x.w = sizeIn fm.ctest (typeOf h m') ∧
      y.h = sizeIn fb.ctest (typeOf h m) ∧ y.w = sizeIn fm.ctest (typeOf h m') ∧
      z.h = sizeIn fb.ctest (typeOf h m') ∧ z.w = sizeIn fm.ctest (typeOf h m) := by
    intro m m' hmm hmm'
    obtain ⟨t1, l1, _⟩ := type_lt S hmm
    obtain ⟨t2, l2, _⟩ := type_lt S hmm'
    obtain ⟨x, hx, x1, x2⟩ := okM.2.2 m m' hmm hmm'
    obtain ⟨y, hy, y1, y2⟩ := okB.2.2 m m' hmm hmm'
    obtain ⟨z, hzz, z1, z2⟩ := okB.2.2 m' m hmm' hmm
    refine ⟨x, y, z, hx, hy, hzz, ?_, ?_, ?_, ?_, ?_, ?_⟩
    · rw [x1, (sizeIn_test hm t1).1]
    · rw [x2, (sizeIn_test hm t2).2, (hz _ l2).1]
    · rw [y1, (sizeIn_test hd t1).1]
    · rw [y2, (sizeIn_test hd t2).2, (hz _ l2).2.1]
    · rw [z1, (sizeIn_test hd t2).1]
    · rw [z2, (sizeIn_test hd t1).2, (hz _ l1).2.1]
  have hlocal : ∀ (c c' : Nat) (x y z : Sp R), c < comps.length → c' < comps.length →
      x.h = sizeIn fm.ctest c → x.w = sizeIn fm.ctest c' → y.h = sizeIn fb.ctest c →
      y.w = sizeIn fm.ctest c' → z.h = sizeIn fb.ctest c' → z.w = sizeIn fm.ctest c →
      LocalOk h c c' (sadLocal h.separate x y z) := by
    intro c c' x y z hc hc' x1 x2 y1 y2 z1 z2 v w a hvv hww ha
    obtain ⟨-, hs, -⟩ := sadLocal_spec h.separate (x := x) (y := y) (z := z) (y2.trans x2.symm)
      (z2.trans x1.symm)
    obtain ⟨v1, v2⟩ := hv2 v hvv
    obtain ⟨w1, w2⟩ := hv2 w hww
    obtain ⟨g1, g2, g3⟩ := hs v w a v1 w1 (fun h0 => ⟨v2 h0, w2 h0⟩) ha
    exact ⟨g1, by rw [g2, x1, y1, (hz c hc).2.2 v hvv], by rw [g3, x2, z1, (hz c' hc').2.2 w hww]⟩
  have hlent : ∀ (c c' : Nat) (x y z : Sp R) (v w k l : Nat), c < comps.length → c' < comps.length →
      x.h = sizeIn fm.ctest c → x.w = sizeIn fm.ctest c' → y.h = sizeIn fb.ctest c →
      y.w = sizeIn fm.ctest c' → z.h = sizeIn fb.ctest c' → z.w = sizeIn fm.ctest c →
      v < vars h → w < vars h → k < (refB h c v).h → l < (refB h c' w).h →
      lent (sadLocal h.separate x y z) v w k l = sadEnt x y z
        (varPos h.separate (sizeIn fm.ctest c) v k).1 (varPos h.separate (sizeIn fm.ctest c') w l).1
        (varPos h.separate (sizeIn fm.ctest c) v k).2
        (varPos h.separate (sizeIn fm.ctest c') w l).2 := by
    intro c c' x y z v w k l hc hc' x1 x2 y1 y2 z1 z2 hvv hww hk hl
    obtain ⟨-, -, hs⟩ := sadLocal_spec h.separate (x := x) (y := y) (z := z) (y2.trans x2.symm)
      (z2.trans x1.symm)
    obtain ⟨v1, v2⟩ := hv2 v hvv
    obtain ⟨w1, w2⟩ := hv2 w hww
    rw [(hz c hc).2.2 v hvv] at hk
    rw [(hz c' hc').2.2 w hww] at hl
    rw [hs v w k l v1 w1 (fun h0 => ⟨v2 h0, w2 h0⟩) (by rw [x1, y1]; exact hk)
      (by rw [x2, z1]; exact hl), x1, x2]
  let P : Pieces R := ⟨fun c => sadLocal h.separate (C1 c) (C2 c) (C2 c),
    fun c b => sadLocal h.separate (B1 c b) (B2 c b) (B2 c b),
    fun k i j => sadLocal h.separate (A1 k i j) (A2 k i j) (A2 k j i)⟩
  have hgives : (stokesLocals h.separate fm fb comps refPorts refItfs).Gives comps refPorts.length P := by
    refine ⟨?_, ?_, ?_⟩
    · intro c hc
      obtain ⟨⟨g1, e1, f1⟩, -⟩ := c1 c hc
      obtain ⟨⟨g2, e2, f2⟩, -⟩ := c2 c hc
      obtain ⟨s1, s2, s3, s4⟩ := hcc c hc
      show (do
        let m ← rd fm.comp c
        let b ← rd fb.comp c
        stokesLocal h.separate m.base b.base (spTranspose b.base)) = _
      rw [rd_eq_ok.2 e1, ok_bind, rd_eq_ok.2 e2, ok_bind, f1, f2]
      exact (sadLocal_spec h.separate (s4.trans s2.symm) (s4.trans s1.symm)).1
    · intro c comp b hc hbl
      obtain ⟨⟨g1, e1, f1⟩, -⟩ := b1 c comp b hc hbl
      obtain ⟨⟨g2, e2, f2⟩, -⟩ := b2 c comp b hc hbl
      obtain ⟨s1, s2, s3, s4⟩ := hbb c comp b hc hbl
      show (do
        let comp ← rd comps c
        let g ← rd fm.comp c
        let k ← rd fb.comp c
        let m ← compBdrMatrix comp g b
        let b ← compBdrMatrix comp k b
        stokesLocal h.separate m b (spTranspose b)) = _
      rw [rd_eq_ok.2 hc, ok_bind, rd_eq_ok.2 e1, ok_bind, rd_eq_ok.2 e2, ok_bind, f1, ok_bind, f2,
        ok_bind]
      exact (sadLocal_spec h.separate (s4.trans s2.symm) (s4.trans s1.symm)).1
    · intro k hk
      have hq := List.getElem?_eq_getElem hk
      obtain ⟨-, -, x, ex, hx⟩ := a1 k _ hq
      obtain ⟨-, -, y, ey, hy⟩ := a2 k _ hq
      obtain ⟨p, hp, hpp⟩ := pairs_ok (f := stokesPair h.separate x y) (x := P.port k) (by
        intro i j hi hj
        obtain ⟨-, s1, s2, s3, s4⟩ := haa k _ i j hq hi hj
        obtain ⟨-, t1, t2, t3, t4⟩ := haa k _ j i hq hj hi
        unfold stokesPair
        rw [(hx i j hi hj).1, (hy i j hi hj).1, (hy j i hj hi).1]
        exact (sadLocal_spec h.separate (s4.trans s2.symm) (t4.trans s1.symm)).1)
      refine ⟨p, ?_, hpp⟩
      show (do
        let m ← fm.atPort refPorts refItfs k
        let b ← fb.atPort refPorts refItfs k
        pairs (stokesPair h.separate m b)) = _
      rw [ex, ok_bind, ey, ok_bind, hp]
  have hpieces : PiecesOk h comps refPorts P := by
    refine ⟨?_, ?_, ?_⟩
    · intro c hc
      obtain ⟨s1, s2, s3, s4⟩ := hcc c hc
      exact hlocal c c _ _ _ hc hc s1 s2 s3 s4 s3 s4
    · intro c comp b hc hbl
      have hlt := (List.getElem?_eq_some_iff.1 hc).1
      obtain ⟨s1, s2, s3, s4⟩ := hbb c comp b hc hbl
      exact hlocal c c _ _ _ hlt hlt s1 s2 s3 s4 s3 s4
    · intro k q hq
      refine ⟨(a1 k q hq).1, (a1 k q hq).2.1, ?_⟩
      intro i j hi hj
      obtain ⟨l1, s1, s2, s3, s4⟩ := haa k q i j hq hi hj
      obtain ⟨l2, t1, t2, t3, t4⟩ := haa k q j i hq hj hi
      exact hlocal _ _ _ _ _ l1 l2 s1 s2 s3 s4 t3 t4
  let G : Nat → Nat → Local R := fun m m' => sadLocal h.separate ((M.at_ m m').getD ⟨0, 0, []⟩)
    ((B.at_ m m').getD ⟨0, 0, []⟩) ((B.at_ m' m).getD ⟨0, 0, []⟩)
  have hGl : ∀ i j, i < h.numSub → j < h.numSub → stokesFom h.separate M B i j = .ok (G i j) := by
    intro i j hi hj
    obtain ⟨x, y, z, ex, ey, ez, s1, s2, s3, s4, s5, s6⟩ := hMB i j hi hj
    have hG' : G i j = sadLocal h.separate x y z := by
      show sadLocal h.separate ((M.at_ i j).getD ⟨0, 0, []⟩) ((B.at_ i j).getD ⟨0, 0, []⟩)
        ((B.at_ j i).getD ⟨0, 0, []⟩) = _
      rw [ex, ey, ez]; rfl
    rw [hG']
    unfold stokesFom stokesPair
    rw [ex, ey, ez]
    exact (sadLocal_spec h.separate (s4.trans s2.symm) (s6.trans s1.symm)).1
  have hGok : ∀ i j, i < h.numSub → j < h.numSub → LocalOk h (typeOf h i) (typeOf h j) (G i j) := by
    intro i j hi hj
    obtain ⟨x, y, z, ex, ey, ez, s1, s2, s3, s4, s5, s6⟩ := hMB i j hi hj
    show LocalOk h _ _ (sadLocal h.separate ((M.at_ i j).getD ⟨0, 0, []⟩)
      ((B.at_ i j).getD ⟨0, 0, []⟩) ((B.at_ j i).getD ⟨0, 0, []⟩))
    rw [ex, ey, ez]
    exact hlocal _ _ _ _ _ (type_lt S hi).2.1 (type_lt S hj).2.1 s1 s2 s3 s4 s5 s6
  have hGent : ∀ m m' v w k l, m < h.numSub → m' < h.numSub → v < vars h → w < vars h →
      k < (refB h (typeOf h m) v).h → l < (refB h (typeOf h m') w).h →
      lent (G m m') v w k l = saddle M B m m'
        (varPos h.separate (sizeIn fm.ctest (typeOf h m)) v k).1
        (varPos h.separate (sizeIn fm.ctest (typeOf h m')) w l).1
        (varPos h.separate (sizeIn fm.ctest (typeOf h m)) v k).2
        (varPos h.separate (sizeIn fm.ctest (typeOf h m')) w l).2 := by
    intro m m' v w k l hmm hmm' hvv hww hk hl
    obtain ⟨x, y, z, ex, ey, ez, s1, s2, s3, s4, s5, s6⟩ := hMB m m' hmm hmm'
    show lent (sadLocal h.separate ((M.at_ m m').getD ⟨0, 0, []⟩)
      ((B.at_ m m').getD ⟨0, 0, []⟩) ((B.at_ m' m).getD ⟨0, 0, []⟩)) v w k l = _
    rw [ex, ey, ez]
    refine (hlent _ _ _ _ _ v w k l (type_lt S hmm).2.1 (type_lt S hmm').2.1 s1 s2 s3 s4 s5 s6 hvv hww hk
      hl).trans ?_
    unfold sadEnt saddle
    rw [mget_of ex, mget_of ey, mget_of ez]
  -- the global system is the sum of the local systems
  have hident : ∀ m m' v w k l, m < h.numSub → m' < h.numSub → saddle M B m m' v w k l =
      (if m = m' then sadEnt (C1 (typeOf h m)) (C2 (typeOf h m)) (C2 (typeOf h m)) v w k l +
        ((actOf bc t m).map fun b => sadEnt (B1 (typeOf h m) b) (B2 (typeOf h m) b)
          (B2 (typeOf h m) b) v w k l).sum else 0) +
      ((usedPorts ports refPorts).map fun r => ∑ i ∈ range 2, ∑ j ∈ range 2,
        if side r.mesh1.toNat r.mesh2.toNat i = m ∧ side r.mesh1.toNat r.mesh2.toNat j = m' then
          sadEnt (A1 r.type.toNat i j) (A2 r.type.toNat i j) (A2 r.type.toNat j i) v w k l
        else 0).sum := by
    intro m m' v w k l hmm hmm'
    obtain ⟨t1, l1, comp, hc, hact⟩ := type_lt S hmm
    have hp1 : ∀ r ∈ usedPorts ports refPorts, ∀ i j, i < 2 → j < 2 →
        (∀ r' c, (A1 r.type.toNat i j).get r' c = portOf fm refPorts refItfs r.type.toNat i j r' c) ∧
        ∀ r' c, (A2 r.type.toNat i j).get r' c = portOf fb refPorts refItfs r.type.toNat i j r' c := by
      intro r hrr i j hi hj
      obtain ⟨k', m1, m2, q, hpa⟩ := (topoOk S).port r hrr
      have hty : r.type.toNat = k' := by rw [hpa.type]; rfl
      rw [hty]
      obtain ⟨-, -, x, ex, hx⟩ := a1 k' q hpa.ref
      obtain ⟨-, -, y, ey, hy⟩ := a2 k' q hpa.ref
      exact ⟨(hx i j hi hj).2.2.2, (hy i j hi hj).2.2.2⟩
    have hcg1 := (c1 _ l1).2.2.2
    have hcg2 := (c2 _ l1).2.2.2
    have hzero : ((usedPorts ports refPorts).map fun r => ∑ i ∈ range 2, ∑ j ∈ range 2,
        if side r.mesh1.toNat r.mesh2.toNat i = m ∧ side r.mesh1.toNat r.mesh2.toNat j = m' then
          (0 : R) else 0).sum = 0 := by simp
    by_cases h00 : v = 0 ∧ w = 0
    · obtain ⟨rfl, rfl⟩ := h00
      unfold saddle sadEnt
      simp only [and_self, if_true]
      rw [entM m m' k l hmm hmm']
      unfold fomEntry
      congr 1
      · by_cases hmm2 : m = m'
        · rw [if_pos hmm2, if_pos hmm2, hcg1]
          congr 2
          apply List.map_congr_left
          intro b hb
          rw [(b1 _ comp b hc (hact b hb)).2.2.2]
        · rw [if_neg hmm2, if_neg hmm2]
      · congr 1
        apply List.map_congr_left
        intro r hrr
        refine sum_congr rfl fun i hi => sum_congr rfl fun j hj => ?_
        rw [(hp1 r hrr i j (mem_range.1 hi) (mem_range.1 hj)).1]
    · by_cases h10 : v = 1 ∧ w = 0
      · obtain ⟨rfl, rfl⟩ := h10
        unfold saddle sadEnt
        simp only [one_ne_zero, false_and, and_self, if_true, if_false]
        rw [entB m m' k l hmm hmm']
        unfold fomEntry
        congr 1
        · by_cases hmm2 : m = m'
          · rw [if_pos hmm2, if_pos hmm2, hcg2]
            congr 2
            apply List.map_congr_left
            intro b hb
            rw [(b2 _ comp b hc (hact b hb)).2.2.2]
          · rw [if_neg hmm2, if_neg hmm2]
        · congr 1
          apply List.map_congr_left
          intro r hrr
          refine sum_congr rfl fun i hi => sum_congr rfl fun j hj => ?_
          rw [(hp1 r hrr i j (mem_range.1 hi) (mem_range.1 hj)).2]
      · by_cases h01 : v = 0 ∧ w = 1
        · obtain ⟨rfl, rfl⟩ := h01
          unfold saddle sadEnt
          simp only [zero_ne_one, one_ne_zero, and_false, false_and, and_self, if_true, if_false]
          rw [entB m' m l k hmm' hmm]
          unfold fomEntry
          congr 1
          · by_cases hmm2 : m = m'
            · subst hmm2
              rw [if_pos rfl, if_pos rfl, hcg2]
              congr 2
              apply List.map_congr_left
              intro b hb
              rw [(b2 _ comp b hc (hact b hb)).2.2.2]
            · rw [if_neg hmm2, if_neg (fun he => hmm2 he.symm)]
          · congr 1
            apply List.map_congr_left
            intro r hrr
            rw [sum_comm]
            refine sum_congr rfl fun i hi => sum_congr rfl fun j hj => ?_
            rw [(hp1 r hrr j i (mem_range.1 hj) (mem_range.1 hi)).2]
            simp only [and_comm]
        · unfold saddle sadEnt
          simp only [if_neg h00, if_neg h10, if_neg h01]
          rw [hzero]
          simp
  obtain ⟨el, rom, rom', e1, e2, e3, e4⟩ := assembly_is_projection S hr
    (by rw [hv]; split <;> omega) hb hgives hpieces hGl hGok (by
      intro m m' v w k l hmm hmm' hvv hww hk hl
      rw [hGent m m' v w k l hmm hmm' hvv hww hk hl, hident m m' _ _ _ _ hmm hmm']
      congr 1
      · by_cases hmm2 : m = m'
        · subst hmm2
          rw [if_pos rfl, if_pos rfl]
          obtain ⟨t1, l1, comp, hc, hact⟩ := type_lt S hmm
          obtain ⟨s1, s2, s3, s4⟩ := hcc _ l1
          congr 1
          · exact (hlent _ _ _ _ _ v w k l l1 l1 s1 s2 s3 s4 s3 s4 hvv hww hk hl).symm
          · congr 1
            apply List.map_congr_left
            intro b hbm
            obtain ⟨s1, s2, s3, s4⟩ := hbb _ comp b hc (hact b hbm)
            exact (hlent _ _ _ _ _ v w k l l1 l1 s1 s2 s3 s4 s3 s4 hvv hww hk hl).symm
        · rw [if_neg hmm2, if_neg hmm2]
      · congr 1
        apply List.map_congr_left
        intro x hx
        refine sum_congr rfl fun i hi => sum_congr rfl fun j hj => ?_
        rw [mem_range] at hi hj
        split
        · rename_i hside
          obtain ⟨k', m1, m2, q, hpa⟩ := (topoOk S).port x hx
          have hty : x.type.toNat = k' := by rw [hpa.type]; rfl
          have f1 : x.mesh1.toNat = m1 := by rw [hpa.mesh1]; rfl
          have f2 : x.mesh2.toNat = m2 := by rw [hpa.mesh2]; rfl
          have ht : ∀ i, typeOf h (side m1 m2 i) = side q.comp1 q.comp2 i := by
            intro i
            unfold side
            split
            · exact typeOf_eq hpa.comp1
            · exact typeOf_eq hpa.comp2
          rw [f1, f2] at hside
          obtain ⟨_, s1, s2, s3, s4⟩ := haa k' q i j hpa.ref hi hj
          obtain ⟨_, u1, u2, u3, u4⟩ := haa k' q j i hpa.ref hj hi
          rw [← ht, hside.1] at s1 s3 u4
          rw [← ht, hside.2] at s2 s4 u3
          rw [hty]
          exact (hlent _ _ _ _ _ v w k l (type_lt S hmm).2.1 (type_lt S hmm').2.1 s1 s2 s3 s4 u3 u4 hvv
            hww hk hl).symm
        · rfl)
  refine ⟨M, B, el, rom, rom', eM, eB, e1, e2, e3, ?_⟩
  intro m m' v w p q hmm hmm' hvv hww hp hq
  obtain ⟨g1, g2⟩ := e4 m m' v w p q hmm hmm' hvv hww hp hq
  refine ⟨g1, g2.trans ?_⟩
  obtain ⟨t1, _⟩ := type_lt S hmm
  obtain ⟨t2, _⟩ := type_lt S hmm'
  rw [(sizeIn_test hm t1).1, (sizeIn_test hm t2).1]
  exact galerkin_congr fun k l hk hl => hGent m m' v w k l hmm hmm' hvv hww hk hl

end

/-! ## A concrete case -/

section Example

open Verif.InterfaceForm (exMesh exSpace)
open Verif.InterfaceForm.Spec (SpaceOk SidesOk IntegsOk FormOk Sides sidesOf trOf)
open Verif.CompSetup (exComps exRef exBdr exTopo)

/-- Two copies of the component of `exTopo`, one basis vector. -/
def exH : Handler Int :=
  ⟨false, .domain, 1, [0, 0], [0, 1, 2], [⟨2, 1, [1, 3]⟩], [⟨2, 1, [1, 3]⟩, ⟨2, 1, [1, 3]⟩], true⟩

/-- The same with separate bases for two velocities and one pressure. -/
def exH2 : Handler Int :=
  ⟨true, .variable, 2, [0, 0], [0, 1, 2, 3, 4], [⟨2, 1, [1, 3]⟩, ⟨1, 1, [2]⟩],
    [⟨2, 1, [1, 3]⟩, ⟨2, 1, [1, 3]⟩, ⟨1, 1, [2]⟩, ⟨1, 1, [2]⟩], true⟩

/-- Conditions on the boundaries 5 (weak), 3 (none), 4 (Neumann). -/
def exBC : BC Int := ⟨[5, 3, 4], [some 1, none, some 2], [.dirichlet, .dirichlet, .neumann], false⟩

/-- Its markers. -/
def exMks : List (List Int) :=
  [[0, 0, 0, 0, 1, 0, 0, 0], [0, 0, 1, 0, 0, 0, 0, 0], [0, 0, 0, 1, 0, 0, 0, 0]]

theorem exSetting {R : Type} [CommRing R] (h : Handler R) (ht : h.meshType = [0, 0]) :
    Setting h exComps exBdr [⟨0, 1, 2, 1, 0⟩] exRef [[⟨1, 0, 0, 1⟩]] exTopo exBC exMks where
  topo := by rw [ht]; decide
  bcs := ⟨⟨rfl, rfl⟩, rfl⟩
  marks := by decide
  comps := by
    intro comp hc
    simp only [exComps, List.mem_cons, List.not_mem_nil, or_false] at hc
    subst hc
    refine ⟨⟨by decide, ?_, ?_⟩, by decide⟩
    · intro a; simp; tauto
    · decide
  itfs := rfl

/-- Integrator with constant element matrices. -/
def exG {R : Type} (a b : Mat R) : Integ R Nat :=
  ⟨fun _ _ i j => if i = j then a else b, fun _ _ _ _ _ => [], fun _ _ _ _ _ _ => a⟩

/-- A form with test space `s`. -/
def exF {R : Type} (s : Space) (d : List Int) (base : Sp R) (face a b : Mat R) : Forms R Nat :=
  let g : BForm R := ⟨base, [some ⟨d, [0, -2], face⟩, none, some ⟨d, [0, -2], a⟩, none]⟩
  ⟨[g], [g, g],
    ⟨[exMesh, exMesh], [s, s], [exSpace, exSpace], [some (exG a b)], [⟨0, 1, [⟨1, 0, 0, 1⟩]⟩]⟩,
    [exMesh], [s], [exSpace]⟩

theorem exFace {s : Sides Nat} (h1 : s.mesh1 = exMesh) (h2 : s.mesh2 = exMesh) {i : InterfaceInfo}
    (hi : i ∈ ([⟨1, 0, 0, 1⟩] : List InterfaceInfo)) : s.face i = some (⟨0, 11⟩, ⟨0, 10⟩) := by
  simp only [List.mem_cons, List.not_mem_nil, or_false] at hi
  subst hi
  unfold Sides.face
  rw [h1, h2]
  rfl

theorem exSides {s : Sides Nat} {sp : Space} {d : List Int} (hd : sp.vdofs = [d]) (hs : SpaceOk sp)
    (h1 : s.mesh1 = exMesh) (h2 : s.mesh2 = exMesh) (h3 : s.test1 = sp) (h4 : s.test2 = sp)
    (h5 : s.trial1 = exSpace) (h6 : s.trial2 = exSpace) :
    SidesOk s [⟨1, 0, 0, 1⟩] := by
  have hsp : SpaceOk exSpace := by unfold SpaceOk exSpace; decide
  refine ⟨?_, ?_, ?_, ?_⟩
  · intro i hi
    simp only [List.mem_cons, List.not_mem_nil, or_false] at hi
    subst hi; right; rw [h1]; decide
  · intro i hi
    simp only [List.mem_cons, List.not_mem_nil, or_false] at hi
    subst hi; right; rw [h2]; decide
  · intro i hi t1 t2 ht
    rw [exFace h1 h2 hi] at ht
    cases ht
    rw [h3, h4, h5, h6, hd]
    exact ⟨Nat.zero_lt_one, Nat.zero_lt_one, by decide, by decide⟩
  · rw [h3, h4, h5, h6]; exact ⟨hs, hs, hsp, hsp⟩

theorem exIntegs {R : Type} [CommRing R] {s : Sides Nat} {sp : Space} {d : List Int} {a b : Mat R} (hd : sp.vdofs = [d])
    (ha : a.h = d.length ∧ a.w = 2 ∧ MatOk a) (hb : b.h = d.length ∧ b.w = 2 ∧ MatOk b)
    (h1 : s.mesh1 = exMesh) (h2 : s.mesh2 = exMesh) (h3 : s.test1 = sp) (h4 : s.test2 = sp)
    (h5 : s.trial1 = exSpace) (h6 : s.trial2 = exSpace) :
    IntegsOk s [⟨1, 0, 0, 1⟩] [some (exG a b)] (fun g => g.mat) := by
  intro g hg
  simp only [List.mem_cons, List.not_mem_nil, or_false] at hg
  subst hg
  refine ⟨exG a b, rfl, fun i hi t1 t2 ht k l _ _ => ?_⟩
  rw [exFace h1 h2 hi] at ht
  cases ht
  have hr : s.rows ⟨0, 11⟩ ⟨0, 10⟩ k = d := by
    unfold Sides.rows InterfaceForm.Spec.dofsOf; rw [h3, h4, hd]; split <;> rfl
  have hc : s.cols ⟨0, 11⟩ ⟨0, 10⟩ l = [0, -2] := by
    unfold Sides.cols InterfaceForm.Spec.dofsOf; rw [h5, h6]; split <;> rfl
  rw [hr, hc]
  unfold exG
  dsimp only
  split
  · exact ha
  · exact hb

theorem exF_ok {R : Type} [CommRing R] {s : Space} {d : List Int} {base : Sp R} {face a b : Mat R} (hd : s.vdofs = [d])
    (hs : SpaceOk s) (h1 : base.h = s.vsize) (h2 : base.w = 2)
    (hf : face.h = d.length ∧ face.w = 2 ∧ MatOk face) (ha : a.h = d.length ∧ a.w = 2 ∧ MatOk a)
    (hb : b.h = d.length ∧ b.w = 2 ∧ MatOk b) :
    FormsOk (exF s d base face a b) [0, 0] exComps
      (usedPorts [⟨0, 1, 2, 1, 0⟩] exRef) exTopo.infos exRef [[⟨1, 0, 0, 1⟩]] where
  forms := rfl
  copy m c hm := by
    match m, hm with
    | 0, hm => simp at hm; subst hm; exact ⟨rfl, rfl, rfl⟩
    | 1, hm => simp at hm; subst hm; exact ⟨rfl, rfl, rfl⟩
    | m + 2, hm => simp at hm
  counts := ⟨rfl, rfl, rfl, rfl⟩
  comp c comp g hc hg := by
    match c, hc, hg with
    | 0, hc, hg =>
      simp [exComps] at hc
      simp [exF] at hg
      subst hc hg
      have hdd : ∀ x ∈ d, InterfaceForm.Spec.dofPos x < base.h := by
        rw [h1]; exact hs d (by rw [hd]; simp)
      have hcc : ∀ x ∈ ([0, -2] : List Int), InterfaceForm.Spec.dofPos x < base.w := by
        rw [h2]; decide
      refine ⟨⟨rfl, ?_⟩, h1, h2⟩
      intro x hx
      simp at hx
      rcases hx with rfl | rfl
      · exact ⟨hf.2.2, hf.1, hf.2.1, hdd, hcc⟩
      · exact ⟨ha.2.2, ha.1, ha.2.1, hdd, hcc⟩
    | c + 1, hc, _ => simp [exComps] at hc
  itf := by
    refine ⟨rfl, ⟨rfl, rfl, ?_⟩, ?_⟩
    · intro p hp
      simp [exF] at hp
      subst hp
      exact ⟨Nat.zero_lt_two, Nat.one_lt_two, by decide, exSides hd hs rfl rfl rfl rfl rfl rfl⟩
    · intro p hp
      simp [exF] at hp
      subst hp
      exact exIntegs hd ha hb rfl rfl rfl rfl rfl rfl
  ports := rfl
  refs k q i hq hi := by
    match k, hq, hi with
    | 0, hq, hi =>
      simp [exRef] at hq
      simp at hi
      subst hq hi
      exact ⟨by decide, by decide, exSides hd hs rfl rfl rfl rfl rfl rfl,
        exIntegs hd ha hb rfl rfl rfl rfl rfl rfl⟩
    | k + 1, hq, _ => simp [exRef] at hq
  faces r hr q is hq his i hi := by
    have hr' : r = ⟨0, 1, 2, 1, 0⟩ := by simpa [usedPorts, exRef] using hr
    subst hr'
    simp [exRef] at hq
    simp at his
    subst hq his
    unfold SameFace
    rw [exFace rfl rfl hi, exFace rfl rfl hi]
    exact ⟨rfl, rfl, fun _ _ => rfl⟩

/-- The matrices of the example. -/
def exP : Forms Int Nat :=
  exF exSpace [0, -2] ⟨2, 2, [((0, 0), 4), ((0, 1), 1), ((1, 1), 3)]⟩ ⟨2, 2, [1, 0, 2, 5]⟩
    ⟨2, 2, [7, 1, 0, 2]⟩ ⟨2, 2, [-1, 0, 3, 0]⟩

/-- A divergence form with one pressure. -/
def exD : Forms Int Nat :=
  exF ⟨1, [[0]]⟩ [0] ⟨1, 2, [((0, 0), 2), ((0, 1), -3)]⟩ ⟨1, 2, [1, 4]⟩ ⟨1, 2, [7, 1]⟩ ⟨1, 2, [0, -5]⟩

theorem exP_ok : FormsOk exP [0, 0] exComps
    (usedPorts [⟨0, 1, 2, 1, 0⟩] exRef) exTopo.infos exRef [[⟨1, 0, 0, 1⟩]] :=
  exF_ok rfl (by unfold SpaceOk exSpace; decide) rfl rfl ⟨rfl, rfl, Nat.le_refl _⟩ ⟨rfl, rfl, Nat.le_refl _⟩ ⟨rfl, rfl, Nat.le_refl _⟩

theorem exD_ok : FormsOk exD [0, 0] exComps
    (usedPorts [⟨0, 1, 2, 1, 0⟩] exRef) exTopo.infos exRef [[⟨1, 0, 0, 1⟩]] :=
  exF_ok rfl (by unfold SpaceOk; decide) rfl rfl ⟨rfl, rfl, Nat.le_refl _⟩ ⟨rfl, rfl, Nat.le_refl _⟩ ⟨rfl, rfl, Nat.le_refl _⟩

theorem exH_ready : Ready exH [1, 1] [2, 2] where
  loaded := rfl
  basis m v hm hv := by
    have hm2 : m < 2 := hm
    have hv1 : v < 1 := hv
    interval_cases m <;> interval_cases v <;> rfl
  offs := by
    refine ⟨rfl, rfl, ?_⟩
    intro i s hs
    have : i < 2 := (List.getElem?_eq_some_iff.1 hs).1
    interval_cases i <;> simp at hs <;> subst hs <;> exact ⟨_, rfl, rfl⟩
  lenR := rfl
  lenF := rfl
  szR m v hm hv := by
    have hm2 : m < 2 := hm
    have hv1 : v < 1 := hv
    interval_cases m <;> interval_cases v <;> rfl
  szF m v hm hv := by
    have hm2 : m < 2 := hm
    have hv1 : v < 1 := hv
    interval_cases m <;> interval_cases v <;> rfl

theorem exH2_ready : Ready exH2 [1, 1, 1, 1] [2, 1, 2, 1] where
  loaded := rfl
  basis m v hm hv := by
    have hm2 : m < 2 := hm
    have hv1 : v < 2 := hv
    interval_cases m <;> interval_cases v <;> rfl
  offs := by
    refine ⟨rfl, rfl, ?_⟩
    intro i s hs
    have : i < 4 := (List.getElem?_eq_some_iff.1 hs).1
    interval_cases i <;> simp at hs <;> subst hs <;> exact ⟨_, rfl, rfl⟩
  lenR := rfl
  lenF := rfl
  szR m v hm hv := by
    have hm2 : m < 2 := hm
    have hv1 : v < 2 := hv
    interval_cases m <;> interval_cases v <;> rfl
  szF m v hm hv := by
    have hm2 : m < 2 := hm
    have hv1 : v < 2 := hv
    interval_cases m <;> interval_cases v <;> rfl

theorem exH_bases : BasesOk exH exComps.length := ⟨rfl, rfl, by
  intro b hb
  simp [exH] at hb
  subst hb; exact Nat.le_refl _, by decide⟩

theorem exH2_bases : BasesOk exH2 exComps.length := ⟨rfl, rfl, by
  intro b hb
  simp [exH2] at hb
  rcases hb with rfl | rfl <;> exact Nat.le_refl _, by decide⟩

/-- The hypotheses of `poisson_assembly` hold in a case with a weak, a free, a Neumann boundary and a
port; the ROM it speaks about has nonzero entries on and off the diagonal. -/
example : ∃ M el rom rom', fomMats exBC exMks exTopo.mesh exP.sub exP.itf = .ok M ∧
      buildElems exH exComps exRef (poissonLocals exP exComps exRef [[⟨1, 0, 0, 1⟩]]) = .ok el ∧
      assembleROM exH exBC exTopo.c2g [⟨0, 1, 2, 1, 0⟩] el = .ok rom ∧
      projectFom exH (poissonFom M) = .ok rom' := by
  obtain ⟨M, el, rom, rom', h1, h2, h3, h4, _⟩ := poisson_assembly (exSetting exH rfl) exH_ready rfl
    exH_bases exP_ok (by
      intro c hc
      have : c < 1 := hc
      interval_cases c; exact ⟨rfl, rfl⟩)
  exact ⟨M, el, rom, rom', h1, h2, h3, h4⟩

/-- The hypotheses of `stokes_assembly` hold, with separate bases. -/
example : ∃ M B el rom rom', fomMats exBC exMks exTopo.mesh exP.sub exP.itf = .ok M ∧
      fomMixed exBC exMks exTopo.mesh exD.sub exD.itf = .ok B ∧
      buildElems exH2 exComps exRef (stokesLocals true exP exD exComps exRef [[⟨1, 0, 0, 1⟩]]) = .ok el ∧
      assembleROM exH2 exBC exTopo.c2g [⟨0, 1, 2, 1, 0⟩] el = .ok rom ∧
      projectFom exH2 (stokesFom true M B) = .ok rom' := by
  obtain ⟨M, B, el, rom, rom', h1, h2, h3, h4, h5, _⟩ := stokes_assembly (exSetting exH2 rfl)
    exH2_ready rfl exH2_bases exP_ok exD_ok (by
      intro c hc
      have : c < 1 := hc
      interval_cases c
      refine ⟨rfl, rfl, fun v hv => ?_⟩
      have hv2 : v < 2 := hv
      interval_cases v <;> rfl)
  exact ⟨M, B, el, rom, rom', h1, h2, h3, h4, h5⟩

/-- The ROM of the Poisson example, entry by entry. -/
example : (do
    let el ← buildElems exH exComps exRef (poissonLocals exP exComps exRef [[⟨1, 0, 0, 1⟩]])
    let rom ← assembleROM exH exBC exTopo.c2g [⟨0, 1, 2, 1, 0⟩] el
    return (List.range 2).map fun a => (List.range 2).map fun b => bval rom a b 0 0) =
    .ok [[118, -10], [-10, 56]] := by decide +kernel

end Example

end Verif.RomAssembly
