import Verif.Proofs.RomForms

/-! # Lemmas about operators on copies of components -/

namespace Verif.RomAssembly

open Verif Verif.LinAlg Verif.LinAlg.Spec Finset Spec
open Verif.InterfaceForm (side Form MatArr Port Integ FMesh Space Tr refSides)
open Verif.InterfaceForm.Spec (scatter dofPos blockTerm faceTerm portTerm formTerm matOf Sides sidesOf
  SidesOk IntegsOk FormOk sizeIn MatsOk mget dofsOf)
open Verif.Boundary (BC weakOf)
open Verif.CompSetup (Comp PortRow Topo BdrRow)
open Verif.CompSetup.Spec (usedPorts)
open Verif.Ports (PortData InterfaceInfo)
open Verif.RomHandler (Handler)

variable {R δ F : Type} [CommRing R]

/-! ## Spreading the blocks of a reference port -/

/-- The four blocks `T i j` of a reference port, placed at the subdomains of the port. -/
def spread (a b : Nat) (T : Nat → Nat → Nat → Nat → R) : Nat → Nat → Nat → Nat → R :=
  fun p q r c => ∑ i ∈ range 2, ∑ j ∈ range 2,
    if side a b i = p ∧ side a b j = q then T i j r c else 0

theorem spread_zero (a b : Nat) : spread a b (0 : Nat → Nat → Nat → Nat → R) = 0 := by
  funext p q r c; unfold spread; simp

theorem spread_add (a b : Nat) (S T : Nat → Nat → Nat → Nat → R) :
    spread a b (S + T) = spread a b S + spread a b T := by
  funext p q r c
  unfold spread
  simp only [Pi.add_apply]
  rw [← sum_add_distrib]
  refine sum_congr rfl fun i _ => ?_
  rw [← sum_add_distrib]
  refine sum_congr rfl fun j _ => ?_
  split <;> simp

theorem spread_sum {α : Type} (a b : Nat) (l : List α) (g : α → Nat → Nat → Nat → Nat → R) :
    spread a b (l.map g).sum = (l.map fun x => spread a b (g x)).sum := by
  induction l with
  | nil => exact spread_zero a b
  | cons x l ih => simp only [List.map_cons, List.sum_cons]; rw [spread_add, ih]

theorem blockTerm_spread (a b : Nat) (rows cols : Nat → List Int) (em : Nat → Nat → Mat R) :
    blockTerm a b rows cols em = spread a b (blockTerm 0 1 rows cols em) := by
  funext p q r c
  unfold blockTerm spread
  refine sum_congr rfl fun i hi => sum_congr rfl fun j hj => ?_
  rw [mem_range] at hi hj
  congr 1
  have h2 : ∀ i j : Nat, i < 2 → j < 2 → scatter (rows i) (cols j) (em i j) r c =
      ∑ i' ∈ range 2, ∑ j' ∈ range 2, if side 0 1 i' = i ∧ side 0 1 j' = j then
        scatter (rows i') (cols j') (em i' j') r c else 0 := by
    intro i j hi hj
    interval_cases i <;> interval_cases j <;> simp [sum_range_succ, side]
  exact h2 i j hi hj

theorem faceTerm_spread {a b : Nat} {s s' : Sides δ} {fnfi : List (Option (Integ R δ))}
    {i : InterfaceInfo} (h1 : s.test1 = s'.test1) (h2 : s.test2 = s'.test2)
    (h3 : s.trial1 = s'.trial1) (h4 : s.trial2 = s'.trial2) (hf : SameFace fnfi s s' i) :
    faceTerm a b s fnfi (fun g => g.mat) i = spread a b (faceTerm 0 1 s' fnfi (fun g => g.mat) i) := by
  unfold SameFace at hf
  unfold faceTerm
  cases hs : s.face i with
  | none =>
    cases hs' : s'.face i with
    | none => exact (spread_zero a b).symm
    | some t => rw [hs, hs'] at hf; exact hf.elim
  | some t =>
    cases hs' : s'.face i with
    | none => rw [hs, hs'] at hf; exact hf.elim
    | some u =>
      rw [hs, hs'] at hf
      obtain ⟨t1, t2⟩ := t
      obtain ⟨u1, u2⟩ := u
      obtain ⟨e1, e2, e3⟩ := hf
      dsimp only
      rw [spread_sum]
      congr 1
      apply List.map_congr_left
      intro g hg
      cases g with
      | none => exact (spread_zero a b).symm
      | some g =>
        dsimp only
        rw [blockTerm_spread]
        have hr : s.rows t1 t2 = s'.rows u1 u2 := by
          funext k; unfold Sides.rows; rw [h1, h2, e1, e2]
        have hc : s.cols t1 t2 = s'.cols u1 u2 := by
          funext k; unfold Sides.cols; rw [h3, h4, e1, e2]
        rw [hr, hc, e3 g hg]

/-! ## The form of a problem -/

section
variable {h : Handler R} {comps : List Comp} {bdr : List BdrRow} {ports : List PortRow}
  {refPorts : List PortData} {refItfs : List (List InterfaceInfo)} {t : Topo} {bc : BC F}
  {mks : List (List Int)}

theorem types_get {m c : Nat} (hm : h.meshType[m]? = some c) :
    (h.meshType.map Int.ofNat)[m]? = some (c : Int) := by
  rw [List.getElem?_map, hm]; rfl

theorem types_get' {m c : Nat} (hm : (h.meshType.map Int.ofNat)[m]? = some (c : Int)) :
    h.meshType[m]? = some c := by
  rw [List.getElem?_map] at hm
  cases hx : h.meshType[m]? with
  | none => rw [hx] at hm; cases hm
  | some d =>
    rw [hx] at hm
    simp at hm
    rw [hm]

theorem battrs_nodup (S : Setting h comps bdr ports refPorts refItfs t bc mks) : bc.attrs.Nodup := by
  rw [S.bcs.2]; exact (CompSetup.battrs_spec S.topo).nodup

theorem sub_facts (S : Setting h comps bdr ports refPorts refItfs t bc mks) {m c : Nat}
    (hm : h.meshType[m]? = some c) : ∃ comp row e, comps[c]? = some comp ∧ t.c2g[m]? = some row ∧
      t.mesh[m]? = some e ∧ row.length = comp.bdrAttributes.length ∧
      e.1.length = comp.beAttr.length ∧ Topology.Spec.AttributeList e.1 e.2 ∧ (∀ a ∈ e.1, 0 < a) ∧
      ∀ be, be < comp.beAttr.length → ∃ g, e.1[be]? = some g ∧
        CompSetup.bdrElemAttr comp row be = .ok g := by
  obtain ⟨hold, hb, _, _, h5⟩ := CompSetup.setup_parts S.topo
  obtain ⟨_, hmesh⟩ := CompSetup.meshBdr_ok h5
  have hlt : m < (h.meshType.map Int.ofNat).length := by
    rw [List.length_map]; exact (List.getElem?_eq_some_iff.1 hm).1
  obtain ⟨comp, row, e, hc, hr, he, hl, hat, hbe⟩ := hmesh m hlt
  obtain ⟨row', hr', hrl, _⟩ := hold.2 m comp hc
  rw [hr] at hr'; cases hr'
  have hc0 := hc
  obtain ⟨k, hk, hcomp⟩ := hc
  rw [types_get hm] at hk
  have : k = c := by have := Option.some.inj hk; omega
  subst this
  refine ⟨comp, row, e, hcomp, hr, he, hrl, hl, hat, ?_, hbe⟩
  intro a ha
  obtain ⟨be, hbea⟩ := List.mem_iff_getElem?.1 ha
  have hlb : be < comp.beAttr.length := by
    rw [← hl]; exact (List.getElem?_eq_some_iff.1 hbea).1
  obtain ⟨g, _, hg, hlast⟩ := CompSetup.elem_attr S.topo hc0 (List.getElem?_eq_getElem hlb)
  have : a = g := by
    simp only [CompSetup.Spec.elemAttrs, he, Option.map_some, Option.getD_some] at hg
    rw [hbea] at hg; exact Option.some.inj hg
  subst this
  obtain ⟨mx, _, hmk⟩ := bdrMarkers_ok S.marks
  obtain ⟨w, hw, h1, h2, rfl⟩ := CompSetup.lastOf_mem hlast
  rcases List.mem_append.1 hw with hw | hw
  · unfold CompSetup.Spec.bdrAssigns at hw
    rw [List.mem_map] at hw
    obtain ⟨r, hr, rfl⟩ := hw
    exact (markers_ok hmk _ ((hb.complete _).2 (List.mem_map.2 ⟨r, hr, rfl⟩))).1
  · unfold CompSetup.Spec.portAssigns at hw
    rw [List.mem_flatMap] at hw
    obtain ⟨q, hq, hwq⟩ := hw
    have := ((CompSetup.port_attrs S.topo).2 q hq).1
    simp only [List.mem_cons, List.not_mem_nil, or_false] at hwq
    rcases hwq with rfl | rfl <;> exact this

/-- Boundaries of the component of subdomain `m` that the ROM does not skip. -/
noncomputable def actOf (bc : BC F) (t : Topo) (m : Nat) : List Nat :=
  match Boundary.romBC bc (t.c2g[m]?.getD []) with
  | .ok l => l
  | .error _ => []

theorem actOf_ok (S : Setting h comps bdr ports refPorts refItfs t bc mks) {m : Nat} {row : List Int}
    (hr : t.c2g[m]? = some row) : Boundary.romBC bc row = .ok (actOf bc t m) := by
  unfold actOf
  rw [hr, Option.getD_some, Boundary.romBC_eq S.bcs.1]

theorem actOf_lt (S : Setting h comps bdr ports refPorts refItfs t bc mks) {m : Nat} {row : List Int}
    (hr : t.c2g[m]? = some row) : ∀ b ∈ actOf bc t m, b < row.length := by
  have := actOf_ok S hr
  rw [Boundary.romBC_eq S.bcs.1] at this
  rw [← Except.ok.inj this]
  intro b hb
  rw [List.mem_filter, List.mem_range] at hb
  exact hb.1

/-- Matrix of boundary `b` of component `c` in a form. -/
noncomputable def bdrOf (f : Forms R δ) (comps : List Comp) (c b : Nat) : Nat → Nat → R :=
  match comps[c]?, f.comp[c]? with
  | some comp, some g => bdrOnly comp g b
  | _, _ => 0

/-- Matrix of component `c` in a form. -/
def baseOf (f : Forms R δ) (c : Nat) : Nat → Nat → R :=
  match f.comp[c]? with
  | some g => fun r c => g.base.get r c
  | none => 0

/-- The four matrices of reference port `k` in a form. -/
def portOf (f : Forms R δ) (refPorts : List PortData) (refItfs : List (List InterfaceInfo))
    (k : Nat) : Nat → Nat → Nat → Nat → R :=
  match refPorts[k]?, refItfs[k]? with
  | some q, some is => (is.map (faceTerm 0 1 (refSides f.cmeshes f.ctest f.ctrial q.comp1 q.comp2)
      f.itf.fnfi (fun g => g.mat))).sum
  | _, _ => 0

/-- Entry `(r, c)` of block `(m, m')` of the operator of a form, from the components. -/
noncomputable def fomEntry (h : Handler R) (f : Forms R δ) (comps : List Comp) (bc : BC F) (t : Topo)
    (rows : List PortRow) (refPorts : List PortData) (refItfs : List (List InterfaceInfo))
    (m m' r c : Nat) : R :=
  (if m = m' then baseOf f (typeOf h m) r c +
    ((actOf bc t m).map fun b => bdrOf f comps (typeOf h m) b r c).sum else 0) +
  (rows.map fun x => ∑ i ∈ range 2, ∑ j ∈ range 2,
    if side x.mesh1.toNat x.mesh2.toNat i = m ∧ side x.mesh1.toNat x.mesh2.toNat j = m' then
      portOf f refPorts refItfs x.type.toNat i j r c else 0).sum

theorem list_sum_apply2 {α : Type} (l : List α) (g : α → Nat → Nat → R) (r c : Nat) :
    (l.map g).sum r c = (l.map fun x => g x r c).sum := by
  induction l with
  | nil => rfl
  | cons x l ih => simp [ih]

theorem typeOf_eq {m c : Nat} (hm : h.meshType[m]? = some c) : typeOf h m = c := by
  unfold typeOf; rw [hm]; rfl

theorem comp_get {f : Forms R δ} {rows : List PortRow} {infos : List (List InterfaceInfo)}
    (hf : FormsOk f h.meshType comps rows infos refPorts refItfs) {c : Nat} (hc : c < comps.length) :
    ∃ b, f.comp[c]? = some b := ⟨_, List.getElem?_eq_getElem (by rw [hf.counts.1]; exact hc)⟩

theorem sizeIn_test {f : Forms R δ} {rows : List PortRow} {infos : List (List InterfaceInfo)}
    (hf : FormsOk f h.meshType comps rows infos refPorts refItfs) {m c : Nat}
    (hm : h.meshType[m]? = some c) : sizeIn f.itf.test m = sizeIn f.ctest c ∧
      sizeIn f.itf.trial m = sizeIn f.ctrial c := by
  obtain ⟨_, h2, h3⟩ := hf.copy m c hm
  unfold sizeIn; rw [h2, h3]; exact ⟨rfl, rfl⟩

theorem fomArray_spec (S : Setting h comps bdr ports refPorts refItfs t bc mks) {f : Forms R δ}
    {rows : List PortRow} {infos : List (List InterfaceInfo)}
    (hf : FormsOk f h.meshType comps rows infos refPorts refItfs) :
    ∃ mats, fomArray bc mks t.mesh f.sub f.itf.test f.itf.trial = .ok mats ∧
      MatsOk mats h.numSub (sizeIn f.itf.test) (sizeIn f.itf.trial) ∧
      ∀ m m' r c, m < h.numSub → m' < h.numSub → mget mats m m' r c =
        if m = m' then baseOf f (typeOf h m) r c +
          ((actOf bc t m).map fun b => bdrOf f comps (typeOf h m) b r c).sum else 0 := by
  obtain ⟨mx, hmx, hmk⟩ := bdrMarkers_ok S.marks
  rw [← S.bcs.2] at hmk
  have hn := battrs_nodup S
  obtain ⟨ds, e, hdl, hds⟩ := loop_collect (n := f.sub.length) (body := domainStep bc mks t.mesh f.sub)
    (fun m s => (s.h = sizeIn f.itf.test m ∧ s.w = sizeIn f.itf.trial m) ∧ ∀ r c, s.get r c =
      baseOf f (typeOf h m) r c +
        ((actOf bc t m).map fun b => bdrOf f comps (typeOf h m) b r c).sum) (by
      intro m acc hm
      have hm' : m < h.meshType.length := by rw [← hf.forms]; exact hm
      have htype := List.getElem?_eq_getElem hm'
      obtain ⟨comp, row, e, hcomp, hrow, he, hrl, hl, hat, hpos, hbe⟩ := sub_facts S htype
      obtain ⟨c1, _, _⟩ := hf.copy m _ htype
      have hsub := List.getElem?_eq_getElem hm
      rw [hsub] at c1
      obtain ⟨b1, b2, b3⟩ := hf.comp _ comp _ hcomp c1.symm
      rw [← hl] at b1
      obtain ⟨s, hs, hsz, hent⟩ := domainMatrix_spec S.bcs.1 hmk
        (hmx e (List.mem_of_getElem? he)) hn hat hpos b1
      obtain ⟨z1, z2⟩ := sizeIn_test hf htype
      refine ⟨s, ?_, ⟨by rw [hsz.1, b2, z1], by rw [hsz.2, b3, z2]⟩, ?_⟩
      · unfold domainStep
        rw [rd_eq_ok.2 he, ok_bind, rd_eq_ok.2 hsub, ok_bind, hs, ok_bind]; rfl
      · intro r c
        have h1 := congrFun (congrFun hent r) c
        rw [h1, typeOf_eq htype, Pi.add_apply, Pi.add_apply]
        unfold baseOf bdrOf
        rw [← c1, hcomp]
        dsimp only
        congr 1
        have hact := actOf_ok S hrow
        rw [Boundary.romBC_eq S.bcs.1] at hact
        have := sum_bdrOnly hn hrl ((S.comps comp (List.mem_of_getElem? hcomp)).1.nodup) hl hbe
          (Except.ok.inj hact).symm f.sub[m]
        rw [← this, list_sum_apply2])
  have hns : f.sub.length = h.numSub := hf.forms
  refine ⟨_, by unfold fomArray; rw [e, ok_bind]; rfl, ⟨hns, hns, ?_⟩, ?_⟩
  · intro a b ha hb
    dsimp only
    by_cases hab : a = b
    · subst hab
      rw [if_pos rfl]
      obtain ⟨x, hx, hs, _⟩ := hds a (by omega)
      exact ⟨x, hx, hs.1, hs.2⟩
    · rw [if_neg hab]
      exact ⟨_, rfl, rfl, rfl⟩
  · intro m m' r c hm hm'
    unfold mget
    dsimp only
    by_cases hab : m = m'
    · subst hab
      rw [if_pos rfl, if_pos rfl]
      obtain ⟨x, hx, _, hs⟩ := hds m (by omega)
      rw [hx]; exact hs r c
    · rw [if_neg hab, if_neg hab]; rfl

theorem formTerm_eq (S : Setting h comps bdr ports refPorts refItfs t bc mks) {f : Forms R δ}
    (hf : FormsOk f h.meshType comps (usedPorts ports refPorts) t.infos refPorts refItfs)
    (m m' r c : Nat) : formTerm f.itf matOf m m' r c =
      ((usedPorts ports refPorts).map fun x => ∑ i ∈ range 2, ∑ j ∈ range 2,
        if side x.mesh1.toNat x.mesh2.toNat i = m ∧ side x.mesh1.toNat x.mesh2.toNat j = m' then
          portOf f refPorts refItfs x.type.toNat i j r c else 0).sum := by
  have key : f.itf.ports.map (portTerm f.itf matOf) = (usedPorts ports refPorts).map fun x =>
      spread x.mesh1.toNat x.mesh2.toNat (portOf f refPorts refItfs x.type.toNat) := by
    rw [hf.ports]
    obtain ⟨_, _, _, h4, _⟩ := CompSetup.setup_parts S.topo
    obtain ⟨hlen, hat⟩ := CompSetup.setupPorts_ok h4
    apply List.ext_getElem
    · simp [hlen]
    · intro p hp1 hp2
      rw [List.length_map] at hp2
      rw [List.getElem_map, List.getElem_map, List.getElem_zipWith]
      have hr := List.getElem?_eq_getElem hp2
      obtain ⟨k, m1, m2, q, is, a1, a2, a3, a4, a5, a6, a7, a8, _, _, _⟩ := hat p _ hr
      have hi : t.infos[p] = is := by
        have hlt : p < t.infos.length := by omega
        rw [List.getElem?_eq_getElem hlt] at a6
        exact Option.some.inj a6
      have hface := hf.faces _ (List.getElem_mem hp2) q is (by rw [a1]; exact a4) (by rw [a1]; exact a5)
      rw [hi]
      rw [a2, a3] at hface ⊢
      rw [a1]
      simp only [Int.toNat_natCast] at hface ⊢
      unfold portTerm portOf
      rw [a4, a5]
      dsimp only
      rw [spread_sum]
      congr 1
      apply List.map_congr_left
      intro i hi
      obtain ⟨_, t1, t2⟩ := hf.copy m1 _ (types_get' a7)
      obtain ⟨_, t3, t4⟩ := hf.copy m2 _ (types_get' a8)
      exact faceTerm_spread (by unfold sidesOf refSides; dsimp only; rw [t1])
        (by unfold sidesOf refSides; dsimp only; rw [t3])
        (by unfold sidesOf refSides; dsimp only; rw [t2])
        (by unfold sidesOf refSides; dsimp only; rw [t4]) (hface i hi)
  unfold formTerm
  rw [key, InterfaceForm.list_sum_apply4]
  rfl

/-- The blocks of the operator of a form, from the components (both kinds of forms). -/
theorem fomMats_spec (S : Setting h comps bdr ports refPorts refItfs t bc mks) {f : Forms R δ}
    (hf : FormsOk f h.meshType comps (usedPorts ports refPorts) t.infos refPorts refItfs) :
    ∃ M, fomMats bc mks t.mesh f.sub f.itf = .ok M ∧ fomMixed bc mks t.mesh f.sub f.itf = .ok M ∧
      MatsOk M h.numSub (sizeIn f.itf.test) (sizeIn f.itf.trial) ∧
      ∀ m m' r c, m < h.numSub → m' < h.numSub → mget M m m' r c =
        fomEntry h f comps bc t (usedPorts ports refPorts) refPorts refItfs m m' r c := by
  obtain ⟨mats, e, hok, hent⟩ := fomArray_spec S hf
  obtain ⟨hl, hfo, hint⟩ := hf.itf
  have hok' : MatsOk mats f.itf.meshes.length (sizeIn f.itf.test) (sizeIn f.itf.trial) := by
    rw [hl]; exact hok
  obtain ⟨M, e1, k1, k2⟩ := InterfaceForm.assemble_spec hfo hok' hint
  obtain ⟨M', e2, _⟩ := InterfaceForm.assembleMixed_spec hfo hok' hint
  have hMM : M' = M := by
    unfold Form.assemble at e1
    simp only [bind_eq_ok] at e1
    obtain ⟨_, _, _, _, _, _, e1⟩ := e1
    rw [e2] at e1; exact Except.ok.inj e1
  subst hMM
  refine ⟨M', by unfold fomMats; rw [e, ok_bind, e1], by unfold fomMixed; rw [e, ok_bind, e2],
    by rw [hl] at k1; exact k1, ?_⟩
  intro m m' r c hm hm'
  rw [k2, hent m m' r c hm hm', formTerm_eq S hf]
  rfl

/-- The matrices of a reference port. -/
theorem atPort_spec {f : Forms R δ} {rows : List PortRow} {infos : List (List InterfaceInfo)}
    (hf : FormsOk f h.meshType comps rows infos refPorts refItfs) {k : Nat} {q : PortData}
    {is : List InterfaceInfo} (hq : refPorts[k]? = some q) (hi : refItfs[k]? = some is) :
    ∃ a, f.atPort refPorts refItfs k = .ok a ∧
      MatsOk a 2 (fun i => sizeIn f.ctest (side q.comp1 q.comp2 i))
        (fun i => sizeIn f.ctrial (side q.comp1 q.comp2 i)) ∧
      ∀ i j r c, mget a i j r c = portOf f refPorts refItfs k i j r c := by
  obtain ⟨n1, n2, n3, n4⟩ := hf.counts
  obtain ⟨h1, h2, h3, h4⟩ := hf.refs k q is hq hi
  obtain ⟨a, e, g1, g2⟩ := InterfaceForm.assembleAtPort_spec f.cmeshes f.ctest f.ctrial f.itf.fnfi
    (by omega) (by omega) (by omega) (by omega) h3 h4
  refine ⟨a, ?_, g1, ?_⟩
  · unfold Forms.atPort
    rw [rd_eq_ok.2 hq, ok_bind, rd_eq_ok.2 hi, ok_bind, e]
  · intro i j r c
    rw [g2]; unfold portOf; rw [hq, hi]

/-- The matrix of a component boundary. -/
theorem compBdr_spec (S : Setting h comps bdr ports refPorts refItfs t bc mks) {f : Forms R δ}
    {rows : List PortRow} {infos : List (List InterfaceInfo)}
    (hf : FormsOk f h.meshType comps rows infos refPorts refItfs) {c b : Nat} {comp : Comp}
    (hc : comps[c]? = some comp) (hb : b < comp.bdrAttributes.length) :
    ∃ g s, f.comp[c]? = some g ∧ compBdrMatrix comp g b = .ok s ∧
      (s.h = sizeIn f.ctest c ∧ s.w = sizeIn f.ctrial c) ∧
      ∀ r k, s.get r k = bdrOf f comps c b r k := by
  obtain ⟨g, hg⟩ := comp_get hf (List.getElem?_eq_some_iff.1 hc).1
  obtain ⟨b1, b2, b3⟩ := hf.comp c comp g hc hg
  obtain ⟨a1, a2⟩ := S.comps comp (List.mem_of_getElem? hc)
  obtain ⟨s, e, hsz, hent⟩ := compBdrMatrix_spec hb a2 (fun a ha => (a1.complete a).2 ha) b1
  refine ⟨g, s, hg, e, ⟨by rw [hsz.1, b2], by rw [hsz.2, b3]⟩, ?_⟩
  intro r k
  unfold bdrOf; rw [hc, hg]
  exact congrFun (congrFun hent r) k

end

end Verif.RomAssembly
