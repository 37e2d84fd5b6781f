import Verif.Proofs.CompSetup

/-!
# Property C59: boundary attributes of a component-wise topology
-/

namespace Verif.CompSetup

open Verif Verif.Topology Verif.Ports Spec

/-- The port table that is used: none without reference ports. -/
def Spec.usedPorts (ports : List PortRow) (refPorts : List PortData) : List PortRow :=
  if refPorts.length = 0 then [] else ports

section
variable {comps : List Comp} {meshTypes : List Int} {bdr : List BdrRow} {ports : List PortRow}
  {refPorts : List PortData} {refItfs : List (List InterfaceInfo)} {t : Topo}

theorem setup_parts (h : setup comps meshTypes bdr ports refPorts refItfs = .ok t) :
    Holds comps meshTypes (bdrAssigns bdr ++ portAssigns t.ports) t.c2g ∧
    Topology.Spec.AttributeList (bdr.map (·.gattr)) t.battrs ∧
    (∃ o, attrOffset comps t.battrs = .ok o ∧
      t.ports.length = (usedPorts ports refPorts).length ∧
      ∀ (p : Nat) (q : PortRow), (usedPorts ports refPorts)[p]? = some q →
        t.ports[p]? = some ⟨o + p, q.mesh1, q.mesh2, q.attr1, q.attr2⟩) ∧
    setupPorts meshTypes refPorts refItfs (usedPorts ports refPorts) = .ok t.infos ∧
    loop meshTypes.length (meshBdr comps meshTypes t.c2g) [] = .ok t.mesh := by
  unfold setup at h
  simp only [bind_eq_ok] at h
  obtain ⟨_, _, c2g, h1, g, h2, r, h3, infos, h4, mesh, h5, he⟩ := h
  cases he
  obtain ⟨a1, a2⟩ := readBoundaries_holds (init_holds h1) h2
  obtain ⟨b1, b2⟩ := readPorts_holds a1 h3
  exact ⟨b1, a2, b2, h4, h5⟩

/-- C59: in an accepted topology every boundary element of every subdomain carries the value of the
last assignment to its boundary, boundary table first, then ports; there is always one. -/
theorem elem_attr (h : setup comps meshTypes bdr ports refPorts refItfs = .ok t) {m : Nat}
    {comp : Comp} (hm : IsCopy comps meshTypes m comp) {be : Nat} {a : Int}
    (ha : comp.beAttr[be]? = some a) :
    ∃ g, 0 ≤ g ∧ (elemAttrs t m)[be]? = some g ∧
      lastOf (bdrAssigns bdr ++ portAssigns t.ports) m a = some g := by
  obtain ⟨h1, _, _, _, h5⟩ := setup_parts h
  have hlt : m < meshTypes.length := by
    obtain ⟨k, hk, _⟩ := hm
    exact (List.getElem?_eq_some_iff.1 hk).1
  obtain ⟨_, hmesh⟩ := meshBdr_ok h5
  obtain ⟨comp', row, e, hc, hr, he, hl, _, hbe⟩ := hmesh m hlt
  have := isCopy_unique hm hc
  subst this
  obtain ⟨g, hg, hb⟩ := hbe be (List.getElem?_eq_some_iff.1 ha).1
  obtain ⟨h0, a', i, ha', hmem, hi, hri⟩ := bdrElemAttr_ok hb
  rw [ha] at ha'; cases ha'
  obtain ⟨row', hr', _, hrow⟩ := h1.2 m comp hm
  rw [hr] at hr'; cases hr'
  have := hrow a i hmem hi
  rw [hri] at this
  refine ⟨g, h0, by simp [elemAttrs, he, hg], ?_⟩
  cases hlast : lastOf (bdrAssigns bdr ++ portAssigns t.ports) m a with
  | none =>
    rw [hlast] at this
    have e : g = -1 := by simpa using this
    omega
  | some g' =>
    rw [hlast] at this
    have e : g = g' := by simpa using this
    rw [e]

/-- C59: a subdomain has the boundary elements of its component. -/
theorem elem_count (h : setup comps meshTypes bdr ports refPorts refItfs = .ok t) {m : Nat}
    {comp : Comp} (hm : IsCopy comps meshTypes m comp) :
    (elemAttrs t m).length = comp.beAttr.length ∧
      Topology.Spec.AttributeList (elemAttrs t m) (attrList t m) := by
  obtain ⟨_, _, _, _, h5⟩ := setup_parts h
  have hlt : m < meshTypes.length := by
    obtain ⟨k, hk, _⟩ := hm
    exact (List.getElem?_eq_some_iff.1 hk).1
  obtain ⟨_, hmesh⟩ := meshBdr_ok h5
  obtain ⟨comp', row, e, hc, hr, he, hl, hat, _⟩ := hmesh m hlt
  have := isCopy_unique hm hc
  subst this
  simpa [elemAttrs, attrList, he] using ⟨hl, hat⟩

/-- C59: the global boundary attributes are exactly those of the boundary table, without repetition. -/
theorem battrs_spec (h : setup comps meshTypes bdr ports refPorts refItfs = .ok t) :
    Topology.Spec.AttributeList (bdr.map (·.gattr)) t.battrs := (setup_parts h).2.1

/-- C59: port attributes are pairwise distinct, positive, and differ from every global boundary
attribute and from every component boundary attribute. -/
theorem port_attrs (h : setup comps meshTypes bdr ports refPorts refItfs = .ok t) :
    (t.ports.map (·.portAttr)).Nodup ∧ ∀ p ∈ t.ports, 0 < p.portAttr ∧ p.portAttr ∉ t.battrs ∧
      ∀ comp ∈ comps, p.portAttr ∉ comp.bdrAttributes := by
  obtain ⟨_, _, ⟨o, ho, hl, hp⟩, _⟩ := setup_parts h
  obtain ⟨o1, o2, o3⟩ := attrOffset_gt ho
  have key : ∀ (p : Nat) (q : PortInfo), t.ports[p]? = some q → q.portAttr = o + p := by
    intro p q hq
    have hlt := (List.getElem?_eq_some_iff.1 hq).1
    rw [hl] at hlt
    have := hp p _ (List.getElem?_eq_getElem hlt)
    rw [hq] at this
    rw [Option.some.inj this]
  refine ⟨?_, ?_⟩
  · rw [List.nodup_iff_getElem?_ne_getElem?]
    intro i j hij hj
    rw [List.length_map] at hj
    rw [List.getElem?_map, List.getElem?_map, List.getElem?_eq_getElem hj,
      List.getElem?_eq_getElem (by omega : i < t.ports.length)]
    simp only [Option.map_some, ne_eq, Option.some.injEq]
    rw [key i _ (List.getElem?_eq_getElem _), key j _ (List.getElem?_eq_getElem _)]
    omega
  · intro q hq
    obtain ⟨p, hp'⟩ := List.mem_iff_getElem?.1 hq
    rw [key p q hp']
    refine ⟨by omega, ?_, ?_⟩
    · intro hm; have := o3 _ hm; omega
    · intro comp hc hm; have := o2 comp hc _ hm; omega

/-- C59: the ports of the topology are those of the table, in order, each attached to the reference
port of its type with the same components and boundaries, and never joining a subdomain to itself. -/
theorem ports_attached (h : setup comps meshTypes bdr ports refPorts refItfs = .ok t) {p : Nat}
    {r : PortRow} (hr : (usedPorts ports refPorts)[p]? = some r) :
    (∃ g, t.ports[p]? = some ⟨g, r.mesh1, r.mesh2, r.attr1, r.attr2⟩) ∧
    ∃ (k m1 m2 : Nat) (q : PortData) (i : List InterfaceInfo),
      r.type = k ∧ r.mesh1 = m1 ∧ r.mesh2 = m2 ∧ m1 ≠ m2 ∧
      refPorts[k]? = some q ∧ refItfs[k]? = some i ∧ t.infos[p]? = some i ∧
      meshTypes[m1]? = some (q.comp1 : Int) ∧ meshTypes[m2]? = some (q.comp2 : Int) ∧
      r.attr1 = q.attr1 ∧ r.attr2 = q.attr2 := by
  obtain ⟨_, _, ⟨o, ho, hl, hp⟩, h4, _⟩ := setup_parts h
  obtain ⟨k, m1, m2, q, i, a1, a2, a3, a4, a5, a6, a7, a8, a9, a10, a11⟩ :=
    (setupPorts_ok h4).2 p r hr
  exact ⟨⟨_, hp p r hr⟩, k, m1, m2, q, i, a1, a2, a3, a11, a4, a5, a6, a7, a8, a9, a10⟩

theorem lastOf_mem {l : List Assign} {m a g : Int} (h : lastOf l m a = some g) :
    ∃ w ∈ l, w.mesh = m ∧ w.attr = a ∧ w.value = g := by
  unfold lastOf at h
  rw [Option.map_eq_some_iff] at h
  obtain ⟨w, hw, rfl⟩ := h
  have := List.mem_of_getLast? hw
  rw [List.mem_filter] at this
  have h2 := this.2
  simp only [decide_eq_true_eq] at h2
  exact ⟨w, this.1, h2.1, h2.2, rfl⟩

theorem lastOf_append_right {l r : List Assign} {m a : Int}
    (h : ∃ w ∈ r, w.mesh = m ∧ w.attr = a) : lastOf (l ++ r) m a = lastOf r m a := by
  obtain ⟨w, hw, h1⟩ := h
  unfold lastOf
  rw [List.filter_append, List.getLast?_append_of_ne_nil]
  intro he
  have : w ∈ List.filter (fun w => decide (w.mesh = m ∧ w.attr = a)) r := by
    rw [List.mem_filter]; exact ⟨hw, by simpa using h1⟩
  rw [he] at this; simp at this

/-- C59: a boundary element carries a global boundary attribute exactly when its boundary does not
belong to a port. -/
theorem global_iff_not_port (h : setup comps meshTypes bdr ports refPorts refItfs = .ok t) {m : Nat}
    {comp : Comp} (hm : IsCopy comps meshTypes m comp) {be : Nat} {a g : Int}
    (ha : comp.beAttr[be]? = some a) (hg : (elemAttrs t m)[be]? = some g) :
    g ∈ t.battrs ↔ ¬ OnPort (usedPorts ports refPorts) m a := by
  obtain ⟨g', _, hg', hlast⟩ := elem_attr h hm ha
  rw [hg] at hg'; cases hg'
  obtain ⟨_, hb, ⟨o, ho, hl, hp⟩, _⟩ := setup_parts h
  have hports := (port_attrs h).2
  have portOf : ∀ w ∈ portAssigns t.ports, (w.mesh = m ∧ w.attr = a) →
      OnPort (usedPorts ports refPorts) m a ∧ w.value ∉ t.battrs := by
    intro w hw hwm
    unfold portAssigns at hw
    rw [List.mem_flatMap] at hw
    obtain ⟨q, hq, hwq⟩ := hw
    obtain ⟨p, hpq⟩ := List.mem_iff_getElem?.1 hq
    have hlt := (List.getElem?_eq_some_iff.1 hpq).1
    rw [hl] at hlt
    have e := hp p _ (List.getElem?_eq_getElem hlt)
    rw [hpq] at e
    have e := Option.some.inj e
    have hmem := List.getElem_mem hlt
    simp only [List.mem_cons, List.not_mem_nil, or_false] at hwq
    rcases hwq with rfl | rfl
    · exact ⟨⟨_, hmem, Or.inl (by rw [e] at hwm; exact hwm)⟩, (hports q hq).2.1⟩
    · exact ⟨⟨_, hmem, Or.inr (by rw [e] at hwm; exact hwm)⟩, (hports q hq).2.1⟩
  constructor
  · rintro hgb ⟨r, hr, hor⟩
    obtain ⟨p, hpr⟩ := List.mem_iff_getElem?.1 hr
    have e := hp p r hpr
    have hin : ∃ w ∈ portAssigns t.ports, w.mesh = m ∧ w.attr = a := by
      unfold portAssigns
      rcases hor with ⟨h1, h2⟩ | ⟨h1, h2⟩
      · exact ⟨⟨r.mesh1, r.attr1, o + p⟩, List.mem_flatMap.2 ⟨_, List.mem_of_getElem? e, by simp⟩, h1, h2⟩
      · exact ⟨⟨r.mesh2, r.attr2, o + p⟩, List.mem_flatMap.2 ⟨_, List.mem_of_getElem? e, by simp⟩, h1, h2⟩
    rw [lastOf_append_right hin] at hlast
    obtain ⟨w, hw, h1, h2, rfl⟩ := lastOf_mem hlast
    exact (portOf w hw ⟨h1, h2⟩).2 hgb
  · intro hno
    obtain ⟨w, hw, h1, h2, rfl⟩ := lastOf_mem hlast
    rcases List.mem_append.1 hw with hw | hw
    · unfold bdrAssigns at hw
      rw [List.mem_map] at hw
      obtain ⟨r, hr, rfl⟩ := hw
      exact (hb.complete _).2 (List.mem_map.2 ⟨r, hr, rfl⟩)
    · exact absurd (portOf w hw ⟨h1, h2⟩).1 hno

/-- C59: a topology with a boundary element that neither the boundary table nor a port mentions is not
accepted. -/
theorem unassigned_rejected {m : Nat} {comp : Comp} (hm : IsCopy comps meshTypes m comp) {a : Int}
    (ha : a ∈ comp.beAttr) (hb : ∀ r ∈ bdr, ¬ (r.mesh = m ∧ r.cattr = a))
    (hp : ¬ OnPort (usedPorts ports refPorts) m a) :
    ∀ t, setup comps meshTypes bdr ports refPorts refItfs ≠ .ok t := by
  intro t h
  obtain ⟨be, hbe⟩ := List.mem_iff_getElem?.1 ha
  obtain ⟨g, _, hg, hlast⟩ := elem_attr h hm hbe
  have := (global_iff_not_port h hm hbe hg).2 hp
  obtain ⟨w, hw, h1, h2, rfl⟩ := lastOf_mem hlast
  rcases List.mem_append.1 hw with hw | hw
  · unfold bdrAssigns at hw
    rw [List.mem_map] at hw
    obtain ⟨r, hr, rfl⟩ := hw
    exact hb r hr ⟨h1, h2⟩
  · unfold portAssigns at hw
    rw [List.mem_flatMap] at hw
    obtain ⟨q, hq, hwq⟩ := hw
    simp only [List.mem_cons, List.not_mem_nil, or_false] at hwq
    rcases hwq with rfl | rfl <;> exact ((port_attrs h).2 q hq).2.1 this

end

/-! ## Valid input is accepted -/

/-- Input the set-up is meant for. -/
structure Spec.Valid (comps : List Comp) (meshTypes : List Int) (bdr : List BdrRow)
    (ports : List PortRow) (refPorts : List PortData) (refItfs : List (List InterfaceInfo)) : Prop where
  subs : 0 < meshTypes.length
  copies : ∀ m, m < meshTypes.length → ∃ comp, IsCopy comps meshTypes m comp
  attrs : ∀ comp ∈ comps, comp.bdrAttributes ≠ []
  bdrs : bdr ≠ []
  rows : ∀ r ∈ bdr, ∃ (m : Nat) (comp : Comp), r.mesh = m ∧ IsCopy comps meshTypes m comp ∧
    r.cattr ∈ comp.bdrAttributes
  joins : ∀ r ∈ usedPorts ports refPorts, ∃ (k m1 m2 : Nat) (q : PortData) (c1 c2 : Comp),
    r.type = k ∧ r.mesh1 = m1 ∧ r.mesh2 = m2 ∧ m1 ≠ m2 ∧ refPorts[k]? = some q ∧
    k < refItfs.length ∧ r.attr1 = q.attr1 ∧ r.attr2 = q.attr2 ∧
    meshTypes[m1]? = some (q.comp1 : Int) ∧ meshTypes[m2]? = some (q.comp2 : Int) ∧
    comps[q.comp1]? = some c1 ∧ comps[q.comp2]? = some c2 ∧
    q.attr1 ∈ c1.bdrAttributes ∧ q.attr2 ∈ c2.bdrAttributes
  known : ∀ comp ∈ comps, ∀ a ∈ comp.beAttr, a ∈ comp.bdrAttributes
  assigned : ∀ (m : Nat) comp, IsCopy comps meshTypes m comp → ∀ a ∈ comp.beAttr,
    OnPort (usedPorts ports refPorts) m a ∨ ∃ g, 0 ≤ g ∧ lastOf (bdrAssigns bdr) m a = some g

section
variable {comps : List Comp} {meshTypes : List Int} {bdr : List BdrRow} {ports : List PortRow}
  {refPorts : List PortData} {refItfs : List (List InterfaceInfo)}

theorem attrIndex_total {m : Nat} {comp : Comp} {a : Int} (h : IsCopy comps meshTypes m comp)
    (ha : a ∈ comp.bdrAttributes) :
    ∃ i : Nat, attrIndex comps meshTypes m a = .ok (i : Int) ∧ i < comp.bdrAttributes.length := by
  obtain ⟨k, hk, hc⟩ := h
  obtain ⟨i, hi, hia⟩ := arrFind_spec ha
  refine ⟨i, ?_, (List.getElem?_eq_some_iff.1 hia).1⟩
  unfold attrIndex
  rw [rdI_ok.2 ⟨m, rfl, hk⟩, ok_bind, rdI_ok.2 ⟨k, rfl, hc⟩, ok_bind, hi]; rfl

theorem setC2g_total {ws : List Assign} {c2g : List (List Int)} {m : Nat} {comp : Comp} {i : Nat}
    (v : Int) (h : Holds comps meshTypes ws c2g) (hm : IsCopy comps meshTypes m comp)
    (hi : i < comp.bdrAttributes.length) : ∃ c, setC2g c2g m i v = .ok c := by
  obtain ⟨row, hr, hl, _⟩ := h.2 m comp hm
  have hlt := (List.getElem?_eq_some_iff.1 hr).1
  refine ⟨c2g.set m (row.set i v), ?_⟩
  unfold setC2g
  rw [rdI_ok.2 ⟨m, rfl, hr⟩, ok_bind, wrI_ok.2 ⟨i, rfl, by omega, rfl⟩, ok_bind]
  exact wrI_ok.2 ⟨m, rfl, hlt, rfl⟩

theorem arrMax_total {l : List Int} (h : l ≠ []) : ∃ m, arrMax l = .ok m := by
  cases l with
  | nil => exact absurd rfl h
  | cons a l => exact ⟨_, rfl⟩

theorem init_total (h : ∀ m, m < meshTypes.length → ∃ comp, IsCopy comps meshTypes m comp) :
    ∃ c, initC2g comps meshTypes = .ok c := by
  obtain ⟨c, hc, _⟩ := loop_total (n := meshTypes.length) (body := fun m (acc : List (List Int)) => do
      let c ← rd meshTypes m
      let comp ← rdI comps c
      return acc ++ [List.replicate comp.bdrAttributes.length (-1)]) (fun _ _ => True) (s := []) trivial
    (by
      intro j u hj _
      obtain ⟨comp, k, hk, hck⟩ := h j hj
      refine ⟨u ++ [List.replicate comp.bdrAttributes.length (-1)], ?_, trivial⟩
      rw [rd_eq_ok.2 hk, ok_bind, rdI_ok.2 ⟨k, rfl, hck⟩, ok_bind]; rfl)
  exact ⟨c, hc⟩

theorem readBoundaries_total {c2g : List (List Int)} (h0 : Holds comps meshTypes [] c2g)
    (h : ∀ r ∈ bdr, ∃ (m : Nat) (comp : Comp), r.mesh = m ∧ IsCopy comps meshTypes m comp ∧
      r.cattr ∈ comp.bdrAttributes) : ∃ g, readBoundaries comps meshTypes bdr c2g = .ok g := by
  obtain ⟨g, hg, _⟩ := loop_total (n := bdr.length) (body := boundaryStep comps meshTypes bdr)
    (fun _ s => ∃ ws, Holds comps meshTypes ws s.c2g) (s := ⟨c2g, []⟩) ⟨[], h0⟩
    (by
      intro j u hj ⟨ws, hu⟩
      obtain ⟨m, comp, hm, hcp, hat⟩ := h _ (List.getElem_mem hj)
      obtain ⟨i, hi, hlt⟩ := attrIndex_total hcp hat
      obtain ⟨c, hc⟩ := setC2g_total bdr[j].gattr hu hcp hlt
      refine ⟨⟨c, if arrFind u.battrs bdr[j].gattr < 0 then u.battrs ++ [bdr[j].gattr] else u.battrs⟩, ?_, _,
        set_holds (m := m) hu hi (by omega) hc⟩
      unfold boundaryStep
      rw [rd_of_lt hj, ok_bind, hm, hi, ok_bind, decide_eq_true (by omega), require_true, ok_bind, hc,
        ok_bind]; rfl)
  exact ⟨g, hg⟩

theorem attrOffset_total {battrs : List Int} (h : ∀ comp ∈ comps, comp.bdrAttributes ≠ [])
    (hb : battrs ≠ []) : ∃ o, attrOffset comps battrs = .ok o := by
  obtain ⟨o, ho, _⟩ := loop_total (n := comps.length) (body := fun c (o : Int) => do
      let comp ← rd comps c
      let m ← arrMax comp.bdrAttributes
      return max o m) (fun _ _ => True) (s := 0) trivial
    (by
      intro j u hj _
      obtain ⟨m, hm⟩ := arrMax_total (h _ (List.getElem_mem hj))
      refine ⟨max u m, ?_, trivial⟩
      rw [rd_of_lt hj, ok_bind, hm, ok_bind]; rfl)
  obtain ⟨m, hm⟩ := arrMax_total hb
  refine ⟨max o (m + 1) + 1, ?_⟩
  unfold attrOffset
  rw [ho, ok_bind, decide_eq_true (List.length_pos_iff.2 hb), require_true, ok_bind, hm, ok_bind]; rfl

theorem readPorts_total {g : Global} {ws : List Assign} {rows : List PortRow}
    (h0 : Holds comps meshTypes ws g.c2g) (ha : ∀ comp ∈ comps, comp.bdrAttributes ≠ [])
    (hb : g.battrs ≠ [])
    (h : ∀ r ∈ rows, ∃ (m1 m2 : Nat) (c1 c2 : Comp), r.mesh1 = m1 ∧ r.mesh2 = m2 ∧
      IsCopy comps meshTypes m1 c1 ∧ IsCopy comps meshTypes m2 c2 ∧ r.attr1 ∈ c1.bdrAttributes ∧
      r.attr2 ∈ c2.bdrAttributes) : ∃ r, readPorts comps meshTypes rows g = .ok r := by
  obtain ⟨o, ho⟩ := attrOffset_total ha hb
  obtain ⟨s, hs, _⟩ := loop_total (n := rows.length) (body := portStep comps meshTypes rows)
    (fun _ s => ∃ ws, Holds comps meshTypes ws s.2.1) (s := (o, g.c2g, [])) ⟨ws, h0⟩
    (by
      intro j u hj ⟨ws, hu⟩
      obtain ⟨m1, m2, c1, c2, e1, e2, p1, p2, q1, q2⟩ := h _ (List.getElem_mem hj)
      obtain ⟨i1, hi1, l1⟩ := attrIndex_total p1 q1
      obtain ⟨i2, hi2, l2⟩ := attrIndex_total p2 q2
      obtain ⟨d1, hd1⟩ := setC2g_total u.1 hu p1 l1
      have hold := set_holds (m := m1) hu hi1 (by omega) hd1
      obtain ⟨d2, hd2⟩ := setC2g_total u.1 hold p2 l2
      refine ⟨(u.1 + 1, d2, u.2.2 ++ [⟨u.1, rows[j].mesh1, rows[j].mesh2, rows[j].attr1, rows[j].attr2⟩]), ?_, _,
        set_holds (m := m2) hold hi2 (by omega) hd2⟩
      unfold portStep
      rw [rd_of_lt hj, ok_bind, e1, e2, hi1, ok_bind, hi2, ok_bind,
        decide_eq_true (by omega : (0 : Int) ≤ i1), decide_eq_true (by omega : (0 : Int) ≤ i2)]
      simp only [Bool.and_true, require_true, ok_bind, hd1, hd2]; rfl)
  refine ⟨s.2, ?_⟩
  unfold readPorts
  rw [ho, ok_bind, hs, ok_bind]; rfl

theorem setupPorts_total {rows : List PortRow}
    (h : ∀ r ∈ rows, ∃ (k m1 m2 : Nat) (q : PortData),
      r.type = k ∧ r.mesh1 = m1 ∧ r.mesh2 = m2 ∧ m1 ≠ m2 ∧ refPorts[k]? = some q ∧
      k < refItfs.length ∧ r.attr1 = q.attr1 ∧ r.attr2 = q.attr2 ∧
      meshTypes[m1]? = some (q.comp1 : Int) ∧ meshTypes[m2]? = some (q.comp2 : Int)) :
    ∃ i, setupPorts meshTypes refPorts refItfs rows = .ok i := by
  obtain ⟨i, hi, _⟩ := loop_total (n := rows.length)
    (body := attachPort meshTypes refPorts refItfs rows) (fun _ _ => True) (s := []) trivial
    (by
      intro j u hj _
      obtain ⟨k, m1, m2, q, e1, e2, e3, hne, hq, hk, a1, a2, t1, t2⟩ := h _ (List.getElem_mem hj)
      refine ⟨u ++ [refItfs[k]], ?_, trivial⟩
      unfold attachPort
      rw [rd_of_lt hj, ok_bind, e1, e2, e3, rdI_ok.2 ⟨k, rfl, hq⟩, ok_bind, rdI_ok.2 ⟨m1, rfl, t1⟩,
        ok_bind, decide_eq_true rfl, require_true, ok_bind, rdI_ok.2 ⟨m2, rfl, t2⟩, ok_bind,
        decide_eq_true rfl, require_true, ok_bind, decide_eq_true a1, require_true, ok_bind,
        decide_eq_true a2, require_true, ok_bind,
        decide_eq_false (by omega : ¬ (m1 : Int) = m2)]
      simp only [Bool.and_false, Bool.not_false, require_true, ok_bind]
      rw [rdI_ok.2 ⟨k, rfl, List.getElem?_eq_getElem hk⟩, ok_bind]; rfl)
  exact ⟨i, hi⟩

/-- C59: valid input is accepted. -/
theorem setup_total (h : Valid comps meshTypes bdr ports refPorts refItfs) :
    ∃ t, setup comps meshTypes bdr ports refPorts refItfs = .ok t := by
  obtain ⟨c, hc⟩ := init_total h.copies
  obtain ⟨g, hg⟩ := readBoundaries_total (init_holds hc) h.rows
  obtain ⟨b1, b2⟩ := readBoundaries_holds (init_holds hc) hg
  have hbne : g.battrs ≠ [] := by
    obtain ⟨r, hr⟩ := List.exists_mem_of_ne_nil _ h.bdrs
    have := (b2.complete r.gattr).2 (List.mem_map.2 ⟨r, hr, rfl⟩)
    intro he; rw [he] at this; simp at this
  obtain ⟨r, hr⟩ := readPorts_total (rows := usedPorts ports refPorts) b1 h.attrs hbne (by
    intro r hr
    obtain ⟨k, m1, m2, q, c1, c2, e1, e2, e3, hne, hq, hk, a1, a2, t1, t2, d1, d2, f1, f2⟩ :=
      h.joins r hr
    exact ⟨m1, m2, c1, c2, e2, e3, ⟨_, t1, d1⟩, ⟨_, t2, d2⟩, a1 ▸ f1, a2 ▸ f2⟩)
  obtain ⟨i, hi⟩ := setupPorts_total (rows := usedPorts ports refPorts) (refPorts := refPorts)
    (refItfs := refItfs) (meshTypes := meshTypes) (by
    intro r hr
    obtain ⟨k, m1, m2, q, c1, c2, e1, e2, e3, hne, hq, hk, a1, a2, t1, t2, _⟩ := h.joins r hr
    exact ⟨k, m1, m2, q, e1, e2, e3, hne, hq, hk, a1, a2, t1, t2⟩)
  obtain ⟨p1, o, ho, hplen, hport⟩ := readPorts_holds b1 hr
  obtain ⟨o1, _⟩ := attrOffset_gt ho
  have hmesh : ∃ mesh, loop meshTypes.length (meshBdr comps meshTypes r.1) [] = .ok mesh := by
    obtain ⟨x, hx, _⟩ := loop_total (n := meshTypes.length) (body := meshBdr comps meshTypes r.1)
      (fun _ _ => True) (s := []) trivial
      (by
        intro m u hm _
        obtain ⟨comp, k, hk, hck⟩ := h.copies m hm
        have hcp : IsCopy comps meshTypes m comp := ⟨k, hk, hck⟩
        obtain ⟨row, hrow, _, hval⟩ := p1.2 m comp hcp
        obtain ⟨l, hl, _⟩ := loop_total (n := comp.beAttr.length) (body := fun be l => do
            let g ← bdrElemAttr comp row be
            wr l be g) (fun _ l => l.length = comp.beAttr.length) (s := comp.beAttr) rfl
          (by
            intro be l hbe hlen
            have hmem := List.getElem_mem hbe
            have hknown := h.known comp (List.mem_of_getElem? hck) _ hmem
            obtain ⟨i, hi, hia⟩ := arrFind_spec hknown
            have hv := hval _ i hknown hi
            obtain ⟨g, hg0, hg1⟩ : ∃ g, 0 ≤ g ∧
                lastOf (bdrAssigns bdr ++ portAssigns r.2) m comp.beAttr[be] = some g := by
              by_cases hport' : ∃ w ∈ portAssigns r.2, w.mesh = m ∧ w.attr = comp.beAttr[be]
              · rw [lastOf_append_right hport']
                obtain ⟨w, hw, hwm, hwa⟩ := hport'
                have hne : lastOf (portAssigns r.2) m comp.beAttr[be] ≠ none := by
                  unfold lastOf
                  intro he
                  rw [Option.map_eq_none_iff, List.getLast?_eq_none_iff] at he
                  have : w ∈ List.filter
                      (fun w : Assign => decide (w.mesh = (m : Int) ∧ w.attr = comp.beAttr[be])) (portAssigns r.2) := by
                    rw [List.mem_filter]; exact ⟨hw, by simpa using ⟨hwm, hwa⟩⟩
                  rw [he] at this; simp at this
                obtain ⟨g, hg⟩ := Option.ne_none_iff_exists'.1 hne
                refine ⟨g, ?_, hg⟩
                obtain ⟨w', hw', _, _, rfl⟩ := lastOf_mem hg
                unfold portAssigns at hw'
                rw [List.mem_flatMap] at hw'
                obtain ⟨q, hq, hwq⟩ := hw'
                obtain ⟨p, hpq⟩ := List.mem_iff_getElem?.1 hq
                have hlt := (List.getElem?_eq_some_iff.1 hpq).1
                rw [hplen] at hlt
                have e := hport p _ (List.getElem?_eq_getElem hlt)
                rw [hpq] at e
                have e := Option.some.inj e
                simp only [List.mem_cons, List.not_mem_nil, or_false] at hwq
                rcases hwq with rfl | rfl <;> · rw [e]; show 0 ≤ o + (p : Int); omega
              · rcases h.assigned m comp hcp _ hmem with ⟨q, hq, hor⟩ | ⟨g, hg0, hg1⟩
                · exfalso
                  obtain ⟨p, hpq⟩ := List.mem_iff_getElem?.1 hq
                  have e := hport p q hpq
                  apply hport'
                  unfold portAssigns
                  rcases hor with ⟨h1, h2⟩ | ⟨h1, h2⟩
                  · exact ⟨⟨q.mesh1, q.attr1, o + p⟩,
                      List.mem_flatMap.2 ⟨_, List.mem_of_getElem? e, by simp⟩, h1, h2⟩
                  · exact ⟨⟨q.mesh2, q.attr2, o + p⟩,
                      List.mem_flatMap.2 ⟨_, List.mem_of_getElem? e, by simp⟩, h1, h2⟩
                · refine ⟨g, hg0, ?_⟩
                  rw [← hg1]
                  unfold lastOf
                  rw [List.filter_append, (List.filter_eq_nil_iff (l := portAssigns r.2)).2]
                  · simp
                  · intro w hw hc
                    exact hport' ⟨w, hw, by simpa using hc⟩
            rw [hg1] at hv
            refine ⟨l.set be g, ?_, by simpa using hlen⟩
            have : bdrElemAttr comp row be = .ok g := by
              unfold bdrElemAttr
              rw [rd_of_lt hbe, ok_bind]
              dsimp only
              rw [hi, decide_eq_true (by omega), require_true, ok_bind, rdI_ok.2 ⟨i, rfl, hv⟩, ok_bind]
              show (require (decide (0 ≤ g)) >>= fun _ => pure g) = _
              rw [decide_eq_true hg0]; rfl
            rw [this, ok_bind, wr_of_lt (by omega)])
        obtain ⟨al, hal, _⟩ := updateAttributes_spec l
        refine ⟨u ++ [(l, al)], ?_, trivial⟩
        unfold meshBdr
        rw [rd_eq_ok.2 hk, ok_bind, rdI_ok.2 ⟨k, rfl, hck⟩, ok_bind, rd_eq_ok.2 hrow, ok_bind, hl, ok_bind,
          hal, ok_bind]; rfl)
    exact ⟨x, hx⟩
  obtain ⟨mesh, hmesh⟩ := hmesh
  refine ⟨⟨r.1, g.battrs, r.2, i, mesh⟩, ?_⟩
  have hr' : readPorts comps meshTypes (if refPorts.length = 0 then [] else ports) g = .ok r := hr
  have hi' : setupPorts meshTypes refPorts refItfs (if refPorts.length = 0 then [] else ports) = .ok i := hi
  unfold setup
  rw [decide_eq_true h.subs, require_true, ok_bind, hc, ok_bind, hg, ok_bind]
  dsimp only
  rw [hr', ok_bind, hi', ok_bind, hmesh, ok_bind]; rfl

end

/-! ## Examples -/

/-- One component with three boundary attributes. -/
def exComps : List Comp := [⟨[1, 2, 7], [1, 2, 7, 2]⟩]

/-- Two copies joined by a port: boundary 2 of the first to boundary 1 of the second. -/
def exRef : List PortData := [⟨0, 0, 2, 1, [], []⟩]

/-- The boundary table. -/
def exBdr : List BdrRow := [⟨5, 0, 1⟩, ⟨5, 0, 7⟩, ⟨3, 1, 7⟩, ⟨4, 1, 2⟩]

/-- The topology of the example. -/
def exTopo : Topo :=
  ⟨[[5, 8, 5], [8, 4, 3]], [5, 3, 4], [⟨8, 0, 1, 2, 1⟩], [[⟨1, 0, 0, 1⟩]],
    [([5, 8, 5, 8], [5, 8]), ([8, 4, 3, 4], [8, 4, 3])]⟩

example : setup exComps [0, 0] exBdr [⟨0, 1, 2, 1, 0⟩] exRef [[⟨1, 0, 0, 1⟩]] = .ok exTopo := by
  decide

/-- A boundary that neither the table nor a port mentions. -/
example : setup exComps [0, 0] [⟨5, 0, 1⟩, ⟨3, 1, 7⟩, ⟨4, 1, 2⟩] [⟨0, 1, 2, 1, 0⟩] exRef
    [[⟨1, 0, 0, 1⟩]] = .error .abort := by decide

/-- A port from a subdomain to itself. -/
example : setup exComps [0] exBdr [⟨0, 0, 2, 1, 0⟩] exRef [[⟨1, 0, 0, 1⟩]] ≠ .ok exTopo := by decide

/-- Finding: a row of the boundary table for a boundary that also belongs to a port is overridden
without notice.  The global attribute 9 is announced although no boundary element carries it. -/
theorem overridden_boundary :
    ∃ t, setup exComps [0, 0] (exBdr ++ [⟨9, 0, 2⟩]) [⟨0, 1, 2, 1, 0⟩] exRef [[⟨1, 0, 0, 1⟩]] = .ok t ∧
      9 ∈ t.battrs ∧ ∀ m, 9 ∉ elemAttrs t m := by
  refine ⟨⟨[[5, 11, 5], [11, 4, 3]], [5, 3, 4, 9], [⟨11, 0, 1, 2, 1⟩], [[⟨1, 0, 0, 1⟩]],
    [([5, 11, 5, 11], [5, 11]), ([11, 4, 3, 4], [11, 4, 3])]⟩, by decide, by decide, ?_⟩
  intro m
  match m with
  | 0 => decide
  | 1 => decide
  | m + 2 => simp [elemAttrs]

example : Valid exComps [0, 0] exBdr [⟨0, 1, 2, 1, 0⟩] exRef [[⟨1, 0, 0, 1⟩]] where
  subs := by decide
  copies := fun m hm => ⟨⟨[1, 2, 7], [1, 2, 7, 2]⟩, 0, by
    match m, hm with
    | 0, _ => rfl
    | 1, _ => rfl
    | m + 2, h => simp at h, rfl⟩
  attrs := by decide
  bdrs := by decide
  rows := by
    intro r hr
    simp only [exBdr, List.mem_cons, List.not_mem_nil, or_false] at hr
    rcases hr with rfl | rfl | rfl | rfl
    · exact ⟨0, ⟨[1, 2, 7], [1, 2, 7, 2]⟩, rfl, ⟨0, rfl, rfl⟩, by decide⟩
    · exact ⟨0, ⟨[1, 2, 7], [1, 2, 7, 2]⟩, rfl, ⟨0, rfl, rfl⟩, by decide⟩
    · exact ⟨1, ⟨[1, 2, 7], [1, 2, 7, 2]⟩, rfl, ⟨0, rfl, rfl⟩, by decide⟩
    · exact ⟨1, ⟨[1, 2, 7], [1, 2, 7, 2]⟩, rfl, ⟨0, rfl, rfl⟩, by decide⟩
  joins := by
    intro r hr
    simp only [usedPorts, exRef, List.length_cons, List.length_nil, Nat.zero_add, Nat.one_ne_zero,
      if_false, List.mem_cons, List.not_mem_nil, or_false] at hr
    subst hr
    exact ⟨0, 0, 1, ⟨0, 0, 2, 1, [], []⟩, ⟨[1, 2, 7], [1, 2, 7, 2]⟩, ⟨[1, 2, 7], [1, 2, 7, 2]⟩, rfl, rfl,
      rfl, by decide, rfl, by decide, rfl, rfl, rfl, rfl, rfl, rfl, by decide, by decide⟩
  known := by decide
  assigned := by
    intro m comp hm a ha
    obtain ⟨k, hk, hc⟩ := hm
    have hm2 : m < 2 := (List.getElem?_eq_some_iff.1 hk).1
    have hk0 : k = 0 := by
      match m, hm2 with
      | 0, _ => have : (0 : Int) = k := Option.some.inj hk; omega
      | 1, _ => have : (0 : Int) = k := Option.some.inj hk; omega
    subst hk0
    cases hc
    have ha' : a = 1 ∨ a = 2 ∨ a = 7 := by
      simp only [List.mem_cons, List.not_mem_nil, or_false] at ha; omega
    match m, hm2, ha' with
    | 0, _, .inl h => subst h; exact Or.inr ⟨5, by decide, by decide⟩
    | 0, _, .inr (.inl h) =>
      subst h; exact Or.inl ⟨⟨0, 1, 2, 1, 0⟩, by simp [usedPorts, exRef], Or.inl ⟨rfl, rfl⟩⟩
    | 0, _, .inr (.inr h) => subst h; exact Or.inr ⟨5, by decide, by decide⟩
    | 1, _, .inl h =>
      subst h; exact Or.inl ⟨⟨0, 1, 2, 1, 0⟩, by simp [usedPorts, exRef], Or.inr ⟨rfl, rfl⟩⟩
    | 1, _, .inr (.inl h) => subst h; exact Or.inr ⟨4, by decide, by decide⟩
    | 1, _, .inr (.inr h) => subst h; exact Or.inr ⟨3, by decide, by decide⟩

end Verif.CompSetup
