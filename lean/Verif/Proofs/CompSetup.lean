import Verif.Spec.CompSetup
import Verif.Props.Topology

/-! # Lemmas on boundary attribute assignment -/

namespace Verif.CompSetup

open Verif Verif.Topology Verif.Ports Spec

theorem rdI_ok {α : Type _} {b : List α} {i : Int} {v : α} :
    rdI b i = .ok v ↔ ∃ n : Nat, i = n ∧ b[n]? = some v := by
  unfold rdI
  split
  · rename_i h
    rw [rd_eq_ok]
    constructor
    · intro h'; exact ⟨i.toNat, by omega, h'⟩
    · rintro ⟨n, rfl, h'⟩; simpa using h'
  · rename_i h
    simp only [reduceCtorEq, false_iff]
    rintro ⟨n, rfl, _⟩; omega

theorem wrI_ok {α : Type _} {b c : List α} {i : Int} {v : α} :
    wrI b i v = .ok c ↔ ∃ n : Nat, i = n ∧ n < b.length ∧ c = b.set n v := by
  unfold wrI wr
  split
  · rename_i h
    split
    · rename_i h'
      constructor
      · intro e; exact ⟨i.toNat, by omega, h', (Except.ok.inj e).symm⟩
      · rintro ⟨n, rfl, h', rfl⟩; simp
    · rename_i h'
      simp only [reduceCtorEq, false_iff]
      rintro ⟨n, rfl, h2, _⟩; simp at h'; omega
  · rename_i h
    simp only [reduceCtorEq, false_iff]
    rintro ⟨n, rfl, _⟩; omega

theorem require_decide {p : Prop} [Decidable p] {u : Unit} :
    require (decide p) = .ok u ↔ p := by
  cases u; rw [require_eq_ok]; simp

theorem arrFind_nonneg {l : List Int} {a : Int} (h : 0 ≤ arrFind l a) :
    ∃ i : Nat, arrFind l a = i ∧ l[i]? = some a := by
  apply arrFind_spec
  by_contra h'
  have := arrFind_neg.2 h'; omega

/-- Distinct members have distinct positions. -/
theorem arrFind_inj {l : List Int} {a b : Int} (ha : a ∈ l) (hb : b ∈ l)
    (h : arrFind l a = arrFind l b) : a = b := by
  obtain ⟨i, h1, h2⟩ := arrFind_spec ha
  obtain ⟨j, h3, h4⟩ := arrFind_spec hb
  rw [h1, h3] at h
  have : i = j := by omega
  subst this
  rw [h2] at h4; exact Option.some.inj h4

theorem lastOf_append (l : List Assign) (w : Assign) (m a : Int) :
    lastOf (l ++ [w]) m a = if w.mesh = m ∧ w.attr = a then some w.value else lastOf l m a := by
  unfold lastOf
  rw [List.filter_append]
  by_cases h : w.mesh = m ∧ w.attr = a
  · rw [if_pos h, List.filter_cons_of_pos (by simpa using h)]
    simp
  · rw [if_neg h, List.filter_cons_of_neg (by simpa using h)]
    simp

/-- The map holds, for every subdomain, the last assignment to each boundary. -/
def Holds (comps : List Comp) (meshTypes : List Int) (ws : List Assign) (c2g : List (List Int)) :
    Prop :=
  c2g.length = meshTypes.length ∧
  ∀ m comp, IsCopy comps meshTypes m comp → ∃ row, c2g[m]? = some row ∧
    row.length = comp.bdrAttributes.length ∧
    ∀ (a : Int) (i : Nat), a ∈ comp.bdrAttributes → arrFind comp.bdrAttributes a = i →
      row[i]? = some ((lastOf ws m a).getD (-1))

theorem isCopy_unique {comps : List Comp} {meshTypes : List Int} {m : Nat} {c d : Comp}
    (h1 : IsCopy comps meshTypes m c) (h2 : IsCopy comps meshTypes m d) : c = d := by
  obtain ⟨k, a, b⟩ := h1
  obtain ⟨l, a', b'⟩ := h2
  rw [a] at a'
  have : k = l := by have := Option.some.inj a'; omega
  subst this
  rw [b] at b'; exact Option.some.inj b'

theorem init_holds {comps : List Comp} {meshTypes : List Int} {c2g : List (List Int)}
    (h : initC2g comps meshTypes = .ok c2g) : Holds comps meshTypes [] c2g := by
  have key := loop_inv (n := meshTypes.length) (fun k (acc : List (List Int)) => acc.length = k ∧
      ∀ m comp, m < k → IsCopy comps meshTypes m comp →
        acc[m]? = some (List.replicate comp.bdrAttributes.length (-1))) (s := []) (t := c2g)
    ⟨rfl, fun m _ hm => absurd hm (by omega)⟩
    (by
      intro j u v hj ⟨hl, hu⟩ hb
      simp only [bind_eq_ok] at hb
      obtain ⟨c, hc, comp, hcomp, hv⟩ := hb
      cases hv
      rw [rd_eq_ok] at hc
      obtain ⟨k, rfl, hk⟩ := rdI_ok.1 hcomp
      refine ⟨by simp [hl], ?_⟩
      intro m comp' hm hcp
      rcases Nat.lt_or_eq_of_le (Nat.le_of_lt_succ hm) with h' | rfl
      · rw [List.getElem?_append_left (by omega)]; exact hu m comp' h' hcp
      · have := isCopy_unique hcp ⟨k, hc, hk⟩
        subst this
        rw [List.getElem?_append_right (by omega)]; simp [hl]) h
  refine ⟨key.1, fun m comp hm => ?_⟩
  have hlt : m < meshTypes.length := by
    obtain ⟨k, hk, _⟩ := hm
    exact (List.getElem?_eq_some_iff.1 hk).1
  refine ⟨_, key.2 m comp hlt hm, by simp, ?_⟩
  intro a i ha hi
  obtain ⟨j, h1, h2⟩ := arrFind_spec ha
  rw [hi] at h1
  have : i = j := by omega
  subst this
  have := (List.getElem?_eq_some_iff.1 h2).1
  simp [lastOf, List.getElem?_replicate, this]

theorem attrIndex_ok {comps : List Comp} {meshTypes : List Int} {m attr idx : Int}
    (h : attrIndex comps meshTypes m attr = .ok idx) :
    ∃ n comp, m = (n : Nat) ∧ IsCopy comps meshTypes n comp ∧ idx = arrFind comp.bdrAttributes attr := by
  unfold attrIndex at h
  simp only [bind_eq_ok] at h
  obtain ⟨c, hc, comp, hcomp, he⟩ := h
  cases he
  obtain ⟨n, rfl, hn⟩ := rdI_ok.1 hc
  obtain ⟨k, rfl, hk⟩ := rdI_ok.1 hcomp
  exact ⟨n, comp, rfl, ⟨k, hn, hk⟩, rfl⟩

theorem set_holds {comps : List Comp} {meshTypes : List Int} {ws : List Assign}
    {c2g c2g' : List (List Int)} {m attr idx v : Int}
    (h : Holds comps meshTypes ws c2g) (hi : attrIndex comps meshTypes m attr = .ok idx)
    (h0 : 0 ≤ idx) (hs : setC2g c2g m idx v = .ok c2g') :
    Holds comps meshTypes (ws ++ [⟨m, attr, v⟩]) c2g' := by
  obtain ⟨n, comp, rfl, hcp, rfl⟩ := attrIndex_ok hi
  obtain ⟨i, hi', hia⟩ := arrFind_nonneg h0
  unfold setC2g at hs
  simp only [bind_eq_ok] at hs
  obtain ⟨row, hrow, row', hrow', he⟩ := hs
  obtain ⟨n', hn', hr⟩ := rdI_ok.1 hrow
  have : n' = n := by omega
  subst this
  obtain ⟨i', hi2, hlt, rfl⟩ := wrI_ok.1 hrow'
  have : i' = i := by omega
  subst this
  obtain ⟨n2, hn2, hlt2, rfl⟩ := wrI_ok.1 he
  have : n2 = n' := by omega
  subst this
  refine ⟨by simpa using h.1, ?_⟩
  intro k comp' hk
  obtain ⟨r, h1, h2, h3⟩ := h.2 k comp' hk
  by_cases hkn : n2 = k
  · subst hkn
    have := isCopy_unique hk hcp
    subst this
    rw [hr] at h1; cases h1
    refine ⟨_, by rw [List.getElem?_set_self hlt2], by simpa using h2, ?_⟩
    intro a j ha hj
    rw [lastOf_append]
    by_cases hja : attr = a
    · subst hja
      have : i' = j := by omega
      subst this
      rw [if_pos ⟨rfl, rfl⟩, List.getElem?_set_self hlt]; rfl
    · rw [if_neg (fun h => hja h.2), List.getElem?_set_ne, h3 a j ha hj]
      rintro rfl
      exact hja (arrFind_inj (List.mem_of_getElem? hia) ha (by omega))
  · refine ⟨r, by rw [List.getElem?_set_ne hkn, h1], h2, ?_⟩
    intro a j ha hj
    rw [lastOf_append, if_neg (fun h => hkn (by have := h.1; simpa using this)), h3 a j ha hj]

/-- `bdr_attributes` after reading the boundary table. -/
theorem attributeList_snoc {l occ : List Int} {a : Int} (h : Topology.Spec.AttributeList occ l) :
    Topology.Spec.AttributeList (occ ++ [a]) (if arrFind l a < 0 then l ++ [a] else l) := by
  obtain ⟨hn, hc, ho⟩ := h
  by_cases hf : arrFind l a < 0
  · rw [if_pos hf]
    have hm := arrFind_neg.1 hf
    refine ⟨?_, ?_, ho.append (List.Sublist.refl _)⟩
    · rw [List.nodup_append]
      exact ⟨hn, by simp, by
        intro x hx b hb hab
        simp only [List.mem_singleton] at hb
        exact hm (hb ▸ hab ▸ hx)⟩
    · intro x; simp only [List.mem_append, hc]
  · rw [if_neg hf]
    have hm : a ∈ l := by by_contra h; exact hf (arrFind_neg.2 h)
    refine ⟨hn, ?_, ho.trans (List.sublist_append_left _ _)⟩
    intro x
    simp only [List.mem_append, hc, List.mem_singleton]
    constructor
    · exact Or.inl
    · rintro (h | rfl)
      · exact h
      · exact (hc _).1 hm

theorem readBoundaries_holds {comps : List Comp} {meshTypes : List Int} {rows : List BdrRow}
    {c2g : List (List Int)} {g : Global} (h0 : Holds comps meshTypes [] c2g)
    (h : readBoundaries comps meshTypes rows c2g = .ok g) :
    Holds comps meshTypes (bdrAssigns rows) g.c2g ∧
      Topology.Spec.AttributeList (rows.map (·.gattr)) g.battrs := by
  have key := loop_inv (n := rows.length) (fun k (s : Global) =>
      Holds comps meshTypes (bdrAssigns (rows.take k)) s.c2g ∧
      Topology.Spec.AttributeList ((rows.take k).map (·.gattr)) s.battrs)
    (s := ⟨c2g, []⟩) (t := g) ⟨h0, ⟨List.nodup_nil, by simp, by simp⟩⟩
    (by
      intro j u v hj ⟨h1, h2⟩ hb
      unfold boundaryStep at hb
      simp only [bind_eq_ok] at hb
      obtain ⟨r, hr, idx, hidx, _, hreq, c2, hc2, he⟩ := hb
      cases he
      rw [rd_of_lt hj] at hr
      cases hr
      rw [require_decide] at hreq
      rw [List.take_succ_eq_append_getElem hj]
      refine ⟨?_, ?_⟩
      · have := set_holds h1 hidx hreq hc2
        rw [bdrAssigns, List.map_append]; exact this
      · rw [List.map_append]
        exact attributeList_snoc h2) h
  rw [List.take_length] at key
  exact key

theorem le_foldl_max : ∀ (l : List Int) (a : Int), a ≤ l.foldl max a ∧ ∀ x ∈ l, x ≤ l.foldl max a
  | [], a => by simp
  | b :: l, a => by
    obtain ⟨h1, h2⟩ := le_foldl_max l (max a b)
    refine ⟨le_trans (le_max_left a b) h1, ?_⟩
    intro x hx
    rcases List.mem_cons.1 hx with rfl | hx
    · exact le_trans (le_max_right a x) h1
    · exact h2 x hx

theorem arrMax_ge {l : List Int} {m : Int} (h : arrMax l = .ok m) : ∀ x ∈ l, x ≤ m := by
  cases l with
  | nil => cases h
  | cons a l =>
    cases h
    intro x hx
    rcases List.mem_cons.1 hx with rfl | hx
    · exact (le_foldl_max l x).1
    · exact (le_foldl_max l a).2 x hx

theorem attrOffset_gt {comps : List Comp} {battrs : List Int} {o : Int}
    (h : attrOffset comps battrs = .ok o) :
    1 ≤ o ∧ (∀ comp ∈ comps, ∀ a ∈ comp.bdrAttributes, a < o) ∧ ∀ a ∈ battrs, a + 1 < o := by
  unfold attrOffset at h
  simp only [bind_eq_ok] at h
  obtain ⟨o1, ho1, _, _, m, hm, he⟩ := h
  cases he
  have key := loop_inv (n := comps.length) (fun k (o : Int) => 0 ≤ o ∧
      ∀ comp ∈ comps.take k, ∀ a ∈ comp.bdrAttributes, a ≤ o) (s := 0) (t := o1)
    ⟨Int.le_refl 0, by simp⟩
    (by
      intro j u v hj ⟨h1, h2⟩ hb
      simp only [bind_eq_ok] at hb
      obtain ⟨comp, hc, mx, hmx, he⟩ := hb
      cases he
      rw [rd_of_lt hj] at hc
      cases hc
      refine ⟨le_trans h1 (le_max_left _ _), ?_⟩
      rw [List.take_succ_eq_append_getElem hj]
      intro comp hcomp a ha
      rcases List.mem_append.1 hcomp with hc | hc
      · exact le_trans (h2 comp hc a ha) (le_max_left _ _)
      · rw [List.mem_singleton] at hc
        subst hc
        exact le_trans (arrMax_ge hmx a ha) (le_max_right _ _)) ho1
  rw [List.take_length] at key
  refine ⟨?_, ?_, ?_⟩
  · have := le_max_left o1 (m + 1); have := key.1; omega
  · intro comp hc a ha
    have := key.2 comp hc a ha
    have := le_max_left o1 (m + 1); omega
  · intro a ha
    have := arrMax_ge hm a ha
    have := le_max_right o1 (m + 1); omega

theorem readPorts_holds {comps : List Comp} {meshTypes : List Int} {rows : List PortRow}
    {g : Global} {ws : List Assign} {r : List (List Int) × List PortInfo}
    (h0 : Holds comps meshTypes ws g.c2g) (h : readPorts comps meshTypes rows g = .ok r) :
    Holds comps meshTypes (ws ++ portAssigns r.2) r.1 ∧
    ∃ o, attrOffset comps g.battrs = .ok o ∧ r.2.length = rows.length ∧
      ∀ (p : Nat) (q : PortRow), rows[p]? = some q → r.2[p]? = some ⟨o + p, q.mesh1, q.mesh2, q.attr1, q.attr2⟩ := by
  unfold readPorts at h
  simp only [bind_eq_ok] at h
  obtain ⟨o, ho, s, hs, he⟩ := h
  cases he
  have key := loop_inv (n := rows.length)
    (fun k (s : Int × List (List Int) × List PortInfo) => s.1 = o + k ∧
      Holds comps meshTypes (ws ++ portAssigns s.2.2) s.2.1 ∧ s.2.2.length = k ∧
      ∀ (p : Nat) (q : PortRow), p < k → rows[p]? = some q →
        s.2.2[p]? = some ⟨o + p, q.mesh1, q.mesh2, q.attr1, q.attr2⟩)
    (s := (o, g.c2g, [])) (t := s)
    ⟨by simp, by simpa [portAssigns] using h0, rfl, fun p _ hp => absurd hp (by omega)⟩
    (by
      intro j u v hj ⟨h1, h2, h3, h4⟩ hb
      unfold portStep at hb
      simp only [bind_eq_ok] at hb
      obtain ⟨q, hq, i1, hi1, i2, hi2, _, hreq, c2, hc2, c3, hc3, he⟩ := hb
      cases he
      rw [rd_of_lt hj] at hq
      have hq' : rows[j] = q := Except.ok.inj hq
      rw [require_eq_ok] at hreq
      simp only [Bool.and_eq_true, decide_eq_true_eq] at hreq
      have e1 := set_holds h2 hi1 hreq.1 hc2
      have e2 := set_holds e1 hi2 hreq.2 hc3
      refine ⟨?_, ?_, by simp [h3], ?_⟩
      · show u.1 + 1 = _; rw [h1]; push_cast; ring
      · simpa [portAssigns, List.append_assoc] using e2
      · intro p q' hp hq2
        show (u.2.2 ++ [_])[p]? = _
        rcases Nat.lt_or_eq_of_le (Nat.le_of_lt_succ hp) with h' | rfl
        · rw [List.getElem?_append_left (by omega)]; exact h4 p q' h' hq2
        · rw [List.getElem?_append_right (by omega), h3]
          rw [List.getElem?_eq_getElem hj, hq'] at hq2
          cases hq2
          simp [h1]) hs
  refine ⟨key.2.1, o, ho, key.2.2.1, ?_⟩
  intro p q hq
  exact key.2.2.2 p q (List.getElem?_eq_some_iff.1 hq).1 hq

theorem setupPorts_ok {meshTypes : List Int} {refPorts : List PortData}
    {refItfs : List (List InterfaceInfo)} {rows : List PortRow} {infos : List (List InterfaceInfo)}
    (h : setupPorts meshTypes refPorts refItfs rows = .ok infos) :
    infos.length = rows.length ∧ ∀ (p : Nat) (r : PortRow), rows[p]? = some r →
      ∃ (t m1 m2 : Nat) (q : PortData) (i : List InterfaceInfo), r.type = t ∧ r.mesh1 = m1 ∧ r.mesh2 = m2 ∧
        refPorts[t]? = some q ∧ refItfs[t]? = some i ∧ infos[p]? = some i ∧
        meshTypes[m1]? = some (q.comp1 : Int) ∧ meshTypes[m2]? = some (q.comp2 : Int) ∧
        r.attr1 = q.attr1 ∧ r.attr2 = q.attr2 ∧ m1 ≠ m2 := by
  have key := loop_inv (n := rows.length) (fun k (acc : List (List InterfaceInfo)) =>
      acc.length = k ∧ ∀ (p : Nat) (r : PortRow), p < k → rows[p]? = some r →
      ∃ (t m1 m2 : Nat) (q : PortData) (i : List InterfaceInfo), r.type = t ∧ r.mesh1 = m1 ∧ r.mesh2 = m2 ∧
        refPorts[t]? = some q ∧ refItfs[t]? = some i ∧ acc[p]? = some i ∧
        meshTypes[m1]? = some (q.comp1 : Int) ∧ meshTypes[m2]? = some (q.comp2 : Int) ∧
        r.attr1 = q.attr1 ∧ r.attr2 = q.attr2 ∧ m1 ≠ m2) (s := []) (t := infos)
    ⟨rfl, fun p _ hp => absurd hp (by omega)⟩
    (by
      intro j u v hj ⟨hl, hu⟩ hb
      unfold attachPort at hb
      simp only [bind_eq_ok] at hb
      obtain ⟨r, hr, q, hq, c1, hc1, _, r1, c2, hc2, _, r2, _, r3, _, r4, _, r5, i, hi, he⟩ := hb
      cases he
      rw [rd_eq_ok] at hr
      rw [require_decide] at r1 r2 r3 r4
      rw [require_eq_ok] at r5
      obtain ⟨t, ht, hqt⟩ := rdI_ok.1 hq
      obtain ⟨m1, hm1, hc1⟩ := rdI_ok.1 hc1
      obtain ⟨m2, hm2, hc2⟩ := rdI_ok.1 hc2
      obtain ⟨t', ht', hit⟩ := rdI_ok.1 hi
      have : t' = t := by omega
      subst this
      refine ⟨by simp [hl], ?_⟩
      intro p r' hp hr'
      rcases Nat.lt_or_eq_of_le (Nat.le_of_lt_succ hp) with h' | rfl
      · obtain ⟨t, a, b, q, i, e1, e2, e3, e4, e5, e6, e7⟩ := hu p r' h' hr'
        exact ⟨t, a, b, q, i, e1, e2, e3, e4, e5,
          by rw [List.getElem?_append_left (by omega)]; exact e6, e7⟩
      · rw [hr] at hr'; cases hr'
        refine ⟨t', m1, m2, q, i, ht, hm1, hm2, hqt, hit,
          by rw [List.getElem?_append_right (by omega)]; simp [hl], r1 ▸ hc1, r2 ▸ hc2, r3, r4, ?_⟩
        rintro rfl
        rw [hc1] at hc2
        have e : c1 = c2 := Option.some.inj hc2
        have : q.comp1 = q.comp2 := by omega
        have : r.mesh1 = r.mesh2 := by omega
        simp_all) h
  exact ⟨key.1, fun p r hr => key.2 p r (List.getElem?_eq_some_iff.1 hr).1 hr⟩

theorem bdrElemAttr_ok {comp : Comp} {row : List Int} {be : Nat} {g : Int}
    (h : bdrElemAttr comp row be = .ok g) :
    0 ≤ g ∧ ∃ (a : Int) (i : Nat), comp.beAttr[be]? = some a ∧ a ∈ comp.bdrAttributes ∧
      arrFind comp.bdrAttributes a = i ∧ row[i]? = some g := by
  unfold bdrElemAttr at h
  simp only [bind_eq_ok] at h
  obtain ⟨a, ha, _, h1, g', hg, _, h2, he⟩ := h
  cases he
  rw [require_decide] at h1 h2
  rw [rd_eq_ok] at ha
  obtain ⟨i, hi, hia⟩ := arrFind_nonneg h1
  obtain ⟨i', hi', hr⟩ := rdI_ok.1 hg
  have : i' = i := by omega
  subst this
  exact ⟨h2, a, i', ha, List.mem_of_getElem? hia, hi, hr⟩

theorem meshBdr_ok {comps : List Comp} {meshTypes : List Int} {c2g : List (List Int)}
    {mesh : List (List Int × List Int)}
    (h : loop meshTypes.length (meshBdr comps meshTypes c2g) [] = .ok mesh) :
    mesh.length = meshTypes.length ∧ ∀ m, m < meshTypes.length → ∃ comp row e,
      IsCopy comps meshTypes m comp ∧ c2g[m]? = some row ∧ mesh[m]? = some e ∧
      e.1.length = comp.beAttr.length ∧ Topology.Spec.AttributeList e.1 e.2 ∧
      ∀ be, be < comp.beAttr.length → ∃ g, e.1[be]? = some g ∧ bdrElemAttr comp row be = .ok g := by
  have key := loop_inv (n := meshTypes.length) (fun k (acc : List (List Int × List Int)) =>
      acc.length = k ∧ ∀ m, m < k → ∃ comp row e,
      IsCopy comps meshTypes m comp ∧ c2g[m]? = some row ∧ acc[m]? = some e ∧
      e.1.length = comp.beAttr.length ∧ Topology.Spec.AttributeList e.1 e.2 ∧
      ∀ be, be < comp.beAttr.length → ∃ g, e.1[be]? = some g ∧ bdrElemAttr comp row be = .ok g)
    (s := []) (t := mesh) ⟨rfl, fun p hp => absurd hp (by omega)⟩
    (by
      intro j u v hj ⟨hl, hu⟩ hb
      unfold meshBdr at hb
      simp only [bind_eq_ok] at hb
      obtain ⟨c, hc, comp, hcomp, row, hrow, attrs, hattrs, l, hl', he⟩ := hb
      cases he
      rw [rd_eq_ok] at hc hrow
      obtain ⟨k, rfl, hk⟩ := rdI_ok.1 hcomp
      obtain ⟨l2, e1, e2⟩ := updateAttributes_spec attrs
      rw [e1] at hl'; cases hl'
      have inner := loop_inv (n := comp.beAttr.length) (fun k (l : List Int) =>
          l.length = comp.beAttr.length ∧ ∀ be, be < k → ∃ g, l[be]? = some g ∧
            bdrElemAttr comp row be = .ok g) (s := comp.beAttr) (t := attrs)
        ⟨rfl, fun p hp => absurd hp (by omega)⟩
        (by
          intro i a b hi ⟨ha, hb⟩ hc
          simp only [bind_eq_ok] at hc
          obtain ⟨g, hg, hw⟩ := hc
          rw [wr_of_lt (by omega)] at hw
          cases hw
          refine ⟨by simpa using ha, ?_⟩
          intro be hbe
          rcases Nat.lt_or_eq_of_le (Nat.le_of_lt_succ hbe) with h' | rfl
          · rw [List.getElem?_set_ne (by omega)]; exact hb be h'
          · exact ⟨g, by rw [List.getElem?_set_self (by omega)], hg⟩) hattrs
      refine ⟨by simp [hl], ?_⟩
      intro m hm
      rcases Nat.lt_or_eq_of_le (Nat.le_of_lt_succ hm) with h' | rfl
      · obtain ⟨comp, row, e, a1, a2, a3, a4⟩ := hu m h'
        exact ⟨comp, row, e, a1, a2, by rw [List.getElem?_append_left (by omega)]; exact a3, a4⟩
      · exact ⟨comp, row, (attrs, l), ⟨k, hc, hk⟩, hrow,
          by rw [List.getElem?_append_right (by omega)]; simp [hl], inner.1, e2, inner.2⟩) h
  exact key

end Verif.CompSetup
