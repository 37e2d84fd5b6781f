import Verif.Proofs.Ports
import Mathlib.Data.List.Forall2
import Mathlib.Data.Rat.Defs
import Mathlib.Algebra.Order.Ring.Rat

/-!
# Property C32: port detection
-/

namespace Verif.Ports

open Verif.Topology

section
variable {K : Type} [Field K] [LinearOrder K]

omit [Field K] [LinearOrder K] in
theorem pairElements_ok {m1 m2 : CMesh K} {vmap : IMap} {attr1 attr2 : Int}
    {pairs : List (Int × Int)}
    (hlen : (elems m1 attr1).length = (elems m2 attr2).length)
    (h : pairElements m1 m2 vmap (elems m1 attr1) (elems m2 attr2) = .ok pairs) :
    pairs.map Prod.snd = (elems m2 attr2).map (fun b : Nat => (b : Int)) ∧
    ∀ p ∈ pairs, ∃ (b1 b2 : Nat) (vs1 vs2 : List Nat), p = ((b1 : Int), (b2 : Int)) ∧
      Spec.Elem m1 attr1 b1 vs1 ∧ Spec.Elem m2 attr2 b2 vs2 ∧
      ∃ img, List.Forall₂ (Spec.Maps vmap) vs2 img ∧ img.Perm vs1 := by
  unfold pairElements at h
  obtain ⟨ps, hps, h⟩ := bind_eq_ok.1 h
  obtain ⟨u, hu, h⟩ := bind_eq_ok.1 h
  have e : ps = pairs := by simpa using h
  subst e
  -- entries written so far
  have hinv := loop_inv (Inv := fun k (ps : List (Int × Int)) =>
      ps.length = (elems m1 attr1).length ∧
      ∀ i p, ps[i]? = some p → p = (-1, -1) ∨ ∃ (b1 b2 : Nat) (vs1 vs2 : List Nat),
        p = ((b1 : Int), (b2 : Int)) ∧ (elems m2 attr2)[i]? = some b2 ∧
        Spec.Elem m1 attr1 b1 vs1 ∧ Spec.Elem m2 attr2 b2 vs2 ∧
        ∃ img, List.Forall₂ (Spec.Maps vmap) vs2 img ∧ img.Perm vs1)
    ⟨by simp, by
      intro i p hp
      left
      have := List.mem_of_getElem? hp
      exact List.eq_of_mem_replicate this⟩
    (by
      intro k ps ps' hk hinv hb
      obtain ⟨hl, hI⟩ := hinv
      simp only [rd_of_lt hk, ok_bind] at hb
      obtain ⟨vs, hvs⟩ := mem_elems.1 (List.getElem_mem hk)
      rw [beVertices_eq hvs, ok_bind] at hb
      obtain ⟨key, hkey, hb⟩ := bind_eq_ok.1 hb
      obtain ⟨o, ho, hb⟩ := bind_eq_ok.1 hb
      cases o with
      | none => cases hb; exact ⟨hl, hI⟩
      | some b1 =>
        simp only at hb
        rw [wr_of_lt (by omega)] at hb
        cases hb
        refine ⟨by simpa using hl, ?_⟩
        intro i p hp
        rw [List.getElem?_set] at hp
        by_cases hi : k = i
        · subst hi
          rw [if_pos rfl, if_pos (by omega)] at hp
          cases hp
          right
          obtain ⟨hm, vs1, hv1, hs⟩ := findElement_some ho
          obtain ⟨vs1', hv1'⟩ := mem_elems.1 hm
          have : vs1' = vs1 := by
            have := (beVertices_eq hv1').symm.trans hv1
            simpa using this
          subst this
          exact ⟨b1, _, vs1', vs, rfl, List.getElem?_eq_getElem hk, hv1', hvs, key,
            translate_ok hkey, (sort_eq_iff.1 hs).symm⟩
        · rw [if_neg hi] at hp
          exact hI i p hp) hps
  obtain ⟨hl, hI⟩ := hinv
  -- the final assertions
  have hpos : ∀ (i : Nat) (p : Int × Int), i < ps.length → ps[i]? = some p → 0 ≤ p.1 := by
    have := loop_inv (Inv := fun k (_ : Unit) => ∀ i p, i < k → ps[i]? = some p → 0 ≤ p.1)
      (by intro i p h; omega)
      (by
        intro k _ _ hk hI hb i p hi hp
        by_cases hik : i = k
        · subst hik
          rw [rd_eq_ok.2 hp, ok_bind] at hb
          obtain ⟨_, h1, _⟩ := bind_eq_ok.1 hb
          simpa using require_eq_ok.1 h1
        · exact hI i p (by omega) hp) hu
    exact this
  have hall : ∀ (i : Nat) (p : Int × Int), ps[i]? = some p → ∃ (b1 b2 : Nat) (vs1 vs2 : List Nat),
        p = ((b1 : Int), (b2 : Int)) ∧ (elems m2 attr2)[i]? = some b2 ∧
        Spec.Elem m1 attr1 b1 vs1 ∧ Spec.Elem m2 attr2 b2 vs2 ∧
        ∃ img, List.Forall₂ (Spec.Maps vmap) vs2 img ∧ img.Perm vs1 := by
    intro i p hp
    rcases hI i p hp with h | h
    · subst h
      have := hpos i _ (List.getElem?_eq_some_iff.1 hp).1 hp
      simp at this
    · exact h
  constructor
  · apply List.ext_getElem?
    intro i
    rw [List.getElem?_map, List.getElem?_map]
    by_cases hi : i < ps.length
    · obtain ⟨b1, b2, _, _, he, hb, _⟩ := hall i _ (List.getElem?_eq_getElem hi)
      rw [List.getElem?_eq_getElem hi, hb, he]
      rfl
    · rw [List.getElem?_eq_none (by omega), List.getElem?_eq_none (by omega)]
      rfl
  · intro p hp
    obtain ⟨i, hi⟩ := List.getElem?_of_mem hp
    obtain ⟨b1, b2, vs1, vs2, h1, _, h2⟩ := hall i p hi
    exact ⟨b1, b2, vs1, vs2, h1, h2⟩

/-- Opening up a successful run. -/
theorem buildPort_inv {thr : K} {dim : Nat} {tf : List K → Outcome (List K)} {comps : List (CMesh K)}
    {c1 c2 : Nat} {attr1 attr2 : Int} {pd : PortData}
    (h : buildPort thr dim tf comps c1 c2 attr1 attr2 = .ok pd) :
    ∃ m1 m2, comps[c1]? = some m1 ∧ comps[c2]? = some m2 ∧
      (pd.comp1 = c1 ∧ pd.comp2 = c2 ∧ pd.attr1 = attr1 ∧ pd.attr2 = attr2) ∧
      (elems m1 attr1).length = (elems m2 attr2).length ∧
      ∃ vtx1 vtx2 x2s, portVertices m1 (elems m1 attr1) = .ok vtx1 ∧
        portVertices m2 (elems m2 attr2) = .ok vtx2 ∧ vtx1.length = vtx2.length ∧
        transformVertices tf dim m2 vtx2 = .ok x2s ∧
        matchVertices thr dim m1 vtx1 x2s = .ok pd.vtx2to1 ∧
        pairElements m1 m2 pd.vtx2to1 (elems m1 attr1) (elems m2 attr2) = .ok pd.bePairs := by
  unfold buildPort at h
  obtain ⟨m1, h1, h⟩ := bind_eq_ok.1 h
  obtain ⟨m2, h2, h⟩ := bind_eq_ok.1 h
  obtain ⟨_, _, h⟩ := bind_eq_ok.1 h
  obtain ⟨_, _, h⟩ := bind_eq_ok.1 h
  rw [attrElems_eq, ok_bind, attrElems_eq, ok_bind] at h
  obtain ⟨_, h5, h⟩ := bind_eq_ok.1 h
  obtain ⟨vtx1, hv1, h⟩ := bind_eq_ok.1 h
  obtain ⟨vtx2, hv2, h⟩ := bind_eq_ok.1 h
  obtain ⟨_, h6, h⟩ := bind_eq_ok.1 h
  obtain ⟨x2s, hx, h⟩ := bind_eq_ok.1 h
  obtain ⟨vm, hm, h⟩ := bind_eq_ok.1 h
  obtain ⟨ps, hp, h⟩ := bind_eq_ok.1 h
  cases h
  exact ⟨m1, m2, rd_eq_ok.1 h1, rd_eq_ok.1 h2, ⟨rfl, rfl, rfl, rfl⟩,
    by simpa using require_eq_ok.1 h5, vtx1, vtx2, x2s, hv1, hv2,
    by simpa using require_eq_ok.1 h6, hx, hm, hp⟩

theorem filter_one {α β : Type} [BEq β] [LawfulBEq β] {f : α → β} :
    ∀ {l : List α} {b : β}, (l.map f).Nodup → b ∈ l.map f →
      (l.filter (fun a => f a == b)).length = 1
  | [], _, _, h => by simp at h
  | a :: l, b, hn, hm => by
    rw [List.map_cons, List.nodup_cons] at hn
    rw [List.map_cons, List.mem_cons] at hm
    by_cases he : f a = b
    · have : l.filter (fun a => f a == b) = [] := by
        rw [List.filter_eq_nil_iff]
        intro c hc hcb
        have hcb' : f c = b := by simpa using hcb
        exact hn.1 (he.trans hcb'.symm ▸ List.mem_map_of_mem (f := f) hc)
      simp [he, this]
    · have h2 : b ∈ l.map f := hm.resolve_left (fun e => he e.symm)
      simp only [List.filter_cons, beq_iff_eq, he, if_false]
      exact filter_one hn.2 h2

/-- C32: whenever port detection succeeds, the port joins the two sides: the vertex map is a
one-to-one correspondence between the vertices of both sides, mapped vertices coincide up to the
threshold after the transformation, every boundary element of side 2 is paired exactly once and
paired elements have the same vertices. -/
theorem buildPort_joins {thr : K} {dim : Nat} {tf : List K → Outcome (List K)}
    {comps : List (CMesh K)} {c1 c2 : Nat} {attr1 attr2 : Int} {pd : PortData}
    (h : buildPort thr dim tf comps c1 c2 attr1 attr2 = .ok pd) :
    (pd.comp1 = c1 ∧ pd.comp2 = c2 ∧ pd.attr1 = attr1 ∧ pd.attr2 = attr2) ∧
    ∃ m1 m2, comps[c1]? = some m1 ∧ comps[c2]? = some m2 ∧
      Spec.Joins thr dim tf m1 m2 attr1 attr2 pd.vtx2to1 pd.bePairs := by
  obtain ⟨m1, m2, h1, h2, hpd, hlen, vtx1, vtx2, x2s, hv1, hv2, hvl, hx, hm, hp⟩ := buildPort_inv h
  refine ⟨hpd, m1, m2, h1, h2, ?_⟩
  obtain ⟨l1, hl1, hn1, hc1⟩ := portVertices_ok m1 attr1
  obtain ⟨l2, hl2, hn2, hc2⟩ := portVertices_ok m2 attr2
  rw [hl1] at hv1; cases hv1
  rw [hl2] at hv2; cases hv2
  have hM := matchVertices_ok hx hm
  have hvals := hM.vals
  rw [List.take_length] at hvals
  have hklen : (pd.vtx2to1.map Prod.fst).length = vtx2.length := by
    have := congrArg List.length hvals
    simp only [List.length_map, List.length_reverse] at this
    rw [List.length_map, this, hvl]
  have hkeys : (pd.vtx2to1.map Prod.fst).Perm vtx2 := by
    refine (List.subperm_of_subset hM.nodup ?_).perm_of_length_le (by omega)
    intro k hk
    obtain ⟨p, hp, rfl⟩ := List.mem_map.1 hk
    exact hM.keys p hp
  have hvn : (pd.vtx2to1.map Prod.snd).Nodup := by
    rw [hvals]; exact List.nodup_reverse.2 hn1
  obtain ⟨hq1, hq2⟩ := pairElements_ok hlen hp
  refine ⟨?_, ?_, ?_, ?_, ?_, ?_, hq2⟩
  · intro v2
    rw [← hc2, ← hkeys.mem_iff]
    simp [Spec.Maps]
  · intro v1
    rw [← hc1, ← List.mem_reverse, ← hvals]
    simp [Spec.Maps]
  · intro v2 a b ha hb
    have := List.inj_on_of_nodup_map hM.nodup ha hb rfl
    simpa using this
  · intro v2 v2' v1 ha hb
    have := List.inj_on_of_nodup_map hvn ha hb rfl
    simpa using this
  · intro v2 v1 hmp
    exact hM.near _ hmp
  · intro b2 hb2
    have hb2' := mem_elems.2 hb2
    apply filter_one (f := Prod.snd)
    · rw [hq1]
      exact (nodup_elems m2 attr2).map (fun a b e => by simpa using e)
    · rw [hq1]
      exact List.mem_map_of_mem (f := fun b : Nat => (b : Int)) hb2'

theorem forall₂_perm {m : IMap}
    (hinj : ∀ v2 v2' v1, Spec.Maps m v2 v1 → Spec.Maps m v2' v1 → v2 = v2')
    {a a' b b' : List Nat} (h : List.Forall₂ (Spec.Maps m) a b)
    (h' : List.Forall₂ (Spec.Maps m) a' b') (hp : b.Perm b') : a.Perm a' := by
  -- the inverse map
  let g : Nat → Nat := fun v => ((m.find? (·.2 == v)).map Prod.fst).getD 0
  have hg : ∀ v2 v1, Spec.Maps m v2 v1 → g v1 = v2 := by
    intro v2 v1 hm
    show ((m.find? (·.2 == v1)).map Prod.fst).getD 0 = v2
    cases hf : m.find? (·.2 == v1) with
    | none =>
      have := List.find?_eq_none.1 hf _ hm
      simp at this
    | some p =>
      have h1 := List.find?_some hf
      have h2 := List.mem_of_find?_eq_some hf
      have h3 : p.2 = v1 := by simpa using h1
      exact hinj _ _ v1 (show (p.1, v1) ∈ m from h3 ▸ h2) hm
  have hmap : ∀ {a b : List Nat}, List.Forall₂ (Spec.Maps m) a b → a = b.map g := by
    intro a b h
    induction h with
    | nil => rfl
    | cons h1 _ ih => rw [List.map_cons, ← ih, hg _ _ h1]
  rw [hmap h, hmap h']
  exact hp.map g

/-- C32: if different boundary elements of side 2 have different vertex sets, every boundary element
of side 1 is also paired exactly once: the pairing is a bijection. -/
theorem buildPort_bijective {thr : K} {dim : Nat} {tf : List K → Outcome (List K)}
    {comps : List (CMesh K)} {c1 c2 : Nat} {attr1 attr2 : Int} {pd : PortData} {m1 m2 : CMesh K}
    (h : buildPort thr dim tf comps c1 c2 attr1 attr2 = .ok pd)
    (h1 : comps[c1]? = some m1) (h2 : comps[c2]? = some m2)
    (hd : ∀ b b' vs vs', Spec.Elem m2 attr2 b vs → Spec.Elem m2 attr2 b' vs' → vs.Perm vs' → b = b') :
    ∀ b1 : Nat, (∃ vs, Spec.Elem m1 attr1 b1 vs) →
      (pd.bePairs.filter (·.1 == (b1 : Int))).length = 1 := by
  obtain ⟨m1', m2', h1', h2', _, hlen, _, _, _, _, _, _, _, _, hp⟩ := buildPort_inv h
  rw [h1] at h1'; cases h1'
  rw [h2] at h2'; cases h2'
  obtain ⟨_, m1', m2', h1', h2', hJ⟩ := buildPort_joins h
  rw [h1] at h1'; cases h1'
  rw [h2] at h2'; cases h2'
  obtain ⟨hq1, hq2⟩ := pairElements_ok hlen hp
  have hn2 : (pd.bePairs.map Prod.snd).Nodup := by
    rw [hq1]; exact (nodup_elems m2 attr2).map (fun a b e => by simpa using e)
  have hn1 : (pd.bePairs.map Prod.fst).Nodup := by
    refine List.Nodup.map_on ?_ (List.Nodup.of_map _ hn2)
    intro p hp q hq hpq
    obtain ⟨b1, b2, vs1, vs2, rfl, e1, e2, img, hf, hperm⟩ := hq2 p hp
    obtain ⟨b1', b2', vs1', vs2', rfl, e1', e2', img', hf', hperm'⟩ := hq2 q hq
    have : b1 = b1' := by simpa using hpq
    subst this
    have : vs1 = vs1' := by
      have := e1.symm.trans e1'
      simpa using this
    subst this
    have := hd _ _ _ _ e2 e2' (forall₂_perm hJ.injective hf hf' (hperm.trans hperm'.symm))
    rw [this]
  have hperm : (pd.bePairs.map Prod.fst).Perm ((elems m1 attr1).map (fun b : Nat => (b : Int))) := by
    refine (List.subperm_of_subset hn1 ?_).perm_of_length_le ?_
    · intro x hx
      obtain ⟨p, hp, rfl⟩ := List.mem_map.1 hx
      obtain ⟨b1, b2, vs1, vs2, rfl, e1, _⟩ := hq2 p hp
      exact List.mem_map_of_mem (f := fun b : Nat => (b : Int)) (mem_elems.2 ⟨vs1, e1⟩)
    · have := congrArg List.length hq1
      simp only [List.length_map] at this ⊢
      omega
  intro b1 hb1
  apply filter_one (f := Prod.fst) hn1
  rw [hperm.mem_iff]
  exact List.mem_map_of_mem (f := fun b : Nat => (b : Int)) (mem_elems.2 hb1)

omit [Field K] [LinearOrder K] in
theorem length_elems (m : CMesh K) (attr : Int) :
    (elems m attr).length = (m.bes.filter (·.1 == attr)).length := by
  have key : ∀ n, n ≤ m.bes.length → ((List.range n).filter
      (fun b => decide ((m.bes[b]?).map Prod.fst = some attr))).length =
      ((m.bes.take n).filter (·.1 == attr)).length := by
    intro n
    induction n with
    | zero => simp
    | succ n ih =>
      intro hn
      have hn' : n < m.bes.length := hn
      rw [List.range_succ, List.filter_append, List.length_append, ih (by omega),
        List.take_add_one, List.getElem?_eq_getElem hn', List.filter_append, List.length_append]
      congr 1
      by_cases he : m.bes[n].1 = attr
      · simp [he, List.getElem?_eq_getElem hn']
      · simp [he, List.getElem?_eq_getElem hn']
  have := key m.bes.length le_rfl
  rw [List.take_length] at this
  exact this

/-- C32: port detection succeeds on congruent boundaries and finds the congruence. -/
theorem buildPort_complete {thr : K} {dim : Nat} {tf : List K → Outcome (List K)}
    {comps : List (CMesh K)} {c1 c2 : Nat} {attr1 attr2 : Int} {m1 m2 : CMesh K} {σ : Nat → Nat}
    (h1 : comps[c1]? = some m1) (h2 : comps[c2]? = some m2)
    (hC : Spec.Congruent thr dim tf m1 m2 attr1 attr2 σ) :
    ∃ pd, buildPort thr dim tf comps c1 c2 attr1 attr2 = .ok pd ∧
      ∀ v2 v1, Spec.Maps pd.vtx2to1 v2 v1 ↔ Spec.Vertex m2 attr2 v2 ∧ v1 = σ v2 := by
  obtain ⟨l1, hl1, hn1, hc1⟩ := portVertices_ok m1 attr1
  obtain ⟨l2, hl2, hn2, hc2⟩ := portVertices_ok m2 attr2
  have hlen : (elems m1 attr1).length = (elems m2 attr2).length := by
    rw [length_elems, length_elems, hC.sameNumber]
  have hperm : (l2.map σ).Perm l1 := by
    refine (List.perm_ext_iff_of_nodup ?_ hn1).2 ?_
    · refine List.Nodup.map_on ?_ hn2
      intro a ha b hb e
      exact hC.inj _ _ ((hc2 a).1 ha) ((hc2 b).1 hb) e
    · intro v
      rw [hc1, List.mem_map]
      constructor
      · rintro ⟨w, hw, rfl⟩; exact hC.maps _ ((hc2 w).1 hw)
      · intro hv
        obtain ⟨w, hw, e⟩ := hC.surj v hv
        exact ⟨w, (hc2 w).2 hw, e⟩
  have hvl : l1.length = l2.length := by
    have := hperm.length_eq
    rw [List.length_map] at this
    exact this.symm
  obtain ⟨x2s, hx⟩ := transformVertices_total (tf := tf) (dim := dim) (m2 := m2) (vtx2 := l2)
    (by
      intro v hv
      obtain ⟨x, y, a, b, _⟩ := hC.coords2 v ((hc2 v).1 hv)
      exact ⟨x, y, a, b⟩)
  obtain ⟨hk, hp⟩ := transformVertices_ok hx
  have hx2len : ∀ p ∈ x2s, dim ≤ p.2.length := by
    intro p hpm
    obtain ⟨x, hx, ht⟩ := hp p hpm
    have hv : p.1 ∈ l2 := by rw [← hk]; exact List.mem_map_of_mem (f := Prod.fst) hpm
    obtain ⟨x', y, a, b, c⟩ := hC.coords2 _ ((hc2 _).1 hv)
    rw [hx] at a; cases a
    rw [ht] at b; cases b
    exact c
  -- vertex matching
  obtain ⟨vm, hvm, hI, hIv, hvals⟩ := loop_total (n := l1.length)
    (body := fun k m => do
      let v1 ← rd l1 k
      let x1 ← rd m1.verts v1
      match ← findPartner thr dim x1 m x2s with
      | some v2 => .ok (m.set v2 v1)
      | none => .error .abort)
    (fun k (m : IMap) => (∀ p ∈ m, p.1 ∈ l2) ∧ (∀ p ∈ m, p.2 = σ p.1) ∧
      m.map Prod.snd = (l1.take k).reverse) (s := []) ⟨by simp, by simp, by simp⟩
    (by
      intro k m hkl ⟨hI, hIv, hvals⟩
      simp only [rd_of_lt hkl, ok_bind]
      have hV1 := (hc1 _).1 (List.getElem_mem hkl)
      obtain ⟨x1, hx1, hx1l⟩ := hC.coords1 _ hV1
      rw [rd_eq_ok.2 hx1, ok_bind]
      obtain ⟨w, hw, hσ⟩ := hC.surj _ hV1
      -- the partner is still free
      have hfree : m.count w = false := by
        rw [count_false]
        intro hmem
        obtain ⟨p, hpm, hpw⟩ := List.mem_map.1 hmem
        have h1 : p.2 = l1[k] := by rw [hIv p hpm, hpw, hσ]
        have h2 : l1[k] ∈ l1.take k := by
          rw [← List.mem_reverse, ← hvals, ← h1]
          exact List.mem_map_of_mem (f := Prod.snd) hpm
        obtain ⟨i, hi, he⟩ := List.getElem_of_mem h2
        rw [List.getElem_take] at he
        rw [List.length_take] at hi
        have := (List.Nodup.getElem_inj_iff hn1).1 he
        omega
      obtain ⟨y2, hy2⟩ : ∃ y2, (w, y2) ∈ x2s := by
        have : w ∈ x2s.map Prod.fst := by rw [hk]; exact (hc2 w).2 hw
        obtain ⟨p, hpm, rfl⟩ := List.mem_map.1 this
        exact ⟨p.2, hpm⟩
      have hcl : close thr dim x1 y2 = .ok true := by
        obtain ⟨a, b, c, ha, hb, hc, hnear⟩ := (hC.near _ _ hV1 hw).2 hσ.symm
        obtain ⟨x, hx, ht⟩ := hp _ hy2
        rw [hx1] at ha; cases ha
        rw [hx] at hb; cases hb
        rw [ht] at hc; cases hc
        exact closeFrom_of dim 0 (fun e _ he => hnear e (by omega))
      obtain ⟨v2, hv2⟩ := findPartner_total hx1l hfree hcl hx2len hy2
      rw [hv2, ok_bind]
      obtain ⟨hc, x2, hm2, hcl2⟩ := findPartner_some hv2
      refine ⟨_, rfl, ?_⟩
      rw [set_of_absent hc]
      have hv2l : v2 ∈ l2 := by rw [← hk]; exact List.mem_map_of_mem (f := Prod.fst) hm2
      have hvσ : l1[k] = σ v2 := by
        refine (hC.near _ _ hV1 ((hc2 _).1 hv2l)).1 ?_
        obtain ⟨x, hx, ht⟩ := hp _ hm2
        exact ⟨x1, x, x2, hx1, hx, ht,
          fun d hd => closeFrom_true dim 0 true hcl2 d (by omega) (by omega)⟩
      refine ⟨?_, ?_, ?_⟩
      · intro p hp
        rcases List.mem_cons.1 hp with hp | hp
        · subst hp; exact hv2l
        · exact hI p hp
      · intro p hp
        rcases List.mem_cons.1 hp with hp | hp
        · subst hp; exact hvσ
        · exact hIv p hp
      · rw [List.take_add_one, List.getElem?_eq_getElem hkl]
        simp only [List.map_cons, hvals, Option.toList_some, List.reverse_append,
          List.reverse_singleton, List.singleton_append])
  rw [List.take_length] at hvals
  have hcount : ∀ v, Spec.Vertex m2 attr2 v → (v, σ v) ∈ vm := by
    intro v hv
    have : σ v ∈ vm.map Prod.snd := by
      rw [hvals, List.mem_reverse, hc1]; exact hC.maps v hv
    obtain ⟨p, hpm, he⟩ := List.mem_map.1 this
    have : p.1 = v := by
      refine hC.inj _ _ ((hc2 _).1 (hI p hpm)) hv ?_
      rw [← hIv p hpm, he]
    have h3 : p = (v, σ v) := Prod.ext this he
    exact h3 ▸ hpm
  -- element pairing
  have hpair : ∃ ps, pairElements m1 m2 vm (elems m1 attr1) (elems m2 attr2) = .ok ps := by
    unfold pairElements
    obtain ⟨ps, hps, hl, hset⟩ := loop_total (n := (elems m2 attr2).length)
      (body := fun k pairs => do
        let b2 ← rd (elems m2 attr2) k
        let vs ← beVertices m2 b2
        let key ← translate vm vs
        match ← findElement m1 (sort key) (elems m1 attr1) with
        | some b1 => wr pairs k ((b1 : Int), (b2 : Int))
        | none => .ok pairs)
      (fun k (ps : List (Int × Int)) => ps.length = (elems m1 attr1).length ∧
        ∀ i p, i < k → ps[i]? = some p → 0 ≤ p.1 ∧ 0 ≤ p.2)
      (s := List.replicate (elems m1 attr1).length (-1, -1)) ⟨by simp, by intro i p h; omega⟩
      (by
        intro k ps hkl ⟨hl, hset⟩
        obtain ⟨vs2, hvs2⟩ := mem_elems.1 (List.getElem_mem hkl)
        simp only [rd_of_lt hkl, ok_bind, beVertices_eq hvs2]
        rw [translate_total (σ := σ)
          (fun v hv => count_true.2 ⟨_, hcount v ⟨_, _, hvs2, hv⟩⟩) hIv, ok_bind]
        obtain ⟨b1, vs1, he1, hperm1⟩ := hC.elements _ _ hvs2
        obtain ⟨c, hc⟩ := findElement_total (beVertices_eq he1) (sort_eq_iff.2 hperm1.symm)
          (l := elems m1 attr1)
          (by
            intro b hb
            obtain ⟨vs, hvs⟩ := mem_elems.1 hb
            refine ⟨vs, beVertices_eq hvs, ?_⟩
            rw [(sort_perm _).length_eq, List.length_map]
            exact hC.sameSize _ _ _ _ hvs hvs2)
          (mem_elems.2 ⟨_, he1⟩)
        rw [hc, ok_bind]
        simp only
        rw [wr_of_lt (by omega)]
        refine ⟨_, rfl, by simpa using hl, ?_⟩
        intro i p hi hp
        rw [List.getElem?_set] at hp
        by_cases hik : k = i
        · subst hik
          rw [if_pos rfl, if_pos (by omega)] at hp
          cases hp
          exact ⟨Int.natCast_nonneg _, Int.natCast_nonneg _⟩
        · rw [if_neg hik] at hp
          exact hset i p (by omega) hp)
    refine ⟨ps, bind_eq_ok.2 ⟨ps, hps, ?_⟩⟩
    have := loop_total (n := ps.length)
      (body := fun i (_ : Unit) => do
        let p ← rd ps i
        require (decide (0 ≤ p.1))
        require (decide (0 ≤ p.2))) (fun _ _ => True) (s := ()) trivial
      (by
        intro i _ hi _
        obtain ⟨a, b⟩ := hset i _ (by omega) (List.getElem?_eq_getElem hi)
        rw [rd_of_lt hi, ok_bind, decide_eq_true a, require_true, ok_bind, decide_eq_true b,
          require_true]
        exact ⟨(), rfl, trivial⟩)
    obtain ⟨_, ht, _⟩ := this
    exact bind_eq_ok.2 ⟨_, ht, rfl⟩
  obtain ⟨ps, hps⟩ := hpair
  refine ⟨⟨c1, c2, attr1, attr2, vm, ps⟩, ?_, ?_⟩
  · unfold buildPort
    have e1 : decide (arrFind m1.bdrAttributes attr1 < 0) = false := by
      rw [decide_eq_false_iff_not, arrFind_neg, not_not]; exact hC.listed1
    have e2 : decide (arrFind m2.bdrAttributes attr2 < 0) = false := by
      rw [decide_eq_false_iff_not, arrFind_neg, not_not]; exact hC.listed2
    have e3 : matchVertices thr dim m1 l1 x2s = .ok vm := hvm
    simp only [rd_eq_ok.2 h1, rd_eq_ok.2 h2, ok_bind, e1, e2, Bool.not_false, require_true,
      attrElems_eq, hlen, beq_self_eq_true, hl1, hl2, hvl, hx, e3, hps]
  · intro v2 v1
    constructor
    · intro hm
      exact ⟨(hc2 _).1 (hI _ hm), hIv _ hm⟩
    · rintro ⟨hv, rfl⟩
      exact hcount v2 hv

end

theorem forall₂_map {R : Nat → Nat → Prop} {g : Nat → Nat} (hg : ∀ a b, R a b → g a = b) :
    ∀ {a b : List Nat}, List.Forall₂ R a b → b = a.map g
  | _, _, .nil => rfl
  | _, _, .cons h t => by rw [List.map_cons, hg _ _ h, ← forall₂_map hg t]

theorem forall₂_left {R : Nat → Nat → Prop} {v : Nat} :
    ∀ {a b : List Nat}, List.Forall₂ R a b → v ∈ a → ∃ w, R v w
  | _, _, .nil, h => by simp at h
  | _, _, .cons h t, hv => by
    rcases List.mem_cons.1 hv with e | e
    · subst e; exact ⟨_, h⟩
    · exact forall₂_left t e

/-- C32: reference interfaces of a port between segments.  If every pair consists of segments whose
mapped vertices coincide (as `buildPort_joins` guarantees) the interfaces are built, one per pair in
order, and each records the faces of its pair and how their vertices meet. -/
theorem refInterfaces_segment (tri quad : List Nat → List Nat → Outcome Int) (f1 f2 : List BEFace)
    (vmap : IMap) (pairs : List (Nat × Nat))
    (hfun : ∀ v2 v1 v1', Spec.Maps vmap v2 v1 → Spec.Maps vmap v2 v1' → v1 = v1')
    (hp : ∀ p ∈ pairs, ∃ b1 b2, f1[p.1]? = some b1 ∧ f2[p.2]? = some b2 ∧ b1.ty = .segment ∧
      b2.ty = .segment ∧ 0 ≤ b2.inf ∧ b1.vtx.length = 2 ∧
      ∃ img, List.Forall₂ (Spec.Maps vmap) b2.vtx img ∧ img.Perm b1.vtx) :
    ∃ Is, refInterfaces tri quad f1 f2 vmap pairs = .ok Is ∧ Is.length = pairs.length ∧
      ∀ (k : Nat) p, pairs[k]? = some p → ∃ I, Is[k]? = some I ∧ Spec.SegmentInterface f1 f2 vmap p I := by
  have hone : ∀ p ∈ pairs, ∃ I, refInterface tri quad f1 f2 vmap p = .ok I ∧
      Spec.SegmentInterface f1 f2 vmap p I := by
    intro p hpm
    obtain ⟨b1, b2, h1, h2, ht1, ht2, hinf, hlen, img, hf, hperm⟩ := hp p hpm
    have htr : loop b2.vtx.length (fun v acc => do
        let x ← rd b2.vtx v
        require (vmap.count x)
        let y ← vmap.get x
        .ok (acc ++ [y])) [] = .ok img := by
      have htt : translate vmap b2.vtx = .ok img := by
        let g : Nat → Nat := fun v => ((vmap.find? (·.1 == v)).map Prod.snd).getD 0
        have hg : ∀ v2 v1, Spec.Maps vmap v2 v1 → g v2 = v1 := by
          intro v2 v1 hm
          show ((vmap.find? (·.1 == v2)).map Prod.snd).getD 0 = v1
          cases hf : vmap.find? (·.1 == v2) with
          | none =>
            have := List.find?_eq_none.1 hf _ hm
            simp at this
          | some q =>
            have e1 := List.find?_some hf
            have e2 := List.mem_of_find?_eq_some hf
            have e3 : q.1 = v2 := by simpa using e1
            exact hfun v2 _ _ (show (v2, q.2) ∈ vmap from e3 ▸ e2) hm
        have himg : img = b2.vtx.map g := by
          exact forall₂_map hg hf
        rw [himg]
        refine translate_total ?_ ?_
        · intro v hv
          rw [count_true]
          exact forall₂_left hf hv
        · rintro ⟨a, b⟩ hm
          exact (hg a b hm).symm
      exact htt
    have hl2 : b2.vtx.length = 2 := by rw [hf.length_eq, hperm.length_eq, hlen]
    obtain ⟨a0, a1, ha⟩ := List.length_eq_two.1 hlen
    obtain ⟨c0, c1, hc⟩ := List.length_eq_two.1 hl2
    obtain ⟨d0, d1, hd⟩ := List.length_eq_two.1 (hperm.length_eq.trans hlen)
    rw [hc, hd] at hf
    have hm0 : Spec.Maps vmap c0 d0 := by cases hf; assumption
    have hm1 : Spec.Maps vmap c1 d1 := by
      cases hf with
      | cons _ h => cases h; assumption
    unfold refInterface
    rw [rd_eq_ok.2 h1, ok_bind, rd_eq_ok.2 h2, ok_bind, ht1, ht2, decide_eq_true rfl, require_true,
      ok_bind, htr, ok_bind]
    have hor : (a1 = d0 ∧ a0 = d1) ∨ (a0 = d0 ∧ a1 = d1) := by
      rw [hd, ha] at hperm
      have e := hperm.mem_iff (a := d0)
      have e' := hperm.mem_iff (a := a0)
      have e'' := hperm.mem_iff (a := a1)
      have e3 := hperm.mem_iff (a := d1)
      simp only [List.mem_cons, List.not_mem_nil, or_false] at e e' e'' e3
      by_cases q : a0 = d0
      · by_cases q1 : a1 = d1
        · exact Or.inr ⟨q, q1⟩
        · left
          have q2 : a1 = d0 := by
            rcases e''.2 (Or.inr trivial) with h | h
            · exact h
            · exact absurd h q1
          have q3 : d1 = a0 ∨ d1 = a1 := e3.1 (Or.inr trivial)
          refine ⟨q2, ?_⟩
          rcases q3 with h | h
          · exact h.symm
          · exact absurd h.symm q1
      · left
        have q1 : a0 = d1 := by
          rcases e'.2 (Or.inl trivial) with h | h
          · exact absurd h q
          · exact h
        have q2 : d0 = a1 := by
          rcases e.1 (Or.inl trivial) with h | h
          · exact absurd h.symm q
          · exact h
        exact ⟨q2.symm, q1⟩
    have hdiv : b2.inf.tdiv 64 = b2.inf / 64 := Int.tdiv_eq_ediv_of_nonneg hinf
    have hori : getOrientation tri quad .segment b1.vtx img =
        .ok (if a1 = d0 ∧ a0 = d1 then 1 else 0) := by
      unfold getOrientation
      rw [ha, hd]
      simp only [List.length_cons, List.length_nil, beq_self_eq_true, require_true, ok_bind, rd,
        List.getElem?_cons_zero, List.getElem?_cons_succ]
      rcases hor with h | h
      · rw [if_pos h, if_pos h]
      · by_cases q : a1 = d0 ∧ a0 = d1
        · rw [if_pos q, if_pos q]
        · rw [if_neg q, if_pos h, if_neg q]
    rw [hori, ok_bind]
    refine ⟨_, rfl, rfl, rfl, ?_, ?_, ?_⟩
    · intro b hb
      rw [h1] at hb; cases hb; rfl
    · intro b hb
      rw [h2] at hb; cases hb
      show (64 * b2.inf.tdiv 64 + _) / 64 = _
      rw [hdiv]
      split <;> omega
    · intro b b' hb hb' j hj
      rw [h1] at hb; cases hb
      rw [h2] at hb'; cases hb'
      have hmod : (64 * b2.inf.tdiv 64 + if a1 = d0 ∧ a0 = d1 then (1 : Int) else 0) % 64 =
          if a1 = d0 ∧ a0 = d1 then 1 else 0 := by
        rw [hdiv]; split <;> omega
      show ∃ v w, b2.vtx[j]? = some v ∧ Spec.Maps vmap v w ∧
        b1.vtx[(j + ((64 * b2.inf.tdiv 64 + if a1 = d0 ∧ a0 = d1 then (1 : Int) else 0) %
          64).toNat) % 2]? = some w
      rw [hmod, hc, ha]
      have hj' : j = 0 ∨ j = 1 := by omega
      by_cases q : a1 = d0 ∧ a0 = d1
      · rw [if_pos q]
        rcases hj' with rfl | rfl
        · exact ⟨c0, d0, rfl, hm0, by rw [← q.1]; rfl⟩
        · exact ⟨c1, d1, rfl, hm1, by rw [← q.2]; rfl⟩
      · have q' := hor.resolve_left q
        rw [if_neg q]
        rcases hj' with rfl | rfl
        · exact ⟨c0, d0, rfl, hm0, by rw [← q'.1]; rfl⟩
        · exact ⟨c1, d1, rfl, hm1, by rw [← q'.2]; rfl⟩
  obtain ⟨Is, hIs, hl, hk⟩ := loop_total (n := pairs.length)
    (body := fun k acc => do
      let p ← rd pairs k
      let I ← refInterface tri quad f1 f2 vmap p
      .ok (acc ++ [I]))
    (fun n (Is : List InterfaceInfo) => Is.length = n ∧
      ∀ (k : Nat) p, k < n → pairs[k]? = some p →
        ∃ I, Is[k]? = some I ∧ Spec.SegmentInterface f1 f2 vmap p I) (s := [])
    ⟨rfl, by intro k p h; omega⟩
    (by
      intro n Is hn hI
      obtain ⟨hl, hI⟩ := hI
      obtain ⟨I, hI1, hI2⟩ := hone _ (List.getElem_mem hn)
      simp only [rd_of_lt hn, ok_bind, hI1]
      refine ⟨_, rfl, by simp [hl], ?_⟩
      intro k p hkn hp
      by_cases e : k = n
      · subst e
        rw [List.getElem?_eq_getElem hn] at hp
        cases hp
        exact ⟨I, by rw [List.getElem?_append_right (by omega), hl]; simp, hI2⟩
      · obtain ⟨J, hJ, hJ2⟩ := hI k p (by omega) hp
        exact ⟨J, by rw [List.getElem?_append_left (by omega)]; exact hJ, hJ2⟩)
  exact ⟨Is, hIs, hl, fun k p hp => hk k p (List.getElem?_eq_some_iff.1 hp).1 hp⟩

/-- A unit square whose left and right sides are split into two segments each: boundary attribute 2
on the right, 4 on the left. -/
def demoMesh : CMesh Rat where
  bes := [(1, [0, 1]), (2, [1, 4]), (2, [4, 2]), (3, [2, 3]), (4, [3, 5]), (4, [5, 0])]
  bdrAttributes := [1, 2, 3, 4]
  verts := [[0, 0], [1, 0], [1, 1], [0, 1], [1, 1/2], [0, 1/2]]

/-- Translation by one to the right. -/
def demoTf (x : List Rat) : Outcome (List Rat) := do
  let a ← rd x 0
  let b ← rd x 1
  .ok [a + 1, b]

/-- Two copies of the square side by side: the port is found. -/
theorem demo_port : buildPort (1/100) 2 demoTf [demoMesh] 0 0 2 4 =
    .ok ⟨0, 0, 2, 4, [(3, 2), (5, 4), (0, 1)], [(2, 4), (1, 5)]⟩ := by decide +kernel

theorem vertex_iff {m : CMesh Rat} {attr : Int} {l : List Nat}
    (h : portVertices m (elems m attr) = .ok l) (v : Nat) : Spec.Vertex m attr v ↔ v ∈ l := by
  obtain ⟨l', hl', _, hc⟩ := portVertices_ok m attr
  rw [hl'] at h; cases h
  exact (hc v).symm

theorem demo_vertices2 (v : Nat) : Spec.Vertex demoMesh 2 v ↔ v ∈ [1, 4, 2] :=
  vertex_iff (by decide +kernel) v

theorem demo_vertices4 (v : Nat) : Spec.Vertex demoMesh 4 v ↔ v ∈ [3, 5, 0] :=
  vertex_iff (by decide +kernel) v

theorem demo_elem2 {b : Nat} {vs : List Nat} (h : Spec.Elem demoMesh 2 b vs) :
    (b = 1 ∧ vs = [1, 4]) ∨ (b = 2 ∧ vs = [4, 2]) := by
  have hb : b < 6 := (List.getElem?_eq_some_iff.1 h).1
  unfold Spec.Elem at h
  have : b = 0 ∨ b = 1 ∨ b = 2 ∨ b = 3 ∨ b = 4 ∨ b = 5 := by omega
  rcases this with rfl | rfl | rfl | rfl | rfl | rfl <;> simp [demoMesh] at h <;> simp [h]

theorem demo_elem4 {b : Nat} {vs : List Nat} (h : Spec.Elem demoMesh 4 b vs) :
    (b = 4 ∧ vs = [3, 5]) ∨ (b = 5 ∧ vs = [5, 0]) := by
  have hb : b < 6 := (List.getElem?_eq_some_iff.1 h).1
  unfold Spec.Elem at h
  have : b = 0 ∨ b = 1 ∨ b = 2 ∨ b = 3 ∨ b = 4 ∨ b = 5 := by omega
  rcases this with rfl | rfl | rfl | rfl | rfl | rfl <;> simp [demoMesh] at h <;> simp [h]

/-- The correspondence of the vertices of the two squares. -/
def demoSigma (v : Nat) : Nat := if v = 3 then 2 else if v = 5 then 4 else 1

/-- The hypotheses of `buildPort_complete` hold for the two squares. -/
theorem demo_congruent : Spec.Congruent (1/100) 2 demoTf demoMesh demoMesh 2 4 demoSigma where
  listed1 := by decide
  listed2 := by decide
  sameNumber := by decide
  coords1 := by
    intro v hv
    rw [demo_vertices2] at hv
    simp only [List.mem_cons, List.not_mem_nil, or_false] at hv
    rcases hv with rfl | rfl | rfl <;> exact ⟨_, rfl, by decide⟩
  coords2 := by
    intro v hv
    rw [demo_vertices4] at hv
    simp only [List.mem_cons, List.not_mem_nil, or_false] at hv
    rcases hv with rfl | rfl | rfl <;> exact ⟨_, _, rfl, rfl, by decide⟩
  maps := by
    intro v hv
    rw [demo_vertices4] at hv
    rw [demo_vertices2]
    simp only [List.mem_cons, List.not_mem_nil, or_false] at hv
    rcases hv with rfl | rfl | rfl <;> decide
  inj := by
    intro v w hv hw
    rw [demo_vertices4] at hv hw
    simp only [List.mem_cons, List.not_mem_nil, or_false] at hv hw
    rcases hv with rfl | rfl | rfl <;> rcases hw with rfl | rfl | rfl <;> decide
  surj := by
    intro v hv
    rw [demo_vertices2] at hv
    simp only [List.mem_cons, List.not_mem_nil, or_false] at hv
    rcases hv with rfl | rfl | rfl
    · exact ⟨0, (demo_vertices4 0).2 (by decide), rfl⟩
    · exact ⟨5, (demo_vertices4 5).2 (by decide), rfl⟩
    · exact ⟨3, (demo_vertices4 3).2 (by decide), rfl⟩
  near := by
    intro v w hv hw
    rw [demo_vertices2] at hv
    rw [demo_vertices4] at hw
    simp only [List.mem_cons, List.not_mem_nil, or_false] at hv hw
    have far : ∀ {v w : Nat} {x1 x2 y2 : List Rat} {d : Nat} {a b : Rat},
        demoMesh.verts[v]? = some x1 → demoMesh.verts[w]? = some x2 →
        demoTf (x2.take 2) = .ok y2 → d < 2 → x1[d]? = some a → y2[d]? = some b →
        ¬ |a - b| < 1/100 → ¬ Spec.Near (1/100) 2 demoTf demoMesh demoMesh v w := by
      intro v w x1 x2 y2 d a b h1 h2 h3 hd ha hb hab ⟨x1', x2', y2', g1, g2, g3, g⟩
      rw [h1] at g1; cases g1
      rw [h2] at g2; cases g2
      rw [h3] at g3; cases g3
      obtain ⟨a', b', g4, g5, g6⟩ := g d hd
      rw [ha] at g4; cases g4
      rw [hb] at g5; cases g5
      exact hab g6
    have nr : ∀ {v w : Nat} {x1 x2 y2 : List Rat} {a b a' b' : Rat},
        demoMesh.verts[v]? = some x1 → demoMesh.verts[w]? = some x2 →
        demoTf (x2.take 2) = .ok y2 → x1[0]? = some a → y2[0]? = some b →
        x1[1]? = some a' → y2[1]? = some b' →
        |a - b| < 1/100 → |a' - b'| < 1/100 →
        Spec.Near (1/100) 2 demoTf demoMesh demoMesh v w := by
      intro v w x1 x2 y2 a b a' b' h1 h2 h3 g1 g2 g3 g4 g5 g6
      refine ⟨x1, x2, y2, h1, h2, h3, fun d hd => ?_⟩
      have : d = 0 ∨ d = 1 := by omega
      rcases this with rfl | rfl
      · exact ⟨a, b, g1, g2, g5⟩
      · exact ⟨a', b', g3, g4, g6⟩
    rcases hv with rfl | rfl | rfl <;> rcases hw with rfl | rfl | rfl <;>
      first
      | exact iff_of_false (far rfl rfl rfl (d := 1) (by decide) rfl rfl (by decide +kernel))
          (by decide)
      | exact iff_of_true (nr rfl rfl rfl rfl rfl rfl rfl (by decide +kernel) (by decide +kernel))
          (by decide)
  elements := by
    intro b vs h
    rcases demo_elem4 h with ⟨rfl, rfl⟩ | ⟨rfl, rfl⟩
    · exact ⟨2, [4, 2], rfl, by decide⟩
    · exact ⟨1, [1, 4], rfl, by decide⟩
  sameSize := by
    intro b vs b' vs' h h'
    rcases demo_elem2 h with ⟨rfl, rfl⟩ | ⟨rfl, rfl⟩ <;>
      rcases demo_elem4 h' with ⟨rfl, rfl⟩ | ⟨rfl, rfl⟩ <;> rfl

/-- The interfaces of the port of the two squares: both segments meet with reversed orientation. -/
example : refInterfaces (fun _ _ => .error .ub) (fun _ _ => .error .ub)
    [⟨.segment, 0, [0, 1]⟩, ⟨.segment, 64, [1, 4]⟩, ⟨.segment, 64, [4, 2]⟩]
    [⟨.segment, 0, [0, 1]⟩, ⟨.segment, 192, [5, 0]⟩, ⟨.segment, 192, [3, 5]⟩]
    [(3, 2), (5, 4), (0, 1)] [(2, 2), (1, 1)] = .ok [⟨2, 2, 64, 193⟩, ⟨1, 1, 64, 193⟩] := by
  decide

end Verif.Ports
