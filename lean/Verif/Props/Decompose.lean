import Verif.Spec.Decompose
import Verif.Props.SubMesh
import Verif.Props.Topology
import Verif.Props.Options
import Verif.Proofs.CompSetup
import Verif.Proofs.Blocks
import Verif.Proofs.RomElems

/-! # Property C100: the decomposition of a mesh into submeshes -/

namespace Verif.Decompose

open Verif Verif.Topology Verif.LinAlg Verif.Options Spec
open Verif.SubMesh (Parent Sub buildSubMeshes2D)
open Verif.SubMesh.Spec (Owns Correct)

theorem refineOnce_ok {kids : Nat → List Nat} (hk : Refines kids) (attr : List Int) :
    ∃ a, refineOnce kids attr = .ok a ∧ a.map some = (kids attr.length).map (fun p => attr[p]?) ∧
      ∀ x, x ∈ a ↔ x ∈ attr := by
  have key : ∀ (l : List Nat) (acc : List Int), (∀ p ∈ l, p < attr.length) →
      ∃ a, l.foldlM (fun acc p => do let a ← rd attr p; return acc ++ [a]) acc = (.ok a : Outcome (List Int)) ∧
        a.map some = acc.map some ++ l.map (fun p => attr[p]?) := by
    intro l
    induction l with
    | nil => intro acc _; exact ⟨acc, rfl, by simp⟩
    | cons p l ih =>
      intro acc hl
      have hp := hl p (by simp)
      obtain ⟨a, h1, h2⟩ := ih (acc ++ [attr[p]]) (fun q hq => hl q (by simp [hq]))
      refine ⟨a, ?_, ?_⟩
      · rw [List.foldlM_cons, rd_of_lt hp, ok_bind]
        exact h1
      · rw [h2]
        simp [List.getElem?_eq_getElem hp]
  obtain ⟨a, h1, h2⟩ := key (kids attr.length) [] (fun p hp => (hk _ _).1 hp)
  rw [List.map_nil, List.nil_append] at h2
  refine ⟨a, h1, h2, fun x => ?_⟩
  have hx : x ∈ a ↔ some x ∈ a.map some := by simp
  rw [hx, h2, List.mem_map]
  constructor
  · rintro ⟨p, -, h⟩
    exact List.mem_of_getElem? h
  · intro h
    obtain ⟨p, hp⟩ := List.getElem?_of_mem h
    exact ⟨p, (hk _ _).2 (List.getElem?_eq_some_iff.1 hp).1, hp⟩

theorem refine_ok {kids : Nat → List Nat} (hk : Refines kids) (num : Int) (attr : List Int) :
    ∃ a, refine kids num attr = .ok a ∧ Refined kids num.toNat attr a ∧ ∀ x, x ∈ a ↔ x ∈ attr := by
  refine loop_total (n := num.toNat) (body := fun _ a => refineOnce kids a)
    (fun k a => Refined kids k attr a ∧ ∀ x, x ∈ a ↔ x ∈ attr) (s := attr) ⟨.zero _, fun _ => Iff.rfl⟩ fun k s _ hs => ?_
  obtain ⟨a, h1, h2, h3⟩ := refineOnce_ok hk s
  exact ⟨a, h1, .succ hs.1 h2, fun x => (h3 x).trans (hs.2 x)⟩

theorem mem_fromDomain {attr dom : List Int} {e : Nat} :
    e ∈ fromDomain attr dom ↔ ∃ a, attr[e]? = some a ∧ a ∈ dom := by
  unfold fromDomain
  rw [List.mem_filter, List.mem_range]
  constructor
  · rintro ⟨h1, h2⟩
    rw [List.getElem?_eq_getElem h1] at h2 ⊢
    refine ⟨_, rfl, ?_⟩
    by_contra hn
    have := arrFind_neg.2 hn
    simp only [decide_eq_true_eq] at h2
    omega
  · rintro ⟨a, h1, h2⟩
    refine ⟨(List.getElem?_eq_some_iff.1 h1).1, ?_⟩
    rw [h1]
    simp only [decide_eq_true_eq]
    by_contra hn
    exact arrFind_neg.1 (by omega) h2

theorem fromDomain_sorted (attr dom : List Int) : (fromDomain attr dom).Pairwise (· < ·) :=
  List.pairwise_lt_range.filter _

theorem submeshes_ip {attributes attr : List Int} {mx : Int} (hm : arrMax attributes = .ok mx) (h0 : 0 ≤ mx) :
    submeshes .ip attributes attr = .ok ((List.range mx.toNat).map fun k => fromDomain attr [((k : Nat) : Int) + 1]) := by
  unfold submeshes
  dsimp only
  rw [hm, ok_bind, decide_eq_true h0, require_true, ok_bind]
  refine loop_spec (fun i => (List.range i).map fun k => fromDomain attr [((k : Nat) : Int) + 1]) rfl fun i _ => ?_
  rw [List.range_succ, List.map_append]
  rfl

theorem submeshes_nodd {attributes attr : List Int} {mx : Int} (hm : arrMax attributes = .ok mx) :
    ∃ dom, submeshes .nodd attributes attr = .ok [fromDomain attr dom] ∧ ∀ a : Int, a ∈ dom ↔ 1 ≤ a ∧ a ≤ mx := by
  obtain ⟨r, h1, h2, h3, -⟩ := loop_fill (n := mx.toNat) (fun k => k) (fun k => (k : Int) + 1)
    (List.replicate mx.toNat 0) (fun _ _ _ _ h => h) (by simp)
  refine ⟨r, ?_, fun a => ?_⟩
  · unfold submeshes
    dsimp only
    rw [hm, ok_bind, h1]
    rfl
  · simp only [List.length_replicate] at h2
    constructor
    · intro h
      obtain ⟨i, hi⟩ := List.getElem?_of_mem h
      have hl := (List.getElem?_eq_some_iff.1 hi).1
      rw [h3 i (by omega)] at hi
      have := Option.some.inj hi
      omega
    · rintro ⟨h4, h5⟩
      have := h3 (a - 1).toNat (by omega)
      refine List.mem_of_getElem? (this.trans ?_)
      congr 1
      omega

theorem in_map {t : Topo} {k i e : Nat} (h : In t k i e) : ∃ l, t.elemMap[k]? = some l ∧ e ∈ l := by
  obtain ⟨l, h1, h2⟩ := h
  exact ⟨l, h1, List.mem_of_getElem? h2⟩

/-- **C100.** The constructor divides every mesh with positive attributes. -/
theorem decomposition {kids : Nat → List Nat} (hk : Refines kids) (dd : DdMode) (num : Int) {attr : List Int}
    (hne : attr ≠ []) (hpos : ∀ a ∈ attr, 1 ≤ a) :
    ∃ t, decompose kids dd num attr = .ok t ∧ Decomposed kids dd num attr t := by
  obtain ⟨al, u1, u2⟩ := updateAttributes_spec attr
  obtain ⟨fine, r1, r0, r2⟩ := refine_ok hk num attr
  have hane : al ≠ [] := by
    intro h
    obtain ⟨a, ha⟩ := List.exists_mem_of_ne_nil attr hne
    have := (u2.complete a).2 ha
    rw [h] at this
    simp at this
  obtain ⟨mx, m1, m2, m3⟩ := arrMax_spec hane
  have hmx : Largest attr mx := ⟨(u2.complete mx).1 m2, fun a ha => m3 a ((u2.complete a).2 ha)⟩
  have hmx1 : 1 ≤ mx := hpos mx hmx.1
  -- the submeshes
  have hsub : ∃ maps, submeshes dd al fine = .ok maps ∧ (∀ l ∈ maps, l.Pairwise (· < ·)) ∧
      (dd = .ip → (maps.length : Int) = mx) ∧ (dd = .nodd → maps.length = 1) ∧
      (∀ (k : Nat) (l : List Nat), maps[k]? = some l → ∀ e, e ∈ l ↔ ∃ a : Int, fine[e]? = some a ∧
        (dd = .ip → a = (k : Int) + 1)) := by
    cases dd with
    | ip =>
      refine ⟨_, submeshes_ip m1 (by omega), ?_, fun _ => by simp; omega, nofun, ?_⟩
      · intro l hl
        obtain ⟨k, -, rfl⟩ := List.mem_map.1 hl
        exact fromDomain_sorted _ _
      · intro k l hl e
        rw [List.getElem?_map] at hl
        obtain ⟨k', hk', rfl⟩ := Option.map_eq_some_iff.1 hl
        have := (List.getElem?_eq_some_iff.1 hk')
        obtain ⟨hlt, he⟩ := this
        rw [List.getElem_range] at he
        subst he
        rw [mem_fromDomain]
        simp
    | nodd =>
      obtain ⟨dom, d1, d2⟩ := submeshes_nodd (attr := fine) m1
      refine ⟨_, d1, ?_, nofun, fun _ => rfl, ?_⟩
      · intro l hl
        rw [List.mem_singleton.1 hl]
        exact fromDomain_sorted _ _
      · intro k l hl e
        match k, hl with
        | 0, hl =>
          cases hl
          rw [mem_fromDomain]
          constructor
          · rintro ⟨a, h1, -⟩
            exact ⟨a, h1, nofun⟩
          · rintro ⟨a, h1, -⟩
            have ha := (r2 a).1 (List.mem_of_getElem? h1)
            exact ⟨a, h1, (d2 a).2 ⟨hpos a ha, hmx.2 a ha⟩⟩
  obtain ⟨maps, s1, s2, s3, s4, s5⟩ := hsub
  obtain ⟨ty, t1, t2, t3, -⟩ := loop_fill (n := maps.length) (fun k => k) (fun k => k)
    (List.replicate maps.length 0) (fun _ _ _ _ h => h) (by simp)
  obtain ⟨nm, n1, n2, n3, -⟩ := loop_fill (n := maps.length) (fun k => k) (fun k => "comp" ++ toString k)
    (List.replicate maps.length "") (fun _ _ _ _ h => h) (by simp)
  rw [List.length_replicate] at t2 n2
  refine ⟨⟨fine, maps.length, maps, maps.length, ty, List.replicate maps.length 1, List.replicate maps.length 0, nm⟩,
    ?_, ?_⟩
  · unfold decompose
    rw [u1, ok_bind, r1, ok_bind, s1, ok_bind]
    dsimp only
    rw [t1, ok_bind, n1, ok_bind]
    rfl
  have inj : ∀ (k : Nat) (l : List Nat), maps[k]? = some l → ∀ (i i' e : Nat), l[i]? = some e → l[i']? = some e → i = i' := by
    intro k l hl i i' e h1 h2
    have hs := List.pairwise_iff_getElem.1 (s2 l (List.mem_of_getElem? hl))
    obtain ⟨b1, e1⟩ := List.getElem?_eq_some_iff.1 h1
    obtain ⟨b2, e2⟩ := List.getElem?_eq_some_iff.1 h2
    rcases Nat.lt_trichotomy i i' with h | h | h
    · have := hs i i' b1 b2 h; omega
    · exact h
    · have := hs i' i b2 b1 h; omega
  refine ⟨r0, r2, ⟨fun h => by rw [s3 h]; exact hmx, s4, rfl⟩, ?_, ?_, ?_, ?_, ?_, ⟨rfl, fun k hk => ⟨t3 k hk, ?_, ?_, n3 k hk⟩⟩,
    ⟨t2, by simp, by simp, n2⟩, ?_⟩
  · intro e he
    dsimp only at he
    have ha := (r2 fine[e]).1 (List.getElem_mem he)
    have hex : ∃ (k : Nat) (l : List Nat), maps[k]? = some l ∧ e ∈ l ∧ ∀ (k' : Nat) (l' : List Nat), maps[k']? = some l' → e ∈ l' → k' = k := by
      cases dd with
      | ip =>
        have h1 := hpos _ ha
        have h2 := hmx.2 _ ha
        have hlen := s3 rfl
        have hlt : (fine[e] - 1).toNat < maps.length := by omega
        refine ⟨(fine[e] - 1).toNat, maps[(fine[e] - 1).toNat], List.getElem?_eq_getElem hlt, ?_, ?_⟩
        · exact (s5 _ _ (List.getElem?_eq_getElem hlt) e).2 ⟨_, List.getElem?_eq_getElem he, fun _ => by omega⟩
        · intro k' l' hk' hm
          obtain ⟨a, a1, a2⟩ := (s5 _ _ hk' e).1 hm
          rw [List.getElem?_eq_getElem he] at a1
          have := Option.some.inj a1
          have := a2 rfl
          omega
      | nodd =>
        have hlen := s4 rfl
        refine ⟨0, maps[0], List.getElem?_eq_getElem (by omega), ?_, ?_⟩
        · exact (s5 _ _ (List.getElem?_eq_getElem (by omega)) e).2 ⟨_, List.getElem?_eq_getElem he, nofun⟩
        · intro k' l' hk' _
          have := (List.getElem?_eq_some_iff.1 hk').1
          omega
    obtain ⟨k, l, h1, h2, h3⟩ := hex
    obtain ⟨i, hi⟩ := List.getElem?_of_mem h2
    refine ⟨k, i, ⟨l, h1, hi⟩, fun k' i' h => ?_⟩
    obtain ⟨l', h4, h5⟩ := h
    obtain rfl := h3 k' l' h4 (List.mem_of_getElem? h5)
    dsimp only at h4
    rw [h1] at h4
    cases h4
    exact ⟨rfl, inj _ _ h1 _ _ _ h5 hi⟩
  · intro k i e h
    obtain ⟨l, h1, h2⟩ := in_map h
    obtain ⟨a, h3, -⟩ := (s5 k l h1 e).1 h2
    exact (List.getElem?_eq_some_iff.1 h3).1
  · intro hip k i e h
    obtain ⟨l, h1, h2⟩ := in_map h
    obtain ⟨a, h3, h4⟩ := (s5 k l h1 e).1 h2
    rw [← h4 hip]
    exact h3
  · intro k hk h
    dsimp only at hk
    have : ∃ (e : Nat) (a : Int), fine[e]? = some a ∧ (dd = .ip → a = (k : Int) + 1) := by
      cases dd with
      | ip =>
        obtain ⟨e, he⟩ := List.getElem?_of_mem ((r2 _).2 (h rfl))
        exact ⟨e, _, he, fun _ => rfl⟩
      | nodd =>
        obtain ⟨e, he⟩ := List.getElem?_of_mem ((r2 _).2 hmx.1)
        exact ⟨e, _, he, nofun⟩
    obtain ⟨e, he⟩ := this
    obtain ⟨i, hi⟩ := List.getElem?_of_mem ((s5 k _ (List.getElem?_eq_getElem hk) e).2 he)
    exact ⟨i, e, _, List.getElem?_eq_getElem hk, hi⟩
  · rintro k i i' e e' ⟨l, h1, h2⟩ ⟨l', h3, h4⟩ hlt
    rw [h1] at h3
    cases h3
    have hs := List.pairwise_iff_getElem.1 (s2 l (List.mem_of_getElem? h1))
    obtain ⟨b1, rfl⟩ := List.getElem?_eq_some_iff.1 h2
    obtain ⟨b2, rfl⟩ := List.getElem?_eq_some_iff.1 h4
    exact hs i i' b1 b2 hlt
  · simp [hk]
  · simp [hk]
  · show nm.Nodup
    rw [List.nodup_iff_injective_getElem]
    rintro ⟨i, hi⟩ ⟨j, hj⟩ h
    dsimp only at h
    have e1 := n3 i (by omega)
    have e2 := n3 j (by omega)
    rw [List.getElem?_eq_getElem hi] at e1
    rw [List.getElem?_eq_getElem hj] at e2
    rw [Option.some.inj e1, Option.some.inj e2] at h
    have h3 := congrArg String.toList h
    rw [String.toList_append, String.toList_append] at h3
    have : i = j := RomElems.toString_inj (String.toList_injective (List.append_cancel_left h3))
    subst this
    rfl

/-- **C100.** The same from the options: `domain-decomposition/type` and `mesh/uniform_refinement`. -/
theorem constructed {c : Conv} {cfg : Node} {kids : Nat → List Nat} (hk : Refines kids) {s : String} {num : Int}
    {dd : DdMode} (hs : Chosen c.str (key "domain-decomposition/type") "interior_penalty" s cfg)
    (hdd : s = "interior_penalty" ∧ dd = .ip ∨ s = "none" ∧ dd = .nodd)
    (hn : Chosen c.int (key "mesh/uniform_refinement") 0 num cfg) {attr : List Int}
    (hne : attr ≠ []) (hpos : ∀ a ∈ attr, 1 ≤ a) : ∃ t, run c cfg kids attr = .ok t ∧ Decomposed kids dd num attr t := by
  obtain ⟨t, h1, h2⟩ := decomposition hk dd num hne hpos
  refine ⟨t, ?_, h2⟩
  have e1 : ddMode c cfg = .ok dd := by
    unfold ddMode
    rw [(option_iff _ _ _ _ _).2 hs, ok_bind]
    rcases hdd with ⟨rfl, rfl⟩ | ⟨rfl, rfl⟩ <;> rfl
  unfold run
  rw [e1, ok_bind, (option_iff _ _ _ _ _).2 hn, ok_bind, h1]

/-- **C100.** Other kinds of decomposition stop the program. -/
theorem unknown_kind {c : Conv} {cfg : Node} (kids : Nat → List Nat) {s : String}
    (hs : Chosen c.str (key "domain-decomposition/type") "interior_penalty" s cfg)
    (h1 : s ≠ "interior_penalty") (h2 : s ≠ "none") (attr : List Int) : run c cfg kids attr = .error .abort := by
  have e1 : ddMode c cfg = .error .abort := by
    unfold ddMode
    rw [(option_iff _ _ _ _ _).2 hs, ok_bind, if_neg h1]
    by_cases h : s = "feti"
    · rw [if_pos h]
    · rw [if_neg h, if_neg h2]
  unfold run
  rw [e1]
  rfl

/-- **C100.** The kind of topology is the one chosen; others stop the program. -/
theorem topology_kind {c : Conv} {cfg : Node} {s : String} (hs : Chosen c.str (key "mesh/type") "submesh" s cfg) :
    (s = "submesh" → topologyMode c cfg = .ok .submesh) ∧ (s = "component-wise" → topologyMode c cfg = .ok .component) ∧
      (s ≠ "submesh" → s ≠ "component-wise" → topologyMode c cfg = .error .abort) := by
  unfold topologyMode
  rw [(option_iff _ _ _ _ _).2 hs, ok_bind]
  refine ⟨?_, ?_, ?_⟩
  · rintro rfl; rfl
  · rintro rfl; rfl
  · intro h1 h2
    rw [if_neg h1, if_neg h2]

/-- **C100.** The subdomains so obtained have correct interfaces (property C31): the submeshes do not share elements,
so what MFEM says about their faces is enough. Without decomposition there is no interface. -/
theorem interfaces {kids : Nat → List Nat} (hk : Refines kids) {dd : DdMode} {num : Int} {attr : List Int}
    (hne : attr ≠ []) (hpos : ∀ a ∈ attr, 1 ≤ a) {t : Topo} (ht : decompose kids dd num attr = .ok t)
    {pm : Parent} {subs : List Sub} (hsub : subs.map (·.elemMap) = t.elemMap) {φ : Nat → Nat → Nat} {g : Int}
    (hmax : arrMax pm.bdrAttributes = .ok g) (hg : 0 ≤ g) (hgeo : Geometry pm subs φ g) :
    ∃ st faceMaps bes, buildSubMeshes2D pm subs = .ok (st, faceMaps) ∧ Correct pm subs faceMaps bes g st ∧
      (dd = .nodd → st.ports = []) := by
  obtain ⟨t', h1, hd⟩ := decomposition hk dd num hne hpos
  rw [ht] at h1
  cases h1
  have own : ∀ (k : Nat) (e : Int), Owns subs k e → ∃ (i : Nat) (x : Nat), (x : Int) = e ∧ In t k i x := by
    rintro k e ⟨s, hs, x, hx, rfl⟩
    obtain ⟨i, hi⟩ := List.getElem?_of_mem hx
    refine ⟨i, x, rfl, s.elemMap, ?_, hi⟩
    rw [← hsub, List.getElem?_map, hs]
    rfl
  have disj : ∀ e k k', Owns subs k e → Owns subs k' e → k = k' := by
    intro e k k' h1 h2
    obtain ⟨i, x, rfl, a1⟩ := own k e h1
    obtain ⟨i', x', hx, a2⟩ := own k' _ h2
    have : x' = x := by omega
    subst this
    obtain ⟨k0, i0, -, u⟩ := hd.once x' (hd.only _ _ _ a1)
    rw [(u _ _ a1).1, (u _ _ a2).1]
  obtain ⟨st, fm, bes, e1, e2, -⟩ := SubMesh.submeshes2D_correct pm subs φ g hmax hg
    ⟨hgeo.correspondence, hgeo.parent_bdr, disj, hgeo.onFace, hgeo.onceFace, hgeo.covered⟩
  refine ⟨st, fm, bes, e1, e2, fun hdd => ?_⟩
  have hl : subs.length = 1 := by
    have := congrArg List.length hsub
    rw [List.length_map] at this
    rw [this, hd.number.2.2, hd.number.2.1 hdd]
  match hp : st.ports with
  | [] => rfl
  | P :: ps =>
    have := e2.port 0 P (by rw [hp]; rfl)
    omega

/-- **C100.** Elements whose attribute is not positive are in no subdomain. -/
theorem nonpositive_lost {kids : Nat → List Nat} {dd : DdMode} {num : Int} {attr : List Int} {t : Topo}
    (ht : decompose kids dd num attr = .ok t) {k i e : Nat} (h : In t k i e) :
    ∃ a, t.attr[e]? = some a ∧ 1 ≤ a := by
  unfold decompose at ht
  simp only [bind_eq_ok] at ht
  obtain ⟨al, -, fine, -, maps, hm, ty, -, nm, -, ht⟩ := ht
  cases ht
  obtain ⟨l, h1, h2⟩ := in_map h
  dsimp only at h1 ⊢
  cases dd with
  | ip =>
    have hm2 : ∃ mx : Int, maps = (List.range mx.toNat).map fun k => fromDomain fine [((k : Nat) : Int) + 1] := by
      cases hmx : arrMax al with
      | error f => unfold submeshes at hm; dsimp only at hm; rw [hmx] at hm; cases hm
      | ok mx =>
        by_cases h0 : 0 ≤ mx
        · rw [submeshes_ip hmx h0] at hm
          cases hm
          exact ⟨mx, rfl⟩
        · unfold submeshes at hm
          dsimp only at hm
          rw [hmx, ok_bind, decide_eq_false h0] at hm
          cases hm
    obtain ⟨mx, hm2⟩ := hm2
    rw [hm2, List.getElem?_map] at h1
    obtain ⟨k', -, rfl⟩ := Option.map_eq_some_iff.1 h1
    obtain ⟨a, h3, h4⟩ := mem_fromDomain.1 h2
    have := List.mem_singleton.1 h4
    exact ⟨a, h3, by omega⟩
  | nodd =>
    cases hmx : arrMax al with
    | error f => unfold submeshes at hm; dsimp only at hm; rw [hmx] at hm; cases hm
    | ok mx =>
      obtain ⟨dom, d1, d2⟩ := submeshes_nodd (attr := fine) hmx
      rw [d1] at hm
      cases hm
      have := List.mem_of_getElem? h1
      rw [List.mem_singleton.1 this] at h2
      obtain ⟨a, h3, h4⟩ := mem_fromDomain.1 h2
      exact ⟨a, h3, ((d2 a).1 h4).1⟩

section Example

/-- Every element is cut in two. -/
def exKids (n : Nat) : List Nat := (List.range n).flatMap fun p => [p, p]

theorem exKids_ok : Refines exKids := by
  intro n p
  simp [exKids]

/-- Four elements, attributes 1 and 3, refined once: three subdomains, the second empty. -/
example : decompose exKids .ip 1 [3, 1, 1, 3] = .ok
    ⟨[3, 3, 1, 1, 1, 1, 3, 3], 3, [[2, 3, 4, 5], [], [0, 1, 6, 7]], 3, [0, 1, 2], [1, 1, 1], [0, 0, 0],
      ["comp0", "comp1", "comp2"]⟩ := by decide +kernel

example : ∃ t, decompose exKids .ip 1 [3, 1, 1, 3] = .ok t ∧ Decomposed exKids .ip 1 [3, 1, 1, 3] t :=
  decomposition exKids_ok .ip 1 (by simp) (by simp)

/-- The default options. -/
example : ∃ t, run Options.exConv (.map []) exKids [2, 1] = .ok t ∧ Decomposed exKids .ip 0 [2, 1] t := by
  have e1 : option Options.exConv.str (key "domain-decomposition/type") "interior_penalty" (.map []) =
    .ok "interior_penalty" := by decide +kernel
  have e2 : option Options.exConv.int (key "mesh/uniform_refinement") 0 (.map []) = .ok 0 := by decide +kernel
  exact constructed exKids_ok ((option_iff _ _ _ _ _).1 e1) (.inl ⟨rfl, rfl⟩) ((option_iff _ _ _ _ _).1 e2) (by simp)
    (by simp)

/-- No decomposition, and one that does not exist. -/
example : (∃ t, run Options.exConv (.map [(key "domain-decomposition", .map [(key "type", .scalar (key "none"))])])
      exKids [2, 1] = .ok t ∧ Decomposed exKids .nodd 0 [2, 1] t) ∧
    run Options.exConv (.map [(key "domain-decomposition", .map [(key "type", .scalar (key "feti"))])])
      exKids [2, 1] = .error .abort := by
  have e2 : option Options.exConv.int (key "mesh/uniform_refinement") 0
    (.map [(key "domain-decomposition", .map [(key "type", .scalar (key "none"))])]) = .ok 0 := by decide +kernel
  refine ⟨constructed (s := "none") exKids_ok ((option_iff _ _ _ _ _).1 (by decide +kernel)) (.inr ⟨rfl, rfl⟩)
    ((option_iff _ _ _ _ _).1 e2) (by simp) (by simp), unknown_kind (s := "feti") exKids
    ((option_iff _ _ _ _ _).1 (by decide +kernel)) (by decide) (by decide) _⟩

example : topologyMode Options.exConv (.map [(key "mesh", .map [(key "type", .scalar (key "component-wise"))])]) =
    .ok .component :=
  (topology_kind (s := "component-wise") ((option_iff _ _ _ _ _).1 (by decide +kernel))).2.1 rfl

/-- The strip of property C31: three elements with attributes 1, 2, 3. -/
example : ∃ st faceMaps bes, buildSubMeshes2D SubMesh.demoParent SubMesh.demoSubs = .ok (st, faceMaps) ∧
    Correct SubMesh.demoParent SubMesh.demoSubs faceMaps bes 2 st := by
  obtain ⟨st, fm, bes, h1, h2, -⟩ := interfaces (kids := exKids) exKids_ok (dd := .ip) (num := 0) (attr := [1, 2, 3])
    (by simp) (by simp) (t := ⟨[1, 2, 3], 3, [[0], [1], [2]], 3, [0, 1, 2], [1, 1, 1], [0, 0, 0],
      ["comp0", "comp1", "comp2"]⟩) (by decide +kernel) (pm := SubMesh.demoParent) (subs := SubMesh.demoSubs)
    (by decide) (g := 2) (by decide) (by decide)
    ⟨SubMesh.demo_wellFormed.correspondence, SubMesh.demo_wellFormed.parent_bdr, SubMesh.demo_wellFormed.onFace,
      SubMesh.demo_wellFormed.onceFace, SubMesh.demo_wellFormed.covered⟩
  exact ⟨st, fm, bes, h1, h2⟩

/-- An element with attribute 0 disappears. -/
example : decompose exKids .nodd 0 [0, 1] = .ok ⟨[0, 1], 1, [[1]], 1, [0], [1], [0], ["comp0"]⟩ := by decide +kernel

end Example

end Verif.Decompose
