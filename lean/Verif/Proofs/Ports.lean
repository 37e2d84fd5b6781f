import Verif.Model.Ports
import Verif.Spec.Ports
import Verif.Proofs.Basic
import Verif.Props.Topology

/-! Helper lemmas about ports. -/

namespace Verif.Ports

open Verif.Topology

theorem sort_perm (l : List Nat) : (sort l).Perm l := List.perm_insertionSort _ l

theorem sort_eq_iff {a b : List Nat} : sort a = sort b ↔ a.Perm b := by
  constructor
  · intro h
    exact (sort_perm a).symm.trans (h ▸ sort_perm b)
  · intro h
    exact List.Perm.eq_of_pairwise' (List.pairwise_insertionSort _ a)
      (List.pairwise_insertionSort _ b) ((sort_perm a).trans (h.trans (sort_perm b).symm))

theorem count_true {m : IMap} {k : Nat} : m.count k = true ↔ ∃ v, (k, v) ∈ m := by
  unfold IMap.count
  rw [List.any_eq_true]
  constructor
  · rintro ⟨⟨a, b⟩, hm, he⟩
    have : a = k := by simpa using he
    exact ⟨b, this ▸ hm⟩
  · rintro ⟨v, hm⟩; exact ⟨(k, v), hm, by simp⟩

theorem count_false {m : IMap} {k : Nat} : m.count k = false ↔ k ∉ m.map Prod.fst := by
  rw [← Bool.not_eq_true, count_true]
  simp

theorem set_of_absent {m : IMap} {k v : Nat} (h : m.count k = false) : m.set k v = (k, v) :: m := by
  unfold IMap.set
  congr 1
  rw [List.filter_eq_self]
  rintro ⟨a, b⟩ hm
  rw [count_false] at h
  have : a ≠ k := fun e => h (e ▸ List.mem_map_of_mem (f := Prod.fst) hm)
  simpa using this

theorem get_ok {m : IMap} {k v : Nat} (h : m.get k = .ok v) : (k, v) ∈ m := by
  unfold IMap.get at h
  cases hf : m.find? (·.1 == k) with
  | none => rw [hf] at h; cases h
  | some p =>
    rw [hf] at h
    cases h
    have h1 := List.find?_some hf
    have h2 := List.mem_of_find?_eq_some hf
    have : p.1 = k := by simpa using h1
    rw [← this]; exact h2

theorem get_of_count {m : IMap} {k : Nat} (h : m.count k = true) : ∃ v, m.get k = .ok v := by
  unfold IMap.get
  cases hf : m.find? (·.1 == k) with
  | none =>
    obtain ⟨v, hv⟩ := count_true.1 h
    have := List.find?_eq_none.1 hf _ hv
    simp at this
  | some p => exact ⟨p.2, rfl⟩

section
variable {K : Type}

/-- The boundary elements with an attribute, in order. -/
def elems (m : CMesh K) (attr : Int) : List Nat :=
  (List.range m.bes.length).filter (fun b => decide ((m.bes[b]?).map Prod.fst = some attr))

theorem attrElems_eq (m : CMesh K) (attr : Int) : attrElems m attr = .ok (elems m attr) := by
  unfold attrElems elems
  refine loop_spec (spec := fun n => (List.range n).filter
    (fun b => decide ((m.bes[b]?).map Prod.fst = some attr))) rfl ?_
  intro i hi
  simp only [rd_of_lt hi, ok_bind, List.range_succ, List.filter_append]
  by_cases h : m.bes[i].1 = attr
  · simp [h, List.getElem?_eq_getElem hi]
  · simp [h, List.getElem?_eq_getElem hi]

theorem mem_elems {m : CMesh K} {attr : Int} {b : Nat} :
    b ∈ elems m attr ↔ ∃ vs, Spec.Elem m attr b vs := by
  unfold elems Spec.Elem
  simp only [List.mem_filter, List.mem_range, decide_eq_true_eq, Option.map_eq_some_iff]
  constructor
  · rintro ⟨_, ⟨a, vs⟩, h, rfl⟩; exact ⟨vs, h⟩
  · rintro ⟨vs, h⟩
    exact ⟨(List.getElem?_eq_some_iff.1 h).1, _, h, rfl⟩

theorem nodup_elems (m : CMesh K) (attr : Int) : (elems m attr).Nodup :=
  List.Nodup.filter _ List.nodup_range

theorem beVertices_eq {m : CMesh K} {attr : Int} {b : Nat} {vs : List Nat}
    (h : Spec.Elem m attr b vs) : beVertices m b = .ok vs := by
  unfold beVertices
  rw [rd_eq_ok.2 h]; rfl

theorem portVertices_ok (m : CMesh K) (attr : Int) :
    ∃ l, portVertices m (elems m attr) = .ok l ∧ l.Nodup ∧ ∀ v, v ∈ l ↔ Spec.Vertex m attr v := by
  unfold portVertices
  obtain ⟨l, hl, hn, hc⟩ := loop_total (n := (elems m attr).length)
    (body := fun k acc => do
      let b ← rd (elems m attr) k
      let vs ← beVertices m b
      loop vs.length (fun v acc => do
        let x ← rd vs v
        if x ∈ acc then .ok acc else .ok (acc ++ [x])) acc)
    (fun k l => l.Nodup ∧
      ∀ v, v ∈ l ↔ ∃ b ∈ (elems m attr).take k, ∃ vs, Spec.Elem m attr b vs ∧ v ∈ vs) (s := [])
    ⟨List.nodup_nil, by simp⟩
    (by
      intro k acc hk ⟨hn, hc⟩
      obtain ⟨vs, hvs⟩ := mem_elems.1 (List.getElem_mem hk)
      simp only [rd_of_lt hk, ok_bind, beVertices_eq hvs]
      obtain ⟨l, hl, hn', hc'⟩ := loop_total (n := vs.length)
        (body := fun v acc => do
          let x ← rd vs v
          if x ∈ acc then .ok acc else .ok (acc ++ [x]))
        (fun j l => l.Nodup ∧ ∀ v, v ∈ l ↔ v ∈ acc ∨ v ∈ vs.take j) (s := acc)
        ⟨hn, by simp⟩
        (by
          intro j l hj ⟨hn, hc⟩
          simp only [rd_of_lt hj, ok_bind]
          have ht : vs.take (j + 1) = vs.take j ++ [vs[j]] := by
            rw [List.take_add_one, List.getElem?_eq_getElem hj]; rfl
          by_cases hm : vs[j] ∈ l
          · rw [if_pos hm]
            refine ⟨l, rfl, hn, fun v => ?_⟩
            rw [ht, List.mem_append, ← or_assoc, ← hc v]
            simp only [List.mem_singleton]
            exact ⟨Or.inl, fun h => h.elim id (fun e => e ▸ hm)⟩
          · rw [if_neg hm]
            refine ⟨_, rfl, ?_, fun v => ?_⟩
            · rw [List.nodup_append]
              refine ⟨hn, List.nodup_singleton _, ?_⟩
              intro a ha b hb
              rw [List.mem_singleton] at hb
              exact fun e => hm (hb ▸ e ▸ ha)
            · rw [ht, List.mem_append, List.mem_append, ← or_assoc, ← hc v])
      refine ⟨l, hl, hn', fun v => ?_⟩
      rw [List.take_length] at hc'
      have ht : (elems m attr).take (k + 1) = (elems m attr).take k ++ [(elems m attr)[k]] := by
        rw [List.take_add_one, List.getElem?_eq_getElem hk]; rfl
      rw [hc' v, hc v, ht]
      constructor
      · rintro (⟨b, hb, h⟩ | h)
        · exact ⟨b, List.mem_append_left _ hb, h⟩
        · exact ⟨_, List.mem_append_right _ (List.mem_singleton.2 rfl), vs, hvs, h⟩
      · rintro ⟨b, hb, vs', hvs', h⟩
        rcases List.mem_append.1 hb with hb | hb
        · exact Or.inl ⟨b, hb, vs', hvs', h⟩
        · rw [List.mem_singleton] at hb
          subst hb
          have : vs' = vs := by
            have := hvs'.symm.trans hvs
            simpa using this
          exact Or.inr (this ▸ h))
  refine ⟨l, hl, hn, fun v => ?_⟩
  rw [hc v, List.take_length]
  constructor
  · rintro ⟨b, _, vs, h⟩; exact ⟨b, vs, h⟩
  · rintro ⟨b, vs, h⟩; exact ⟨b, mem_elems.2 ⟨vs, h.1⟩, vs, h⟩

theorem translate_ok {m : IMap} {vs img : List Nat} (h : translate m vs = .ok img) :
    List.Forall₂ (Spec.Maps m) vs img := by
  unfold translate at h
  have := loop_inv (Inv := fun k acc => List.Forall₂ (Spec.Maps m) (vs.take k) acc)
    (by simp) (by
      intro k acc acc' hk hI hb
      simp only [rd_of_lt hk, ok_bind] at hb
      obtain ⟨_, _, hb⟩ := bind_eq_ok.1 hb
      obtain ⟨y, hy, hb⟩ := bind_eq_ok.1 hb
      cases hb
      rw [List.take_add_one, List.getElem?_eq_getElem hk]
      exact List.rel_append hI (List.Forall₂.cons (get_ok hy) List.Forall₂.nil)) h
  rwa [List.take_length] at this

theorem translate_total {m : IMap} {σ : Nat → Nat} {vs : List Nat}
    (h1 : ∀ v ∈ vs, m.count v = true) (h2 : ∀ p ∈ m, p.2 = σ p.1) :
    translate m vs = .ok (vs.map σ) := by
  unfold translate
  have : vs.map σ = (fun k => (vs.take k).map σ) vs.length := by simp
  rw [this]
  refine loop_spec (spec := fun k => (vs.take k).map σ) (by simp) ?_
  intro k hk
  simp only [rd_of_lt hk, ok_bind]
  have hc := h1 _ (List.getElem_mem hk)
  obtain ⟨y, hy⟩ := get_of_count hc
  rw [hc, require_true, ok_bind, hy, ok_bind]
  have hy' : y = σ vs[k] := h2 _ (get_ok hy)
  rw [List.take_add_one, List.getElem?_eq_getElem hk, hy', List.map_append]
  rfl

variable [Field K] [LinearOrder K]

theorem closeFrom_true {thr : K} {x1 x2 : List K} : ∀ (k d : Nat) (b : Bool),
    closeFrom thr x1 x2 d k b = .ok true →
    ∀ e, d ≤ e → e < d + k → ∃ a b, x1[e]? = some a ∧ x2[e]? = some b ∧ |a - b| < thr
  | 0, d, b, _, e, h1, h2 => by omega
  | k + 1, d, b, h, e, h1, h2 => by
    simp only [closeFrom] at h
    obtain ⟨a, ha, h⟩ := bind_eq_ok.1 h
    obtain ⟨c, hc, h⟩ := bind_eq_ok.1 h
    by_cases hl : |a - c| < thr
    · simp only [hl, decide_true, Bool.not_true, Bool.false_eq_true, if_false] at h
      by_cases he : e = d
      · subst he; exact ⟨a, c, rd_eq_ok.1 ha, rd_eq_ok.1 hc, hl⟩
      · exact closeFrom_true k (d + 1) _ h e (by omega) (by omega)
    · simp only [hl, decide_false, Bool.not_false, if_true] at h
      cases h

theorem closeFrom_total {thr : K} {x1 x2 : List K} : ∀ (k d : Nat) (b : Bool),
    d + k ≤ x1.length → d + k ≤ x2.length → ∃ r, closeFrom thr x1 x2 d k b = .ok r
  | 0, _, b, _, _ => ⟨b, rfl⟩
  | k + 1, d, b, h1, h2 => by
    simp only [closeFrom]
    rw [rd_of_lt (show d < x1.length by omega), ok_bind, rd_of_lt (show d < x2.length by omega),
      ok_bind]
    split
    · exact ⟨_, rfl⟩
    · exact closeFrom_total k (d + 1) _ (by omega) (by omega)

theorem closeFrom_of {thr : K} {x1 x2 : List K} : ∀ (k d : Nat),
    (∀ e, d ≤ e → e < d + k → ∃ a b, x1[e]? = some a ∧ x2[e]? = some b ∧ |a - b| < thr) →
    closeFrom thr x1 x2 d k true = .ok true
  | 0, _, _ => rfl
  | k + 1, d, h => by
    obtain ⟨a, b, ha, hb, hl⟩ := h d (by omega) (by omega)
    simp only [closeFrom]
    rw [rd_eq_ok.2 ha, ok_bind, rd_eq_ok.2 hb, ok_bind]
    simp only [hl, decide_true, Bool.not_true, Bool.false_eq_true, if_false]
    exact closeFrom_of k (d + 1) (fun e h1 h2 => h e (by omega) (by omega))

theorem findPartner_some {thr : K} {dim : Nat} {x1 : List K} {m : IMap} {v2 : Nat} :
    ∀ {l : List (Nat × List K)}, findPartner thr dim x1 m l = .ok (some v2) →
      m.count v2 = false ∧ ∃ x2, (v2, x2) ∈ l ∧ close thr dim x1 x2 = .ok true
  | [], h => by simp [findPartner] at h
  | (w, y) :: l, h => by
    simp only [findPartner] at h
    by_cases hc : m.count w = true
    · rw [if_pos hc] at h
      obtain ⟨h1, x2, h2, h3⟩ := findPartner_some h
      exact ⟨h1, x2, List.mem_cons_of_mem _ h2, h3⟩
    · rw [if_neg hc] at h
      obtain ⟨r, hr, h⟩ := bind_eq_ok.1 h
      cases r with
      | true =>
        simp only [if_true] at h
        cases h
        exact ⟨by simpa using hc, y, List.mem_cons_self, hr⟩
      | false =>
        simp only [Bool.false_eq_true, if_false] at h
        obtain ⟨h1, x2, h2, h3⟩ := findPartner_some h
        exact ⟨h1, x2, List.mem_cons_of_mem _ h2, h3⟩

theorem findPartner_total {thr : K} {dim : Nat} {x1 : List K} {m : IMap} {v2 : Nat} {y2 : List K}
    (hx : dim ≤ x1.length) (hc : m.count v2 = false) (hcl : close thr dim x1 y2 = .ok true) :
    ∀ {l : List (Nat × List K)}, (∀ p ∈ l, dim ≤ p.2.length) → (v2, y2) ∈ l →
      ∃ w, findPartner thr dim x1 m l = .ok (some w)
  | [], _, h => by simp at h
  | (w, y) :: l, hl, h => by
    simp only [findPartner]
    by_cases hw : m.count w = true
    · rw [if_pos hw]
      rcases List.mem_cons.1 h with h | h
      · cases h; rw [hc] at hw; cases hw
      · exact findPartner_total hx hc hcl (fun p hp => hl p (List.mem_cons_of_mem _ hp)) h
    · rw [if_neg hw]
      obtain ⟨r, hr⟩ := closeFrom_total (thr := thr) (x1 := x1) (x2 := y) dim 0 true (by omega)
        (by have := hl _ List.mem_cons_self; simpa using this)
      rw [show close thr dim x1 y = .ok r from hr, ok_bind]
      cases r with
      | true => exact ⟨w, rfl⟩
      | false =>
        simp only [Bool.false_eq_true, if_false]
        rcases List.mem_cons.1 h with h | h
        · cases h
          have := hcl.symm.trans hr
          simp at this
        · exact findPartner_total hx hc hcl (fun p hp => hl p (List.mem_cons_of_mem _ hp)) h

omit [Field K] [LinearOrder K] in
theorem transformVertices_ok {tf : List K → Outcome (List K)} {dim : Nat} {m2 : CMesh K}
    {vtx2 : List Nat} {l : List (Nat × List K)} (h : transformVertices tf dim m2 vtx2 = .ok l) :
    l.map Prod.fst = vtx2 ∧
      ∀ p ∈ l, ∃ x, m2.verts[p.1]? = some x ∧ tf (x.take dim) = .ok p.2 := by
  unfold transformVertices at h
  have := loop_inv (Inv := fun k (l : List (Nat × List K)) => l.map Prod.fst = vtx2.take k ∧
      ∀ p ∈ l, ∃ x, m2.verts[p.1]? = some x ∧ tf (x.take dim) = .ok p.2)
    (by simp) (by
      intro k acc acc' hk ⟨h1, h2⟩ hb
      simp only [rd_of_lt hk, ok_bind] at hb
      obtain ⟨x, hx, hb⟩ := bind_eq_ok.1 hb
      obtain ⟨y, hy, hb⟩ := bind_eq_ok.1 hb
      cases hb
      rw [List.take_add_one, List.getElem?_eq_getElem hk]
      refine ⟨by simp [h1], ?_⟩
      intro p hp
      rcases List.mem_append.1 hp with hp | hp
      · exact h2 p hp
      · rw [List.mem_singleton] at hp
        subst hp
        exact ⟨x, rd_eq_ok.1 hx, hy⟩) h
  rwa [List.take_length] at this

omit [Field K] [LinearOrder K] in
theorem transformVertices_total {tf : List K → Outcome (List K)} {dim : Nat} {m2 : CMesh K}
    {vtx2 : List Nat} (h : ∀ v ∈ vtx2, ∃ x y, m2.verts[v]? = some x ∧ tf (x.take dim) = .ok y) :
    ∃ l, transformVertices tf dim m2 vtx2 = .ok l := by
  unfold transformVertices
  obtain ⟨l, hl, _⟩ := loop_total (n := vtx2.length)
    (body := fun k acc => do
      let v ← rd vtx2 k
      let x ← rd m2.verts v
      let y ← tf (x.take dim)
      .ok (acc ++ [(v, y)])) (fun _ _ => True) (s := []) trivial
    (by
      intro k acc hk _
      obtain ⟨x, y, hx, hy⟩ := h _ (List.getElem_mem hk)
      simp only [rd_of_lt hk, ok_bind, rd_eq_ok.2 hx, hy]
      exact ⟨_, rfl, trivial⟩)
  exact ⟨l, hl⟩

/-- State of the vertex matching after the first `k` vertices of side 1. -/
structure Matched (thr : K) (dim : Nat) (tf : List K → Outcome (List K)) (m1 m2 : CMesh K)
    (vtx1 vtx2 : List Nat) (k : Nat) (m : IMap) : Prop where
  vals : m.map Prod.snd = (vtx1.take k).reverse
  nodup : (m.map Prod.fst).Nodup
  keys : ∀ p ∈ m, p.1 ∈ vtx2
  near : ∀ p ∈ m, Spec.Near thr dim tf m1 m2 p.2 p.1

theorem matchVertices_ok {thr : K} {dim : Nat} {tf : List K → Outcome (List K)} {m1 m2 : CMesh K}
    {vtx1 vtx2 : List Nat} {x2s : List (Nat × List K)} {m : IMap}
    (hx : transformVertices tf dim m2 vtx2 = .ok x2s)
    (h : matchVertices thr dim m1 vtx1 x2s = .ok m) :
    Matched thr dim tf m1 m2 vtx1 vtx2 vtx1.length m := by
  obtain ⟨hk, hp⟩ := transformVertices_ok hx
  unfold matchVertices at h
  refine loop_inv (Inv := fun k m => Matched thr dim tf m1 m2 vtx1 vtx2 k m)
    ⟨by simp, by simp, by simp, by simp⟩ ?_ h
  intro k m m' hkl hI hb
  simp only [rd_of_lt hkl, ok_bind] at hb
  obtain ⟨x1, hx1, hb⟩ := bind_eq_ok.1 hb
  obtain ⟨o, ho, hb⟩ := bind_eq_ok.1 hb
  cases o with
  | none => cases hb
  | some v2 =>
    cases hb
    obtain ⟨hc, x2, hm, hcl⟩ := findPartner_some ho
    rw [set_of_absent hc]
    refine ⟨?_, ?_, ?_, ?_⟩
    · rw [List.take_add_one, List.getElem?_eq_getElem hkl]
      simp only [List.map_cons, hI.vals, Option.toList_some, List.reverse_append,
        List.reverse_singleton, List.singleton_append]
    · rw [List.map_cons, List.nodup_cons]
      exact ⟨count_false.1 hc, hI.nodup⟩
    · intro p hp
      rcases List.mem_cons.1 hp with hp | hp
      · subst hp; rw [← hk]; exact List.mem_map_of_mem (f := Prod.fst) hm
      · exact hI.keys p hp
    · intro p hp'
      rcases List.mem_cons.1 hp' with hp' | hp'
      · subst hp'
        obtain ⟨x, hx, ht⟩ := hp _ hm
        exact ⟨x1, x, x2, rd_eq_ok.1 hx1, hx, ht,
          fun d hd => closeFrom_true dim 0 true hcl d (by omega) (by omega)⟩
      · exact hI.near p hp'

omit [Field K] [LinearOrder K] in
theorem findElement_some {m1 : CMesh K} {key : List Nat} {b1 : Nat} :
    ∀ {l : List Nat}, findElement m1 key l = .ok (some b1) →
      b1 ∈ l ∧ ∃ vs, beVertices m1 b1 = .ok vs ∧ sort vs = key
  | [], h => by simp [findElement] at h
  | b :: l, h => by
    simp only [findElement] at h
    obtain ⟨vs, hvs, h⟩ := bind_eq_ok.1 h
    obtain ⟨_, _, h⟩ := bind_eq_ok.1 h
    by_cases he : sort vs = key
    · rw [if_pos he] at h; cases h
      exact ⟨List.mem_cons_self, vs, hvs, he⟩
    · rw [if_neg he] at h
      obtain ⟨h1, h2⟩ := findElement_some h
      exact ⟨List.mem_cons_of_mem _ h1, h2⟩

omit [Field K] [LinearOrder K] in
theorem findElement_total {m1 : CMesh K} {key : List Nat} {b1 : Nat} {vs1 : List Nat}
    (hb : beVertices m1 b1 = .ok vs1) (hs : sort vs1 = key) :
    ∀ {l : List Nat}, (∀ b ∈ l, ∃ vs, beVertices m1 b = .ok vs ∧ vs.length = key.length) → b1 ∈ l →
      ∃ c, findElement m1 key l = .ok (some c)
  | [], _, h => by simp at h
  | b :: l, hl, h => by
    obtain ⟨vs, hvs, hlen⟩ := hl b List.mem_cons_self
    simp only [findElement]
    rw [hvs, ok_bind, hlen, beq_self_eq_true, require_true, ok_bind]
    by_cases he : sort vs = key
    · rw [if_pos he]; exact ⟨b, rfl⟩
    · rw [if_neg he]
      rcases List.mem_cons.1 h with h | h
      · subst h
        rw [hb] at hvs; cases hvs
        exact absurd hs he
      · exact findElement_total hb hs (fun c hc => hl c (List.mem_cons_of_mem _ hc)) h

end

end Verif.Ports
