import Verif.Proofs.Config

/-! # Lemmas about boxes -/

namespace Verif.Config

open Verif Verif.CompSetup Verif.GenConf Verif.Config.Spec

/-! ## Neighbouring cells -/

theorem getInterfaces_eq {d : Int × Int} {f g : Int} : getInterfaces d = some (f, g) ↔
    (d = (0, -1) ∧ f = 1 ∧ g = 3) ∨ (d = (1, 0) ∧ f = 2 ∧ g = 4) ∨ (d = (0, 1) ∧ f = 3 ∧ g = 1) ∨
      (d = (-1, 0) ∧ f = 4 ∧ g = 2) := by
  obtain ⟨x, y⟩ := d
  unfold getInterfaces
  constructor
  · intro h
    have key : ∀ a b : Int, faceMap (a, b) = if a = 0 ∧ b = -1 then some 1 else if a = 1 ∧ b = 0 then some 2 else
        if a = 0 ∧ b = 1 then some 3 else if a = -1 ∧ b = 0 then some 4 else none := by
      intro a b; simp [faceMap]
    dsimp only at h
    rw [key, key] at h
    by_cases h1 : x = 0 ∧ y = -1
    · obtain ⟨rfl, rfl⟩ := h1
      have : (1 : Int) = f ∧ (3 : Int) = g := by simpa using h
      simp; omega
    · by_cases h2 : x = 1 ∧ y = 0
      · obtain ⟨rfl, rfl⟩ := h2
        have : (2 : Int) = f ∧ (4 : Int) = g := by simpa using h
        simp; omega
      · by_cases h3 : x = 0 ∧ y = 1
        · obtain ⟨rfl, rfl⟩ := h3
          have : (3 : Int) = f ∧ (1 : Int) = g := by simpa using h
          simp; omega
        · by_cases h4 : x = -1 ∧ y = 0
          · obtain ⟨rfl, rfl⟩ := h4
            have : (4 : Int) = f ∧ (2 : Int) = g := by simpa using h
            simp; omega
          · rw [if_neg (by omega), if_neg (by omega), if_neg (by omega), if_neg (by omega)] at h
            simp at h
  · rintro (⟨e, rfl, rfl⟩ | ⟨e, rfl, rfl⟩ | ⟨e, rfl, rfl⟩ | ⟨e, rfl, rfl⟩) <;> (rw [e]; decide)

theorem mem_disps {b : Box} {p q d : Int × Int} : d ∈ b.disps p q ↔
    (d.1 = q.1 - p.1 ∧ d.2 = q.2 - p.2) ∨
    (b.px = true ∧ q.1 - p.1 = (b.nx : Int) - 1 ∧ d.1 = q.1 - p.1 - b.nx ∧ d.2 = q.2 - p.2) ∨
    (b.px = true ∧ q.1 - p.1 = -((b.nx : Int) - 1) ∧ b.nx ≠ 1 ∧ d.1 = q.1 - p.1 + b.nx ∧ d.2 = q.2 - p.2) ∨
    (b.py = true ∧ q.2 - p.2 = (b.ny : Int) - 1 ∧ d.1 = q.1 - p.1 ∧ d.2 = q.2 - p.2 - b.ny) ∨
    (b.py = true ∧ q.2 - p.2 = -((b.ny : Int) - 1) ∧ b.ny ≠ 1 ∧ d.1 = q.1 - p.1 ∧ d.2 = q.2 - p.2 + b.ny) := by
  obtain ⟨d1, d2⟩ := d
  unfold Box.disps
  dsimp only
  simp only [List.mem_append, List.mem_singleton, List.mem_ite_nil_right, Prod.mk.injEq]
  tauto

/-- In a periodic direction there is more than one cell. -/
def Wide (b : Box) : Prop := (b.px = true → b.nx ≠ 1) ∧ (b.py = true → b.ny ≠ 1)

theorem mem_pairs {b : Box} (hw : Wide b) {p q : Int × Int} (hp : InBox b.nx b.ny p) (hq : InBox b.nx b.ny q)
    {f g : Int} : (f, g) ∈ b.pairs p q ↔ Across b.nx b.ny b.px b.py f p q ∧ g = opposite f := by
  obtain ⟨p1, p2⟩ := p
  obtain ⟨q1, q2⟩ := q
  obtain ⟨w1, w2⟩ := hw
  unfold InBox at hp hq
  unfold Box.pairs
  rw [List.mem_filterMap]
  simp only [getInterfaces_eq, mem_disps]
  unfold Across Right Up opposite
  dsimp only at hp hq ⊢
  constructor
  · rintro ⟨⟨d1, d2⟩, hd, h | h | h | h⟩ <;>
    · obtain ⟨e, rfl, rfl⟩ := h
      injection e with e1 e2
      subst e1 e2
      cases hpx : b.px <;> cases hpy : b.py <;>
        simp only [hpx, hpy, forall_const, Bool.false_eq_true, false_and, true_and, or_false,
          false_or, IsEmpty.forall_iff] at hd w1 w2 ⊢ <;> norm_num <;> omega
  · rintro ⟨h | h | h | h, rfl⟩
    · obtain ⟨rfl, h1, h2 | ⟨h2, h3, h4⟩⟩ := h
      · exact ⟨(1, 0), by left; dsimp only; omega, by simp⟩
      · have := w1 h2
        exact ⟨(1, 0), by right; right; left; dsimp only; refine ⟨h2, ?_, this, ?_, ?_⟩ <;> omega, by simp⟩
    · obtain ⟨rfl, h1, h2 | ⟨h2, h3, h4⟩⟩ := h
      · exact ⟨(-1, 0), by left; dsimp only; omega, by simp⟩
      · exact ⟨(-1, 0), by right; left; dsimp only; refine ⟨h2, ?_, ?_, ?_⟩ <;> omega, by simp⟩
    · obtain ⟨rfl, h1, h2 | ⟨h2, h3, h4⟩⟩ := h
      · exact ⟨(0, 1), by left; dsimp only; omega, by simp⟩
      · have := w2 h2
        exact ⟨(0, 1), by right; right; right; right; dsimp only; refine ⟨h2, ?_, this, ?_, ?_⟩ <;> omega, by simp⟩
    · obtain ⟨rfl, h1, h2 | ⟨h2, h3, h4⟩⟩ := h
      · exact ⟨(0, -1), by left; dsimp only; omega, by simp⟩
      · exact ⟨(0, -1), by right; right; right; left; dsimp only; refine ⟨h2, ?_, ?_, ?_⟩ <;> omega, by simp⟩

theorem nodup_pairs {b : Box} {p q : Int × Int} (hp : InBox b.nx b.ny p) : (b.pairs p q).Nodup := by
  obtain ⟨a1, a2, a3, a4⟩ := hp
  unfold Box.pairs
  apply List.Nodup.filterMap
  · rintro d e ⟨f, g⟩ hd he
    rw [Option.mem_def, getInterfaces_eq] at hd he
    rcases hd with ⟨rfl, rfl, rfl⟩ | ⟨rfl, rfl, rfl⟩ | ⟨rfl, rfl, rfl⟩ | ⟨rfl, rfl, rfl⟩ <;>
    rcases he with ⟨rfl, h, h'⟩ | ⟨rfl, h, h'⟩ | ⟨rfl, h, h'⟩ | ⟨rfl, h, h'⟩ <;> first | rfl | omega
  · unfold Box.disps
    dsimp only
    have h1 : (b.nx : Int) ≠ 0 := by omega
    have h2 : (b.ny : Int) ≠ 0 := by omega
    have h3 : ((q.1 - p.1) - (b.nx : Int)) ≠ (q.1 - p.1) + b.nx := by omega
    have h4 : ((q.2 - p.2) - (b.ny : Int)) ≠ (q.2 - p.2) + b.ny := by omega
    split_ifs <;> simp [Prod.ext_iff] <;> omega

theorem across_rel {nx ny : Nat} {px py : Bool} : Rel (Across nx ny px py) := by
  constructor
  · intro f p q h
    unfold Across at h
    omega
  · intro f p q h
    unfold Across opposite at *
    rcases h with ⟨rfl, h⟩ | ⟨rfl, h⟩ | ⟨rfl, h⟩ | ⟨rfl, h⟩ <;> simp [h]

theorem across_inj {nx ny : Nat} {px py : Bool} {f : Int} {p q q' : Int × Int} (hq : InBox nx ny q)
    (hq' : InBox nx ny q') (h : Across nx ny px py f p q) (h' : Across nx ny px py f p q') : q = q' := by
  obtain ⟨q1, q2⟩ := q
  obtain ⟨r1, r2⟩ := q'
  unfold InBox at hq hq'
  unfold Across Right Up at h h'
  dsimp only at *
  rw [Prod.mk.injEq]
  rcases h with ⟨rfl, h⟩ | ⟨rfl, h⟩ | ⟨rfl, h⟩ | ⟨rfl, h⟩ <;>
    simp only [Int.reduceEq, false_and, or_false, false_or, true_and] at h' <;> omega

theorem across_irrefl {b : Box} (hw : Wide b) {f : Int} {p : Int × Int} :
    ¬Across b.nx b.ny b.px b.py f p p := by
  obtain ⟨p1, p2⟩ := p
  obtain ⟨w1, w2⟩ := hw
  unfold Across Right Up
  dsimp only
  rintro (⟨_, _, h | ⟨h1, h2, h3⟩⟩ | ⟨_, _, h | ⟨h1, h2, h3⟩⟩ | ⟨_, _, h | ⟨h1, h2, h3⟩⟩ | ⟨_, _, h | ⟨h1, h2, h3⟩⟩)
  · omega
  · have := w1 h1; omega
  · omega
  · have := w1 h1; omega
  · omega
  · have := w2 h1; omega
  · omega
  · have := w2 h1; omega

/-! ## Filling a box -/

/-- What holds while a box is filled. -/
structure BInv (P0 : List (String × String × Int × Int)) (b : Box) : Prop where
  inv : Inv (Across b.nx b.ny b.px b.py) P0 b.conf
  bdr : b.conf.bdr = []
  nodup : (b.conf.loc ++ b.avail).Nodup
  cells : ∀ p, p ∈ b.conf.loc ++ b.avail ↔ InBox b.nx b.ny p
  complete : ∀ (m n : Nat) p q f, b.conf.loc[m]? = some p → b.conf.loc[n]? = some q →
    Across b.nx b.ny b.px b.py f p q → ((m : Int), f) ∈ ment b.conf
  used : b.used.length = b.conf.comps.length
  mark : ∀ c, b.used[c]? = some true ↔ c ∈ b.conf.types

/-- What a step keeps. -/
structure Kept (b b' : Box) : Prop where
  nx : b'.nx = b.nx
  ny : b'.ny = b.ny
  px : b'.px = b.px
  py : b'.py = b.py
  comps : b'.conf.comps = b.conf.comps

theorem getElem?_snoc {α : Type} {k : Nat} {l : List α} {a b : α} (hk : (l ++ [a])[k]? = some b) :
    (k < l.length ∧ l[k]? = some b) ∨ (k = l.length ∧ b = a) := by
  rw [List.getElem?_append] at hk
  split at hk
  · exact .inl ⟨by assumption, hk⟩
  · right
    have := (List.getElem?_eq_some_iff.1 hk).1
    simp at this
    have e : k - l.length = 0 := by omega
    rw [e] at hk
    simp at hk
    exact ⟨by omega, hk.symm⟩

theorem box_addMesh {P0 : List (String × String × Int × Int)} {b : Box} (hw : Wide b) (h : BInv P0 b)
    {c k : Nat} {l : Int × Int} (hc : c < b.conf.comps.length) (hk : b.avail[k]? = some l) :
    ∃ b', b.addMesh c k = .ok b' ∧ BInv P0 b' ∧ Kept b b' ∧ b'.conf.types = b.conf.types ++ [c] ∧
      b'.conf.loc = b.conf.loc ++ [l] ∧ b'.avail = b.avail.eraseIdx k := by
  have hkl := (List.getElem?_eq_some_iff.1 hk).1
  have hA : Rel (Across b.nx b.ny b.px b.py) := across_rel
  obtain ⟨s, s1, s2, s3, s4, s5, s6, s7, s8, s9, s10⟩ := addMesh_inv hA h.inv (l := l)
    (List.getElem?_eq_getElem hc)
  have hbox : ∀ p ∈ s.loc, InBox b.nx b.ny p := by
    intro p hp
    rw [s5] at hp
    refine (h.cells p).1 ?_
    rcases List.mem_append.1 hp with hp | hp
    · exact List.mem_append_left _ hp
    · rw [List.mem_singleton] at hp
      subst hp
      exact List.mem_append_right _ (List.mem_of_getElem? hk)
  have hlnot : l ∉ b.conf.loc := by
    intro hin
    have := h.nodup
    rw [List.nodup_append] at this
    exact this.2.2 l hin l (List.mem_of_getElem? hk) rfl
  have hlnd : b.conf.loc.Nodup := (List.nodup_append.1 h.nodup).1
  have hand : b.avail.Nodup := (List.nodup_append.1 h.nodup).2.1
  have hloc : s.loc.Nodup := by
    rw [s5, List.nodup_append]
    refine ⟨hlnd, by simp, ?_⟩
    intro a ha c hc
    rw [List.mem_singleton] at hc
    subst hc
    rintro rfl
    exact hlnot ha
  let n := b.conf.meshes.length
  have hn : n = b.conf.loc.length := h.inv.len1
  have hln : s.loc[n]? = some l := by rw [s5, hn]; simp
  let P : Nat → Int × Int := fun i => (s.loc[i]?).getD (0, 0)
  have hP : ∀ i p, s.loc[i]? = some p → P i = p := by intro i p hp; simp [P, hp]
  let ops : List (Nat × Int × Int) := (List.range (n + 1)).flatMap fun i => (b.pairs (P i) l).map fun f => (i, f)
  have hmem : ∀ (i : Nat) p f g, s.loc[i]? = some p → ((i, f, g) ∈ ops ↔ Across b.nx b.ny b.px b.py f p l ∧ g = opposite f) := by
    intro i p f g hp
    have hi : i < n + 1 := by
      have := (List.getElem?_eq_some_iff.1 hp).1
      rw [s5] at this
      simp at this
      omega
    rw [← mem_pairs hw (hbox p (List.mem_of_getElem? hp)) (hbox l (List.mem_of_getElem? hln))]
    simp only [ops, List.mem_flatMap, List.mem_range, List.mem_map, Prod.mk.injEq]
    constructor
    · rintro ⟨j, hj, ⟨f', g'⟩, hfg, e1, e2⟩
      subst e1
      rw [hP j p hp] at hfg
      rw [Prod.mk.injEq] at e2
      obtain ⟨rfl, rfl⟩ := e2
      exact hfg
    · intro hfg
      exact ⟨i, hi, (f, g), by rw [hP i p hp]; exact hfg, rfl, rfl⟩
  have hops : ∀ o ∈ ops, o.1 < n ∧ ∃ p, s.loc[o.1]? = some p ∧ b.conf.loc[o.1]? = some p ∧
      Across b.nx b.ny b.px b.py o.2.1 p l ∧ o.2.2 = opposite o.2.1 := by
    rintro ⟨i, f, g⟩ ho
    have hi : i < n + 1 := by
      simp only [ops, List.mem_flatMap, List.mem_range, List.mem_map, Prod.mk.injEq] at ho
      obtain ⟨j, hj, _, _, rfl, _⟩ := ho
      exact hj
    have hil : i < s.loc.length := by rw [s5]; simp; omega
    have hp := List.getElem?_eq_getElem hil
    obtain ⟨e1, e2⟩ := (hmem i _ f g hp).1 ho
    have hin : i ≠ n := by
      rintro rfl
      have : s.loc[n] = l := Option.some.inj (hp.symm.trans hln)
      rw [this] at e1
      exact across_irrefl hw e1
    refine ⟨by dsimp only; omega, s.loc[i], hp, ?_, e1, e2⟩
    have hpl : (b.conf.loc ++ [l])[i]? = some s.loc[i] := by rw [← s5]; exact hp
    rcases getElem?_snoc hpl with ⟨_, e⟩ | ⟨e, _⟩
    · exact e
    · omega
  have hnd : ops.Nodup := by
    simp only [ops]
    rw [List.nodup_flatMap]
    constructor
    · intro i hi
      rw [List.mem_range] at hi
      have hil : i < s.loc.length := by rw [s5]; simp; omega
      have hp := List.getElem?_eq_getElem hil
      rw [hP i _ hp]
      apply List.Nodup.map
      · intro x y e
        exact (Prod.mk.inj e).2
      · exact nodup_pairs (hbox _ (List.mem_of_getElem? hp))
    · refine List.nodup_range.imp ?_
      intro i j hij
      simp only [Function.onFun]
      rw [List.disjoint_left]
      intro x hx hy
      obtain ⟨_, _, e1⟩ := List.mem_map.1 hx
      obtain ⟨_, _, e2⟩ := List.mem_map.1 hy
      exact hij (congrArg Prod.fst (e1.trans e2.symm))
  have hfresh : ∀ o ∈ ops, ((o.1 : Int), o.2.1) ∉ ment s ∧ ((n : Int), o.2.2) ∉ ment s := by
    intro o ho
    obtain ⟨o1, p, o2, o3, o4, o5⟩ := hops o ho
    rw [s10]
    constructor
    · intro hin
      have hin' : ((o.1 : Int), o.2.1) ∈ sides b.conf.itf := by
        have := hin
        unfold ment at this
        rw [h.bdr] at this
        simpa using this
      have key : ∃ q, q ∈ b.conf.loc ∧ Across b.nx b.ny b.px b.py o.2.1 p q := by
        obtain ⟨r, hr, e⟩ := mem_sides.1 hin'
        obtain ⟨k', a, d, p', q', K, L, e1, e2, e3, e4, e5, e6, e7, e8, e9, e10, e11⟩ := h.inv.rows r hr
        rcases e with e | e
        · injection e with x1 x2
          have : a = o.1 := by omega
          subst this
          have : p = p' := Option.some.inj (o3.symm.trans e5)
          subst this
          exact ⟨q', List.mem_of_getElem? e6, by rw [x2]; exact e7⟩
        · injection e with x1 x2
          have : d = o.1 := by omega
          subst this
          have : p = q' := Option.some.inj (o3.symm.trans e6)
          subst this
          exact ⟨p', List.mem_of_getElem? e5, by rw [x2, e8]; exact hA.symm e7⟩
      obtain ⟨q, hq, ha⟩ := key
      have : q = l := across_inj ((h.cells q).1 (List.mem_append_left _ hq))
        (hbox l (List.mem_of_getElem? hln)) ha o4
      subst this
      exact hlnot hq
    · intro hin
      have := ment_lt hA h.inv hin
      omega
  obtain ⟨t, t1, t2, t3, t4, t5⟩ := ops_fold hA ops s
    (fun {f p q q'} hq hq' => across_inj (hbox q hq) (hbox q' hq')) s2 hln hloc
    (by
      intro o ho
      obtain ⟨o1, p, o2, o3, o4, o5⟩ := hops o ho
      exact ⟨by omega, ⟨p, o2, o4⟩, o5⟩) hnd hfresh
  have hloop : (List.range (n + 1)).foldlM (fun (t : Conf) (i : Nat) => do
      let p ← rd s.loc i
      let q ← rd s.loc n
      (b.pairs p q).foldlM (fun (t : Conf) (f : Int × Int) => Conf.appendInterface t i n f.1 f.2) t) s =
      .ok t := by
    rw [← t1]
    simp only [ops]
    rw [foldlM_flatMap]
    apply foldlM_congr
    intro i hi u
    rw [List.mem_range] at hi
    have hil : i < s.loc.length := by rw [s5]; simp; omega
    have hp := List.getElem?_eq_getElem hil
    rw [rd_eq_ok.2 hp, rd_eq_ok.2 hln, ok_bind, ok_bind, hP i _ hp, foldlM_map']
  have huc : c < b.used.length := by rw [h.used]; exact hc
  have herase : b.avail.erase l = b.avail.eraseIdx k := by
    have e : b.avail[k] = l := Option.some.inj ((List.getElem?_eq_getElem hkl).symm.trans hk)
    rw [List.erase_eq_eraseIdx_of_idxOf]
    rw [← e]
    exact (hand.idxOf_getElem k hkl).symm ▸ rfl
  refine ⟨{ b with conf := t, avail := b.avail.erase l, used := b.used.set c true }, ?_, ?_,
    ⟨rfl, rfl, rfl, rfl, t3.comps.trans s3⟩, t3.types.trans s4, t3.loc.trans s5, herase⟩
  · unfold Box.addMesh
    simp only [hkl, decide_true, require_true, ok_bind, rd_eq_ok.2 hk, s1]
    rw [show b.conf.meshes.length = n from rfl, hloop, ok_bind, wr_of_lt huc]
    rfl
  · have hsub : ∀ x, x ∈ ment b.conf → x ∈ ment t := by
      intro x hx
      rw [t5, s10]; exact .inl hx
    have hpm : (t.loc ++ b.avail.erase l).Perm (b.conf.loc ++ b.avail) := by
      rw [t3.loc, s5, List.append_assoc]
      exact (List.perm_cons_erase (List.mem_of_getElem? hk)).symm.append_left _
    refine ⟨t2, by rw [t4, s6, h.bdr], by rw [hpm.nodup_iff]; exact h.nodup,
      fun p => by dsimp only; rw [hpm.mem_iff]; exact h.cells p, ?_, ?_, ?_⟩
    · intro i j p q f hp hq ha
      dsimp only at hp hq ha ⊢
      rw [t3.loc, s5] at hp hq
      rcases getElem?_snoc hp with ⟨i1, i2⟩ | ⟨i1, i2⟩
      · rcases getElem?_snoc hq with ⟨j1, j2⟩ | ⟨j1, j2⟩
        · exact hsub _ (h.complete i j p q f i2 j2 ha)
        · subst j2
          rw [← s5] at hp
          rw [t5]
          exact .inr ⟨(i, f, opposite f), (hmem i p f _ hp).2 ⟨ha, rfl⟩, .inl rfl⟩
      · subst i2
        rcases getElem?_snoc hq with ⟨j1, j2⟩ | ⟨j1, j2⟩
        · rw [← s5] at hq
          rw [t5]
          refine .inr ⟨(j, opposite f, opposite (opposite f)), (hmem j q _ _ hq).2 ⟨hA.symm ha, rfl⟩, .inr ?_⟩
          dsimp only
          rw [opposite_opposite (hA.face ha), i1, hn]
        · subst j2
          exact absurd ha (across_irrefl hw)
    · show (b.used.set c true).length = t.comps.length
      rw [List.length_set, h.used, t3.comps, s3]
    · intro c'
      show (b.used.set c true)[c']? = some true ↔ c' ∈ t.types
      rw [t3.types, s4, List.mem_append, List.mem_singleton, List.getElem?_set, ← h.mark]
      by_cases e : c = c'
      · subst e; simp [huc]
      · simp [e, Ne.symm e]

theorem Kept.trans {a b c : Box} (h : Kept a b) (k : Kept b c) : Kept a c :=
  ⟨k.nx.trans h.nx, k.ny.trans h.ny, k.px.trans h.px, k.py.trans h.py, k.comps.trans h.comps⟩

theorem Kept.wide {a b : Box} (h : Kept a b) (hw : Wide a) : Wide b := by
  unfold Wide at *
  rw [h.nx, h.ny, h.px, h.py]
  exact hw

theorem box_build {P0 : List (String × String × Int × Int)} (choices : List (Nat × Nat)) (b : Box)
    (hw : Wide b) (h : BInv P0 b) (hlen : choices.length = b.avail.length)
    (hch : ∀ (m : Nat) (c : Nat × Nat), choices[m]? = some c → c.1 < b.conf.comps.length ∧ c.2 < b.avail.length - m) :
    ∃ b', choices.foldlM (fun b c => Box.addMesh b c.1 c.2) b = .ok b' ∧ BInv P0 b' ∧ Kept b b' ∧
      b'.conf.types = b.conf.types ++ choices.map Prod.fst ∧
      b'.conf.loc = b.conf.loc ++ pick b.avail (choices.map Prod.snd) ∧ b'.avail = [] := by
  induction choices generalizing b with
  | nil =>
    refine ⟨b, rfl, h, ⟨rfl, rfl, rfl, rfl, rfl⟩, by simp, by simp [pick], ?_⟩
    exact List.length_eq_zero_iff.1 hlen.symm
  | cons c choices ih =>
    obtain ⟨c1, c2⟩ := hch 0 c rfl
    have hk : c.2 < b.avail.length := by omega
    obtain ⟨u, u1, u2, u3, u4, u5, u6⟩ := box_addMesh hw h c1 (List.getElem?_eq_getElem hk)
    have hul : u.avail.length = b.avail.length - 1 := by rw [u6, List.length_eraseIdx_of_lt hk]
    obtain ⟨t, t1, t2, t3, t4, t5, t6⟩ := ih u (u3.wide hw) u2 (by rw [hul, ← hlen]; simp) (by
      intro m d hd
      obtain ⟨d1, d2⟩ := hch (m + 1) d (by simpa using hd)
      rw [u3.comps, hul]
      exact ⟨d1, by omega⟩)
    refine ⟨t, ?_, t2, u3.trans t3, ?_, ?_, t6⟩
    · rw [List.foldlM_cons]
      rw [u1, ok_bind]
      exact t1
    · rw [t4, u4]; simp
    · rw [t5, u5, u6, List.map_cons]
      conv_rhs => rw [pick]
      rw [List.getElem?_eq_getElem hk]
      simp

/-! ## Closing a box -/

theorem foldlM_range_total {σ : Type} {body : σ → Nat → Outcome σ} (I : Nat → σ → Prop) {n : Nat} {s : σ}
    (h0 : I 0 s) (hstep : ∀ j u, j < n → I j u → ∃ v, body u j = .ok v ∧ I (j + 1) v) :
    ∃ t, (List.range n).foldlM body s = .ok t ∧ I n t := by
  induction n with
  | zero => exact ⟨s, rfl, h0⟩
  | succ n ih =>
    obtain ⟨t, t1, t2⟩ := ih (fun j u hj => hstep j u (by omega))
    obtain ⟨v, v1, v2⟩ := hstep n t (by omega) t2
    refine ⟨v, ?_, v2⟩
    rw [List.range_succ, foldlM_append', t1, ok_bind, List.foldlM_cons, v1, ok_bind]
    rfl

variable {A : Int → Int × Int → Int × Int → Prop} {P0 : List (String × String × Int × Int)} {s t : Conf}

theorem bdr_fold {m : Nat} {M : Mesh} (L : List Int) (s : Conf) (h : Inv A P0 s) (hm : s.meshes[m]? = some M)
    (hL : L.Nodup) (hf : ∀ f ∈ L, f ∈ M.part.refBattr ∧ ((m : Int), f) ∉ ment s) :
    ∃ t, L.foldlM (fun s f => Conf.appendBoundary s f m f) s = .ok t ∧ Inv A P0 t ∧ Same s t ∧ t.itf = s.itf ∧
      t.ports = s.ports ∧ t.bdr = s.bdr ++ L.map (fun f => (⟨f, m, f⟩ : BdrRow)) ∧
      (∀ x, x ∈ ment t ↔ x ∈ ment s ∨ (x.1 = m ∧ x.2 ∈ L)) := by
  induction L generalizing s M with
  | nil => exact ⟨s, rfl, h, .refl s, rfl, rfl, by simp, by simp⟩
  | cons f L ih =>
    obtain ⟨f1, f2⟩ := hf f (by simp)
    rw [List.nodup_cons] at hL
    obtain ⟨u, u1, u2, u3, u4, u5, u6, u7⟩ := appendBoundary_ok h f hm f1 f2
    obtain ⟨N, n1, n2⟩ := u3.mesh hm
    obtain ⟨t, t1, t2, t3, t4, t5, t6, t7⟩ := ih u u2 n1 hL.2 (by
      intro g hg
      obtain ⟨g1, g2⟩ := hf g (by simp [hg])
      rw [n2, u7]
      refine ⟨g1, ?_⟩
      rintro (hx | hx)
      · exact g2 hx
      · injection hx with _ hx
        subst hx
        exact hL.1 hg)
    refine ⟨t, ?_, t2, u3.trans t3, t4.trans u4, t5.trans u5, ?_, fun x => ?_⟩
    · rw [List.foldlM_cons, u1, ok_bind]
      exact t1
    · rw [t6, u6]; simp
    · rw [t7, u7, or_assoc]
      obtain ⟨a, g⟩ := x
      simp only [List.mem_cons, Prod.mk.injEq]
      constructor
      · rintro (hx | ⟨h1, h2⟩ | ⟨h1, h2⟩)
        · exact .inl hx
        · exact .inr ⟨h1, .inl h2⟩
        · exact .inr ⟨h1, .inr h2⟩
      · rintro (hx | ⟨h1, h2 | h2⟩)
        · exact .inl hx
        · exact .inr (.inl ⟨h1, h2⟩)
        · exact .inr (.inr ⟨h1, h2⟩)

/-- One mesh is closed: its free faces and the object become boundary rows. -/
theorem close_mesh (h : Inv A P0 s) {m : Nat} (hm : m < s.meshes.length)
    (h5 : ((m : Int), (5 : Int)) ∉ ment s) :
    ∃ t, (do
      let c ← rd s.meshes m
      let s ← c.free.foldlM (fun s f => Conf.appendBoundary s f m f) s
      if (5 : Int) ∈ c.part.refBattr then s.appendBoundary 5 m 5 else return s) = .ok t ∧ Inv A P0 t ∧ Same s t ∧
      t.itf = s.itf ∧ t.ports = s.ports ∧
      (∀ x, x ∈ ment s → x ∈ ment t) ∧ (∀ x, x ∈ ment t → x ∈ ment s ∨ x.1 = m) ∧
      (∀ M f, s.meshes[m]? = some M → f ∈ M.part.refBattr → ((m : Int), f) ∈ ment t) ∧
      (∀ r ∈ t.bdr, r ∈ s.bdr ∨ (r.mesh = m ∧ r.gattr = r.cattr ∧ (r.cattr = 5 ∨ (r.mesh, r.cattr) ∉ ment s))) := by
  have hM := List.getElem?_eq_getElem hm
  generalize s.meshes[m] = M at hM
  have hfree := h.free m M hM
  have hmf : ∀ f, f ∈ M.free ↔ (f = 1 ∨ f = 2 ∨ f = 3 ∨ f = 4) ∧ ((m : Int), f) ∉ ment s := by
    intro f; rw [hfree, List.mem_filter]; simp
  obtain ⟨u, u1, u2, u3, u4, u5, u6, u7⟩ := bdr_fold M.free s h hM
    (by rw [hfree]; exact List.Nodup.filter _ (by decide))
    (fun f hf => ⟨mem_refBattr ((hmf f).1 hf).1, ((hmf f).1 hf).2⟩)
  have hcov : ∀ f, (f = 1 ∨ f = 2 ∨ f = 3 ∨ f = 4) → ((m : Int), f) ∈ ment u := by
    intro f hf
    rw [u7]
    by_cases hin : ((m : Int), f) ∈ ment s
    · exact .inl hin
    · exact .inr ⟨rfl, (hmf f).2 ⟨hf, hin⟩⟩
  have hrows : ∀ r ∈ u.bdr, r ∈ s.bdr ∨ (r.mesh = m ∧ r.gattr = r.cattr ∧ (r.cattr = 5 ∨ (r.mesh, r.cattr) ∉ ment s)) := by
    intro r hr
    rw [u6, List.mem_append, List.mem_map] at hr
    rcases hr with hr | ⟨f, hf, rfl⟩
    · exact .inl hr
    · exact .inr ⟨rfl, rfl, .inr ((hmf f).1 hf).2⟩
  have hfive : ∀ f, f ∈ M.part.refBattr → (f = 1 ∨ f = 2 ∨ f = 3 ∨ f = 4) ∨ f = 5 := by
    intro f hf
    unfold Part.refBattr at hf
    split at hf <;> (simp at hf; omega)
  rw [rd_eq_ok.2 hM, ok_bind, u1, ok_bind]
  by_cases ho : (5 : Int) ∈ M.part.refBattr
  · rw [if_pos ho]
    obtain ⟨N, n1, n2⟩ := u3.mesh hM
    obtain ⟨t, t1, t2, t3, t4, t5, t6, t7⟩ := appendBoundary_ok u2 5 n1 (by rw [n2]; exact ho) (by
      rw [u7]
      rintro (hx | ⟨_, hx⟩)
      · exact h5 hx
      · have := ((hmf 5).1 hx).1
        omega)
    refine ⟨t, t1, t2, u3.trans t3, t4.trans u4, t5.trans u5, ?_, ?_, ?_, ?_⟩
    · intro x hx; rw [t7, u7]; exact .inl (.inl hx)
    · intro x hx
      rw [t7, u7] at hx
      rcases hx with (hx | hx) | rfl
      · exact .inl hx
      · exact .inr hx.1
      · exact .inr rfl
    · intro K f hK hf
      have : K = M := Option.some.inj (hK.symm.trans hM)
      subst this
      rw [t7]
      rcases hfive f hf with hf | rfl
      · exact .inl (hcov f hf)
      · exact .inr rfl
    · intro r hr
      rw [t6, List.mem_append, List.mem_singleton] at hr
      rcases hr with hr | rfl
      · exact hrows r hr
      · exact .inr ⟨rfl, rfl, .inl rfl⟩
  · rw [if_neg ho]
    refine ⟨u, rfl, u2, u3, u4, u5, ?_, ?_, ?_, hrows⟩
    · intro x hx; rw [u7]; exact .inl hx
    · intro x hx
      rw [u7] at hx
      rcases hx with hx | hx
      · exact .inl hx
      · exact .inr hx.1
    · intro K f hK hf
      have : K = M := Option.some.inj (hK.symm.trans hM)
      subst this
      rcases hfive f hf with hf | rfl
      · exact hcov f hf
      · exact absurd hf ho

theorem box_close {b : Box} (h : BInv P0 b) (hl : b.conf.loc.length = b.nx * b.ny) (ha : b.avail = []) :
    ∃ b', b.close = .ok b' ∧ Inv (Across b.nx b.ny b.px b.py) P0 b'.conf ∧ Kept b b' ∧ b'.used = b.used ∧
      Same b.conf b'.conf ∧ b'.conf.itf = b.conf.itf ∧ b'.conf.ports = b.conf.ports ∧
      (∀ (m : Nat) (M : Mesh) f, b'.conf.meshes[m]? = some M → f ∈ M.part.refBattr → ((m : Int), f) ∈ ment b'.conf) ∧
      (∀ r ∈ b'.conf.bdr, r.gattr = r.cattr ∧ (r.cattr = 5 ∨ (r.mesh, r.cattr) ∉ sides b.conf.itf)) := by
  have hA : Rel (Across b.nx b.ny b.px b.py) := across_rel
  have hment0 : ment b.conf = sides b.conf.itf := by unfold ment; rw [h.bdr]; rfl
  have h5 : ∀ a : Int, (a, (5 : Int)) ∉ sides b.conf.itf := by
    intro a hin
    obtain ⟨r, hr, e⟩ := mem_sides.1 hin
    obtain ⟨k', a, d, p', q', K, L, e1, e2, e3, e4, e5, e6, e7, e8, e9, e10, e11⟩ := h.inv.rows r hr
    have f1 := hA.face e7
    have f2 := opposite_face f1
    rcases e with e | e
    · injection e with x1 x2
      omega
    · injection e with x1 x2
      omega
  obtain ⟨t, t1, t2, t3, t4, t5, t6, t7, t8⟩ := foldlM_range_total
    (body := fun (s : Conf) (m : Nat) => do
      let c ← rd s.meshes m
      let s ← c.free.foldlM (fun s f => Conf.appendBoundary s f m f) s
      if (5 : Int) ∈ c.part.refBattr then s.appendBoundary 5 m 5 else return s)
    (fun n s => Inv (Across b.nx b.ny b.px b.py) P0 s ∧ Same b.conf s ∧ s.itf = b.conf.itf ∧
      s.ports = b.conf.ports ∧
      (∀ (m : Nat) f, n ≤ m → ((m : Int), f) ∈ ment s → ((m : Int), f) ∈ sides b.conf.itf) ∧
      (∀ (m : Nat) (M : Mesh) f, m < n → s.meshes[m]? = some M → f ∈ M.part.refBattr → ((m : Int), f) ∈ ment s) ∧
      (∀ r ∈ s.bdr, r.gattr = r.cattr ∧ (r.cattr = 5 ∨ (r.mesh, r.cattr) ∉ sides b.conf.itf)))
    (n := b.conf.meshes.length) (s := b.conf)
    ⟨h.inv, .refl _, rfl, rfl, fun m f _ hx => by rw [← hment0]; exact hx, fun m M f hm => absurd hm (by omega),
      by rw [h.bdr]; simp⟩
    (by
      rintro m s hm ⟨i1, i2, i3, i4, i5, i6, i7⟩
      have hsl : s.meshes.length = b.conf.meshes.length := by
        have := congrArg List.length i2.parts
        simpa using this
      obtain ⟨u, u1, u2, u3, u4, u5, u6, u7, u8, u9⟩ := close_mesh i1 (m := m) (by omega)
        (fun hx => h5 _ (i5 m 5 (by omega) hx))
      refine ⟨u, u1, u2, i2.trans u3, u4.trans i3, u5.trans i4, ?_, ?_, ?_⟩
      · intro k f hk hx
        rcases u7 _ hx with hx | hx
        · exact i5 k f (by omega) hx
        · dsimp only at hx; omega
      · intro k K f hk hK hf
        have hks : k < s.meshes.length := by omega
        obtain ⟨N, n1, n2⟩ := u3.mesh (List.getElem?_eq_getElem hks)
        have : N = K := Option.some.inj (n1.symm.trans hK)
        subst this
        rw [n2] at hf
        by_cases e : k = m
        · subst e
          exact u8 _ f (List.getElem?_eq_getElem hks) hf
        · exact u6 _ (i6 k _ f (by omega) (List.getElem?_eq_getElem hks) hf)
      · intro r hr
        rcases u9 r hr with hr | ⟨r1, r2, r3⟩
        · exact i7 r hr
        · refine ⟨r2, ?_⟩
          rcases r3 with r3 | r3
          · exact .inl r3
          · right
            intro hin
            apply r3
            unfold ment
            rw [i3]
            exact List.mem_append_right _ hin)
  have htl : t.meshes.length = b.conf.meshes.length := by
    have := congrArg List.length t3.parts
    simpa using this
  have hall : ∀ (m : Nat) (M : Mesh) f, t.meshes[m]? = some M → f ∈ M.part.refBattr → ((m : Int), f) ∈ ment t :=
    fun m M f hM hf => t7 m M f (by rw [← htl]; exact (List.getElem?_eq_some_iff.1 hM).1) hM hf
  refine ⟨{ b with conf := t }, ?_, t2, ⟨rfl, rfl, rfl, rfl, t3.comps⟩, rfl, t3, t4, t5, hall, t8⟩
  unfold Box.close
  rw [decide_eq_true (h.inv.len1.trans hl), decide_eq_true ha]
  simp only [require_true, ok_bind]
  rw [t1]
  simp only [ok_bind]
  rw [closed_ok hA t2 hall]
  rfl

/-! ## Writing the file -/

theorem mapM_total {α β : Type} {g : α → Outcome β} (P : α → β → Prop) (l : List α)
    (h : ∀ a ∈ l, ∃ b, g a = .ok b ∧ P a b) :
    ∃ r, l.mapM g = .ok r ∧ r.length = l.length ∧
      ∀ (k : Nat) a, l[k]? = some a → ∃ b, r[k]? = some b ∧ P a b := by
  induction l with
  | nil => exact ⟨[], rfl, rfl, by simp⟩
  | cons a l ih =>
    obtain ⟨b, b1, b2⟩ := h a (by simp)
    obtain ⟨r, r1, r2, r3⟩ := ih (fun x hx => h x (by simp [hx]))
    refine ⟨b :: r, ?_, by simp [r2], ?_⟩
    · rw [List.mapM_cons, b1, ok_bind, r1]
      rfl
    · rintro (_ | k) x hx
      · have : a = x := by simpa using hx
        subst this
        exact ⟨b, rfl, b2⟩
      · simpa using r3 k x (by simpa using hx)

theorem unused_ok {b : Box} (hu : b.used.length = b.conf.comps.length)
    (hm : ∀ t ∈ b.conf.types, b.used[t]? = some true) :
    ∃ r : List Part × List Int, b.removeUnused = .ok r ∧ r.1.Sublist b.conf.comps ∧
      r.2.length = b.conf.types.length ∧
      (∀ (m t : Nat), b.conf.types[m]? = some t → ∃ i : Nat, r.2[m]? = some (i : Int) ∧ r.1[i]? = b.conf.comps[t]?) ∧
      (∀ p ∈ r.1, ∃ c : Nat, b.used[c]? = some true ∧ b.conf.comps[c]? = some p) := by
  obtain ⟨u, u1, u2, u3, u4, u5⟩ := loop_total
    (body := fun k (r : List Int × List Part) => do
      let u ← rd b.used k
      if u then do
        let c ← rd b.conf.comps k
        let im ← wr r.1 k (r.2.length : Int)
        return (im, r.2 ++ [c])
      else return r)
    (fun k r => r.1.length = b.conf.comps.length ∧ r.2.Sublist (b.conf.comps.take k) ∧
      (∀ j, j < k → b.used[j]? = some true → ∃ i : Nat, r.1[j]? = some (i : Int) ∧ i < r.2.length ∧ r.2[i]? = b.conf.comps[j]?) ∧
      (∀ p ∈ r.2, ∃ c : Nat, b.used[c]? = some true ∧ b.conf.comps[c]? = some p))
    (n := b.used.length) (s := (List.replicate b.conf.comps.length (-1), []))
    ⟨by simp, by simp, fun j hj => absurd hj (by omega), by simp⟩
    (by
      rintro k ⟨im, nc⟩ hk ⟨h1, h2, h3, h4⟩
      dsimp only at h1 h2 h3 h4 ⊢
      have hkc : k < b.conf.comps.length := by rw [← hu]; exact hk
      have htake : b.conf.comps.take (k + 1) = b.conf.comps.take k ++ [b.conf.comps[k]] :=
        List.take_succ_eq_append_getElem hkc
      rw [rd_of_lt hk, ok_bind]
      cases hb : b.used[k] with
      | false =>
        refine ⟨(im, nc), by simp [pure, Except.pure], h1, ?_, ?_, h4⟩
        · rw [htake]
          exact h2.trans (List.sublist_append_left _ _)
        · intro j hj ht
          by_cases e : j = k
          · subst e
            rw [List.getElem?_eq_getElem hk, hb] at ht
            exact absurd ht (by simp)
          · exact h3 j (by omega) ht
      | true =>
        refine ⟨(im.set k (nc.length : Int), nc ++ [b.conf.comps[k]]), ?_, by simpa using h1, ?_, ?_, ?_⟩
        · rw [if_pos rfl, rd_of_lt hkc, ok_bind, wr_of_lt (by omega)]
          rfl
        · rw [htake]
          exact h2.append (List.Sublist.refl _)
        · intro j hj ht
          dsimp only
          by_cases e : j = k
          · subst e
            refine ⟨nc.length, by rw [List.getElem?_set_self (by omega)], by simp, ?_⟩
            rw [List.getElem?_eq_getElem hkc]
            simp
          · obtain ⟨i, i1, i2, i3⟩ := h3 j (by omega) ht
            exact ⟨i, by rw [List.getElem?_set_ne (Ne.symm e)]; exact i1, by simp; omega, by
              rw [List.getElem?_append_left i2]; exact i3⟩
        · intro p hp
          rw [List.mem_append, List.mem_singleton] at hp
          rcases hp with hp | rfl
          · exact h4 p hp
          · exact ⟨k, by rw [List.getElem?_eq_getElem hk, hb], List.getElem?_eq_getElem hkc⟩)
  obtain ⟨ts, v1, v2, v3⟩ := mapM_total (g := fun t => rd u.1 t)
    (fun t (v : Int) => ∃ i : Nat, v = i ∧ u.2[i]? = b.conf.comps[t]?) b.conf.types (by
      intro t ht
      have hut := hm t ht
      obtain ⟨i, i1, i2, i3⟩ := u4 t (List.getElem?_eq_some_iff.1 hut).1 hut
      exact ⟨i, rd_eq_ok.2 i1, i, rfl, i3⟩)
  refine ⟨(u.2, ts), ?_, u3.trans (List.take_sublist _ _), v2, ?_, u5⟩
  · unfold Box.removeUnused
    rw [decide_eq_true hu.symm]
    simp only [require_true, ok_bind]
    rw [u1]
    simp only [ok_bind, v1]
    have : (ts.all fun t => decide (0 ≤ t)) = true := by
      rw [List.all_eq_true]
      intro v hv
      obtain ⟨k, hk⟩ := List.getElem?_of_mem hv
      have hkl : k < b.conf.types.length := by rw [← v2]; exact (List.getElem?_eq_some_iff.1 hk).1
      obtain ⟨w, w1, i, w2, _⟩ := v3 k _ (List.getElem?_eq_getElem hkl)
      have : v = w := Option.some.inj (hk.symm.trans w1)
      subst this
      rw [w2]
      simp
    rw [this]
    rfl
  · intro m t ht
    obtain ⟨w, w1, i, rfl, w3⟩ := v3 m t ht
    exact ⟨i, w1, w3⟩

theorem find_name {comps : List Part} (hn : (comps.map Part.name).Nodup) {p : Part} (hp : p ∈ comps) :
    comps.find? (fun q => q.name == p.name) = some p := by
  induction comps with
  | nil => simp at hp
  | cons q l ih =>
    rw [List.map_cons, List.nodup_cons] at hn
    rw [List.find?_cons]
    by_cases e : q.name = p.name
    · have : q = p := by
        rcases List.mem_cons.1 hp with rfl | hp
        · rfl
        · exact absurd (e ▸ List.mem_map_of_mem hp) hn.1
      simp [this]
    · have : (q.name == p.name) = false := by simpa using e
      rw [this]
      exact ih hn.2 ((List.mem_cons.1 hp).resolve_left (fun h => e (by rw [h])))

theorem faceInv_step {f : Int} (h : f = 1 ∨ f = 2 ∨ f = 3 ∨ f = 4) : faceInv f = .ok (step f) := by
  rcases h with rfl | rfl | rfl | rfl <;> rfl

theorem save_ok (s : Conf) (types : List Int)
    (hp : ∀ k ∈ s.ports, (∃ c ∈ s.comps, c.name = k.1) ∧ (k.2.2.1 = 1 ∨ k.2.2.1 = 2 ∨ k.2.2.1 = 3 ∨ k.2.2.1 = 4)) :
    ∃ refs, s.save types = .ok ⟨s.comps.map Part.name, refs, ⟨types, s.loc, s.bdr, s.itf⟩⟩ ∧
      refs.length = s.ports.length ∧
      ∀ (k : Nat) x, s.ports[k]? = some x → refs[k]? = some ⟨x.1, x.2.1, x.2.2.1, x.2.2.2, step x.2.2.1⟩ := by
  obtain ⟨r, r1, r2, r3⟩ := mapM_total
    (g := fun (k : String × String × Int × Int) => do
      require (s.comps.any fun c => c.name == k.1)
      let d ← faceInv k.2.2.1
      return (⟨k.1, k.2.1, k.2.2.1, k.2.2.2, d⟩ : PortGroup))
    (fun x g => g = ⟨x.1, x.2.1, x.2.2.1, x.2.2.2, step x.2.2.1⟩) s.ports (by
      intro k hk
      obtain ⟨⟨c, c1, c2⟩, h2⟩ := hp k hk
      have : (s.comps.any fun c => c.name == k.1) = true := by
        rw [List.any_eq_true]
        exact ⟨c, c1, by simp [c2]⟩
      rw [this, require_true, ok_bind, faceInv_step h2]
      exact ⟨_, rfl, rfl⟩)
  refine ⟨r, ?_, r2, fun k x hx => ?_⟩
  · unfold Conf.save
    rw [r1]
    rfl
  · obtain ⟨g, g1, rfl⟩ := r3 k x hx
    exact g1

end Verif.Config
