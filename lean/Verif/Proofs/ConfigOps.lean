import Verif.Proofs.Config
import Verif.Spec.ConfigOps

/-! # Lemmas about scripts that assemble configurations -/

namespace Verif.Config

open Verif Verif.CompSetup Verif.GenConf Verif.Config.Spec

theorem foldlM_append_one {α β : Type} (f : β → α → Outcome β) (s : β) (l : List α) (x : α) :
    (l ++ [x]).foldlM f s = l.foldlM f s >>= fun t => f t x := by
  rw [foldlM_append']
  congr 1
  funext t
  rw [List.foldlM_cons]
  cases f t x <;> rfl

theorem facesOf_eq (p : Part) : facesOf p = p.refBattr := by
  unfold facesOf Part.refBattr
  cases p.object <;> rfl

/-- The state after a script. -/
structure After (comps : List Part) (calls : List Call) (s : Conf) : Prop where
  same : s.comps = comps
  meshes : s.meshes.length = (added calls).length
  part : ∀ (m c : Nat), (added calls)[m]? = some c → ∃ M p, s.meshes[m]? = some M ∧ comps[c]? = some p ∧
    M.part = p
  free : ∀ (m : Nat) M, s.meshes[m]? = some M → M.free.Nodup ∧
    ∀ f, f ∈ M.free ↔ f ∈ ([1, 2, 3, 4] : List Int) ∧ (m, f) ∉ allNamed calls
  faces : ∀ x ∈ allNamed calls, ∃ M, s.meshes[x.1]? = some M ∧ x.2 ∈ M.part.refBattr
  rows : ∀ (m : Nat) f, (ment s).count ((m : Int), f) = (allNamed calls).count (m, f)
  nonneg : ∀ x ∈ ment s, ∃ (m : Nat), x.1 = m ∧ (m, x.2) ∈ allNamed calls

theorem after_nil (comps : List Part) : After comps [] ⟨comps, [], [], [], [], [], []⟩ := by
  refine ⟨rfl, rfl, ?_, ?_, ?_, ?_, ?_⟩
  · intro m c h; cases h
  · intro m M h; cases h
  · intro x h; cases h
  · intro m f; rfl
  · intro x h; cases h

theorem set_free {ms : List Mesh} {m : Nat} {c : Mesh} (hm : ms[m]? = some c) (f : Int) {k : Nat} {M : Mesh}
    (h : (ms.set m { c with free := c.free.erase f })[k]? = some M) :
    ∃ M', ms[k]? = some M' ∧ M.part = M'.part ∧
      M.free = if k = m then M'.free.erase f else M'.free := by
  have hlt := (List.getElem?_eq_some_iff.1 hm).1
  by_cases hk : k = m
  · subst hk
    rw [List.getElem?_set_self hlt] at h
    cases h
    exact ⟨c, hm, rfl, by rw [if_pos rfl]⟩
  · rw [List.getElem?_set_ne (Ne.symm hk)] at h
    exact ⟨M, h, rfl, by rw [if_neg hk]⟩

theorem set_free' {ms : List Mesh} {m : Nat} {c : Mesh} (hm : ms[m]? = some c) (f : Int) {k : Nat} {M : Mesh}
    (h : ms[k]? = some M) :
    ∃ M', (ms.set m { c with free := c.free.erase f })[k]? = some M' ∧ M'.part = M.part := by
  have hlt := (List.getElem?_eq_some_iff.1 hm).1
  by_cases hk : k = m
  · subst hk
    rw [hm] at h; cases h
    exact ⟨_, List.getElem?_set_self hlt, rfl⟩
  · exact ⟨M, by rw [List.getElem?_set_ne (Ne.symm hk)]; exact h, rfl⟩

theorem allNamed_append (calls : List Call) (c : Call) :
    allNamed (calls ++ [c]) = allNamed calls ++ named c := by
  unfold allNamed; simp

theorem added_append (calls : List Call) (c : Call) :
    added (calls ++ [c]) = added calls ++ added [c] := by
  unfold added; rw [List.filterMap_append]

variable {comps : List Part} {calls : List Call} {s t : Conf}

theorem after_mesh (h : After comps calls s) {c : Nat} {l : Int × Int} (e : s.addMesh c l = .ok t) :
    After comps (calls ++ [.mesh c l]) t := by
  unfold Conf.addMesh at e
  obtain ⟨p, hp, e⟩ := bind_eq_ok.1 e
  cases e
  rw [rd_eq_ok] at hp
  have hA : added (calls ++ [.mesh c l]) = added calls ++ [c] := by rw [added_append]; rfl
  have hN : allNamed (calls ++ [.mesh c l]) = allNamed calls := by rw [allNamed_append]; simp [named]
  refine ⟨h.same, ?_, ?_, ?_, ?_, ?_, ?_⟩
  · rw [hA]; simp [h.meshes]
  · intro m d hd
    rw [hA] at hd
    by_cases hm : m < (added calls).length
    · rw [List.getElem?_append_left hm] at hd
      obtain ⟨M, q, h1, h2, h3⟩ := h.part m d hd
      exact ⟨M, q, by
        show (s.meshes ++ _)[m]? = _
        rw [List.getElem?_append_left (by rw [h.meshes]; exact hm)]; exact h1, h2, h3⟩
    · rw [List.getElem?_append_right (by omega)] at hd
      have hz : m - (added calls).length = 0 := by
        have := (List.getElem?_eq_some_iff.1 hd).1; simpa using this
      rw [hz] at hd
      cases hd
      refine ⟨⟨p, [1, 2, 3, 4]⟩, p, ?_, by rw [← h.same]; exact hp, rfl⟩
      show (s.meshes ++ _)[m]? = _
      rw [List.getElem?_append_right (by rw [h.meshes]; omega), h.meshes, hz]; rfl
  · intro m M hM
    rw [hN]
    change (s.meshes ++ _)[m]? = some M at hM
    by_cases hm : m < s.meshes.length
    · rw [List.getElem?_append_left hm] at hM
      exact h.free m M hM
    · rw [List.getElem?_append_right (by omega)] at hM
      have hz : m - s.meshes.length = 0 := by
        have := (List.getElem?_eq_some_iff.1 hM).1; simpa using this
      rw [hz] at hM
      cases hM
      refine ⟨(by decide : ([1, 2, 3, 4] : List Int).Nodup), fun f => ?_⟩
      refine ⟨fun hf => ⟨hf, fun hin => ?_⟩, fun hf => hf.1⟩
      obtain ⟨M, h1, _⟩ := h.faces _ hin
      exact hm (List.getElem?_eq_some_iff.1 h1).1
  · intro x hx
    rw [hN] at hx
    obtain ⟨M, h1, h2⟩ := h.faces x hx
    refine ⟨M, ?_, h2⟩
    show (s.meshes ++ _)[x.1]? = _
    rw [List.getElem?_append_left (List.getElem?_eq_some_iff.1 h1).1]; exact h1
  · intro m f; rw [hN]; exact h.rows m f
  · intro x hx; rw [hN]; exact h.nonneg x hx

/-- A step that takes faces away from meshes and names them. -/
theorem after_take (h : After comps calls s) {x : Call} {xs : List (Nat × Int)} (hx : named x = xs)
    (hadd : added [x] = []) (ht : t.comps = s.comps) (hl : t.meshes.length = s.meshes.length)
    (hmesh : ∀ (k : Nat) M, t.meshes[k]? = some M → ∃ M', s.meshes[k]? = some M' ∧ M.part = M'.part ∧
      M.free.Nodup ∧ ∀ f, f ∈ M.free ↔ f ∈ M'.free ∧ (k, f) ∉ xs)
    (hface : ∀ y ∈ xs, ∃ M, s.meshes[y.1]? = some M ∧ y.2 ∈ M.part.refBattr)
    (hment : (ment t).Perm (ment s ++ xs.map fun y => ((y.1 : Int), y.2))) :
    After comps (calls ++ [x]) t := by
  have hA : added (calls ++ [x]) = added calls := by rw [added_append, hadd, List.append_nil]
  have hN : allNamed (calls ++ [x]) = allNamed calls ++ xs := by rw [allNamed_append, hx]
  have hup : ∀ (k : Nat) M, s.meshes[k]? = some M → ∃ M', t.meshes[k]? = some M' ∧ M'.part = M.part := by
    intro k M hM
    have hk : k < t.meshes.length := by rw [hl]; exact (List.getElem?_eq_some_iff.1 hM).1
    obtain ⟨M', h1, h2, _⟩ := hmesh k _ (List.getElem?_eq_getElem hk)
    rw [hM] at h1; cases h1
    exact ⟨_, List.getElem?_eq_getElem hk, h2⟩
  refine ⟨ht.trans h.same, by rw [hA, hl, h.meshes], ?_, ?_, ?_, ?_, ?_⟩
  · intro m c hc
    rw [hA] at hc
    obtain ⟨M, p, h1, h2, h3⟩ := h.part m c hc
    obtain ⟨M', g1, g2⟩ := hup m M h1
    exact ⟨M', p, g1, h2, g2.trans h3⟩
  · intro m M hM
    obtain ⟨M', h1, _, h3, h4⟩ := hmesh m M hM
    refine ⟨h3, fun f => ?_⟩
    rw [h4, (h.free m M' h1).2, hN, List.mem_append, not_or, and_assoc]
  · intro y hy
    rw [hN, List.mem_append] at hy
    have : ∃ M, s.meshes[y.1]? = some M ∧ y.2 ∈ M.part.refBattr := by
      rcases hy with hy | hy
      · exact h.faces y hy
      · exact hface y hy
    obtain ⟨M, h1, h2⟩ := this
    obtain ⟨M', g1, g2⟩ := hup _ M h1
    exact ⟨M', g1, by rw [g2]; exact h2⟩
  · intro m f
    rw [hment.count_eq, hN, List.count_append, List.count_append, h.rows]
    congr 1
    have hinj : Function.Injective fun y : Nat × Int => ((y.1 : Int), y.2) := by
      rintro ⟨a, b⟩ ⟨c, d⟩ hh
      simp only [Prod.mk.injEq] at hh
      have : a = c := by exact_mod_cast hh.1
      rw [this, hh.2]
    exact List.count_map_of_injective xs _ hinj (m, f)
  · intro y hy
    rw [hment.mem_iff, List.mem_append] at hy
    rw [hN]
    rcases hy with hy | hy
    · obtain ⟨m, h1, h2⟩ := h.nonneg y hy
      exact ⟨m, h1, List.mem_append_left _ h2⟩
    · obtain ⟨z, hz, rfl⟩ := List.mem_map.1 hy
      exact ⟨z.1, rfl, List.mem_append_right _ hz⟩

theorem mem_erase_nodup {l : List Int} (h : l.Nodup) {f x : Int} : x ∈ l.erase f ↔ x ∈ l ∧ x ≠ f := by
  rw [h.mem_erase_iff]; exact And.comm

theorem after_boundary (h : After comps calls s) {g : Int} {m : Nat} {f : Int}
    (e : s.appendBoundary g m f = .ok t) : After comps (calls ++ [.boundary g m f]) t := by
  unfold Conf.appendBoundary at e
  obtain ⟨c, hc, e⟩ := bind_eq_ok.1 e
  obtain ⟨_, hf, e⟩ := bind_eq_ok.1 e
  obtain ⟨ms, hms, e⟩ := bind_eq_ok.1 e
  rw [rd_eq_ok] at hc
  have hf : f ∈ c.part.refBattr := by
    unfold require at hf
    split at hf
    · next hh => exact of_decide_eq_true hh
    · cases hf
  rw [wr_of_lt (List.getElem?_eq_some_iff.1 hc).1] at hms
  cases hms
  cases e
  refine after_take h (xs := [(m, f)]) rfl rfl rfl (by simp) ?_ ?_ ?_
  · intro k M hM
    obtain ⟨M', h1, h2, h3⟩ := set_free hc f hM
    have hn := (h.free k M' h1).1
    refine ⟨M', h1, h2, ?_, fun x => ?_⟩
    · rw [h3]; split
      · exact hn.erase _
      · exact hn
    · rw [h3]
      by_cases hk : k = m
      · rw [if_pos hk, mem_erase_nodup hn]; simp [hk]
      · rw [if_neg hk]; simp [hk]
  · intro y hy
    simp only [List.mem_singleton] at hy
    subst hy
    exact ⟨c, hc, hf⟩
  · unfold ment
    simp only [List.map_append, List.map_cons, List.map_nil]
    rw [List.append_assoc, List.append_assoc]
    exact List.Perm.append_left _ List.perm_append_comm

theorem require_ok {b : Bool} {u : Unit} (h : require b = .ok u) : b = true := by
  unfold require at h
  split at h
  · assumption
  · cases h

theorem popFace_ok {ms ms' : List Mesh} {m : Nat} {f : Int} (h : popFace ms m f = .ok ms') :
    ∃ c, ms[m]? = some c ∧ f ∈ c.free ∧ ms' = ms.set m { c with free := c.free.erase f } := by
  unfold popFace at h
  obtain ⟨c, hc, h⟩ := bind_eq_ok.1 h
  obtain ⟨_, hf, h⟩ := bind_eq_ok.1 h
  rw [rd_eq_ok] at hc
  rw [wr_of_lt (List.getElem?_eq_some_iff.1 hc).1] at h
  cases h
  exact ⟨c, hc, of_decide_eq_true (require_ok hf), rfl⟩

theorem interface_ok {m1 m2 : Nat} {f1 f2 : Int} (e : s.appendInterface m1 m2 f1 f2 = .ok t) :
    ∃ ms1 ms2 ps p, popFace s.meshes m1 f1 = .ok ms1 ∧ popFace ms1 m2 f2 = .ok ms2 ∧
      t = { s with meshes := ms2, ports := ps, itf := s.itf ++ [ifRow m1 m2 f1 f2 p] } := by
  unfold Conf.appendInterface at e
  obtain ⟨c1, hc1, e⟩ := bind_eq_ok.1 e
  obtain ⟨_, _, e⟩ := bind_eq_ok.1 e
  obtain ⟨c2, hc2, e⟩ := bind_eq_ok.1 e
  obtain ⟨_, _, e⟩ := bind_eq_ok.1 e
  obtain ⟨ms1, h1, e⟩ := bind_eq_ok.1 e
  obtain ⟨ms2, h2, e⟩ := bind_eq_ok.1 e
  obtain ⟨s', h3, e⟩ := bind_eq_ok.1 e
  obtain ⟨p, h4, e⟩ := bind_eq_ok.1 e
  cases e
  unfold Conf.appendRefPort at h3
  obtain ⟨_, _, h3⟩ := bind_eq_ok.1 h3
  split at h3
  · cases h3
    exact ⟨ms1, ms2, s.ports, p, h1, h2, rfl⟩
  · cases h3
    exact ⟨ms1, ms2, _, p, h1, h2, rfl⟩

theorem after_interface (h : After comps calls s) {m1 m2 : Nat} {f1 f2 : Int}
    (e : s.appendInterface m1 m2 f1 f2 = .ok t) :
    After comps (calls ++ [.interface m1 m2 f1 f2]) t := by
  obtain ⟨ms1, ms2, ps, p, h1, h2, rfl⟩ := interface_ok e
  obtain ⟨c1, a1, a2, rfl⟩ := popFace_ok h1
  obtain ⟨c2, b1, b2, rfl⟩ := popFace_ok h2
  obtain ⟨c2', d1, d2, d3⟩ := set_free a1 f1 b1
  have four : ∀ x ∈ ([1, 2, 3, 4] : List Int), ∀ p : Part, x ∈ p.refBattr := by
    intro x hx p
    rw [← facesOf_eq]
    exact List.mem_append_left _ hx
  refine after_take h (xs := [(m1, f1), (m2, f2)]) rfl rfl rfl (by simp) ?_ ?_ ?_
  · intro k M hM
    obtain ⟨M1, g1, g2, g3⟩ := set_free b1 f2 hM
    obtain ⟨M0, k1, k2, k3⟩ := set_free a1 f1 g1
    have hn := (h.free k M0 k1).1
    have hn1 : M1.free.Nodup := by
      rw [k3]; split
      · exact hn.erase _
      · exact hn
    refine ⟨M0, k1, g2.trans k2, ?_, fun x => ?_⟩
    · rw [g3]; split
      · exact hn1.erase _
      · exact hn1
    · have e1 : x ∈ M.free ↔ x ∈ M1.free ∧ ¬(k = m2 ∧ x = f2) := by
        rw [g3]
        by_cases hk : k = m2
        · rw [if_pos hk, mem_erase_nodup hn1]; simp [hk]
        · rw [if_neg hk]; simp [hk]
      have e2 : x ∈ M1.free ↔ x ∈ M0.free ∧ ¬(k = m1 ∧ x = f1) := by
        rw [k3]
        by_cases hk : k = m1
        · rw [if_pos hk, mem_erase_nodup hn]; simp [hk]
        · rw [if_neg hk]; simp [hk]
      rw [e1, e2]
      simp only [List.mem_cons, Prod.mk.injEq, List.not_mem_nil, or_false, not_or]
      exact and_assoc
  · intro y hy
    simp only [List.mem_cons, List.not_mem_nil, or_false] at hy
    rcases hy with rfl | rfl
    · exact ⟨c1, a1, four _ (((h.free m1 c1 a1).2 f1).1 a2).1 _⟩
    · refine ⟨c2', d1, four _ (((h.free m2 c2' d1).2 f2).1 ?_).1 _⟩
      rw [d3] at b2
      split at b2
      · exact List.mem_of_mem_erase b2
      · exact b2
  · unfold ment sides ifRow
    simp only [List.flatMap_append, List.flatMap_cons, List.flatMap_nil, List.append_nil, List.map_cons,
      List.map_nil]
    rw [← List.append_assoc]
    refine List.Perm.append_left _ ?_
    split
    · exact List.Perm.refl _
    · exact List.Perm.swap _ _ _

theorem after_script (comps : List Part) (calls : List Call) (e : script comps calls = .ok s) :
    After comps calls s := by
  induction calls using List.reverseRecOn generalizing s with
  | nil =>
    cases e
    exact after_nil comps
  | append_singleton calls c ih =>
    unfold script at e
    rw [foldlM_append_one] at e
    obtain ⟨t, h1, h2⟩ := bind_eq_ok.1 e
    have ht := ih h1
    cases c with
    | mesh c l => exact after_mesh ht h2
    | boundary g m f => exact after_boundary ht h2
    | interface m1 m2 f1 f2 => exact after_interface ht h2

/-! ## Dropping faces -/

theorem dropFace_ok {fs gs : List (List Int)} {x : Int × Int} (h : dropFace fs x.1 x.2 = .ok gs) :
    ∃ (m : Nat) (l : List Int), x.1 = m ∧ fs[m]? = some l ∧ x.2 ∈ l ∧ gs = fs.set m (l.erase x.2) := by
  unfold dropFace at h
  obtain ⟨l, hl, h⟩ := bind_eq_ok.1 h
  obtain ⟨_, hf, h⟩ := bind_eq_ok.1 h
  have hl' : 0 ≤ x.1 ∧ fs[x.1.toNat]? = some l := by
    unfold rdI at hl
    split at hl
    · exact ⟨by assumption, rd_eq_ok.1 hl⟩
    · cases hl
  obtain ⟨m, h1⟩ := Int.eq_ofNat_of_zero_le hl'.1
  have h2 : fs[m]? = some l := by rw [← hl'.2, h1, Int.toNat_natCast]
  have hlt := (List.getElem?_eq_some_iff.1 h2).1
  unfold wrI at h
  rw [if_pos (by omega), h1, Int.toNat_natCast, wr_of_lt hlt] at h
  cases h
  exact ⟨m, l, h1, h2, of_decide_eq_true (require_ok hf), rfl⟩

/-- What is left has lost every face as often as it was dropped. -/
theorem drops_count (xs : List (Int × Int)) (fs gs : List (List Int))
    (h : xs.foldlM (fun fs x => dropFace fs x.1 x.2) fs = .ok gs) :
    gs.length = fs.length ∧ ∀ (m : Nat) l, fs[m]? = some l → ∃ l', gs[m]? = some l' ∧
      ∀ f, l'.count f + xs.count ((m : Int), f) = l.count f := by
  induction xs generalizing fs with
  | nil =>
    cases h
    exact ⟨rfl, fun m l hl => ⟨l, hl, fun f => by simp⟩⟩
  | cons x xs ih =>
    rw [List.foldlM_cons] at h
    obtain ⟨hs, h1, h2⟩ := bind_eq_ok.1 h
    obtain ⟨m, l, e1, e2, e3, rfl⟩ := dropFace_ok h1
    have hlt := (List.getElem?_eq_some_iff.1 e2).1
    obtain ⟨i1, i2⟩ := ih _ h2
    refine ⟨by rw [i1]; simp, ?_⟩
    intro k l0 hl0
    obtain ⟨a, f0⟩ := x
    dsimp only at e1 e3 i2
    by_cases hk : k = m
    · subst hk
      rw [e2] at hl0; cases hl0
      obtain ⟨l', g1, g2⟩ := i2 k _ (List.getElem?_set_self hlt)
      refine ⟨l', g1, fun f => ?_⟩
      have hc := g2 f
      rw [List.count_cons]
      by_cases hff : f = f0
      · subst hff
        rw [List.count_erase_self] at hc
        have := List.count_pos_iff.2 e3
        simp only [e1, beq_self_eq_true, if_true]
        omega
      · rw [List.count_erase_of_ne hff] at hc
        have : ((a, f0) == ((k : Int), f)) = false := by
          simp only [beq_eq_false_iff_ne, ne_eq, Prod.mk.injEq, not_and]
          exact fun _ hh => hff hh.symm
        rw [this]
        simpa using hc
    · obtain ⟨l', g1, g2⟩ := i2 k l0 (by rw [List.getElem?_set_ne (Ne.symm hk)]; exact hl0)
      refine ⟨l', g1, fun f => ?_⟩
      rw [List.count_cons]
      have : ((a, f0) == ((k : Int), f)) = false := by
        simp only [beq_eq_false_iff_ne, ne_eq, Prod.mk.injEq, not_and]
        intro hh; omega
      rw [this]
      simpa using g2 f

/-- The order of boundary and interface rows. -/
theorem drops_eq (s : Conf) (fs : List (List Int)) :
    ((ment s).foldlM (fun fs x => dropFace fs x.1 x.2) fs) =
      (s.bdr.foldlM (fun fs b => dropFace fs b.mesh b.cattr) fs >>=
        fun fs => s.itf.foldlM (fun fs r => do
          let fs ← dropFace fs r.mesh1 r.attr1
          dropFace fs r.mesh2 r.attr2) fs) := by
  unfold ment sides
  rw [foldlM_append', foldlM_map']
  congr 1
  funext fs
  rw [foldlM_flatMap]
  congr 1
  funext t r
  simp only [List.foldlM_cons, List.foldlM_nil]
  cases dropFace t r.mesh1 r.attr1 with
  | error e => rfl
  | ok u =>
    simp only [ok_bind]
    cases dropFace u r.mesh2 r.attr2 <;> rfl

theorem closed_eq (s : Conf) : s.allFacesClosed =
    (if s.meshes.any (fun m => decide (m.free ≠ [])) then .ok false else
      (ment s).foldlM (fun fs x => dropFace fs x.1 x.2) (s.meshes.map fun m => m.part.refBattr) >>=
        fun fs => .ok (fs.all fun l => decide (l = []))) := by
  unfold Conf.allFacesClosed
  rw [drops_eq]
  split
  · rfl
  · cases s.bdr.foldlM (fun fs b => dropFace fs b.mesh b.cattr) (s.meshes.map fun m => m.part.refBattr) with
    | error e => rfl
    | ok fs => rfl

end Verif.Config
