import Verif.Proofs.GenConf
import Verif.Spec.Config

/-! # Lemmas about the configurations assembled mesh by mesh -/

namespace Verif.Config

open Verif Verif.CompSetup Verif.GenConf Verif.Config.Spec

/-! ## Lists -/

theorem foldlM_append' {α σ : Type} {f : σ → α → Outcome σ} {l₁ l₂ : List α} {s : σ} :
    (l₁ ++ l₂).foldlM f s = (l₁.foldlM f s >>= fun t => l₂.foldlM f t) := by
  simp [List.foldlM_append]

theorem foldlM_flatMap {α β σ : Type} {f : σ → β → Outcome σ} {g : α → List β} (l : List α) (s : σ) :
    (l.flatMap g).foldlM f s = l.foldlM (fun t a => (g a).foldlM f t) s := by
  induction l generalizing s with
  | nil => rfl
  | cons a l ih =>
    rw [List.flatMap_cons, foldlM_append', List.foldlM_cons]
    congr 1
    funext t
    exact ih t

theorem foldlM_congr {α σ : Type} {f g : σ → α → Outcome σ} {l : List α} (h : ∀ a ∈ l, ∀ s, f s a = g s a)
    (s : σ) : l.foldlM f s = l.foldlM g s := by
  induction l generalizing s with
  | nil => rfl
  | cons a l ih =>
    rw [List.foldlM_cons, List.foldlM_cons, h a (by simp)]
    congr 1
    funext t
    exact ih (fun b hb => h b (by simp [hb])) t

theorem foldlM_map' {α β σ : Type} {f : σ → β → Outcome σ} {g : α → β} (l : List α) (s : σ) :
    (l.map g).foldlM f s = l.foldlM (fun t a => f t (g a)) s := by
  induction l generalizing s with
  | nil => rfl
  | cons a l ih =>
    rw [List.map_cons, List.foldlM_cons, List.foldlM_cons]
    congr 1
    funext t
    exact ih t

theorem filter_erase {l : List Int} (hl : l.Nodup) {P : Int → Bool} {a : Int} :
    (l.filter P).erase a = l.filter (fun x => P x && decide (x ≠ a)) := by
  rw [List.Nodup.erase_eq_filter (hl.filter P), List.filter_filter]
  congr 1
  funext x
  by_cases h : x = a <;> simp [h]

theorem fold_keep {α σ : Type} {f : σ → α → Outcome σ} {Q : σ → Prop}
    (hs : ∀ s a t, f s a = .ok t → Q s → Q t) {l : List α} {s t : σ} (h : l.foldlM f s = .ok t) (hq : Q s) : Q t := by
  induction l generalizing s with
  | nil =>
    cases h
    exact hq
  | cons a l ih =>
    rw [List.foldlM_cons] at h
    obtain ⟨u, hu, h⟩ := bind_eq_ok.1 h
    exact ih h (hs _ _ _ hu hq)

theorem fold_reach {α σ : Type} {f : σ → α → Outcome σ} {Q : σ → Prop}
    (hs : ∀ s a t, f s a = .ok t → Q s → Q t) {a : α} (ha : ∀ s t, f s a = .ok t → Q t)
    {l : List α} (hl : a ∈ l) {s t : σ} (h : l.foldlM f s = .ok t) : Q t := by
  induction l generalizing s with
  | nil => simp at hl
  | cons b l ih =>
    rw [List.foldlM_cons] at h
    obtain ⟨u, hu, h'⟩ := bind_eq_ok.1 h
    rcases List.mem_cons.1 hl with rfl | hl
    · exact fold_keep hs h' (ha _ _ hu)
    · exact ih hl h'

/-! ## The faces that are mentioned -/

/-- Both sides of the interfaces. -/
def sides (l : List PortRow) : List (Int × Int) := l.flatMap fun r => [(r.mesh1, r.attr1), (r.mesh2, r.attr2)]

/-- The faces in the tables. -/
def ment (s : Conf) : List (Int × Int) := s.bdr.map (fun r => (r.mesh, r.cattr)) ++ sides s.itf

theorem mem_sides {l : List PortRow} {x : Int × Int} :
    x ∈ sides l ↔ ∃ r ∈ l, x = (r.mesh1, r.attr1) ∨ x = (r.mesh2, r.attr2) := by
  simp [sides]

theorem mem_ment_ifRow {s : Conf} {ms : List Mesh} {ps : List (String × String × Int × Int)} {m n k : Nat}
    {f g : Int} {x : Int × Int} :
    x ∈ ment { s with meshes := ms, ports := ps, itf := s.itf ++ [ifRow m n f g k] } ↔
      x ∈ ment s ∨ x = ((m : Int), f) ∨ x = ((n : Int), g) := by
  simp only [ment, sides, List.flatMap_append, List.mem_append, List.flatMap_cons, List.flatMap_nil,
    List.append_nil, ifRow]
  split
  · simp only [List.mem_cons, List.not_mem_nil, or_false]
    tauto
  · simp only [List.mem_cons, List.not_mem_nil, or_false]
    tauto

/-- What holds for a configuration while it is assembled.  `A f p q` means that `q` lies across face `f` of
`p`; `P0` are the reference ports registered beforehand. -/
structure Inv (A : Int → Int × Int → Int × Int → Prop) (P0 : List (String × String × Int × Int))
    (s : Conf) : Prop where
  len1 : s.meshes.length = s.loc.length
  len2 : s.types.length = s.loc.length
  part : ∀ (m c : Nat) (M : Mesh), s.types[m]? = some c → s.meshes[m]? = some M → s.comps[c]? = some M.part
  free : ∀ (m : Nat) (M : Mesh), s.meshes[m]? = some M →
    M.free = [1, 2, 3, 4].filter fun f => decide (((m : Int), f) ∉ ment s)
  nodup : (ment s).Nodup
  bdrs : ∀ r ∈ s.bdr, ∃ (m : Nat) (M : Mesh), r.mesh = m ∧ s.meshes[m]? = some M ∧ r.cattr ∈ M.part.refBattr
  rows : ∀ r ∈ s.itf, ∃ (k m n : Nat) (p q : Int × Int) (M N : Mesh), r.type = k ∧ r.mesh1 = m ∧
    r.mesh2 = n ∧ m ≠ n ∧ s.loc[m]? = some p ∧ s.loc[n]? = some q ∧ A r.attr1 p q ∧
    r.attr2 = opposite r.attr1 ∧ s.meshes[m]? = some M ∧ s.meshes[n]? = some N ∧
    s.ports[k]? = some (M.part.name, N.part.name, r.attr1, r.attr2)
  ports : ∀ k ∈ s.ports, k ∈ P0 ∨ ((∃ M ∈ s.meshes, M.part.name = k.1) ∧
    (∃ M ∈ s.meshes, M.part.name = k.2.1) ∧ (k.2.2.1 = 1 ∨ k.2.2.1 = 2))
  keep : ∀ k ∈ P0, k ∈ s.ports

/-- What is asked of "across". -/
structure Rel (A : Int → Int × Int → Int × Int → Prop) : Prop where
  face : ∀ {f p q}, A f p q → f = 1 ∨ f = 2 ∨ f = 3 ∨ f = 4
  symm : ∀ {f p q}, A f p q → A (opposite f) q p

theorem opposite_opposite {f : Int} (h : f = 1 ∨ f = 2 ∨ f = 3 ∨ f = 4) : opposite (opposite f) = f := by
  rcases h with rfl | rfl | rfl | rfl <;> decide

theorem opposite_face {f : Int} (h : f = 1 ∨ f = 2 ∨ f = 3 ∨ f = 4) :
    opposite f = 1 ∨ opposite f = 2 ∨ opposite f = 3 ∨ opposite f = 4 := by
  rcases h with rfl | rfl | rfl | rfl <;> decide

theorem opposite_ne {f : Int} (h : f = 1 ∨ f = 2 ∨ f = 3 ∨ f = 4) : opposite f ≠ f := by
  rcases h with rfl | rfl | rfl | rfl <;> decide

theorem mem_refBattr {p : Part} {f : Int} (h : f = 1 ∨ f = 2 ∨ f = 3 ∨ f = 4) : f ∈ p.refBattr := by
  unfold Part.refBattr
  split <;> (simp; omega)

variable {A : Int → Int × Int → Int × Int → Prop} {P0 : List (String × String × Int × Int)} {s t : Conf}

theorem known_of (h : Inv A P0 s) {m n : Nat} {M N : Mesh} (hm : s.meshes[m]? = some M)
    (hn : s.meshes[n]? = some N) : s.known M.part.name N.part.name = true := by
  have key : ∀ {k : Nat} {K : Mesh}, s.meshes[k]? = some K → (s.comps.any fun c => c.name == K.part.name) := by
    intro k K hk
    have hlt : k < s.types.length := by
      rw [h.len2, ← h.len1]; exact (List.getElem?_eq_some_iff.1 hk).1
    have := h.part k s.types[k] K (List.getElem?_eq_getElem hlt) hk
    rw [List.any_eq_true]
    exact ⟨K.part, List.mem_of_getElem? this, by simp⟩
  unfold Conf.known
  rw [key hm, key hn]
  rfl

/-- The frame of a step: what does not change. -/
structure Same (s t : Conf) : Prop where
  comps : t.comps = s.comps
  types : t.types = s.types
  loc : t.loc = s.loc
  parts : t.meshes.map Mesh.part = s.meshes.map Mesh.part

theorem Same.refl (s : Conf) : Same s s := ⟨rfl, rfl, rfl, rfl⟩

theorem Same.trans {s t u : Conf} (h : Same s t) (k : Same t u) : Same s u :=
  ⟨k.comps.trans h.comps, k.types.trans h.types, k.loc.trans h.loc, k.parts.trans h.parts⟩

theorem Same.mesh {s t : Conf} (h : Same s t) {m : Nat} {M : Mesh} (hm : s.meshes[m]? = some M) :
    ∃ N, t.meshes[m]? = some N ∧ N.part = M.part := by
  have := congrArg (fun l => l[m]?) h.parts
  simp only [List.getElem?_map, hm, Option.map_some] at this
  cases ht : t.meshes[m]? with
  | none => simp [ht] at this
  | some N => exact ⟨N, rfl, by simpa [ht] using this⟩

theorem free_of (h : Inv A P0 s) {m : Nat} {M : Mesh} (hm : s.meshes[m]? = some M) {f : Int}
    (hf : f = 1 ∨ f = 2 ∨ f = 3 ∨ f = 4) (hn : ((m : Int), f) ∉ ment s) : f ∈ M.free := by
  rw [h.free m M hm, List.mem_filter]
  exact ⟨by simp; omega, by simpa using hn⟩

/-- Adding an interface between free faces. -/
theorem appendInterface_ok (hA : Rel A) (h : Inv A P0 s) {m n : Nat} {p q : Int × Int} {f : Int}
    (hmn : m ≠ n) (hm : s.loc[m]? = some p) (hn : s.loc[n]? = some q) (ha : A f p q)
    (h1 : ((m : Int), f) ∉ ment s) (h2 : ((n : Int), opposite f) ∉ ment s) :
    ∃ t, s.appendInterface m n f (opposite f) = .ok t ∧ Inv A P0 t ∧ Same s t ∧ t.bdr = s.bdr ∧
      (∀ x, x ∈ ment t ↔ x ∈ ment s ∨ x = ((m : Int), f) ∨ x = ((n : Int), opposite f)) ∧
      ∃ k, t.itf = s.itf ++ [ifRow m n f (opposite f) k] := by
  have hf := hA.face ha
  have ho := opposite_face hf
  have hml : m < s.meshes.length := by rw [h.len1]; exact (List.getElem?_eq_some_iff.1 hm).1
  have hnl : n < s.meshes.length := by rw [h.len1]; exact (List.getElem?_eq_some_iff.1 hn).1
  obtain ⟨M, hM⟩ : ∃ M, s.meshes[m]? = some M := ⟨_, List.getElem?_eq_getElem hml⟩
  obtain ⟨N, hN⟩ : ∃ N, s.meshes[n]? = some N := ⟨_, List.getElem?_eq_getElem hnl⟩
  have hk := known_of h hM hN
  have hfM := free_of h hM hf h1
  have hfN := free_of h hN ho h2
  let ms := (s.meshes.set m { M with free := M.free.erase f }).set n { N with free := N.free.erase (opposite f) }
  have hms : ∀ k : Nat, ms[k]? = if k = n then some { N with free := N.free.erase (opposite f) }
      else if k = m then some { M with free := M.free.erase f } else s.meshes[k]? := by
    intro k
    simp only [ms, List.getElem?_set, List.length_set, hnl, hml, if_true]
    split_ifs with a b c d e <;> first | rfl | omega
  let key := portKey M.part.name N.part.name f (opposite f)
  let ps := if key ∈ s.ports then s.ports else s.ports ++ [key]
  have hkey : key ∈ ps := by
    simp only [ps]; split
    · assumption
    · simp
  have hpre : ∀ (k : Nat) x, s.ports[k]? = some x → ps[k]? = some x := by
    intro k x hx
    simp only [ps]
    split
    · exact hx
    · rw [List.getElem?_append_left (List.getElem?_eq_some_iff.1 hx).1]; exact hx
  have hidx : ps[ps.idxOf key]? = some key := by
    have := List.idxOf_lt_length_iff.2 hkey
    rw [List.getElem?_eq_getElem this, List.getElem_idxOf]
  let t : Conf := { s with meshes := ms, ports := ps, itf := s.itf ++ [ifRow m n f (opposite f) (ps.idxOf key)] }
  have hrun : s.appendInterface m n f (opposite f) = .ok t := by
    unfold Conf.appendInterface popFace
    have hN' : (s.meshes.set m { M with free := M.free.erase f })[n]? = some N := by
      rw [List.getElem?_set_ne hmn]; exact hN
    simp only [rd_eq_ok.2 hM, rd_eq_ok.2 hN, ok_bind, hfM, hfN, decide_true, require_true, wr_of_lt hml,
      rd_eq_ok.2 hN', wr_of_lt (show n < (s.meshes.set m { M with free := M.free.erase f }).length by simpa using hnl)]
    unfold Conf.appendRefPort Conf.getRefPort Conf.known
    unfold Conf.known at hk
    simp only [hk, require_true, ok_bind]
    have e : (if portKey M.part.name N.part.name f (opposite f) ∈ s.ports then
        (pure { s with meshes := ms } : Outcome Conf)
        else pure { s with meshes := ms, ports := s.ports ++ [portKey M.part.name N.part.name f (opposite f)] }) =
        .ok { s with meshes := ms, ports := ps } := by
      by_cases hin : portKey M.part.name N.part.name f (opposite f) ∈ s.ports
      · simp [ps, key, hin, pure, Except.pure]
      · simp [ps, key, hin, pure, Except.pure]
    rw [e, ok_bind]
    simp only [hk, require_true, ok_bind]
    rw [show decide (portKey M.part.name N.part.name f (opposite f) ∈ ps) = true from decide_eq_true hkey]
    rfl
  have hment : ∀ x, x ∈ ment t ↔ x ∈ ment s ∨ x = ((m : Int), f) ∨ x = ((n : Int), opposite f) := by
    intro x
    exact mem_ment_ifRow
  have hpart : t.meshes.map Mesh.part = s.meshes.map Mesh.part := by
    apply List.ext_getElem?
    intro k
    simp only [List.getElem?_map, t, hms]
    split_ifs with a b
    · subst a; simp [hN]
    · subst b; simp [hM]
    · rfl
  have hsame : Same s t := ⟨rfl, rfl, rfl, hpart⟩
  have hkeep : ∀ k ∈ P0, k ∈ t.ports := by
    intro k hk
    obtain ⟨i, hi⟩ := List.getElem?_of_mem (h.keep k hk)
    exact List.mem_of_getElem? (hpre i k hi)
  refine ⟨t, hrun, ⟨?_, h.len2, ?_, ?_, ?_, ?_, ?_, ?_, hkeep⟩, hsame, rfl, hment, _, rfl⟩
  · simp [t, ms, h.len1]
  · intro k c K hc hK
    have := hms k
    simp only [t] at hK hc ⊢
    rw [this] at hK
    split_ifs at hK with a b
    · injection hK with hK; subst hK a; have := h.part _ _ N hc hN; exact this
    · injection hK with hK; subst hK b; have := h.part _ _ M hc hM; exact this
    · exact h.part _ _ _ hc hK
  · intro k K hK
    have e := hms k
    simp only [t] at hK
    rw [e] at hK
    have hd : ([1, 2, 3, 4] : List Int).Nodup := by decide
    split_ifs at hK with a b
    · injection hK with hK; subst hK a
      dsimp only
      rw [h.free _ N hN, filter_erase hd]
      apply List.filter_congr
      intro x _
      rw [Bool.eq_iff_iff]
      have hne : ((k : Int) ≠ m) := by omega
      simp [hment, hne]
    · injection hK with hK; subst hK b
      dsimp only
      rw [h.free _ M hM, filter_erase hd]
      apply List.filter_congr
      intro x _
      rw [Bool.eq_iff_iff]
      have hne : ((k : Int) ≠ n) := by omega
      simp [hment, hne]
    · rw [h.free _ K hK]
      apply List.filter_congr
      intro x _
      rw [Bool.eq_iff_iff]
      have hne : ((k : Int) ≠ n) := by omega
      have hne' : ((k : Int) ≠ m) := by omega
      simp [hment, hne, hne']
  · have e : (ment t).Perm (ment s ++ [((m : Int), f), ((n : Int), opposite f)]) := by
      simp only [ment, t, sides, List.flatMap_append, List.flatMap_cons, List.flatMap_nil, List.append_nil,
        ifRow, List.append_assoc]
      split
      · exact List.Perm.refl _
      · exact ((List.Perm.swap _ _ _).append_left _).append_left _
    rw [e.nodup_iff, List.nodup_append]
    refine ⟨h.nodup, ?_, ?_⟩
    · have : ((m : Int) ≠ n) := by omega
      simp [this]
    · intro a ha b hb
      simp only [List.mem_cons, List.not_mem_nil, or_false] at hb
      rcases hb with rfl | rfl
      · rintro rfl; exact h1 ha
      · rintro rfl; exact h2 ha
  · intro r hr
    obtain ⟨k, K, e1, e2, e3⟩ := h.bdrs r hr
    obtain ⟨K', e4, e5⟩ := hsame.mesh e2
    exact ⟨k, K', e1, e4, by rw [e5]; exact e3⟩
  · intro r hr
    simp only [t, List.mem_append, List.mem_singleton] at hr
    rcases hr with hr | rfl
    · obtain ⟨k, a, b, p', q', K, L, e1, e2, e3, e4, e5, e6, e7, e8, e9, e10, e11⟩ := h.rows r hr
      obtain ⟨K', g1, g2⟩ := hsame.mesh e9
      obtain ⟨L', g3, g4⟩ := hsame.mesh e10
      exact ⟨k, a, b, p', q', K', L', e1, e2, e3, e4, e5, e6, e7, e8, g1, g3, by
        rw [g2, g4]; exact hpre _ _ e11⟩
    · obtain ⟨M', g1, g2⟩ := hsame.mesh hM
      obtain ⟨N', g3, g4⟩ := hsame.mesh hN
      simp only [ifRow]
      by_cases hlt : f < opposite f
      · have hv : key = (M.part.name, N.part.name, f, opposite f) := by simp only [key, portKey, if_pos hlt]
        rw [if_pos hlt]
        exact ⟨_, m, n, p, q, M', N', rfl, rfl, rfl, hmn, hm, hn, ha, rfl, g1, g3, by
          rw [g2, g4]; exact hidx.trans (congrArg some hv)⟩
      · have hv : key = (N.part.name, M.part.name, opposite f, f) := by simp only [key, portKey, if_neg hlt]
        rw [if_neg hlt]
        exact ⟨_, n, m, q, p, N', M', rfl, rfl, rfl, hmn.symm, hn, hm, hA.symm ha,
          (opposite_opposite hf).symm, g3, g1, by rw [g2, g4]; exact hidx.trans (congrArg some hv)⟩
  · have hmem : ∀ {K : Mesh}, K ∈ s.meshes → ∃ K' ∈ t.meshes, K'.part.name = K.part.name := by
      intro K hK
      obtain ⟨k, hk⟩ := List.getElem?_of_mem hK
      obtain ⟨K', g1, g2⟩ := hsame.mesh hk
      exact ⟨K', List.mem_of_getElem? g1, by rw [g2]⟩
    have hM' := hmem (List.mem_of_getElem? hM)
    have hN' := hmem (List.mem_of_getElem? hN)
    intro k hk
    have : k ∈ s.ports ∨ k = key := by
      simp only [t, ps] at hk
      split at hk
      · exact .inl hk
      · simpa using hk
    rcases this with hk | rfl
    · rcases h.ports k hk with hk | ⟨⟨K, hK, e⟩, ⟨L, hL, e'⟩, hh⟩
      · exact .inl hk
      · obtain ⟨K', g1, g2⟩ := hmem hK
        obtain ⟨L', g3, g4⟩ := hmem hL
        exact .inr ⟨⟨K', g1, g2.trans e⟩, ⟨L', g3, g4.trans e'⟩, hh⟩
    · right
      simp only [key, portKey]
      split
      · refine ⟨hM', hN', ?_⟩
        dsimp only
        unfold opposite at *
        rcases hf with rfl | rfl | rfl | rfl <;> simp_all
      · refine ⟨hN', hM', ?_⟩
        dsimp only
        unfold opposite at *
        rcases hf with rfl | rfl | rfl | rfl <;> simp_all

/-- Adding a boundary row for a face that is not mentioned yet. -/
theorem appendBoundary_ok (h : Inv A P0 s) {m : Nat} {M : Mesh} {f : Int} (g : Int)
    (hm : s.meshes[m]? = some M) (hf : f ∈ M.part.refBattr) (h1 : ((m : Int), f) ∉ ment s) :
    ∃ t, s.appendBoundary g m f = .ok t ∧ Inv A P0 t ∧ Same s t ∧ t.itf = s.itf ∧ t.ports = s.ports ∧
      t.bdr = s.bdr ++ [⟨g, m, f⟩] ∧ (∀ x, x ∈ ment t ↔ x ∈ ment s ∨ x = ((m : Int), f)) := by
  have hml : m < s.meshes.length := (List.getElem?_eq_some_iff.1 hm).1
  let t : Conf := { s with meshes := s.meshes.set m { M with free := M.free.erase f }, bdr := s.bdr ++ [⟨g, m, f⟩] }
  have hrun : s.appendBoundary g m f = .ok t := by
    unfold Conf.appendBoundary
    simp only [rd_eq_ok.2 hm, ok_bind, hf, decide_true, require_true, wr_of_lt hml]
    rfl
  have hms : ∀ k : Nat, t.meshes[k]? = if k = m then some { M with free := M.free.erase f } else s.meshes[k]? := by
    intro k
    simp only [t, List.getElem?_set, hml, if_true]
    split_ifs with a b <;> first | rfl | omega
  have hment : ∀ x, x ∈ ment t ↔ x ∈ ment s ∨ x = ((m : Int), f) := by
    intro x
    simp only [ment, t, List.map_append, List.mem_append, List.map_cons, List.map_nil, List.mem_singleton]
    tauto
  have hsame : Same s t := by
    refine ⟨rfl, rfl, rfl, ?_⟩
    apply List.ext_getElem?
    intro k
    simp only [List.getElem?_map, hms]
    split_ifs with a
    · subst a; simp [hm]
    · rfl
  have hmem : ∀ {K : Mesh}, K ∈ s.meshes → ∃ K' ∈ t.meshes, K'.part.name = K.part.name := by
    intro K hK
    obtain ⟨k, hk⟩ := List.getElem?_of_mem hK
    obtain ⟨K', g1, g2⟩ := hsame.mesh hk
    exact ⟨K', List.mem_of_getElem? g1, by rw [g2]⟩
  refine ⟨t, hrun, ⟨by simp [t, h.len1], h.len2, ?_, ?_, ?_, ?_, ?_, ?_, h.keep⟩, hsame, rfl, rfl, rfl, hment⟩
  · intro k c K hc hK
    rw [hms] at hK
    simp only [t] at hc ⊢
    split_ifs at hK with a
    · injection hK with hK; subst hK a; have := h.part _ _ M hc hm; exact this
    · exact h.part _ _ _ hc hK
  · intro k K hK
    rw [hms] at hK
    split_ifs at hK with b
    · injection hK with hK; subst hK b
      dsimp only
      rw [h.free _ M hm, filter_erase (by decide)]
      apply List.filter_congr
      intro x _
      rw [Bool.eq_iff_iff]
      simp [hment]
    · rw [h.free _ K hK]
      apply List.filter_congr
      intro x _
      rw [Bool.eq_iff_iff]
      have hne' : ((k : Int) ≠ m) := by omega
      simp [hment, hne']
  · have e : (ment t).Perm (ment s ++ [((m : Int), f)]) := by
      simp only [ment, t, List.map_append, List.map_cons, List.map_nil, List.append_assoc]
      exact (List.perm_append_comm).append_left _
    rw [e.nodup_iff, List.nodup_append]
    refine ⟨h.nodup, by simp, ?_⟩
    intro a ha b hb
    simp only [List.mem_singleton] at hb
    subst hb
    rintro rfl; exact h1 ha
  · intro r hr
    simp only [t, List.mem_append, List.mem_singleton] at hr
    rcases hr with hr | rfl
    · obtain ⟨k, K, e1, e2, e3⟩ := h.bdrs r hr
      obtain ⟨K', e4, e5⟩ := hsame.mesh e2
      exact ⟨k, K', e1, e4, by rw [e5]; exact e3⟩
    · obtain ⟨K', e4, e5⟩ := hsame.mesh hm
      exact ⟨m, K', rfl, e4, by rw [e5]; exact hf⟩
  · intro r hr
    obtain ⟨k, a, b, p', q', K, L, e1, e2, e3, e4, e5, e6, e7, e8, e9, e10, e11⟩ := h.rows r hr
    obtain ⟨K', g1, g2⟩ := hsame.mesh e9
    obtain ⟨L', g3, g4⟩ := hsame.mesh e10
    exact ⟨k, a, b, p', q', K', L', e1, e2, e3, e4, e5, e6, e7, e8, g1, g3, by rw [g2, g4]; exact e11⟩
  · intro k hk
    rcases h.ports k hk with hk | ⟨⟨K, hK, e⟩, ⟨L, hL, e'⟩, hh⟩
    · exact .inl hk
    · obtain ⟨K', g1, g2⟩ := hmem hK
      obtain ⟨L', g3, g4⟩ := hmem hL
      exact .inr ⟨⟨K', g1, g2.trans e⟩, ⟨L', g3, g4.trans e'⟩, hh⟩

/-! ## When all faces are closed -/

/-- What is left of the faces after some have been dropped. -/
def Left (refs : List (List Int)) (D : List (Int × Int)) (fs : List (List Int)) : Prop :=
  fs.length = refs.length ∧ ∀ (m : Nat) K, refs[m]? = some K →
    fs[m]? = some (K.filter fun f => decide (((m : Int), f) ∉ D))

theorem drop_list {refs : List (List Int)} (hr : ∀ K ∈ refs, K.Nodup) (xs D : List (Int × Int))
    (fs : List (List Int)) (hD : (D ++ xs).Nodup) (hx : ∀ x ∈ xs, ∃ (m : Nat) (K : List Int), x.1 = m ∧ refs[m]? = some K ∧ x.2 ∈ K)
    (h : Left refs D fs) :
    ∃ gs, xs.foldlM (fun fs x => dropFace fs x.1 x.2) fs = .ok gs ∧ Left refs (D ++ xs) gs := by
  induction xs generalizing D fs with
  | nil => exact ⟨fs, rfl, by simpa using h⟩
  | cons x xs ih =>
    obtain ⟨m, K, e1, e2, e3⟩ := hx x (by simp)
    obtain ⟨a, f⟩ := x
    dsimp only at e1 e3
    subst e1
    have hK := hr K (List.mem_of_getElem? e2)
    have hnot : ((m : Int), f) ∉ D := by
      rw [List.nodup_append] at hD
      exact fun hin => hD.2.2 _ hin _ (by simp) rfl
    have hfm := h.2 m K e2
    have hml : m < fs.length := by rw [h.1]; exact (List.getElem?_eq_some_iff.1 e2).1
    have hin : f ∈ K.filter fun f => decide (((m : Int), f) ∉ D) := by
      rw [List.mem_filter]; exact ⟨e3, by simpa using hnot⟩
    have hstep : dropFace fs m f = .ok (fs.set m ((K.filter fun f => decide (((m : Int), f) ∉ D)).erase f)) := by
      unfold dropFace rdI wrI
      simp only [Int.natCast_nonneg, if_true, Int.toNat_natCast, rd_eq_ok.2 hfm, ok_bind, hin, decide_true,
        require_true, wr_of_lt hml]
    have hleft : Left refs (D ++ [((m : Int), f)]) (fs.set m ((K.filter fun f => decide (((m : Int), f) ∉ D)).erase f)) := by
      refine ⟨by simpa using h.1, fun n L hL => ?_⟩
      by_cases hn : n = m
      · subst hn
        have : L = K := Option.some.inj (hL.symm.trans e2)
        subst this
        rw [List.getElem?_set_self hml, filter_erase hK]
        congr 1
        apply List.filter_congr
        intro y _
        rw [Bool.eq_iff_iff]
        simp
      · rw [List.getElem?_set_ne (Ne.symm hn), h.2 n L hL]
        congr 1
        apply List.filter_congr
        intro y _
        rw [Bool.eq_iff_iff]
        have : ((n : Int) ≠ m) := by omega
        simp [this]
    obtain ⟨gs, g1, g2⟩ := ih (D ++ [((m : Int), f)]) _ (by simpa using hD)
      (fun x hx' => hx x (by simp [hx'])) hleft
    refine ⟨gs, ?_, by simpa using g2⟩
    rw [List.foldlM_cons]
    dsimp only
    rw [hstep, ok_bind]
    exact g1

theorem refBattr_nodup (p : Part) : p.refBattr.Nodup := by
  unfold Part.refBattr
  split <;> decide

theorem mem_ment_faces (hA : Rel A) (h : Inv A P0 s) {x : Int × Int} (hx : x ∈ ment s) :
    ∃ (m : Nat) (M : Mesh), x.1 = m ∧ s.meshes[m]? = some M ∧ x.2 ∈ M.part.refBattr := by
  unfold ment at hx
  rw [List.mem_append] at hx
  rcases hx with hx | hx
  · obtain ⟨r, hr, rfl⟩ := List.mem_map.1 hx
    exact h.bdrs r hr
  · obtain ⟨r, hr, e⟩ := mem_sides.1 hx
    obtain ⟨k, a, b, p', q', K, L, e1, e2, e3, e4, e5, e6, e7, e8, e9, e10, e11⟩ := h.rows r hr
    rcases e with rfl | rfl
    · exact ⟨a, K, e2, e9, mem_refBattr (hA.face e7)⟩
    · exact ⟨b, L, e3, e10, mem_refBattr (by rw [e8]; exact opposite_face (hA.face e7))⟩

theorem closed_ok (hA : Rel A) (h : Inv A P0 s) (hall : ∀ (m : Nat) (M : Mesh) f, s.meshes[m]? = some M →
    f ∈ M.part.refBattr → ((m : Int), f) ∈ ment s) : s.allFacesClosed = .ok true := by
  unfold Conf.allFacesClosed
  have h1 : (s.meshes.any fun m => decide (m.free ≠ [])) = false := by
    rw [List.any_eq_false]
    intro M hM
    obtain ⟨m, hm⟩ := List.getElem?_of_mem hM
    simp only [ne_eq, decide_not, Bool.not_eq_true', decide_eq_false_iff_not, not_not]
    rw [h.free m M hm, List.filter_eq_nil_iff]
    intro f hf
    simp only [decide_eq_true_eq, not_not]
    exact hall m M f hm (mem_refBattr (by simpa using hf))
  rw [h1]
  simp only [Bool.false_eq_true, if_false]
  have hD : (([] : List (Int × Int)) ++ ment s).Nodup := h.nodup
  have hleft0 : Left (s.meshes.map fun m => m.part.refBattr) [] (s.meshes.map fun m => m.part.refBattr) :=
    ⟨rfl, fun m K hK => by rw [hK]; simp⟩
  obtain ⟨gs, g1, g2⟩ := drop_list (refs := s.meshes.map fun m => m.part.refBattr)
    (by
      intro K hK
      obtain ⟨M, _, rfl⟩ := List.mem_map.1 hK
      exact refBattr_nodup _) (ment s) [] _ hD
    (by
      intro x hx
      obtain ⟨m, M, e1, e2, e3⟩ := mem_ment_faces hA h hx
      exact ⟨m, _, e1, by rw [List.getElem?_map, e2]; rfl, e3⟩) hleft0
  have e : ((ment s).foldlM (fun fs x => dropFace fs x.1 x.2) (s.meshes.map fun m => m.part.refBattr)) =
      (s.bdr.foldlM (fun fs b => dropFace fs b.mesh b.cattr) (s.meshes.map fun m => m.part.refBattr) >>=
        fun fs => s.itf.foldlM (fun fs r => do
          let fs ← dropFace fs r.mesh1 r.attr1
          dropFace fs r.mesh2 r.attr2) fs) := by
    unfold ment sides
    rw [foldlM_append', foldlM_map']
    congr 1
    funext fs
    rw [foldlM_flatMap]
    congr 1
    funext t r
    simp only [List.foldlM_cons, List.foldlM_nil]
    cases dropFace t r.mesh1 r.attr1 with
    | error e => rfl
    | ok u =>
      simp only [ok_bind]
      cases dropFace u r.mesh2 r.attr2 <;> rfl
  rw [g1] at e
  obtain ⟨fs, f1, f2⟩ := bind_eq_ok.1 e.symm
  simp only [f1, ok_bind, f2]
  show Except.ok _ = _
  congr 1
  rw [List.all_eq_true]
  intro l hl
  obtain ⟨m, hm⟩ := List.getElem?_of_mem hl
  have hml : m < s.meshes.length := by
    have := (List.getElem?_eq_some_iff.1 hm).1
    rw [g2.1] at this
    simpa using this
  have hmM := List.getElem?_eq_getElem hml
  have := g2.2 m _ (by rw [List.getElem?_map, hmM]; rfl)
  rw [hm] at this
  injection this with this
  rw [this, decide_eq_true_eq, List.filter_eq_nil_iff]
  intro f hf
  simp only [List.nil_append, decide_eq_true_eq, not_not]
  exact hall m _ f hmM hf

theorem covers_ok {R : Type} (hA : Rel A) (h : Inv A P0 s) (hall : ∀ (m : Nat) (M : Mesh) f,
    s.meshes[m]? = some M → f ∈ M.part.refBattr → ((m : Int), f) ∈ ment s) {types : List Int} {pos : List (R × R)}
    {faces : Int → List Int} (ht : types.length = s.meshes.length) (hn : ∀ c, (faces c).Nodup)
    (hf : ∀ (m : Nat) (c : Int) (M : Mesh), types[m]? = some c → s.meshes[m]? = some M → faces c = M.part.refBattr) :
    GenConf.Spec.Covers faces ⟨types, pos, s.bdr, s.itf⟩ := by
  unfold GenConf.Spec.Covers
  have e : GenConf.Spec.mentioned (⟨types, pos, s.bdr, s.itf⟩ : Layout R) = ment s := rfl
  rw [e, List.perm_ext_iff_of_nodup h.nodup (nodup_allFaces hn _)]
  rintro ⟨a, f⟩
  rw [mem_allFaces]
  constructor
  · intro hx
    obtain ⟨m, M, e1, e2, e3⟩ := mem_ment_faces hA h hx
    have hm : m < types.length := by rw [ht]; exact (List.getElem?_eq_some_iff.1 e2).1
    exact ⟨m, types[m], e1, List.getElem?_eq_getElem hm, by
      rw [hf m _ M (List.getElem?_eq_getElem hm) e2]; exact e3⟩
  · rintro ⟨m, c, rfl, hc, hfc⟩
    have hm : m < s.meshes.length := by rw [← ht]; exact (List.getElem?_eq_some_iff.1 hc).1
    have hM := List.getElem?_eq_getElem hm
    rw [hf m c _ hc hM] at hfc
    exact hall m _ f hM hfc

/-! ## Adding a mesh -/

theorem ment_lt (hA : Rel A) (h : Inv A P0 s) {m : Nat} {f : Int} (hx : ((m : Int), f) ∈ ment s) :
    m < s.meshes.length := by
  obtain ⟨k, M, e1, e2, _⟩ := mem_ment_faces hA h hx
  have hk : k < s.meshes.length := (List.getElem?_eq_some_iff.1 e2).1
  dsimp only at e1
  omega

theorem addMesh_inv (hA : Rel A) (h : Inv A P0 s) {c : Nat} {P : Part} {l : Int × Int}
    (hc : s.comps[c]? = some P) :
    ∃ t, s.addMesh c l = .ok t ∧ Inv A P0 t ∧ t.comps = s.comps ∧ t.types = s.types ++ [c] ∧
      t.loc = s.loc ++ [l] ∧ t.bdr = s.bdr ∧ t.itf = s.itf ∧ t.ports = s.ports ∧
      t.meshes = s.meshes ++ [⟨P, [1, 2, 3, 4]⟩] ∧ ment t = ment s := by
  have hrun : s.addMesh c l = .ok { s with meshes := s.meshes ++ [⟨P, [1, 2, 3, 4]⟩], types := s.types ++ [c], loc := s.loc ++ [l] } := by
    unfold Conf.addMesh
    rw [rd_eq_ok.2 hc]
    rfl
  have hsplit : ∀ {α : Type} {k : Nat} {l : List α} {a b : α}, (l ++ [a])[k]? = some b →
      l[k]? = some b ∨ (k = l.length ∧ b = a) := by
    intro α k l a b hk
    rw [List.getElem?_append] at hk
    split at hk
    · exact .inl hk
    · right
      have := (List.getElem?_eq_some_iff.1 hk).1
      simp at this
      have e : k - l.length = 0 := by omega
      rw [e] at hk
      simp at hk
      exact ⟨by omega, hk.symm⟩
  have hup : ∀ {α : Type} {k : Nat} {l : List α} {a b : α}, l[k]? = some b → (l ++ [a])[k]? = some b := by
    intro α k l a b hk
    rw [List.getElem?_append_left (List.getElem?_eq_some_iff.1 hk).1]
    exact hk
  refine ⟨_, hrun, ⟨by simp [h.len1], by simp [h.len2], ?_, ?_, h.nodup, ?_, ?_, ?_, h.keep⟩, rfl, rfl, rfl, rfl, rfl,
    rfl, rfl, rfl⟩
  · intro m k M hk hM
    dsimp only at hk hM ⊢
    rcases hsplit hM with hM | ⟨e, rfl⟩
    · rcases hsplit hk with hk | ⟨e, rfl⟩
      · exact h.part m k M hk hM
      · have := (List.getElem?_eq_some_iff.1 hM).1
        rw [h.len1, ← h.len2] at this
        omega
    · rcases hsplit hk with hk | ⟨e, rfl⟩
      · have := (List.getElem?_eq_some_iff.1 hk).1
        rw [h.len2, ← h.len1] at this
        omega
      · exact hc
  · intro m M hM
    dsimp only at hM
    rcases hsplit hM with hM | ⟨rfl, rfl⟩
    · exact h.free m M hM
    · dsimp only
      symm
      rw [List.filter_eq_self]
      intro f _
      rw [decide_eq_true_eq]
      intro hin
      have := ment_lt hA h hin
      omega
  · intro r hr
    obtain ⟨m, M, e1, e2, e3⟩ := h.bdrs r hr
    exact ⟨m, M, e1, hup e2, e3⟩
  · intro r hr
    obtain ⟨k, a, b, p', q', K, L, e1, e2, e3, e4, e5, e6, e7, e8, e9, e10, e11⟩ := h.rows r hr
    exact ⟨k, a, b, p', q', K, L, e1, e2, e3, e4, hup e5, hup e6, e7, e8, hup e9, hup e10, e11⟩
  · intro k hk
    rcases h.ports k hk with hk | ⟨⟨K, hK, e⟩, ⟨L, hL, e'⟩, hh⟩
    · exact .inl hk
    · exact .inr ⟨⟨K, List.mem_append_left _ hK, e⟩, ⟨L, List.mem_append_left _ hL, e'⟩, hh⟩

/-- Several interfaces of the mesh `n`. -/
theorem ops_fold (hA : Rel A) {n : Nat} {l : Int × Int} (ops : List (Nat × Int × Int)) (s : Conf)
    (hinj : ∀ {f p q q'}, q ∈ s.loc → q' ∈ s.loc → A f p q → A f p q' → q = q')
    (h : Inv A P0 s) (hl : s.loc[n]? = some l) (hloc : s.loc.Nodup)
    (hops : ∀ o ∈ ops, o.1 ≠ n ∧ (∃ p, s.loc[o.1]? = some p ∧ A o.2.1 p l) ∧ o.2.2 = opposite o.2.1)
    (hnd : ops.Nodup) (hfresh : ∀ o ∈ ops, ((o.1 : Int), o.2.1) ∉ ment s ∧ ((n : Int), o.2.2) ∉ ment s) :
    ∃ t, ops.foldlM (fun t o => Conf.appendInterface t o.1 n o.2.1 o.2.2) s = .ok t ∧ Inv A P0 t ∧ Same s t ∧
      t.bdr = s.bdr ∧
      ∀ x, x ∈ ment t ↔ x ∈ ment s ∨ ∃ o ∈ ops, x = ((o.1 : Int), o.2.1) ∨ x = ((n : Int), o.2.2) := by
  induction ops generalizing s with
  | nil => exact ⟨s, rfl, h, .refl s, rfl, by simp⟩
  | cons o ops ih =>
    obtain ⟨h1, ⟨p, hp, ha⟩, h3⟩ := hops o (by simp)
    obtain ⟨f1, f2⟩ := hfresh o (by simp)
    obtain ⟨i, f, g⟩ := o
    dsimp only at h1 hp ha h3 f1 f2
    subst h3
    obtain ⟨u, u1, u2, u3, u4, u5, _⟩ := appendInterface_ok hA h h1 hp hl ha f1 f2
    rw [List.nodup_cons] at hnd
    obtain ⟨t, t1, t2, t3, t4, t5⟩ := ih u (by rw [u3.loc]; exact hinj) u2 (by rw [u3.loc]; exact hl)
      (by rw [u3.loc]; exact hloc)
      (by rw [u3.loc]; exact fun o ho => hops o (by simp [ho])) hnd.2
      (by
        intro o ho
        obtain ⟨g1, ⟨p', hp', ha'⟩, g3⟩ := hops o (by simp [ho])
        obtain ⟨g4, g5⟩ := hfresh o (by simp [ho])
        obtain ⟨j, f', g'⟩ := o
        dsimp only at g1 hp' ha' g3 g4 g5 ⊢
        subst g3
        have hsame : f' = f → j = i → False := by
          rintro rfl rfl
          exact hnd.1 ho
        rw [u5, u5]
        constructor
        · rintro (hx | hx | hx)
          · exact g4 hx
          · injection hx with x1 x2
            exact hsame x2 (by omega)
          · injection hx with x1 x2
            omega
        · rintro (hx | hx | hx)
          · exact g5 hx
          · injection hx with x1 x2
            omega
          · injection hx with x1 x2
            have hff : f' = f := by
              rw [← opposite_opposite (hA.face ha'), x2, opposite_opposite (hA.face ha)]
            subst hff
            have := hinj (List.mem_of_getElem? hp) (List.mem_of_getElem? hp') (hA.symm ha) (hA.symm ha')
            subst this
            exact hsame rfl ((List.getElem?_inj (List.getElem?_eq_some_iff.1 hp').1 hloc).1 (hp'.trans hp.symm)))
    refine ⟨t, ?_, t2, u3.trans t3, t4.trans u4, fun x => ?_⟩
    · rw [List.foldlM_cons]
      dsimp only
      rw [u1, ok_bind]
      exact t1
    · rw [t5, u5]
      simp only [List.mem_cons, exists_eq_or_imp, or_assoc]

end Verif.Config
