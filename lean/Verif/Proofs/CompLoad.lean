import Verif.Spec.CompLoad
import Verif.Props.Options
import Verif.Props.Topology
import Verif.Proofs.PortFile
import Verif.Props.Eqp

/-! # Proofs about the meshes of a component-wise topology -/

namespace Verif.CompLoad

open Verif Verif.Topology Verif.Options Verif.CompLoad.Spec
open Verif.PortFile (Names look_set)
open Verif.Hdf5 (File Loc Arr2 Dbl openGroup readAttr readStr readArray readArray2)

/-- A loop that appends one element per turn. -/
theorem loop_append_iff {β : Type} {n : Nat} {body : Nat → List β → Outcome (List β)}
    {g : Nat → Outcome β} (hb : ∀ k, k < n → ∀ acc, body k acc = (g k >>= fun b => .ok (acc ++ [b])))
    {out : List β} :
    loop n body [] = .ok out ↔ out.length = n ∧ ∀ k, k < n → ∃ b, g k = .ok b ∧ out[k]? = some b := by
  constructor
  · intro h
    have := loop_inv (Inv := fun k (acc : List β) => acc.length = k ∧
        ∀ j, j < k → ∃ b, g j = .ok b ∧ acc[j]? = some b) (s := [])
      ⟨rfl, fun j hj => absurd hj (Nat.not_lt_zero _)⟩ (by
        rintro k acc v hk ⟨h1, h2⟩ e
        rw [hb k hk, bind_eq_ok] at e
        obtain ⟨b, e1, e2⟩ := e
        cases e2
        refine ⟨by simp [h1], fun j hj => ?_⟩
        rcases Nat.lt_or_ge j k with h | h
        · obtain ⟨b', g1, g2⟩ := h2 j h
          exact ⟨b', g1, by rw [List.getElem?_append_left (by omega)]; exact g2⟩
        · have : j = k := by omega
          subst this
          exact ⟨b, e1, by rw [List.getElem?_append_right (by omega)]; simp [h1]⟩) h
    exact this
  · rintro ⟨h1, h2⟩
    obtain ⟨t, ht, h3⟩ := loop_total (n := n) (body := body)
      (fun k (acc : List β) => acc = out.take k) (s := []) (by simp) (by
        rintro k acc hk rfl
        obtain ⟨b, g1, g2⟩ := h2 k hk
        refine ⟨out.take k ++ [b], by rw [hb k hk, g1]; rfl, ?_⟩
        rw [List.take_add_one, g2]; rfl)
    rw [ht, h3, List.take_of_length_le (by omega)]

/-- What an option says. -/
theorem says_iff {c : Conv} {e : Node} {k v : String} :
    Says c e k v ↔ required c.str (key k) e = .ok v := (required_iff _ _ _ _).symm

theorem says_unique {c : Conv} {e : Node} {k v w : String} (h : Says c e k v) (h' : Says c e k w) :
    v = w := by
  rw [says_iff] at h h'
  exact Except.ok.inj (h.symm.trans h')

/-- The file of a component is unique. -/
theorem fileOf_unique {c : Conv} {list : List (Option Node)} {n a b : String}
    (h : FileOf c list n a) (h' : FileOf c list n b) : a = b := by
  obtain ⟨k, e, h1, h2, h3, h4⟩ := h
  obtain ⟨k', e', g1, g2, g3, g4⟩ := h'
  rcases Nat.lt_trichotomy k k' with hk | hk | hk
  · exact absurd g2 (h4 k' e' hk g1)
  · subst hk
    rw [h1] at g1
    cases g1
    exact says_unique h3 g3
  · exact absurd h2 (g4 k e hk h1)

/-- The component of a name is unique. -/
theorem component_unique {α : Type} {c : Conv} {x : Meshes α} {list : List (Option Node)} {k : Nat}
    {n : String} {a b : Mesh α} (h : Component c x list k n a) (h' : Component c x list k n b) :
    a = b := by
  obtain ⟨f, m, h1, h2, rfl⟩ := h
  obtain ⟨f', m', g1, g2, rfl⟩ := h'
  cases fileOf_unique h1 g1
  rw [h2] at g2
  cases g2
  rfl

/-- The map from names to positions: the last position of the name. -/
def Last (names : List String) (idx : Names) : Prop :=
  ∀ n p, idx.look n = some p ↔ names[p]? = some n ∧ ∀ q, p < q → names[q]? ≠ some n

theorem last_push {names : List String} {idx : Names} (h : Last names idx) (tmp : String) :
    Last (names ++ [tmp]) (idx.set tmp names.length) := by
  intro n p
  rw [look_set]
  by_cases e : n = tmp
  · subst e
    rw [if_pos rfl]
    constructor
    · rintro ⟨⟩
      refine ⟨by simp, fun q hq => ?_⟩
      rw [List.getElem?_eq_none (by simp; omega)]; simp
    · rintro ⟨a, b⟩
      by_contra hc
      have hp : p < names.length := by
        by_contra hn
        rcases Nat.lt_or_ge names.length p with h | h
        · rw [List.getElem?_eq_none (by simp; omega)] at a; cases a
        · exact hc (by rw [show p = names.length by omega])
      exact b names.length hp (by simp)
  · rw [if_neg e, h]
    have hk : ∀ q : Nat, (names ++ [tmp])[q]? = some n ↔ names[q]? = some n := by
      intro q
      rcases Nat.lt_or_ge q names.length with hq | hq
      · rw [List.getElem?_append_left hq]
      · rw [List.getElem?_append_right hq, List.getElem?_eq_none hq]
        simp only [reduceCtorEq, iff_false]
        intro hc
        have := List.mem_of_getElem? hc
        simp at this
        exact e this
    simp only [ne_eq, hk]

theorem readStr_iff {f : File ℝ} {g : Loc} {k v : String} :
    readStr f g k = .ok v ↔ Hdf5.find f ⟨g, k, true⟩ = some (.attrStr v) := by
  unfold readStr
  constructor
  · intro h
    split at h
    · rename_i w hw
      cases h
      exact hw
    · cases h
  · intro h
    rw [h]

theorem readAttr_iff {f : File ℝ} {g : Loc} {k : String} {v : Int} :
    readAttr f g k = .ok v ↔ Hdf5.find f ⟨g, k, true⟩ = some (.attrInt v) := by
  unfold readAttr
  constructor
  · intro h
    split at h
    · rename_i w hw
      cases h
      exact hw
    · cases h
  · intro h
    rw [h]

theorem openGroup_iff {f : File ℝ} {g l : Loc} {k : String} :
    openGroup f g k = .ok l ↔ Hdf5.find f ⟨g, k, false⟩ = some .group ∧ l = k :: g := by
  unfold openGroup
  constructor
  · intro h
    split at h
    · rename_i hw
      cases h
      exact ⟨hw, rfl⟩
    · cases h
  · rintro ⟨h, rfl⟩
    rw [h]

/-- The names read. -/
theorem readNames_spec {f : File ℝ} {g : Loc} {n : Nat} {r : List String × Names}
    (h : readNames f g n = .ok r) :
    r.1.length = n ∧
    (∀ (c : Nat) nm, r.1[c]? = some nm → Hdf5.find f ⟨g, toString c, true⟩ = some (.attrStr nm)) ∧
    Last r.1 r.2 := by
  unfold readNames at h
  refine loop_inv (Inv := fun k (s : List String × Names) => s.1.length = k ∧
      (∀ (c : Nat) nm, s.1[c]? = some nm →
        Hdf5.find f ⟨g, toString c, true⟩ = some (.attrStr nm)) ∧ Last s.1 s.2)
    ⟨rfl, by simp, by simp [Last, Names.look]⟩ ?_ h
  rintro k ⟨l, m⟩ v hk ⟨h1, h2, h3⟩ e
  obtain ⟨tmp, e1, e2⟩ := bind_eq_ok.1 e
  cases e2
  dsimp only at h1 h2 h3 ⊢
  refine ⟨by simp [h1], fun c nm hc => ?_, h1 ▸ last_push h3 tmp⟩
  rcases Nat.lt_or_ge c l.length with hl | hl
  · rw [List.getElem?_append_left hl] at hc
    exact h2 c nm hc
  · rw [List.getElem?_append_right hl] at hc
    have : c = k := by
      by_contra hn
      rw [List.getElem?_eq_none (by simp; omega)] at hc
      cases hc
    subst this
    rw [h1] at hc
    simp at hc
    subst hc
    exact readStr_iff.1 e1

theorem readNames_total {f : File ℝ} {g : Loc} {names : List String}
    (h : ∀ (c : Nat) nm, names[c]? = some nm →
      Hdf5.find f ⟨g, toString c, true⟩ = some (.attrStr nm)) :
    ∃ idx, readNames f g names.length = .ok (names, idx) ∧ Last names idx := by
  have h0 : ∃ r, readNames f g names.length = .ok r ∧ r.1 = names.take names.length := by
    unfold readNames
    refine loop_total (fun k (s : List String × Names) => s.1 = names.take k) (by simp) ?_
    rintro k ⟨l, m⟩ hk rfl
    refine ⟨(names.take k ++ [names[k]], m.set names[k] k), ?_, ?_⟩
    · rw [readStr_iff.2 (h k _ (List.getElem?_eq_getElem hk)), ok_bind]
      rfl
    · dsimp only
      rw [List.take_add_one, List.getElem?_eq_getElem hk]
      rfl
  obtain ⟨⟨l, idx⟩, h1, h2⟩ := h0
  dsimp only at h2
  rw [List.take_length] at h2
  subst h2
  exact ⟨idx, h1, (readNames_spec h1).2.2⟩

/-- One row of the table. -/
theorem readRow_spec {a : Arr2 (Dbl ℝ)} {m : Nat} {cf : MeshConfig} (h : readRow a m = .ok cf) :
    m * a.cols + 5 < a.data.length ∧ cf.trans 0 = row a m 0 ∧ cf.trans 1 = row a m 1 ∧
      cf.trans 2 = row a m 2 ∧ cf.rotate 0 = row a m 3 := by
  unfold readRow Arr2.get at h
  obtain ⟨t0, e0, h⟩ := bind_eq_ok.1 h
  obtain ⟨r0, f0, h⟩ := bind_eq_ok.1 h
  obtain ⟨t1, e1, h⟩ := bind_eq_ok.1 h
  obtain ⟨r1, f1, h⟩ := bind_eq_ok.1 h
  obtain ⟨t2, e2, h⟩ := bind_eq_ok.1 h
  obtain ⟨r2, f2, h⟩ := bind_eq_ok.1 h
  cases h
  rw [rd_eq_ok] at e0 f0 e1 f1 e2 f2
  simp only [Nat.add_zero, Nat.reduceAdd] at e0 f0 f1 f2
  refine ⟨?_, ?_, ?_, ?_, ?_⟩
  · by_contra hc
    rw [List.getElem?_eq_none (by omega)] at f2
    cases f2
  all_goals simp [row, e0, e1, e2, f0]

theorem readRow_total {a : Arr2 (Dbl ℝ)} {m : Nat} (h : m * a.cols + 5 < a.data.length) :
    ∃ cf, readRow a m = .ok cf := by
  unfold readRow Arr2.get
  rw [rd_of_lt (by omega), ok_bind, rd_of_lt (by omega), ok_bind, rd_of_lt (by omega), ok_bind,
    rd_of_lt (by omega), ok_bind, rd_of_lt (by omega), ok_bind, rd_of_lt (by omega), ok_bind]
  exact ⟨_, rfl⟩

theorem rdI_iff {β : Type} {l : List β} {i : Int} {b : β} :
    rdI l i = .ok b ↔ 0 ≤ i ∧ l[i.toNat]? = some b := by
  unfold rdI
  split
  · rename_i h
    rw [rd_eq_ok]
    exact ⟨fun e => ⟨h, e⟩, fun e => e.2⟩
  · rename_i h
    exact ⟨nofun, fun e => absurd e.1 h⟩

/-- Counting succeeds only for known types. -/
theorem count_known {n : Nat} {types : List Int} {junk : Int} {s : Composition}
    (h : countComponents n types junk = .ok s) : ∀ t ∈ types, 0 ≤ t ∧ t < n := by
  unfold countComponents at h
  have := loop_inv (Inv := fun k (s : Composition) => s.subComposition.length = n ∧
      ∀ j (t : Int), j < k → types[j]? = some t → 0 ≤ t ∧ t < n) ⟨by simp, by simp⟩ (by
    rintro k s v hk ⟨h1, h2⟩ e
    obtain ⟨t, e1, e⟩ := bind_eq_ok.1 e
    obtain ⟨c, e2, e⟩ := bind_eq_ok.1 e
    obtain ⟨i, e3, e⟩ := bind_eq_ok.1 e
    obtain ⟨w, e4, e⟩ := bind_eq_ok.1 e
    cases e
    obtain ⟨ht, e2⟩ := rdI_iff.1 e2
    have hlt : t.toNat < s.subComposition.length := by
      by_contra hc
      rw [List.getElem?_eq_none (by omega)] at e2
      cases e2
    refine ⟨?_, fun j t' hj ht' => ?_⟩
    · unfold wrI wr at e4
      rw [if_pos ht, if_pos hlt] at e4
      cases e4
      simpa using h1
    · rcases Nat.lt_or_ge j k with hjk | hjk
      · exact h2 j t' hjk ht'
      · have : j = k := by omega
        subst this
        rw [rd_eq_ok, ht'] at e1
        cases e1
        omega) h
  intro t ht
  obtain ⟨j, hj, rfl⟩ := List.getElem_of_mem ht
  exact this.2 j _ hj (List.getElem?_eq_getElem hj)

/-- What `ReadComponentsFromFile` finds. -/
theorem readComponents_spec {f : File ℝ} {junk : Int} {l : Layout}
    (h : readComponents f junk = .ok l) :
    ∃ conf, Lists f l.names l.types conf ∧ Last l.names l.idx ∧
      (∀ t ∈ l.types, 0 ≤ t ∧ t < l.names.length) ∧ conf.rows = l.types.length ∧
      countComponents l.names.length l.types junk = .ok l.composition ∧
      l.configs.length = l.types.length ∧
      ∀ m, m < l.types.length → m * conf.cols + 5 < conf.data.length ∧
        ∃ cf, l.configs[m]? = some cf ∧ readRow conf m = .ok cf := by
  unfold readComponents at h
  obtain ⟨g, e1, h⟩ := bind_eq_ok.1 h
  obtain ⟨n, e2, h⟩ := bind_eq_ok.1 h
  obtain ⟨_, e3, h⟩ := bind_eq_ok.1 h
  obtain ⟨nm, e4, h⟩ := bind_eq_ok.1 h
  obtain ⟨types, e5, h⟩ := bind_eq_ok.1 h
  obtain ⟨conf, e6, h⟩ := bind_eq_ok.1 h
  obtain ⟨_, e7, h⟩ := bind_eq_ok.1 h
  obtain ⟨comp, e8, h⟩ := bind_eq_ok.1 h
  obtain ⟨cfs, e9, h⟩ := bind_eq_ok.1 h
  cases h
  dsimp only
  obtain ⟨g1, rfl⟩ := openGroup_iff.1 e1
  have hn : 0 ≤ n := by simpa using require_eq_ok.1 e3
  have hr : types.length = conf.rows := by simpa using require_eq_ok.1 e7
  obtain ⟨n1, n2, n3⟩ := readNames_spec e4
  have e2 := readAttr_iff.1 e2
  rw [show n = ((n.toNat : Nat) : Int) by omega, ← n1] at e2
  have e8' := e8
  rw [← n1] at e8'
  obtain ⟨c1, c2⟩ := (loop_append_iff (g := readRow conf) (fun k _ acc => rfl)).1 e9
  refine ⟨conf, ⟨g1, e2, n2, e5, e6⟩, n3, n1 ▸ count_known e8, hr.symm, e8', c1, fun m hm => ?_⟩
  obtain ⟨cf, a, b⟩ := c2 m hm
  exact ⟨(readRow_spec a).1, cf, b, a⟩

theorem readComponents_total {f : File ℝ} {names : List String} {types : List Int}
    {conf : Arr2 (Dbl ℝ)} (h : Lists f names types conf)
    (hk : ∀ t ∈ types, 0 ≤ t ∧ t < names.length) (hr : conf.rows = types.length)
    (ht : ∀ m < conf.rows, m * conf.cols + 5 < conf.data.length) (junk : Int) :
    ∃ l, readComponents f junk = .ok l ∧ l.names = names ∧ l.types = types := by
  obtain ⟨idx, e1, -⟩ := readNames_total h.name
  obtain ⟨s, e2, -⟩ := countComponents_spec names.length types junk hk
  have : ∃ cfs, loop types.length (fun m acc => (do
      let c ← readRow conf m
      return acc ++ [c] : Outcome (List MeshConfig))) [] = .ok cfs := by
    obtain ⟨t, ht, -⟩ := loop_total (n := types.length) (body := fun m acc => (do
      let c ← readRow conf m
      return acc ++ [c] : Outcome (List MeshConfig))) (fun _ _ => True) (s := []) trivial
      (fun k u hk _ => by
        obtain ⟨cf, e⟩ := readRow_total (ht k (hr ▸ hk))
        exact ⟨u ++ [cf], by rw [e]; rfl, trivial⟩)
    exact ⟨t, ht⟩
  obtain ⟨cfs, e3⟩ := this
  refine ⟨⟨names, idx, types, s, cfs⟩, ?_, rfl, rfl⟩
  unfold readComponents
  rw [openGroup_iff.2 ⟨h.group, rfl⟩, ok_bind, readAttr_iff.2 h.number, ok_bind,
    show (decide (0 ≤ (names.length : Int))) = true by simp, require_true, ok_bind, Int.toNat_natCast,
    e1, ok_bind, h.types, ok_bind, h.conf, ok_bind, hr, show (types.length == types.length) = true by simp,
    require_true, ok_bind, e2, ok_bind]
  dsimp only
  rw [e3]
  rfl

variable {α : Type}

/-- State of the component table after the first `k` entries of the list. -/
structure Filled (c : Conv) (x : Meshes α) (idx : Names) (list : List (Option Node)) (n : Nat)
    (comps : List (Option (Mesh α))) : Prop where
  len : comps.length = n
  set : ∀ (i : Nat) m, comps[i]? = some (some m) → ∃ name file, idx.look name = some i ∧
    FileOf c list name file ∧ x.load file = .ok m
  unset : ∀ (i : Nat), comps[i]? = some none → ∀ name, idx.look name = some i →
    ∀ (k : Nat) e, list[k]? = some (some e) → ¬ Says c e "name" name

theorem look_lt {names : List String} {idx : Names} (h : Last names idx) {n : String} {p : Nat}
    (e : idx.look n = some p) : p < names.length := by
  have := ((h n p).1 e).1
  by_contra hc
  rw [List.getElem?_eq_none (by omega)] at this
  cases this

theorem fileOf_push_ne {c : Conv} {list : List (Option Node)} {e : Node} {name n file : String}
    (he : Says c e "name" name) (hn : n ≠ name) (h : FileOf c list n file) :
    FileOf c (list ++ [some e]) n file := by
  obtain ⟨k, e', h1, h2, h3, h4⟩ := h
  have hk : k < list.length := by
    by_contra hc
    rw [List.getElem?_eq_none (by omega)] at h1
    cases h1
  refine ⟨k, e', by rw [List.getElem?_append_left hk]; exact h1, h2, h3, fun k' e'' hkk hg hs => ?_⟩
  rcases Nat.lt_or_ge k' list.length with hl | hl
  · rw [List.getElem?_append_left hl] at hg
    exact h4 k' e'' hkk hg hs
  · rw [List.getElem?_append_right hl] at hg
    have := List.mem_of_getElem? hg
    simp at this
    subst this
    exact hn (says_unique hs he)

theorem fileOf_push {c : Conv} {list : List (Option Node)} {e : Node} {name file : String}
    (he : Says c e "name" name) (hf : Says c e "file" file) :
    FileOf c (list ++ [some e]) name file := by
  refine ⟨list.length, e, by simp, he, hf, fun k' e' hk hg => ?_⟩
  rw [List.getElem?_eq_none (by simp; omega)] at hg
  cases hg

/-- One entry. -/
theorem readEntry_filled {c : Conv} {x : Meshes α} {names : List String} {idx : Names}
    (hl : Last names idx) {list : List (Option Node)} {o : Option Node}
    {comps comps' : List (Option (Mesh α))} (h : Filled c x idx list names.length comps)
    (e : readEntry c x idx o comps = .ok comps') :
    Filled c x idx (list ++ [o]) names.length comps' ∧
    ∃ e n, o = some e ∧ Says c e "name" n ∧
      (n ∈ names → ∃ file m, Says c e "file" file ∧ x.load file = .ok m) := by
  unfold readEntry at e
  cases o with
  | none => cases e
  | some nd =>
    obtain ⟨name, e1, e⟩ := bind_eq_ok.1 e
    have hname : Says c nd "name" name := says_iff.2 e1
    have unset : ∀ n', n' ≠ name → (∀ (k : Nat) e, list[k]? = some (some e) → ¬ Says c e "name" n') →
        ∀ (k : Nat) e, (list ++ [some nd])[k]? = some (some e) → ¬ Says c e "name" n' := by
      intro n' hne h k e hk hs
      rcases Nat.lt_or_ge k list.length with hl | hl
      · rw [List.getElem?_append_left hl] at hk
        exact h k e hk hs
      · rw [List.getElem?_append_right hl] at hk
        have := List.mem_of_getElem? hk
        simp at this
        subst this
        exact hne (says_unique hs hname)
    have inj : ∀ n' i, idx.look n' = some i → idx.look name = some i → n' = name := by
      intro n' i a b
      have := ((hl n' i).1 a).1.symm.trans ((hl name i).1 b).1
      exact Option.some.inj this
    cases hi : idx.look name with
    | none =>
      simp only [hi] at e
      cases e
      refine ⟨⟨h.len, fun i m hm => ?_, fun i hi' n' hn' => ?_⟩, nd, name, rfl, hname, fun hmem => ?_⟩
      · obtain ⟨n', file, a, b, d⟩ := h.set i m hm
        exact ⟨n', file, a, fileOf_push_ne hname (by rintro rfl; rw [hi] at a; cases a) b, d⟩
      · exact unset n' (by rintro rfl; rw [hi] at hn'; cases hn') (h.unset i hi' n' hn')
      · exfalso
        -- the last position of a listed name is in the map
        have hex : ∃ p : Nat, names[p]? = some name ∧ ∀ q : Nat, p < q → names[q]? ≠ some name := by
          classical
          obtain ⟨j, hj, hj'⟩ := List.getElem_of_mem hmem
          let S := (Finset.range names.length).filter fun q => names[q]? = some name
          have hS : S.Nonempty := ⟨j, Finset.mem_filter.2 ⟨Finset.mem_range.2 hj, by rw [List.getElem?_eq_getElem hj, hj']⟩⟩
          refine ⟨S.max' hS, ?_, fun q hq hq' => ?_⟩
          · exact (Finset.mem_filter.1 (S.max'_mem hS)).2
          · have hql : q < names.length := by
              by_contra hc
              rw [List.getElem?_eq_none (by omega)] at hq'
              cases hq'
            have := S.le_max' q (Finset.mem_filter.2 ⟨Finset.mem_range.2 hql, hq'⟩)
            omega
        obtain ⟨p, hp⟩ := hex
        rw [(hl name p).2 hp] at hi
        cases hi
    | some i =>
      simp only [hi] at e
      obtain ⟨file, e2, e⟩ := bind_eq_ok.1 e
      obtain ⟨mesh, e3, e⟩ := bind_eq_ok.1 e
      have hfile : Says c nd "file" file := says_iff.2 e2
      have hil := look_lt hl hi
      rw [wr_of_lt (by rw [h.len]; exact hil)] at e
      cases e
      refine ⟨⟨by simp [h.len], fun j m hm => ?_, fun j hj n' hn' => ?_⟩, nd, name, rfl, hname,
        fun _ => ⟨file, mesh, hfile, e3⟩⟩
      · rw [List.getElem?_set] at hm
        split at hm
        · rename_i hij
          subst hij
          rw [if_pos (by rw [h.len]; exact hil)] at hm
          cases hm
          exact ⟨name, file, hi, fileOf_push hname hfile, e3⟩
        · rename_i hij
          obtain ⟨n', file', a, b, d⟩ := h.set j m hm
          exact ⟨n', file', a, fileOf_push_ne hname (by
            rintro rfl; rw [hi] at a; exact hij (Option.some.inj a)) b, d⟩
      · rw [List.getElem?_set] at hj
        split at hj
        · rename_i hij
          rw [if_pos (by rw [h.len]; exact hil)] at hj
          cases hj
        · rename_i hij
          exact unset n' (by rintro rfl; rw [hi] at hn'; exact hij (Option.some.inj hn'))
            (h.unset j hj n' hn')

theorem readEntry_total {c : Conv} {x : Meshes α} {names : List String} {idx : Names}
    (hl : Last names idx) {o : Option Node} {comps : List (Option (Mesh α))}
    (hlen : comps.length = names.length)
    (h : ∃ e n, o = some e ∧ Says c e "name" n ∧
      (n ∈ names → ∃ file m, Says c e "file" file ∧ x.load file = .ok m)) :
    ∃ comps', readEntry c x idx o comps = .ok comps' := by
  obtain ⟨e, n, rfl, h1, h2⟩ := h
  unfold readEntry
  dsimp only
  rw [says_iff.1 h1, ok_bind]
  cases hi : idx.look n with
  | none => exact ⟨_, rfl⟩
  | some i =>
    have hmem : n ∈ names := List.mem_of_getElem? ((hl n i).1 hi).1
    obtain ⟨file, m, h3, h4⟩ := h2 hmem
    refine ⟨comps.set i (some m), ?_⟩
    dsimp only
    rw [says_iff.1 h3, ok_bind, h4, ok_bind, wr_of_lt (by rw [hlen]; exact look_lt hl hi)]

/-- The table of components. -/
theorem entries_spec {c : Conv} {x : Meshes α} {names : List String} {idx : Names}
    (hl : Last names idx) {list : List (Option Node)} {comps : List (Option (Mesh α))}
    (e : loop list.length (fun k comps => (do
      let e ← rd list k
      readEntry c x idx e comps : Outcome _)) (List.replicate names.length none) = .ok comps) :
    Filled c x idx list names.length comps ∧
    ∀ (i : Nat) o, list[i]? = some o → ∃ e n, o = some e ∧ Says c e "name" n ∧
      (n ∈ names → ∃ file m, Says c e "file" file ∧ x.load file = .ok m) := by
  have := loop_inv (Inv := fun k (s : List (Option (Mesh α))) =>
      Filled c x idx (list.take k) names.length s ∧
      ∀ (i : Nat) o, i < k → list[i]? = some o → ∃ e n, o = some e ∧ Says c e "name" n ∧
        (n ∈ names → ∃ file m, Says c e "file" file ∧ x.load file = .ok m))
    ⟨⟨by simp, fun i m hm => by
        have := List.mem_of_getElem? hm
        simp at this, fun i _ n _ k e hk => by simp at hk⟩, fun i o hi => by omega⟩ (by
      rintro k s v hk ⟨h1, h2⟩ e
      rw [rd_of_lt hk, ok_bind] at e
      obtain ⟨g1, g2⟩ := readEntry_filled hl h1 e
      refine ⟨?_, fun i o hi ho => ?_⟩
      · rw [List.take_add_one, List.getElem?_eq_getElem hk]
        exact g1
      · rcases Nat.lt_or_ge i k with hik | hik
        · exact h2 i o hik ho
        · have : i = k := by omega
          subst this
          rw [List.getElem?_eq_getElem hk] at ho
          cases ho
          exact g2) e
  obtain ⟨a, b⟩ := this
  rw [List.take_length] at a
  refine ⟨a, fun i o ho => b i o ?_ ho⟩
  by_contra hc
  rw [List.getElem?_eq_none (by omega)] at ho
  cases ho

theorem entries_total {c : Conv} {x : Meshes α} {names : List String} {idx : Names}
    (hl : Last names idx) {list : List (Option Node)}
    (h : ∀ (i : Nat) o, list[i]? = some o → ∃ e n, o = some e ∧ Says c e "name" n ∧
      (n ∈ names → ∃ file m, Says c e "file" file ∧ x.load file = .ok m)) :
    ∃ comps, loop list.length (fun k comps => (do
      let e ← rd list k
      readEntry c x idx e comps : Outcome _)) (List.replicate names.length none) = .ok comps := by
  obtain ⟨t, ht, -⟩ := loop_total (n := list.length) (body := fun k comps => (do
      let e ← rd list k
      readEntry c x idx e comps : Outcome (List (Option (Mesh α)))))
    (fun _ (s : List (Option (Mesh α))) => s.length = names.length)
    (s := List.replicate names.length none) (by simp) (by
      intro k s hk hs
      obtain ⟨v, hv⟩ := readEntry_total (comps := s) hl hs (h k _ (List.getElem?_eq_getElem hk))
      refine ⟨v, by rw [rd_of_lt hk, ok_bind, hv], ?_⟩
      unfold readEntry at hv
      obtain ⟨nd, hnd⟩ : ∃ nd, list[k] = some nd := by
        cases hx : list[k] with
        | none => rw [hx] at hv; cases hv
        | some nd => exact ⟨nd, rfl⟩
      rw [hnd] at hv
      obtain ⟨name, e1, hv⟩ := bind_eq_ok.1 hv
      cases hi : idx.look name with
      | none => simp only [hi] at hv; cases hv; exact hs
      | some i =>
        simp only [hi] at hv
        obtain ⟨file, e2, hv⟩ := bind_eq_ok.1 hv
        obtain ⟨mesh, e3, hv⟩ := bind_eq_ok.1 hv
        rw [wr_of_lt (by rw [hs]; exact look_lt hl hi)] at hv
        cases hv
        simpa using hs)
  exact ⟨t, ht⟩

end Verif.CompLoad
