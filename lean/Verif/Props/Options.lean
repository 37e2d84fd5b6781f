import Verif.Proofs.Options
import Verif.Props.Sampling

/-! # C53 and C55: input options and snapshot files -/

namespace Verif.Options

open Verif Verif.Options.Spec

variable {T : Type}

/-! ## Reading -/

/-- **C53**: a required option is the value at its path; without a node there, the program stops. -/
theorem required_iff (as : Node → Outcome T) (keys : Str) (t : Node) (v : T) :
    required as keys t = .ok v ↔ ∃ n, At t (pieces '/' keys) n ∧ as n = .ok v := by
  unfold required
  constructor
  · intro h
    simp only [bind_eq_ok] at h
    obtain ⟨o, ho, h⟩ := h
    cases o with
    | none => cases h
    | some n => exact ⟨n, (find_some_iff _ _ _).1 ho, h⟩
  · rintro ⟨n, hn, h⟩
    rw [(find_some_iff _ _ _).2 hn]
    exact h

/-- **C53**: a missing required option stops the program. -/
theorem required_missing (as : Node → Outcome T) (keys : Str) (t : Node)
    (h : ¬ Spec.Exists t (pieces '/' keys)) : required as keys t = .error .abort := by
  unfold required
  cases hf : find t (pieces '/' keys) with
  | error e =>
    cases e with
    | abort => rfl
    | ub => exact absurd hf (find_ub _ _)
  | ok o =>
    cases o with
    | none => rfl
    | some n => exact absurd ⟨n, (find_some_iff _ _ _).1 hf⟩ h

/-- **C53**: an option is the value at its path, whatever the fallback; the fallback is used exactly
when there is no node at the path (and the path does not lead below a plain value, which stops the
program). -/
theorem option_iff (as : Node → Outcome T) (keys : Str) (fallback : T) (t : Node) (v : T) :
    option as keys fallback t = .ok v ↔
      (∃ n, At t (pieces '/' keys) n ∧ as n = .ok v) ∨
      (¬ Spec.Exists t (pieces '/' keys) ∧ ¬ Blocked t (pieces '/' keys) ∧ v = fallback) := by
  unfold option
  constructor
  · intro h
    simp only [bind_eq_ok] at h
    obtain ⟨o, ho, h⟩ := h
    cases o with
    | none =>
      obtain ⟨h1, h2⟩ := (find_none_iff _ _).1 ho
      cases h
      exact .inr ⟨h1, h2, rfl⟩
    | some n => exact .inl ⟨n, (find_some_iff _ _ _).1 ho, h⟩
  · rintro (⟨n, hn, h⟩ | ⟨h1, h2, rfl⟩)
    · rw [(find_some_iff _ _ _).2 hn]; exact h
    · rw [(find_none_iff _ _).2 ⟨h1, h2⟩]; rfl

/-- There is at most one node at a path. -/
theorem at_unique {t n n' : Node} {p : List Str} (h : At t p n) (h' : At t p n') : n = n' := by
  have e := (find_some_iff t p n).2 h
  rw [(find_some_iff t p n').2 h'] at e
  cases e; rfl

/-! ## Setting -/

/-- **C53**: setting an option succeeds unless its path leads below a plain value. -/
theorem setOption_ok_iff (keys : Str) (v t : Node) :
    (∃ t', setOption keys v t = .ok t') ↔ ¬ Blocked t (pieces '/' keys) :=
  assign_ok_iff _ _ _

/-- **C53**: after setting an option, reading that path gives the value set. -/
theorem set_get {keys : Str} {v t t' : Node} (h : setOption keys v t = .ok t') (as : Node → Outcome T) :
    required as keys t' = as v ∧ ∀ fallback, option as keys fallback t' = as v := by
  have := assign_below h []
  rw [List.append_nil] at this
  have hv : find t' (pieces '/' keys) = .ok (some v) := this
  constructor
  · unfold required; rw [hv]; rfl
  · intro fb; unfold option; rw [hv]; rfl

/-- **C53**: paths that neither contain nor extend the path set read as before. -/
theorem set_other {keys keys' : Str} {v t t' : Node} (h : setOption keys v t = .ok t')
    (h1 : ¬ pieces '/' keys <+: pieces '/' keys') (h2 : ¬ pieces '/' keys' <+: pieces '/' keys)
    (as : Node → Outcome T) :
    required as keys' t' = required as keys' t ∧
      ∀ fallback, option as keys' fallback t' = option as keys' fallback t := by
  have := assign_other h h1 h2
  constructor
  · unfold required; rw [this]
  · intro fb; unfold option; rw [this]

/-- **C53**: below the path set, the tree is the value set. -/
theorem set_below {keys : Str} {v t t' : Node} (h : setOption keys v t = .ok t') (r : List Str)
    (n : Node) : At t' (pieces '/' keys ++ r) n ↔ At v r n := by
  rw [← find_some_iff, ← find_some_iff, assign_below h r]

/-! ## Looking does not change what is found -/

theorem touch_find (p : List Str) : ∀ (t : Node) (q : List Str), find (touch t p) q =
    (find t q).map fun o => o.map fun n => if q <+: p then touch n (p.drop q.length) else n := by
  induction p with
  | nil =>
    intro t q
    cases q with
    | nil => rfl
    | cons s qs =>
      show find t _ = _
      have : ¬ (s :: qs) <+: [] := by simp
      simp only [if_neg this]
      cases find t (s :: qs) with
      | error e => rfl
      | ok o => cases o <;> rfl
  | cons s ss ih =>
    intro t q
    cases q with
    | nil =>
      simp only [find, List.nil_prefix, if_true, List.length_nil, List.drop_zero]
      rfl
    | cons s' qs =>
      cases hp : pairs t with
      | error e =>
        have h1 : find t (s' :: qs) = .error e := by unfold find; rw [hp]; rfl
        have h2 : touch t (s :: ss) = t := by unfold touch; rw [hp]
        rw [h2, h1]; rfl
      | ok m =>
        rw [find_cons_of hp]
        cases hl : lookup s m with
        | none =>
          have h2 : touch t (s :: ss) = .map m := by unfold touch; rw [hp]; simp only [hl]
          rw [h2, find_cons_of (m := m) rfl]
          cases hl' : lookup s' m with
          | none => rfl
          | some c =>
            have hne : ¬ (s' :: qs) <+: (s :: ss) := by
              rw [List.cons_prefix_cons]
              rintro ⟨rfl, _⟩
              rw [hl] at hl'; cases hl'
            simp only [if_neg hne]
            cases find c qs with
            | error e => rfl
            | ok o => cases o <;> rfl
        | some c =>
          have h2 : touch t (s :: ss) = .map (put s (touch c ss) m) := by
            conv => lhs; unfold touch
            rw [hp]; simp only [hl]
          rw [h2, find_cons_of (m := put s (touch c ss) m) rfl]
          by_cases hs : s = s'
          · subst hs
            rw [lookup_put_self, hl]
            show find (touch c ss) qs = _
            rw [ih c qs]
            have hpre : (s :: qs) <+: (s :: ss) ↔ qs <+: ss := by
              rw [List.cons_prefix_cons]; simp
            by_cases hq : qs <+: ss
            · simp only [if_pos hq, if_pos (hpre.2 hq), List.length_cons, List.drop_succ_cons]
            · simp only [if_neg hq, if_neg (fun h => hq (hpre.1 h))]
          · rw [lookup_put_ne hs]
            have hne : ¬ (s' :: qs) <+: (s :: ss) := by
              rw [List.cons_prefix_cons]; rintro ⟨rfl, _⟩; exact hs rfl
            simp only [if_neg hne]
            cases lookup s' m with
            | none => rfl
            | some d =>
              show find d qs = Except.map _ (find d qs)
              cases find d qs with
              | error e => rfl
              | ok o => cases o <;> rfl

/-- **C53**: a lookup creates and removes nothing, and changes no plain value and nothing off its own
path. -/
theorem lookup_keeps (p q : List Str) (t : Node) :
    (Spec.Exists (touch t p) q ↔ Spec.Exists t q) ∧
      ∀ n, At t q n → (¬ q <+: p ∨ ∃ v, n = .scalar v) → At (touch t p) q n := by
  have h := touch_find p t q
  constructor
  · constructor
    · rintro ⟨n, hn⟩
      rw [← find_some_iff, h] at hn
      cases hf : find t q with
      | error e => rw [hf] at hn; cases hn
      | ok o =>
        cases o with
        | none => rw [hf] at hn; cases hn
        | some n => exact ⟨n, (find_some_iff _ _ _).1 hf⟩
    · rintro ⟨n, hn⟩
      rw [← find_some_iff] at hn
      rw [hn] at h
      exact ⟨_, (find_some_iff _ _ _).1 h⟩
  · intro n hn hor
    rw [← find_some_iff] at hn ⊢
    rw [h, hn]
    rcases hor with h1 | ⟨v, rfl⟩
    · simp only [if_neg h1]; rfl
    · have : ∀ r, touch (.scalar v) r = .scalar v := by
        intro r; cases r <;> rfl
      show Except.ok (some (if q <+: p then touch (.scalar v) _ else .scalar v)) = _
      rw [this, ite_self]

/-- Finding: asking for an option below a list turns the list into a map, so that reading the list
afterwards (`as<std::vector<..>>` wants a sequence) fails. -/
theorem lookup_turns_list_into_map (l : List Node) (s : Str) : ∃ m, touch (.seq l) [s] = .map m := by
  cases hl : lookup s (((List.range l.length).zip l).map fun p => (digits p.1, p.2)) with
  | none => exact ⟨_, by unfold touch pairs; simp only [hl]; rfl⟩
  | some c => exact ⟨_, by unfold touch pairs; simp only [hl]; rfl⟩

/-! ## Overrides -/

theorem overwriteAll_iff (load : Str → Outcome Node) (texts : List Str) (t t' : Node) :
    overwriteAll load texts t = .ok t' ↔
      ∃ kvs, List.Forall₂ (fun kv p => IsPair kv p.1 p.2) texts kvs ∧ assignAll load kvs t = .ok t' := by
  induction texts generalizing t with
  | nil =>
    constructor
    · intro h; exact ⟨[], .nil, h⟩
    · rintro ⟨kvs, h1, h2⟩; cases h1; exact h2
  | cons kv texts ih =>
    unfold overwriteAll
    constructor
    · intro h
      simp only [bind_eq_ok] at h
      obtain ⟨⟨k, v⟩, hkv, n, hn, t1, ht1, h⟩ := h
      obtain ⟨kvs, h1, h2⟩ := (ih t1).1 h
      refine ⟨(k, v) :: kvs, .cons ((keyValue_iff kv k v).1 hkv) h1, ?_⟩
      unfold assignAll at h2 ⊢
      rw [List.foldlM_cons]
      simp only [hn, ok_bind, ht1, h2]
    · rintro ⟨kvs, h1, h2⟩
      cases h1 with
      | cons hp h1 =>
        rename_i p kvs
        obtain ⟨k, v⟩ := p
        rw [(keyValue_iff kv k v).2 hp]
        simp only [ok_bind]
        unfold assignAll at h2
        rw [List.foldlM_cons] at h2
        simp only [bind_eq_ok] at h2
        obtain ⟨t1, ⟨n, hn, ht1⟩, h2⟩ := h2
        simp only [hn, ok_bind, ht1]
        exact (ih t1).2 ⟨kvs, h1, h2⟩

/-- **C53**: command-line overrides are accepted exactly when the text is a list of pairs, and then they
are assigned in order. -/
theorem overwrite_iff (load : Str → Outcome Node) (forced : Str) (t t' : Node) :
    overwrite load forced t = .ok t' ↔ ∃ kvs, Lists forced kvs ∧ assignAll load kvs t = .ok t' := by
  unfold overwrite
  rw [overwriteAll_iff]
  constructor
  · rintro ⟨kvs, h1, h2⟩
    exact ⟨kvs, ⟨_, (pieces_iff _ _ _).1 rfl, h1⟩, h2⟩
  · rintro ⟨kvs, ⟨texts, h0, h1⟩, h2⟩
    rw [← pieces_iff] at h0
    subst h0
    exact ⟨kvs, h1, h2⟩

/-- **C53**: the last value given for a path wins. -/
theorem overwrite_last (load : Str → Outcome Node) {forced : Str} {t t' : Node} {kvs : List (Str × Str)}
    {k v : Str} (hl : Lists forced (kvs ++ [(k, v)])) (h : overwrite load forced t = .ok t')
    (as : Node → Outcome T) : ∃ n, load v = .ok n ∧ required as k t' = as n := by
  obtain ⟨kvs', ⟨texts', h0', h1'⟩, h2'⟩ := (overwrite_iff load forced t t').1 h
  obtain ⟨texts, h0, h1⟩ := hl
  have ht : texts' = texts := by
    rw [← pieces_iff] at h0 h0'
    rw [← h0, ← h0']
  subst ht
  have hk : kvs' = kvs ++ [(k, v)] := by
    clear h0 h0' h2'
    generalize kvs ++ [(k, v)] = l at h1
    induction h1' generalizing l with
    | nil => cases h1; rfl
    | cons hp _ ih =>
      cases h1 with
      | cons hp' h1 =>
        rw [ih _ h1]
        rename_i a b _ _ c _ _
        have e1 := (keyValue_iff a b.1 b.2).2 hp
        rw [(keyValue_iff a _ _).2 hp'] at e1
        simp only [Except.ok.injEq, Prod.mk.injEq] at e1
        congr 1
        exact Prod.ext e1.1.symm e1.2.symm
  subst hk
  unfold assignAll at h2'
  rw [List.foldlM_append] at h2'
  simp only [bind_eq_ok] at h2'
  obtain ⟨t1, _, h3⟩ := h2'
  simp only [List.foldlM_cons, List.foldlM_nil, bind_eq_ok] at h3
  obtain ⟨t2, ⟨n, hn, h4⟩, h5⟩ := h3
  cases h5
  exact ⟨n, hn, (set_get h4 as).1⟩

/-- Finding: a pair with an empty key replaces the whole configuration. -/
theorem empty_key_replaces_all (load : Str → Outcome Node) (v : Str) (hv : v ≠ []) (h1 : '=' ∉ v)
    (h2 : ':' ∉ v) (t n : Node) (hn : load v = .ok n) : overwrite load ('=' :: v) t = .ok n := by
  rw [overwrite_iff]
  refine ⟨[([], v)], ⟨['=' :: v], ⟨?_, .inr (.inr ⟨rfl, _, rfl, by simp⟩)⟩,
    .cons ⟨by simp, h1, .inl ⟨hv, rfl⟩⟩ .nil⟩, ?_⟩
  · intro x hx
    simp at hx
    subst hx
    simp [h2]
  · unfold assignAll
    simp only [List.foldlM_cons, List.foldlM_nil, hn, ok_bind]
    rfl

/-! ## Tables -/

theorem lookUpIn_first [DecidableEq T] (as : Node → Outcome T) (lkey : Str) (lval : T) (es : List Node) :
    (∀ e, lookUpIn as lkey lval (es.map some) = .ok (some e) ↔ FirstNamed as lkey lval es e) ∧
      (lookUpIn as lkey lval (es.map some) = .ok none ↔ ∀ e ∈ es, NotNamed as lkey lval e) := by
  induction es with
  | nil =>
    constructor
    · intro e
      constructor
      · intro h; cases h
      · rintro ⟨pre, post, h, _⟩; simp at h
    · simp [lookUpIn]
  | cons a es ih =>
    obtain ⟨ih1, ih2⟩ := ih
    have hskip : NotNamed as lkey lval a → lookUpIn as lkey lval ((a :: es).map some) =
        lookUpIn as lkey lval (es.map some) := by
      rintro (⟨h1, h2⟩ | ⟨n, v, h1, h2, h3⟩)
      · simp only [List.map_cons]
        conv => lhs; unfold lookUpIn
        rw [(find_none_iff _ _).2 ⟨h1, h2⟩]; rfl
      · simp only [List.map_cons]
        conv => lhs; unfold lookUpIn
        rw [(find_some_iff _ _ _).2 h1]
        simp only [ok_bind, h2, if_neg h3]
    have hhit : Named as lkey lval a → lookUpIn as lkey lval ((a :: es).map some) = .ok (some a) := by
      rintro ⟨n, h1, h2⟩
      simp only [List.map_cons]
      conv => lhs; unfold lookUpIn
      rw [(find_some_iff _ _ _).2 h1]
      simp only [ok_bind, h2, if_true]
    have hexcl : Named as lkey lval a → ¬ NotNamed as lkey lval a := by
      rintro ⟨n, h1, h2⟩ (⟨h3, _⟩ | ⟨n', v, h3, h4, h5⟩)
      · exact h3 ⟨n, h1⟩
      · have := at_unique h1 h3
        subst this
        rw [h2] at h4; cases h4; exact h5 rfl
    have hcase : ∀ o, lookUpIn as lkey lval ((a :: es).map some) = .ok o →
        Named as lkey lval a ∨ NotNamed as lkey lval a := by
      intro o h
      simp only [List.map_cons] at h
      unfold lookUpIn at h
      simp only [bind_eq_ok] at h
      obtain ⟨x, hx, h⟩ := h
      cases x with
      | none => exact .inr (.inl ((find_none_iff _ _).1 hx))
      | some n =>
        simp only [bind_eq_ok] at h
        obtain ⟨v, hv, _⟩ := h
        by_cases he : v = lval
        · subst he; exact .inl ⟨n, (find_some_iff _ _ _).1 hx, hv⟩
        · exact .inr (.inr ⟨n, v, (find_some_iff _ _ _).1 hx, hv, he⟩)
    constructor
    · intro e
      constructor
      · intro h
        rcases hcase _ h with hn | hn
        · rw [hhit hn] at h; cases h
          exact ⟨[], es, rfl, hn, by simp⟩
        · rw [hskip hn] at h
          obtain ⟨pre, post, h1, h2, h3⟩ := (ih1 e).1 h
          refine ⟨a :: pre, post, by rw [h1]; rfl, h2, ?_⟩
          intro e' he'
          rcases List.mem_cons.1 he' with rfl | he'
          · exact hn
          · exact h3 e' he'
      · rintro ⟨pre, post, h1, h2, h3⟩
        cases pre with
        | nil =>
          simp only [List.nil_append, List.cons.injEq] at h1
          obtain ⟨rfl, rfl⟩ := h1
          exact hhit h2
        | cons b pre =>
          simp only [List.cons_append, List.cons.injEq] at h1
          obtain ⟨rfl, h1⟩ := h1
          rw [hskip (h3 a (by simp))]
          exact (ih1 e).2 ⟨pre, post, h1, h2, fun e' he' => h3 e' (by simp [he'])⟩
    · constructor
      · intro h
        rcases hcase _ h with hn | hn
        · rw [hhit hn] at h; cases h
        · rw [hskip hn] at h
          intro e he
          rcases List.mem_cons.1 he with rfl | he
          · exact hn
          · exact (ih2.1 h) e he
      · intro h
        rw [hskip (h a (by simp))]
        exact ih2.2 fun e he => h e (by simp [he])

/-- **C53**: looking up a table gives the first row with the given entry, or nothing if no row has it. -/
theorem lookUp_first [DecidableEq T] (as : Node → Outcome T) (lkey : Str) (lval : T) (es : List Node) :
    (∀ e, lookUp as lkey lval (.seq es) = .ok (some e) ↔ FirstNamed as lkey lval es e) ∧
      (lookUp as lkey lval (.seq es) = .ok none ↔ ∀ e ∈ es, NotNamed as lkey lval e) :=
  lookUpIn_first as lkey lval es

/-- **C53**: looking up a value in a table reads it in the first row with the given entry, and gives the
fallback if no row has it. -/
theorem lookUpValue_spec [DecidableEq T] {U : Type} (as : Node → Outcome T) (as' : Node → Outcome U)
    (lkey : Str) (lval : T) (rkey : Str) (dflt : U) (es : List Node) :
    (∀ e, FirstNamed as lkey lval es e →
      lookUpValue as as' lkey lval rkey dflt (.seq es) = option as' rkey dflt e) ∧
    ((∀ e ∈ es, NotNamed as lkey lval e) →
      lookUpValue as as' lkey lval rkey dflt (.seq es) = .ok dflt) := by
  constructor
  · intro e he
    unfold lookUpValue
    rw [((lookUp_first as lkey lval es).1 e).2 he]; rfl
  · intro he
    unfold lookUpValue
    rw [(lookUp_first as lkey lval es).2.2 he]; rfl

/-! ## Snapshot files -/

/-- **C55**: the list of files is never empty, and it is the listed files of the tag or else exactly the
default file. -/
theorem snapshotFiles_cases {c : Conv} {tag dflt : String} {cfg : Node} {l : List String}
    (h : snapshotFiles c tag dflt cfg = .ok l) : l ≠ [] ∧
      ∃ l', listedFiles c tag cfg = .ok l' ∧ l = if l' = [] then [dflt] else l' := by
  unfold snapshotFiles at h
  simp only [bind_eq_ok] at h
  obtain ⟨l', h1, h2⟩ := h
  cases h2
  cases l' with
  | nil => exact ⟨by simp, [], h1, by simp⟩
  | cons a b => exact ⟨by simp, a :: b, h1, by simp⟩

/-- **C55**: with a table of tags, the files are those of the first entry with the name of the tag:
those listed, followed by those of the format, `minimum` to `maximum`; other entries play no role. -/
theorem snapshotFiles_entry {c : Conv} {tag dflt : String} {cfg e : Node} {es : List Node}
    {files : List String} (ht : At cfg (pieces '/' (key "basis/tags")) (.seq es))
    (he : FirstNamed c.str (key "name") tag es e)
    (hf : option c.strs (key "snapshot_files") [] e = .ok files) :
    (∀ (f : Node) (fmt : String) (lo hi : Int), At e (pieces '/' (key "snapshot_format")) f →
      required c.int (key "minimum") f = .ok lo → required c.int (key "maximum") f = .ok hi →
      required c.str (key "format") f = .ok fmt →
      ∃ l, snapshotFiles c tag dflt cfg =
          .ok (if files ++ l = [] then [dflt] else files ++ l) ∧
        l.length = (hi - lo + 1).toNat ∧
        ∀ k : Nat, lo + k ≤ hi → l[k]? = some (c.format fmt (lo + k))) ∧
    (find e (pieces '/' (key "snapshot_format")) = .ok none →
      snapshotFiles c tag dflt cfg = .ok (if files = [] then [dflt] else files)) := by
  have hl : ∀ l, entryFiles c e = .ok l →
      snapshotFiles c tag dflt cfg = .ok (if l = [] then [dflt] else l) := by
    intro l hl
    unfold snapshotFiles listedFiles
    rw [(find_some_iff _ _ _).2 ht]
    simp only [ok_bind]
    rw [((lookUp_first c.str (key "name") tag es).1 e).2 he]
    simp only [ok_bind, hl]
    cases l with
    | nil => rfl
    | cons a b => rfl
  constructor
  · intro f fmt lo hi h1 h2 h3 h4
    obtain ⟨l, h5, h6, h7⟩ := Sampling.parseFilenames_all (c.format fmt) lo hi files
    refine ⟨l, ?_, h6, h7⟩
    apply hl
    unfold entryFiles
    rw [hf, ok_bind, (find_some_iff _ _ _).2 h1]
    simp only [ok_bind]
    unfold formatted
    simp only [h2, h3, h4, ok_bind, h5]
  · intro h1
    apply hl
    unfold entryFiles
    rw [hf, ok_bind, h1]
    rfl

/-- **C55**: without an entry of that name, or without a table, it is exactly the default file. -/
theorem snapshotFiles_default {c : Conv} {tag dflt : String} {cfg : Node}
    (h : find cfg (pieces '/' (key "basis/tags")) = .ok none ∨
      ∃ es, At cfg (pieces '/' (key "basis/tags")) (.seq es) ∧
        ∀ e ∈ es, NotNamed c.str (key "name") tag e) :
    snapshotFiles c tag dflt cfg = .ok [dflt] := by
  unfold snapshotFiles listedFiles
  rcases h with h | ⟨es, h1, h2⟩
  · rw [h]; rfl
  · rw [(find_some_iff _ _ _).2 h1]
    simp only [ok_bind]
    rw [(lookUp_first c.str (key "name") tag es).2.2 h2]
    rfl

/-! ## A concrete case -/

section Example

/-- `a/b/` and `a/b` are the same path, `a//b` is not. -/
example : pieces '/' ['a', '/', 'b', '/'] = [['a'], ['b']] ∧
    pieces '/' ['a', '/', '/', 'b'] = [['a'], [], ['b']] := by decide

/-- Plain text. -/
def exStr : Node → Outcome String
  | .scalar s => .ok (String.ofList s)
  | _ => .error .abort

/-- A configuration with a list, a map and an override below the map. -/
def exCfg : Node :=
  .map [(['a'], .map [(['x'], .scalar ['1'])]), (['l'], .seq [.scalar ['p'], .scalar ['q']])]

/-- The hypotheses of the theorems on setting hold, for a path that exists and one that does not. -/
example : (∃ t, setOption ['a', '/', 'x'] (.scalar ['2']) exCfg = .ok t) ∧
    (∃ t, setOption ['n', '/', 'x'] .null exCfg = .ok t) ∧
    ¬ pieces '/' ['a', '/', 'x'] <+: pieces '/' ['a', '/', 'y'] ∧
    setOption ['a', '/', 'x', '/', 'y'] .null exCfg = .error .abort :=
  ⟨⟨_, rfl⟩, ⟨_, rfl⟩, by decide, rfl⟩

/-- Overrides: two pairs, the second for a new path. -/
example : ∃ t, overwrite (fun v => .ok (.scalar v))
    ['a', '/', 'x', '=', '2', ':', 'b', '=', '3'] exCfg = .ok t ∧
    find t [['a'], ['x']] = .ok (some (.scalar ['2'])) ∧ find t [['b']] = .ok (some (.scalar ['3'])) :=
  ⟨_, rfl, rfl, rfl⟩

/-- Malformed pairs are refused: no value, three parts. -/
example : overwrite (fun v => .ok (.scalar v)) ['a', '='] exCfg = .error .abort ∧
    overwrite (fun v => .ok (.scalar v)) ['a', '=', 'b', '=', 'c'] exCfg = .error .abort := ⟨rfl, rfl⟩

/-- Conversions for the example: lists of plain texts, one-digit numbers. -/
def exConv : Conv where
  str := exStr
  strs n := match n with
    | .seq l => l.mapM exStr
    | _ => .error .abort
  int n := match n with
    | .scalar [c] => .ok (c.toNat - '0'.toNat)
    | _ => .error .abort
  format s k := s ++ toString k

/-- Two tags, the second with an own list and a format. -/
def exTags : Node :=
  .map [(key "basis", .map [(key "tags", .seq [.map [(key "name", .scalar ['u'])],
    .map [(key "name", .scalar ['v']), (key "snapshot_files", .seq [.scalar ['f']]),
      (key "snapshot_format", .map [(key "minimum", .scalar ['1']), (key "maximum", .scalar ['2']),
        (key "format", .scalar ['g'])])]])])]

/-- Listed and formatted files; default for an entry that lists none, and for an unknown tag. -/
example : (["v", "u", "w"].map fun tag => snapshotFiles exConv tag "d" exTags) =
    [.ok ["f", "g1", "g2"], .ok ["d"], .ok ["d"]] := by decide +kernel

/-- The hypotheses of `snapshotFiles_entry` hold for the second tag. -/
example : ∃ es e, At exTags (pieces '/' (key "basis/tags")) (.seq es) ∧
    FirstNamed exConv.str (key "name") "v" es e ∧
    option exConv.strs (key "snapshot_files") [] e = .ok ["f"] := by
  have h1 : pieces '/' (key "basis/tags") = [key "basis", key "tags"] := by decide +kernel
  have h2 : pieces '/' (key "name") = [key "name"] := by decide +kernel
  rw [h1]
  refine ⟨_, _, .entry (pre := []) (by simp) (.entry (pre := []) (by simp) (.here _)),
    ⟨[_], [], rfl, ?_, ?_⟩, by decide +kernel⟩
  · unfold Named
    rw [h2]
    exact ⟨_, .entry (pre := []) (by simp) (.here _), by decide +kernel⟩
  · intro e he
    simp at he
    subst he
    unfold NotNamed
    rw [h2]
    exact .inr ⟨_, "u", .entry (pre := []) (by simp) (.here _), by decide +kernel, by decide +kernel⟩

end Example

end Verif.Options
