import Verif.Proofs.Options
import Verif.Spec.SampleConfig

/-! # Setting several options one after the other -/

namespace Verif.SampleConfig

open Verif Verif.Options Verif.Options.Spec Verif.SampleConfig.Spec

theorem put_put_self (s : Str) (v w : Node) (m : List (Str × Node)) :
    put s w (put s v m) = put s w m := by
  induction m with
  | nil => simp [put]
  | cons e m ih =>
    obtain ⟨k, x⟩ := e
    by_cases h : k = s
    · simp [put, h]
    · simp [put, h, ih]

theorem put_comm {s s' : Str} (hs : s ≠ s') (v w : Node) (m : List (Str × Node)) {c : Node}
    (h : lookup s m = some c) : put s' w (put s v m) = put s v (put s' w m) := by
  induction m with
  | nil => cases h
  | cons e m ih =>
    obtain ⟨k, x⟩ := e
    by_cases h1 : k = s
    · subst h1
      simp [put, hs]
    · have h2 : lookup s m = some c := by simpa [lookup, h1] using h
      by_cases h3 : k = s'
      · simp [put, h3, Ne.symm hs]
      · simp [put, h1, h3, ih h2]

theorem assign_cons_of {t : Node} {m : List (Str × Node)} (h : pairs t = .ok m) (s : Str) (ss : List Str)
    (v : Node) : assign t (s :: ss) v =
      (assign ((lookup s m).getD .null) ss v >>= fun c => .ok (.map (put s c m))) := by
  conv => lhs; unfold assign
  rw [h]
  rfl

/-- Setting an option twice is setting it once. -/
theorem assign_twice {p : List Str} : ∀ {t t' v : Node} (w : Node), assign t p v = .ok t' →
    assign t' p w = assign t p w := by
  induction p with
  | nil => intro t t' v w _; rfl
  | cons s ss ih =>
    intro t t' v w h
    unfold assign at h ⊢
    simp only [bind_eq_ok] at h
    obtain ⟨m, hm, c, hc, h⟩ := h
    cases h
    rw [hm]
    simp only [pairs, ok_bind, lookup_put_self, Option.getD_some, put_put_self]
    rw [ih w hc]

/-- Setting an option that is already there and then an unrelated one can be done in the other
order. -/
theorem assign_swap {p : List Str} : ∀ {t t1 n v : Node} {q : List Str} (w : Node),
    find t p = .ok (some n) → assign t p v = .ok t1 → Unrelated p q →
    assign t1 q w = (assign t q w >>= fun t2 => assign t2 p v) := by
  induction p with
  | nil => intro t t1 n v q w _ _ h; exact absurd List.nil_prefix h.1
  | cons s ss ih =>
    intro t t1 n v q w hf h hu
    cases q with
    | nil => exact absurd List.nil_prefix hu.2
    | cons s' ss' =>
      unfold assign at h
      simp only [bind_eq_ok] at h
      obtain ⟨m, hm, c1, hc1, h⟩ := h
      cases h
      rw [find_cons_of hm] at hf
      cases hl : lookup s m with
      | none => rw [hl] at hf; cases hf
      | some c =>
        rw [hl] at hf hc1
        simp only [Option.getD_some] at hf hc1
        by_cases hs : s = s'
        · subst hs
          have hu' : Unrelated ss ss' :=
            ⟨fun hp => hu.1 ((List.cons_prefix_cons).2 ⟨rfl, hp⟩),
              fun hp => hu.2 ((List.cons_prefix_cons).2 ⟨rfl, hp⟩)⟩
          have key := ih w hf hc1 hu'
          rw [assign_cons_of (t := .map (put s c1 m)) rfl, assign_cons_of hm, lookup_put_self, hl]
          simp only [Option.getD_some, put_put_self]
          rw [key]
          cases h2 : assign c ss' w with
          | error e => rfl
          | ok c2 =>
            simp only [ok_bind]
            rw [assign_cons_of (t := .map (put s c2 m)) rfl, lookup_put_self]
            simp only [Option.getD_some, put_put_self]
        · rw [assign_cons_of (t := .map (put s c1 m)) rfl, assign_cons_of hm, lookup_put_ne hs]
          cases h2 : assign ((lookup s' m).getD .null) ss' w with
          | error e => rfl
          | ok c2 =>
            simp only [ok_bind]
            rw [assign_cons_of (t := .map (put s' c2 m)) rfl, lookup_put_ne (Ne.symm hs), hl]
            simp only [Option.getD_some, hc1, ok_bind]
            rw [put_comm hs _ _ _ hl]

/-- The options of the list are set one after the other. -/
def assignSeq : Node → List (List Str × Node) → Outcome Node
  | t, [] => .ok t
  | t, x :: l => assign t x.1 x.2 >>= fun t' => assignSeq t' l

theorem loopFrom_assign (body : Nat → Node → Outcome Node) : ∀ (l : List (List Str × Node)) (i : Nat)
    (t : Node), (∀ (p : Nat) x, l[p]? = some x → ∀ t, body (i + p) t = assign t x.1 x.2) →
    loopFrom body i l.length t = assignSeq t l := by
  intro l
  induction l with
  | nil => intro i t _; rfl
  | cons x l ih =>
    intro i t h
    rw [List.length_cons]
    unfold loopFrom assignSeq
    have h0 := h 0 x rfl t
    rw [Nat.add_zero] at h0
    rw [h0]
    cases hx : assign t x.1 x.2 with
    | error e => rfl
    | ok t' =>
      simp only [ok_bind]
      apply ih
      intro p y hy t2
      have := h (p + 1) y (by simpa using hy) t2
      rw [← this]
      congr 1
      omega

theorem loop_assign (body : Nat → Node → Outcome Node) (l : List (List Str × Node)) (t : Node)
    (h : ∀ (p : Nat) x, l[p]? = some x → ∀ t, body p t = assign t x.1 x.2) :
    loop l.length body t = assignSeq t l :=
  loopFrom_assign body l 0 t (fun p x hx t => by rw [Nat.zero_add]; exact h p x hx t)

/-- A path unrelated to those set reads as before. -/
theorem seq_other : ∀ {l : List (List Str × Node)} {t t1 : Node} {q : List Str},
    assignSeq t l = .ok t1 → (∀ x ∈ l, Unrelated x.1 q) → find t1 q = find t q := by
  intro l
  induction l with
  | nil => intro t t1 q h _; cases h; rfl
  | cons x l ih =>
    intro t t1 q h hu
    unfold assignSeq at h
    simp only [bind_eq_ok] at h
    obtain ⟨t', h1, h2⟩ := h
    rw [ih h2 (fun y hy => hu y (by simp [hy]))]
    have := hu x (by simp)
    exact assign_other h1 this.1 this.2

/-- Setting again an option that is there commutes with setting unrelated ones. -/
theorem seq_swap : ∀ {l : List (List Str × Node)} {t t1 n v : Node} {p : List Str},
    find t p = .ok (some n) → assign t p v = .ok t1 → (∀ x ∈ l, Unrelated p x.1) →
    assignSeq t1 l = (assignSeq t l >>= fun t2 => assign t2 p v) := by
  intro l
  induction l with
  | nil => intro t t1 n v p _ h _; simpa [assignSeq] using h.symm
  | cons x l ih =>
    intro t t1 n v p hf h hu
    have hx := hu x (by simp)
    unfold assignSeq
    rw [assign_swap x.2 hf h hx]
    cases h2 : assign t x.1 x.2 with
    | error e => rfl
    | ok t2 =>
      simp only [ok_bind]
      have hf2 : find t2 p = .ok (some n) := by rw [assign_other h2 hx.2 hx.1]; exact hf
      obtain ⟨t3, h3⟩ := (assign_ok_iff t2 p v).2 (by
        rw [← find_abort_iff, hf2]; simp)
      rw [h3]
      simp only [ok_bind]
      exact ih hf2 h3 (fun y hy => hu y (by simp [hy]))

/-- After setting some options, setting the same options to other values gives what setting them in the
original would have given. -/
theorem seq_again : ∀ {l l' : List (List Str × Node)} {t t1 : Node},
    l.map Prod.fst = l'.map Prod.fst → (l.map Prod.fst).Pairwise Unrelated →
    assignSeq t l = .ok t1 → assignSeq t1 l' = assignSeq t l' := by
  intro l
  induction l with
  | nil =>
    intro l' t t1 he _ h
    cases l' with
    | nil => cases h; rfl
    | cons x l' => simp at he
  | cons x l ih =>
    intro l' t t1 he hp h
    cases l' with
    | nil => simp at he
    | cons y l' =>
      simp only [List.map_cons, List.cons.injEq] at he
      obtain ⟨hxy, he⟩ := he
      simp only [List.map_cons, List.pairwise_cons, List.mem_map, forall_exists_index, and_imp,
        forall_apply_eq_imp_iff₂] at hp
      obtain ⟨hp1, hp2⟩ := hp
      unfold assignSeq at h
      simp only [bind_eq_ok] at h
      obtain ⟨ta, h1, h2⟩ := h
      have hfa : find ta x.1 = .ok (some x.2) := by
        have := assign_below h1 []
        rwa [List.append_nil] at this
      obtain ⟨tb, hb⟩ := (assign_ok_iff ta x.1 y.2).2 (by rw [← find_abort_iff, hfa]; simp)
      have hb' := hb
      rw [assign_twice y.2 h1] at hb'
      have hs := seq_swap (l := l) hfa hb hp1
      rw [h2] at hs
      simp only [ok_bind] at hs
      have hf1 : find t1 x.1 = .ok (some x.2) := by
        rw [seq_other h2 (fun z hz => ⟨(hp1 z hz).2, (hp1 z hz).1⟩)]; exact hfa
      obtain ⟨tc, hc⟩ := (assign_ok_iff t1 x.1 y.2).2 (by rw [← find_abort_iff, hf1]; simp)
      rw [hc] at hs
      conv => lhs; unfold assignSeq
      conv => rhs; unfold assignSeq
      rw [← hxy, hc, hb']
      simp only [ok_bind]
      exact ih he hp2 hs

/-- The options of the list can be set unless one of their paths leads below a plain value. -/
theorem seq_total : ∀ {l : List (List Str × Node)} {t : Node}, (l.map Prod.fst).Pairwise Unrelated →
    (∀ x ∈ l, ¬ Blocked t x.1) → ∃ t1, assignSeq t l = .ok t1 := by
  intro l
  induction l with
  | nil => intro t _ _; exact ⟨t, rfl⟩
  | cons x l ih =>
    intro t hp hb
    simp only [List.map_cons, List.pairwise_cons, List.mem_map, forall_exists_index, and_imp,
      forall_apply_eq_imp_iff₂] at hp
    obtain ⟨hp1, hp2⟩ := hp
    obtain ⟨ta, ha⟩ := (assign_ok_iff t x.1 x.2).2 (hb x (by simp))
    obtain ⟨t1, h1⟩ := ih (t := ta) hp2 (fun y hy hbl => by
      have := hp1 y hy
      rw [← find_abort_iff, assign_other ha this.1 this.2, find_abort_iff] at hbl
      exact hb y (by simp [hy]) hbl)
    refine ⟨t1, ?_⟩
    unfold assignSeq
    rw [ha]
    exact h1

/-- Every option set has its value. -/
theorem seq_has : ∀ {l : List (List Str × Node)} {t t1 : Node}, (l.map Prod.fst).Pairwise Unrelated →
    assignSeq t l = .ok t1 → ∀ x ∈ l, find t1 x.1 = .ok (some x.2) ∧ ¬ Blocked t x.1 := by
  intro l
  induction l with
  | nil => intro t t1 _ _ x hx; simp at hx
  | cons y l ih =>
    intro t t1 hp h x hx
    simp only [List.map_cons, List.pairwise_cons, List.mem_map, forall_exists_index, and_imp,
      forall_apply_eq_imp_iff₂] at hp
    obtain ⟨hp1, hp2⟩ := hp
    unfold assignSeq at h
    simp only [bind_eq_ok] at h
    obtain ⟨ta, h1, h2⟩ := h
    rcases List.mem_cons.1 hx with rfl | hx
    · refine ⟨?_, (assign_ok_iff _ _ _).1 ⟨_, h1⟩⟩
      rw [seq_other h2 (fun z hz => ⟨(hp1 z hz).2, (hp1 z hz).1⟩)]
      have := assign_below h1 []
      rwa [List.append_nil] at this
    · obtain ⟨h3, h4⟩ := ih hp2 h2 x hx
      refine ⟨h3, fun hb => h4 ?_⟩
      have := hp1 x hx
      rw [← find_abort_iff, assign_other h1 this.1 this.2, find_abort_iff]
      exact hb

end Verif.SampleConfig
