import Verif.Spec.Options
import Verif.Proofs.Basic
import Std.Data.String.ToNat
import Mathlib.Data.List.TakeWhile

/-! # Helper lemmas on input options -/

namespace Verif.Options

open Verif Verif.Options.Spec

theorem digits_inj {j k : Nat} (h : digits j = digits k) : j = k :=
  Nat.repr_injective (String.toList_injective h)

theorem lookup_put_self (s : Str) (v : Node) (m : List (Str × Node)) :
    lookup s (put s v m) = some v := by
  induction m with
  | nil => simp [put, lookup]
  | cons e m ih =>
    obtain ⟨k, w⟩ := e
    by_cases h : k = s
    · simp [put, lookup, h]
    · simp only [put, if_neg h, lookup]; exact ih

theorem lookup_put_ne {s s' : Str} (hs : s ≠ s') (v : Node) (m : List (Str × Node)) :
    lookup s' (put s v m) = lookup s' m := by
  induction m with
  | nil => simp [put, lookup, hs]
  | cons e m ih =>
    obtain ⟨k, w⟩ := e
    by_cases h : k = s
    · subst h; simp [put, lookup, hs]
    · simp only [put, if_neg h, lookup]; rw [ih]

theorem lookup_some_iff {s : Str} {m : List (Str × Node)} {c : Node} :
    lookup s m = some c ↔ ∃ pre post, m = pre ++ (s, c) :: post ∧ ∀ e ∈ pre, e.1 ≠ s := by
  induction m with
  | nil => simp [lookup]
  | cons e m ih =>
    obtain ⟨k, w⟩ := e
    by_cases h : k = s
    · subst h
      simp only [lookup, if_true, Option.some.injEq]
      constructor
      · rintro rfl; exact ⟨[], m, rfl, by simp⟩
      · rintro ⟨pre, post, h1, h2⟩
        cases pre with
        | nil => simp at h1; exact h1.1
        | cons a pre =>
          simp only [List.cons_append, List.cons.injEq] at h1
          exact absurd (by rw [← h1.1]) (h2 a (by simp))
    · simp only [lookup, if_neg h]
      rw [ih]
      constructor
      · rintro ⟨pre, post, h1, h2⟩
        refine ⟨(k, w) :: pre, post, by rw [h1]; rfl, ?_⟩
        intro e he
        rcases List.mem_cons.1 he with rfl | he
        · exact h
        · exact h2 e he
      · rintro ⟨pre, post, h1, h2⟩
        cases pre with
        | nil =>
          simp only [List.nil_append, List.cons.injEq, Prod.mk.injEq] at h1
          exact absurd h1.1.1 h
        | cons a pre =>
          simp only [List.cons_append, List.cons.injEq] at h1
          exact ⟨pre, post, h1.2, fun e he => h2 e (by simp [he])⟩

/-- Keys of the elements of a list, counted from `n`. -/
theorem lookup_seq (l : List Node) (n : Nat) (s : Str) (c : Node) :
    lookup s (((List.range' n l.length).zip l).map fun p => (digits p.1, p.2)) = some c ↔
      ∃ k, l[k]? = some c ∧ s = digits (n + k) := by
  induction l generalizing n with
  | nil => simp [lookup]
  | cons a l ih =>
    rw [List.length_cons, List.range'_succ]
    simp only [List.zip_cons_cons, List.map_cons, lookup]
    by_cases h : digits n = s
    · subst h
      simp only [if_true, Option.some.injEq]
      constructor
      · rintro rfl; exact ⟨0, rfl, by simp⟩
      · rintro ⟨k, h1, h2⟩
        have : k = 0 := by have := digits_inj h2; omega
        subst this
        simpa using h1
    · rw [if_neg h, ih]
      constructor
      · rintro ⟨k, h1, h2⟩
        exact ⟨k + 1, by simpa using h1, by rw [h2]; congr 1; omega⟩
      · rintro ⟨k, h1, h2⟩
        cases k with
        | zero => exact absurd h2.symm (by simpa using h)
        | succ k => exact ⟨k, by simpa using h1, by rw [h2]; congr 1; omega⟩

theorem lookup_elems (l : List Node) (s : Str) (c : Node) :
    lookup s (((List.range l.length).zip l).map fun p => (digits p.1, p.2)) = some c ↔
      ∃ k, l[k]? = some c ∧ s = digits k := by
  rw [List.range_eq_range', lookup_seq]
  simp

theorem find_some_iff (t : Node) (p : List Str) (n : Node) :
    find t p = .ok (some n) ↔ At t p n := by
  induction p generalizing t with
  | nil =>
    unfold find
    constructor
    · intro h; cases h; exact .here _
    · intro h; cases h; rfl
  | cons s ss ih =>
    unfold find
    constructor
    · intro h
      cases t with
      | null => simp [pairs, lookup, ok_bind] at h
      | scalar v => simp [pairs, error_bind] at h
      | seq l =>
        simp only [pairs, ok_bind] at h
        split at h
        · cases h
        · rename_i c hc
          obtain ⟨k, hk, rfl⟩ := (lookup_elems l s c).1 hc
          exact .element hk ((ih c).1 h)
      | map m =>
        simp only [pairs, ok_bind] at h
        split at h
        · cases h
        · rename_i c hc
          obtain ⟨pre, post, rfl, hpre⟩ := lookup_some_iff.1 hc
          exact .entry hpre ((ih c).1 h)
    · intro h
      cases h with
      | entry hpre h =>
        rename_i pre post c
        simp only [pairs, ok_bind]
        rw [lookup_some_iff.2 ⟨pre, post, rfl, hpre⟩]
        exact (ih c).2 h
      | element hk h =>
        rename_i l k c
        simp only [pairs, ok_bind]
        rw [(lookup_elems l _ c).2 ⟨k, hk, rfl⟩]
        exact (ih c).2 h

theorem find_ub (t : Node) (p : List Str) : find t p ≠ .error .ub := by
  induction p generalizing t with
  | nil => intro h; cases h
  | cons s ss ih =>
    unfold find
    cases t <;> simp only [pairs, ok_bind, error_bind]
    · simp [lookup]
    · simp
    all_goals
      split
      · simp
      · exact ih _

theorem find_abort_iff (t : Node) (p : List Str) :
    find t p = .error .abort ↔ Blocked t p := by
  induction p generalizing t with
  | nil =>
    constructor
    · intro h; cases h
    · rintro ⟨q, s, r, v, h, _⟩; simp at h
  | cons s ss ih =>
    unfold find
    constructor
    · intro h
      cases t with
      | null => simp [pairs, lookup, ok_bind] at h
      | scalar v => exact ⟨[], s, ss, v, rfl, .here _⟩
      | seq l =>
        simp only [pairs, ok_bind] at h
        split at h
        · cases h
        · rename_i c hc
          obtain ⟨k, hk, rfl⟩ := (lookup_elems l s c).1 hc
          obtain ⟨q, s', r, v, h1, h2⟩ := (ih c).1 h
          exact ⟨digits k :: q, s', r, v, by rw [h1]; rfl, .element hk h2⟩
      | map m =>
        simp only [pairs, ok_bind] at h
        split at h
        · cases h
        · rename_i c hc
          obtain ⟨pre, post, rfl, hpre⟩ := lookup_some_iff.1 hc
          obtain ⟨q, s', r, v, h1, h2⟩ := (ih c).1 h
          exact ⟨s :: q, s', r, v, by rw [h1]; rfl, .entry hpre h2⟩
    · rintro ⟨q, s', r, v, h1, h2⟩
      cases h2 with
      | here => rfl
      | entry hpre h2 =>
        rename_i pre post s2 c q
        simp only [List.cons_append, List.cons.injEq] at h1
        obtain ⟨rfl, h1⟩ := h1
        simp only [pairs, ok_bind]
        rw [lookup_some_iff.2 ⟨pre, post, rfl, hpre⟩]
        exact (ih c).2 ⟨q, s', r, v, h1, h2⟩
      | element hk h2 =>
        rename_i l k c q
        simp only [List.cons_append, List.cons.injEq] at h1
        obtain ⟨rfl, h1⟩ := h1
        simp only [pairs, ok_bind]
        rw [(lookup_elems l _ c).2 ⟨k, hk, rfl⟩]
        exact (ih c).2 ⟨q, s', r, v, h1, h2⟩

/-- The three results of a lookup. -/
theorem find_none_iff (t : Node) (p : List Str) :
    find t p = .ok none ↔ ¬ Spec.Exists t p ∧ ¬ Blocked t p := by
  rw [← find_abort_iff]
  constructor
  · intro h
    refine ⟨fun ⟨n, hn⟩ => ?_, by rw [h]; simp⟩
    rw [(find_some_iff t p n).2 hn] at h; cases h
  · rintro ⟨h1, h2⟩
    cases h : find t p with
    | error e =>
      cases e with
      | abort => exact absurd h h2
      | ub => exact absurd h (find_ub t p)
    | ok o =>
      cases o with
      | none => rfl
      | some n => exact absurd ⟨n, (find_some_iff t p n).1 h⟩ h1

theorem find_cons_of {t : Node} {m : List (Str × Node)} (h : pairs t = .ok m) (s : Str) (ss : List Str) :
    find t (s :: ss) = match lookup s m with
      | none => .ok none
      | some c => find c ss := by
  conv => lhs; unfold find
  rw [h]
  rfl

theorem assign_below {p : List Str} : ∀ {t t' v : Node}, assign t p v = .ok t' → ∀ r,
    find t' (p ++ r) = find v r := by
  induction p with
  | nil => intro t t' v h r; cases h; rfl
  | cons s ss ih =>
    intro t t' v h r
    unfold assign at h
    simp only [bind_eq_ok] at h
    obtain ⟨m, hm, c, hc, h⟩ := h
    cases h
    rw [List.cons_append, find_cons_of (m := put s c m) rfl, lookup_put_self]
    exact ih hc r

theorem assign_other {p : List Str} : ∀ {t t' v : Node} {q : List Str}, assign t p v = .ok t' →
    ¬ p <+: q → ¬ q <+: p → find t' q = find t q := by
  induction p with
  | nil => intro t t' v q _ h1; exact absurd (List.nil_prefix) h1
  | cons s ss ih =>
    intro t t' v q h h1 h2
    cases q with
    | nil => exact absurd (List.nil_prefix) h2
    | cons s' qs =>
      unfold assign at h
      simp only [bind_eq_ok] at h
      obtain ⟨m, hm, c, hc, h⟩ := h
      cases h
      rw [find_cons_of (m := put s c m) rfl, find_cons_of hm]
      by_cases hs : s = s'
      · subst hs
        rw [List.cons_prefix_cons] at h1 h2
        have k1 : ¬ ss <+: qs := fun h => h1 ⟨rfl, h⟩
        have k2 : ¬ qs <+: ss := fun h => h2 ⟨rfl, h⟩
        rw [lookup_put_self]
        have := ih hc k1 k2
        show find c qs = _
        rw [this]
        cases hl : lookup s m with
        | some d => rfl
        | none =>
          cases qs with
          | nil => exact absurd (List.nil_prefix) k2
          | cons x qs => rfl
      · rw [lookup_put_ne hs]

theorem assign_ub (t : Node) (p : List Str) (v : Node) : assign t p v ≠ .error .ub := by
  induction p generalizing t with
  | nil => intro h; cases h
  | cons s ss ih =>
    unfold assign
    cases t <;> simp only [pairs, ok_bind, error_bind]
    · intro h
      cases hc : assign ((lookup s []).getD .null) ss v with
      | ok c => rw [hc] at h; cases h
      | error e => rw [hc] at h; cases h; exact ih _ hc
    · simp
    all_goals
      rename_i m
      intro h
      cases hc : assign ((lookup s _).getD .null) ss v with
      | ok c => rw [hc] at h; cases h
      | error e => rw [hc] at h; cases h; exact ih _ hc

theorem assign_ok_iff (t : Node) (p : List Str) (v : Node) :
    (∃ t', assign t p v = .ok t') ↔ ¬ Blocked t p := by
  rw [← find_abort_iff]
  induction p generalizing t with
  | nil => simp [assign, find]
  | cons s ss ih =>
    unfold assign
    cases hp : pairs t with
    | error e =>
      have : t = t := rfl
      cases t with
      | scalar w => simp [pairs, error_bind, find]
      | null => simp [pairs] at hp
      | seq l => simp [pairs] at hp
      | map m => simp [pairs] at hp
    | ok m =>
      rw [find_cons_of hp]
      simp only [ok_bind]
      cases hl : lookup s m with
      | none =>
        have := (ih .null)
        have h0 : find .null ss ≠ .error .abort := by
          cases ss with
          | nil => simp [find]
          | cons a b => simp [find, pairs, lookup, ok_bind]
        obtain ⟨c, hc⟩ := this.2 h0
        simp [hc, ok_bind]
      | some d =>
        show (∃ t', (assign d ss v >>= fun c => pure (Node.map (put s c m))) = .ok t') ↔
          ¬ find d ss = .error .abort
        rw [← ih d]
        constructor
        · rintro ⟨t', h⟩
          simp only [bind_eq_ok] at h
          obtain ⟨c, hc, _⟩ := h
          exact ⟨c, hc⟩
        · rintro ⟨c, hc⟩
          exact ⟨_, by rw [hc]; rfl⟩

/-! ## Splitting text -/

theorem getline_some {d : Char} {s p r : Str} (h : getline d s = some (p, r)) :
    s ≠ [] ∧ d ∉ p ∧ ((s = p ∧ r = []) ∨ s = p ++ d :: r) := by
  cases s with
  | nil => cases h
  | cons a s =>
    unfold getline at h
    simp only [Option.some.injEq, Prod.mk.injEq] at h
    obtain ⟨hp, hr⟩ := h
    refine ⟨by simp, ?_, ?_⟩
    · rw [← hp]
      intro hm
      have := List.mem_takeWhile_imp hm
      simp at this
    · have hd := List.takeWhile_append_dropWhile (p := (· != d)) (l := a :: s)
      rw [hp] at hd
      cases hw : (a :: s).dropWhile (· != d) with
      | nil =>
        left
        rw [hw] at hd hr
        exact ⟨by simpa using hd.symm, by simpa using hr.symm⟩
      | cons x xs =>
        right
        have hx : x = d := by
          have := List.head?_dropWhile_not (p := (· != d)) (l := a :: s)
          rw [hw] at this
          simpa using this
        rw [hw] at hd hr
        simp only [List.drop_one, List.tail_cons] at hr
        rw [← hd, hx, hr]

theorem getline_none {d : Char} {s : Str} (h : getline d s = none) : s = [] := by
  cases s with
  | nil => rfl
  | cons a s => cases h

theorem getline_delim {d : Char} {p r : Str} (hp : d ∉ p) : getline d (p ++ d :: r) = some (p, r) := by
  have h1 : (p ++ d :: r).takeWhile (· != d) = p := by
    rw [List.takeWhile_append_of_pos]
    · simp
    · intro x hx; simp; rintro rfl; exact hp hx
  have h2 : (p ++ d :: r).dropWhile (· != d) = d :: r := by
    rw [List.dropWhile_append_of_pos]
    · simp
    · intro x hx; simp; rintro rfl; exact hp hx
  have : p ++ d :: r ≠ [] := by simp
  unfold getline
  split
  · rename_i h; exact absurd h this
  · rw [h1, h2]; simp

theorem getline_last {d : Char} {p : Str} (hp : d ∉ p) (h0 : p ≠ []) : getline d p = some (p, []) := by
  have h1 : p.takeWhile (· != d) = p := by
    rw [List.takeWhile_eq_self_iff]
    intro x hx; simp; rintro rfl; exact hp hx
  have h2 : p.dropWhile (· != d) = [] := by
    rw [List.dropWhile_eq_nil_iff]
    intro x hx; simp; rintro rfl; exact hp hx
  unfold getline
  split
  · exact absurd rfl h0
  · rw [h1, h2]; simp

theorem piecesN_parts (d : Char) (n : Nat) (s : Str) (h : s.length ≤ n) :
    Parts d s (piecesN d n s) := by
  induction n generalizing s with
  | zero =>
    have : s = [] := List.length_eq_zero_iff.1 (by omega)
    subst this
    exact ⟨by simp [piecesN], .inl ⟨rfl, rfl⟩⟩
  | succ n ih =>
    unfold piecesN
    cases hg : getline d s with
    | none =>
      have := getline_none hg
      subst this
      exact ⟨by simp, .inl ⟨rfl, rfl⟩⟩
    | some pr =>
      obtain ⟨p, r⟩ := pr
      obtain ⟨h0, hp, hs⟩ := getline_some hg
      have hlen : r.length ≤ n := by
        rcases hs with ⟨_, rfl⟩ | rfl
        · simp
        · simp at h; omega
      obtain ⟨i1, i2⟩ := ih r hlen
      show Parts d s (p :: piecesN d n r)
      refine ⟨?_, ?_⟩
      · intro x hx
        rcases List.mem_cons.1 hx with rfl | hx
        · exact hp
        · exact i1 x hx
      · right
        rcases hs with ⟨rfl, rfl⟩ | rfl
        · right
          have : piecesN d n [] = [] := by cases n <;> rfl
          simp only [this]
          exact ⟨rfl, s, rfl, h0⟩
        · rcases i2 with ⟨rfl, i2⟩ | ⟨i2, i3⟩ | ⟨i3, y, i4, i5⟩
          · left
            simp only [i2]
            exact ⟨by simp, by simp [join]⟩
          · left
            refine ⟨by simp, ?_⟩
            cases hps : piecesN d n r with
            | nil => exact absurd hps i2
            | cons a b =>
              rw [hps] at i3
              show _ = (p ++ d :: join d (a :: b)) ++ [d]
              conv => lhs; rw [i3]
              simp
          · right
            cases hps : piecesN d n r with
            | nil => rw [hps] at i4; cases i4
            | cons a b =>
              rw [hps] at i3 i4
              refine ⟨?_, y, by rw [List.getLast?_cons_cons]; exact i4, i5⟩
              show _ = p ++ d :: join d (a :: b)
              rw [← i3]

theorem piecesN_of_parts (d : Char) (n : Nat) (s : Str) (p : List Str) (h : s.length ≤ n)
    (hp : Parts d s p) : piecesN d n s = p := by
  induction p generalizing n s with
  | nil =>
    obtain ⟨_, ⟨rfl, _⟩ | ⟨h, _⟩ | ⟨_, y, h, _⟩⟩ := hp
    · cases n <;> rfl
    · exact absurd rfl h
    · cases h
  | cons a p ih =>
    obtain ⟨h1, h2⟩ := hp
    have ha := h1 a (by simp)
    have hp' : ∀ x ∈ p, d ∉ x := fun x hx => h1 x (by simp [hx])
    rcases h2 with ⟨_, h2⟩ | ⟨_, h2⟩ | ⟨h2, y, h3, h4⟩
    · cases h2
    · -- a delimiter at the end
      cases p with
      | nil =>
        have hs : s = a ++ d :: [] := h2
        subst hs
        cases n with
        | zero => simp at h
        | succ n =>
          unfold piecesN
          rw [getline_delim ha]
          cases n <;> rfl
      | cons b p =>
        have hs : s = a ++ d :: (join d (b :: p) ++ [d]) := by rw [h2]; simp [join]
        subst hs
        cases n with
        | zero => simp at h
        | succ n =>
          unfold piecesN
          rw [getline_delim ha]
          show a :: piecesN d n _ = _
          rw [ih n _ (by simp at h ⊢; omega) ⟨hp', .inr (.inl ⟨by simp, rfl⟩)⟩]
    · cases p with
      | nil =>
        simp at h3
        subst h3
        have hs : s = a := h2
        subst hs
        cases n with
        | zero => exact absurd (List.length_eq_zero_iff.1 (by omega)) h4
        | succ n =>
          unfold piecesN
          rw [getline_last ha h4]
          cases n <;> rfl
      | cons b p =>
        have hs : s = a ++ d :: join d (b :: p) := h2
        subst hs
        cases n with
        | zero => simp at h
        | succ n =>
          unfold piecesN
          rw [getline_delim ha]
          show a :: piecesN d n _ = _
          rw [ih n _ (by simp at h ⊢; omega)
            ⟨hp', .inr (.inr ⟨rfl, y, by rw [List.getLast?_cons_cons] at h3; exact h3, h4⟩)⟩]

/-- Reading a text piece by piece gives its parts, and there is only one way to split it. -/
theorem pieces_iff (d : Char) (s : Str) (p : List Str) : pieces d s = p ↔ Parts d s p := by
  constructor
  · rintro rfl; exact piecesN_parts d _ s (Nat.le_refl _)
  · exact piecesN_of_parts d _ s p (Nat.le_refl _)

theorem keyValue_iff (kv k v : Str) : keyValue kv = .ok (k, v) ↔ IsPair kv k v := by
  unfold keyValue
  constructor
  · intro h
    split at h
    · cases h
    · rename_i k' r hk
      split at h
      · cases h
      · rename_i v' r' hv
        split at h
        · rename_i hr
          cases h
          have := getline_none hr
          subst this
          obtain ⟨_, h1, h2⟩ := getline_some hk
          obtain ⟨h3, h4, h5⟩ := getline_some hv
          rcases h2 with ⟨_, rfl⟩ | h2
          · exact absurd rfl h3
          · rcases h5 with ⟨rfl, _⟩ | h5
            · exact ⟨h1, h4, .inl ⟨h3, h2⟩⟩
            · exact ⟨h1, h4, .inr (by rw [h2, h5]; simp)⟩
        · cases h
  · rintro ⟨h1, h2, ⟨h3, rfl⟩ | rfl⟩
    · rw [getline_delim h1]
      simp only [getline_last h2 h3]
      rfl
    · rw [List.append_assoc, List.cons_append, getline_delim h1]
      simp only [getline_delim (r := []) h2]
      rfl

end Verif.Options
