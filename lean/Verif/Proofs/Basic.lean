import Verif.Model.Basic
import Mathlib.Data.List.Basic
import Mathlib.Logic.Function.Basic

/-! Helper lemmas about loops and buffers. -/

namespace Verif

theorem loopFrom_spec {σ : Type _} (body : Nat → σ → Outcome σ) (spec : Nat → σ) :
    ∀ (k i : Nat), (∀ j, i ≤ j → j < i + k → body j (spec j) = .ok (spec (j + 1))) →
      loopFrom body i k (spec i) = .ok (spec (i + k)) := by
  intro k
  induction k with
  | zero => intro i _; rfl
  | succ k ih =>
    intro i h
    rw [loopFrom, h i (Nat.le_refl i) (by omega)]
    show loopFrom body (i + 1) k (spec (i + 1)) = _
    rw [ih (i + 1) (fun j h1 h2 => h j (by omega) (by omega))]
    congr 2; omega

/-- The loop rule: if `spec i` describes the state before iteration `i`, the loop ends in
`spec n`. -/
theorem loop_spec {σ : Type _} {n : Nat} {body : Nat → σ → Outcome σ} (spec : Nat → σ) {s : σ}
    (h0 : s = spec 0) (h : ∀ i, i < n → body i (spec i) = .ok (spec (i + 1))) :
    loop n body s = .ok (spec n) := by
  subst h0
  have := loopFrom_spec body spec n 0 (fun j _ h2 => h j (by omega))
  simpa [loop] using this

theorem loopFrom_inv {σ : Type _} (body : Nat → σ → Outcome σ) (Inv : Nat → σ → Prop) :
    ∀ (k i : Nat) (s t : σ), Inv i s →
      (∀ j u v, i ≤ j → j < i + k → Inv j u → body j u = .ok v → Inv (j + 1) v) →
      loopFrom body i k s = .ok t → Inv (i + k) t := by
  intro k
  induction k with
  | zero => intro i s t hi _ h; cases h; exact hi
  | succ k ih =>
    intro i s t hi hstep h
    rw [loopFrom] at h
    cases hb : body i s with
    | error e => rw [hb] at h; cases h
    | ok s' =>
      rw [hb] at h
      have h1 := hstep i s s' (Nat.le_refl _) (by omega) hi hb
      have := ih (i + 1) s' t h1 (fun j u v a b => hstep j u v (by omega) (by omega)) h
      rwa [show i + (k + 1) = i + 1 + k by omega]

/-- Partial-correctness loop rule. -/
theorem loop_inv {σ : Type _} {n : Nat} {body : Nat → σ → Outcome σ} (Inv : Nat → σ → Prop)
    {s t : σ} (h0 : Inv 0 s)
    (hstep : ∀ j u v, j < n → Inv j u → body j u = .ok v → Inv (j + 1) v)
    (h : loop n body s = .ok t) : Inv n t := by
  have := loopFrom_inv body Inv n 0 s t h0 (fun j u v _ b => hstep j u v (by omega)) h
  simpa using this

/-- Total-correctness loop rule with a relational invariant. -/
theorem loopFrom_total {σ : Type _} (body : Nat → σ → Outcome σ) (Inv : Nat → σ → Prop) :
    ∀ (k i : Nat) (s : σ), Inv i s →
      (∀ j u, i ≤ j → j < i + k → Inv j u → ∃ v, body j u = .ok v ∧ Inv (j + 1) v) →
      ∃ t, loopFrom body i k s = .ok t ∧ Inv (i + k) t := by
  intro k
  induction k with
  | zero => intro i s hi _; exact ⟨s, rfl, hi⟩
  | succ k ih =>
    intro i s hi hstep
    obtain ⟨v, hv, hI⟩ := hstep i s (Nat.le_refl _) (by omega) hi
    obtain ⟨t, ht, hT⟩ := ih (i + 1) v hI (fun j u a b => hstep j u (by omega) (by omega))
    refine ⟨t, ?_, ?_⟩
    · rw [loopFrom, hv]; exact ht
    · rwa [show i + (k + 1) = i + 1 + k by omega]

theorem loop_total {σ : Type _} {n : Nat} {body : Nat → σ → Outcome σ} (Inv : Nat → σ → Prop)
    {s : σ} (h0 : Inv 0 s)
    (hstep : ∀ j u, j < n → Inv j u → ∃ v, body j u = .ok v ∧ Inv (j + 1) v) :
    ∃ t, loop n body s = .ok t ∧ Inv n t := by
  have := loopFrom_total body Inv n 0 s h0 (fun j u _ b => hstep j u (by omega))
  simpa [loop] using this

/-- A table: the buffer of length `n` whose `i`-th entry is `f i`. -/
def tab {α : Type _} (n : Nat) (f : Nat → α) : List α := (List.range n).map f

@[simp] theorem length_tab {α : Type _} (n : Nat) (f : Nat → α) : (tab n f).length = n := by
  simp [tab]

theorem getElem?_tab {α : Type _} (n : Nat) (f : Nat → α) (i : Nat) :
    (tab n f)[i]? = if i < n then some (f i) else none := by
  unfold tab
  by_cases h : i < n
  · simp [h]
  · simp [h]

theorem rd_tab {α : Type _} {n : Nat} {f : Nat → α} {i : Nat} (h : i < n) :
    rd (tab n f) i = .ok (f i) := by
  unfold rd; rw [getElem?_tab, if_pos h]

theorem wr_tab {α : Type _} {n : Nat} {f : Nat → α} {i : Nat} {v : α} (h : i < n) :
    wr (tab n f) i v = .ok (tab n (Function.update f i v)) := by
  unfold wr
  simp only [length_tab, h, if_true]
  congr 1
  apply List.ext_getElem?
  intro j
  rw [List.getElem?_set, getElem?_tab, getElem?_tab]
  by_cases hj : i = j
  · subst hj; simp [h]
  · simp [hj, Function.update_of_ne (Ne.symm hj)]

theorem tab_congr {α : Type _} {n : Nat} {f g : Nat → α} (h : ∀ i, i < n → f i = g i) :
    tab n f = tab n g := by
  unfold tab
  apply List.map_congr_left
  intro i hi
  exact h i (by simpa using hi)

theorem tab_getD {α : Type _} (b : List α) (d : α) : tab b.length (fun i => b[i]?.getD d) = b := by
  apply List.ext_getElem?
  intro i
  rw [getElem?_tab]
  by_cases h : i < b.length
  · simp [h]
  · simp [h]

theorem rd_of_lt {α : Type _} {b : List α} {i : Nat} (h : i < b.length) : rd b i = .ok b[i] := by
  simp [rd, h]

theorem wr_of_lt {α : Type _} {b : List α} {i : Nat} {v : α} (h : i < b.length) :
    wr b i v = .ok (b.set i v) := by
  simp [wr, h]

theorem rd_eq_ok {α : Type _} {b : List α} {i : Nat} {v : α} : rd b i = .ok v ↔ b[i]? = some v := by
  unfold rd
  cases h : b[i]? <;> simp

@[simp] theorem require_true : require true = .ok () := rfl
@[simp] theorem require_false : require false = .error .abort := rfl

theorem require_eq_ok {c : Bool} : require c = .ok () ↔ c = true := by
  cases c <;> simp [require]

@[simp] theorem ok_bind {α β : Type _} (a : α) (f : α → Outcome β) :
    ((Except.ok a : Outcome α) >>= f) = f a := rfl

@[simp] theorem error_bind {α β : Type _} (e : Fault) (f : α → Outcome β) :
    ((Except.error e : Outcome α) >>= f) = .error e := rfl

theorem bind_eq_ok {α β : Type _} {x : Outcome α} {f : α → Outcome β} {b : β} :
    (x >>= f) = .ok b ↔ ∃ a, x = .ok a ∧ f a = .ok b := by
  cases x with
  | error e => simp
  | ok a => simp

/-- A separator that occurs in neither prefix splits uniquely. -/
theorem list_split_unique {α : Type} {u : α} : ∀ {a b x y : List α}, u ∉ a → u ∉ b →
    a ++ u :: x = b ++ u :: y → a = b ∧ x = y
  | [], [], _, _, _, _, h => by simpa using h
  | [], b :: bs, _, _, _, hb, h => by
    simp only [List.nil_append, List.cons_append, List.cons.injEq] at h
    exact absurd h.1 (fun e => hb (by simp [e]))
  | a :: as, [], _, _, ha, _, h => by
    simp only [List.nil_append, List.cons_append, List.cons.injEq] at h
    exact absurd h.1 (fun e => ha (by simp [e]))
  | a :: as, b :: bs, x, y, ha, hb, h => by
    simp only [List.cons_append, List.cons.injEq] at h
    obtain ⟨h1, h2⟩ := list_split_unique (fun e => ha (by simp [e])) (fun e => hb (by simp [e])) h.2
    exact ⟨by rw [h.1, h1], h2⟩

end Verif
