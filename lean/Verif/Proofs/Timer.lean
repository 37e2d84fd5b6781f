import Verif.Spec.Timer
import Verif.Proofs.Basic
import Mathlib.Data.List.Nodup
import Mathlib.Data.List.Induction

/-! Helper lemmas about the time profiler. -/

namespace Verif.Timer

open Verif Spec

theorem ofLabel_append (x : String) (h : List Ev) (e : Ev) :
    ofLabel x (h ++ [e]) = if label e = x then ofLabel x h ++ [e] else ofLabel x h := by
  unfold ofLabel
  rw [List.filter_append]
  by_cases hx : label e = x <;> simp [hx]

theorem intervals_unique {x : String} {h : List Ev} {l : List (Int × Int)} {o : Option Int}
    (hh : Intervals x h l o) : ∀ {l' o'}, Intervals x h l' o' → l' = l ∧ o' = o := by
  induction hh with
  | none =>
    intro l' o' h'
    generalize hg : ([] : List Ev) = g at h'
    cases h' with
    | none => exact ⟨rfl, rfl⟩
    | start t hh => simp at hg
    | stop t hh => simp at hg
  | @start h l t hh ih =>
    intro l' o' h'
    generalize hg : h ++ [Ev.start x t] = g at h'
    cases h' with
    | none => simp at hg
    | @start h2 _ t2 hh2 =>
      obtain ⟨h1, h3⟩ := List.append_inj' hg rfl
      subst h1
      cases h3
      exact ⟨(ih hh2).1, rfl⟩
    | @stop h2 _ _ t2 hh2 =>
      obtain ⟨h1, h3⟩ := List.append_inj' hg rfl
      cases h3
  | @stop h l a t hh ih =>
    intro l' o' h'
    generalize hg : h ++ [Ev.stop x t] = g at h'
    cases h' with
    | none => simp at hg
    | @start h2 _ t2 hh2 =>
      obtain ⟨h1, h3⟩ := List.append_inj' hg rfl
      cases h3
    | @stop h2 l2 a2 t2 hh2 =>
      obtain ⟨h1, h3⟩ := List.append_inj' hg rfl
      subst h1
      cases h3
      obtain ⟨h4, h5⟩ := ih hh2
      cases h5
      subst h4
      exact ⟨rfl, rfl⟩

theorem intervals_start_inv {x : String} {h : List Ev} {l : List (Int × Int)} {o : Option Int} {t : Int}
    (hh : Intervals x (h ++ [.start x t]) l o) : Intervals x h l none := by
  generalize hg : h ++ [Ev.start x t] = g at hh
  cases hh with
  | none => simp at hg
  | @start h2 _ t2 hh2 =>
    obtain ⟨h1, h3⟩ := List.append_inj' hg rfl
    subst h1; exact hh2
  | @stop h2 l2 a2 t2 hh2 =>
    obtain ⟨h1, h3⟩ := List.append_inj' hg rfl
    cases h3

theorem intervals_stop_inv {x : String} {h : List Ev} {l : List (Int × Int)} {o : Option Int} {t : Int}
    (hh : Intervals x (h ++ [.stop x t]) l o) : ∃ l' a, Intervals x h l' (some a) := by
  generalize hg : h ++ [Ev.stop x t] = g at hh
  cases hh with
  | none => simp at hg
  | @start h2 _ t2 hh2 =>
    obtain ⟨h1, h3⟩ := List.append_inj' hg rfl
    cases h3
  | @stop h2 l2 a2 t2 hh2 =>
    obtain ⟨h1, h3⟩ := List.append_inj' hg rfl
    subst h1; exact ⟨_, _, hh2⟩

/-- The record at one position describes the calls for its label. -/
def Rec (h : List Ev) (p : Profiler) (i : Nat) (x : String) : Prop :=
  ∃ l o w, Intervals x (ofLabel x h) l o ∧ p.timers[i]? = some w ∧ w.running = o.isSome ∧
    w.total = total l ∧ (∀ a, o = some a → w.start = a) ∧ p.calls[i]? = some l.length ∧
    p.starts[i]? = some o.isSome

/-- The profiler describes the history `h`, with the labels `ns`. -/
structure Inv (ns : List String) (h : List Ev) (p : Profiler) : Prop where
  names : p.names = ns
  nodup : ns.Nodup
  index : ∀ x i, indexOf x p.indices = some i ↔ ns[i]? = some x
  lt : p.timers.length = ns.length
  lc : p.calls.length = ns.length
  ls : p.starts.length = ns.length
  recs : ∀ i x, ns[i]? = some x → Rec h p i x
  rest : ∀ x, x ∉ ns → ofLabel x h = []

theorem indexOf_append (x y : String) (k : Nat) : ∀ l : List (String × Nat), indexOf x l = none →
    ∀ z, indexOf z (l ++ [(x, k)]) = if z = x then some k else indexOf z l := by
  intro l
  induction l with
  | nil =>
    intro _ z
    by_cases h : z = x
    · subst h; simp [indexOf]
    · simp only [List.nil_append, indexOf, h, if_false]
      rw [if_neg (fun h' => h h'.symm)]
  | cons a l ih =>
    intro h z
    obtain ⟨n, i⟩ := a
    unfold indexOf at h
    by_cases hn : n = x
    · rw [if_pos hn] at h; cases h
    · rw [if_neg hn] at h
      rw [List.cons_append]
      unfold indexOf
      by_cases hz : n = z
      · rw [if_pos hz, if_pos hz, if_neg (by rintro rfl; exact hn hz)]
      · rw [if_neg hz, if_neg hz]; exact ih h z

theorem register_inv {ns : List String} {h : List Ev} {p : Profiler} (hi : Inv ns h p) (x : String) :
    Inv (if x ∈ ns then ns else ns ++ [x]) h (register x p) ∧
      ∃ i : Nat, (if x ∈ ns then ns else ns ++ [x])[i]? = some x := by
  unfold register
  cases hx : indexOf x p.indices with
  | some i =>
    have h1 := (hi.index x i).1 hx
    have hm : x ∈ ns := List.mem_of_getElem? h1
    rw [if_pos hm]
    exact ⟨hi, i, h1⟩
  | none =>
    have hm : x ∉ ns := by
      intro hm
      obtain ⟨i, hi'⟩ := List.getElem?_of_mem hm
      rw [(hi.index x i).2 hi'] at hx; cases hx
    rw [if_neg hm]
    refine ⟨⟨by simp [hi.names], ?_, ?_, by simp [hi.lt], by simp [hi.lc], by simp [hi.ls], ?_, ?_⟩,
      ns.length, by simp⟩
    · rw [List.nodup_append]
      refine ⟨hi.nodup, by simp, ?_⟩
      intro a ha b hb
      simp only [List.mem_singleton] at hb
      subst hb
      rintro rfl; exact hm ha
    · intro z i
      rw [indexOf_append x x _ _ hx z]
      by_cases hz : z = x
      · subst hz
        rw [if_pos rfl, hi.lt, List.getElem?_append]
        constructor
        · rintro h; cases h; simp
        · intro h
          split at h
          · exact absurd (List.mem_of_getElem? h) hm
          · rename_i hlt
            by_cases hc : i - ns.length = 0
            · congr 1; omega
            · rw [List.getElem?_eq_none (by simp; omega)] at h; cases h
      · rw [if_neg hz, hi.index, List.getElem?_append]
        split
        · rfl
        · rename_i hlt
          rw [List.getElem?_eq_none (by omega)]
          constructor
          · intro h; cases h
          · intro h
            by_cases hc : i - ns.length = 0
            · rw [hc] at h; simp at h; exact absurd h.symm hz
            · rw [List.getElem?_eq_none (by simp; omega)] at h; cases h
    · intro i z hz
      rw [List.getElem?_append] at hz
      split at hz
      · rename_i hlt
        obtain ⟨l, o, w, h1, h2, h3, h4, h5, h6, h7⟩ := hi.recs i z hz
        refine ⟨l, o, w, h1, ?_, h3, h4, h5, ?_, ?_⟩
        · rw [List.getElem?_append_left (by rw [hi.lt]; exact hlt)]; exact h2
        · rw [List.getElem?_append_left (by rw [hi.lc]; exact hlt)]; exact h6
        · rw [List.getElem?_append_left (by rw [hi.ls]; exact hlt)]; exact h7
      · rename_i hlt
        have hc : i = ns.length := by
          by_contra hc
          rw [List.getElem?_eq_none (by simp; omega)] at hz; cases hz
        subst hc
        simp at hz
        subst hz
        refine ⟨[], none, Watch.new, ?_, ?_, rfl, rfl, (fun a ha => by cases ha), ?_, ?_⟩
        · rw [hi.rest x hm]; exact .none
        · rw [← hi.lt]; simp
        · rw [← hi.lc]; simp
        · rw [← hi.ls]; simp
    · intro z hz
      exact hi.rest z (fun h => hz (List.mem_append_left _ h))

/-- Replacing one record. -/
theorem update_inv {ns : List String} {h : List Ev} {p : Profiler} (hi : Inv ns h p) {e : Ev} {i : Nat}
    (hx : ns[i]? = some (label e)) {l : List (Int × Int)} {o : Option Int} {w : Watch}
    (h1 : Intervals (label e) (ofLabel (label e) h ++ [e]) l o) (h2 : w.running = o.isSome)
    (h3 : w.total = total l) (h4 : ∀ a, o = some a → w.start = a) :
    Inv ns (h ++ [e]) ⟨p.timers.set i w, p.calls.set i l.length, p.starts.set i o.isSome, p.names,
      p.indices⟩ := by
  have hlt : i < ns.length := by
    by_contra hc
    rw [List.getElem?_eq_none (by omega)] at hx; cases hx
  refine ⟨hi.names, hi.nodup, hi.index, by simp [hi.lt], by simp [hi.lc], by simp [hi.ls], ?_, ?_⟩
  · intro j y hy
    by_cases hij : i = j
    · subst hij
      rw [hx] at hy
      cases hy
      refine ⟨l, o, w, ?_, ?_, h2, h3, h4, ?_, ?_⟩
      · rw [ofLabel_append, if_pos rfl]; exact h1
      · simp [hi.lt, hlt]
      · simp [hi.lc, hlt]
      · simp [hi.ls, hlt]
    · have hne : label e ≠ y := by
        rintro rfl
        have hj : j < ns.length := by
          by_contra hc
          rw [List.getElem?_eq_none (by omega)] at hy; cases hy
        rw [List.getElem?_eq_getElem hlt] at hx
        rw [List.getElem?_eq_getElem hj] at hy
        exact hij ((List.Nodup.getElem_inj_iff hi.nodup).1 (Option.some.inj (hx.trans hy.symm)))
      obtain ⟨l', o', w', a1, a2, a3, a4, a5, a6, a7⟩ := hi.recs j y hy
      refine ⟨l', o', w', ?_, ?_, a3, a4, a5, ?_, ?_⟩
      · rw [ofLabel_append, if_neg hne]; exact a1
      · simp only [List.getElem?_set_ne hij]; exact a2
      · simp only [List.getElem?_set_ne hij]; exact a6
      · simp only [List.getElem?_set_ne hij]; exact a7
  · intro y hy
    have hne : label e ≠ y := by
      rintro rfl; exact hy (List.mem_of_getElem? hx)
    rw [ofLabel_append, if_neg hne]
    exact hi.rest y hy

theorem labels_append (h : List Ev) (e : Ev) :
    labels (h ++ [e]) = if label e ∈ labels h then labels h else labels h ++ [label e] := by
  unfold labels
  rw [List.foldl_append]
  rfl

theorem wr_get {α : Type} {b : List α} {i : Nat} {v w : α} (h : b[i]? = some w) :
    wr b i v = .ok (b.set i v) := by
  have hlt : i < b.length := by
    by_contra hc
    rw [List.getElem?_eq_none (by omega)] at h; cases h
  exact wr_of_lt hlt

theorem total_append (l : List (Int × Int)) (a t : Int) : total (l ++ [(a, t)]) = total l + (t - a) := by
  unfold total
  simp

/-- The profiler describes exactly the calls made so far. -/
def Desc (h : List Ev) (p : Profiler) : Prop := Inv (labels h) h p

theorem step_spec {h : List Ev} {p : Profiler} (hi : Desc h p) (e : Ev) :
    (∃ p', step e p = .ok p' ∧ Desc (h ++ [e]) p') ∨
    (step e p = .error .abort ∧ ¬ ∃ l o, Intervals (label e) (ofLabel (label e) (h ++ [e])) l o) := by
  unfold Desc at hi
  cases e with
  | start x t =>
    obtain ⟨hr, i, hx⟩ := register_inv hi x
    show (∃ p', startKnown x t (register x p) = .ok p' ∧ _) ∨ (startKnown x t (register x p) = _ ∧ _)
    unfold Desc
    rw [show labels (h ++ [Ev.start x t]) = if x ∈ labels h then labels h else labels h ++ [x] from
      labels_append _ _]
    simp only [label]
    generalize register x p = q at *
    generalize (if x ∈ labels h then labels h else labels h ++ [x]) = ns at *
    obtain ⟨l, o, w, h1, h2, h3, h4, h5, h6, h7⟩ := hr.recs i x hx
    have hk : known x q = .ok i := by
      unfold known; rw [(hr.index x i).2 hx]
    unfold startKnown
    rw [hk, ok_bind, rd_eq_ok.2 h7, ok_bind]
    cases o with
    | some a =>
      right
      refine ⟨rfl, ?_⟩
      rintro ⟨l', o', hh⟩
      rw [ofLabel_append, if_pos (by rfl)] at hh
      have := (intervals_unique h1 (intervals_start_inv hh)).2
      cases this
    | none =>
      left
      rw [rd_eq_ok.2 h2]
      simp only [Option.isSome_none, Bool.not_false, require_true, ok_bind]
      rw [wr_get h2, ok_bind, wr_get h7, ok_bind]
      have hb : w.begin t = ⟨true, t, w.total⟩ := by
        unfold Watch.begin; rw [h3]; rfl
      refine ⟨_, rfl, ?_⟩
      have := update_inv hr (e := .start x t) hx (Intervals.start t h1) (w := w.begin t)
        (by rw [hb]; rfl) (by rw [hb]; exact h4) (by intro a ha; cases ha; rw [hb])
      have hc : q.calls.set i l.length = q.calls := by
        apply List.ext_getElem?
        intro j
        by_cases hij : i = j
        · subst hij
          rw [List.getElem?_set_self (by
            by_contra hc
            rw [List.getElem?_eq_none (by omega)] at h6; cases h6), h6]
        · rw [List.getElem?_set_ne hij]
      rw [hc] at this
      exact this
  | stop x t =>
    show (∃ p', stopLabel x t p = .ok p' ∧ _) ∨ (stopLabel x t p = _ ∧ _)
    unfold stopLabel
    simp only [label]
    cases hk : indexOf x p.indices with
    | none =>
      right
      have hk' : known x p = .error .abort := by unfold known; rw [hk]
      rw [hk']
      refine ⟨rfl, ?_⟩
      rintro ⟨l, o, hh⟩
      rw [ofLabel_append, if_pos (by rfl)] at hh
      obtain ⟨l', a, hh⟩ := intervals_stop_inv hh
      have hm : x ∉ labels h := by
        intro hm
        obtain ⟨i, hi'⟩ := List.getElem?_of_mem hm
        rw [(hi.index x i).2 hi'] at hk; cases hk
      rw [hi.rest x hm] at hh
      have := (intervals_unique .none hh).2
      cases this
    | some i =>
      have hx := (hi.index x i).1 hk
      have hk' : known x p = .ok i := by unfold known; rw [hk]
      obtain ⟨l, o, w, h1, h2, h3, h4, h5, h6, h7⟩ := hi.recs i x hx
      rw [hk', ok_bind, rd_eq_ok.2 h7, ok_bind]
      cases o with
      | none =>
        right
        refine ⟨rfl, ?_⟩
        rintro ⟨l', o', hh⟩
        rw [ofLabel_append, if_pos (by rfl)] at hh
        obtain ⟨l', a, hh⟩ := intervals_stop_inv hh
        have := (intervals_unique h1 hh).2
        cases this
      | some a =>
        left
        rw [rd_eq_ok.2 h2]
        simp only [Option.isSome_some, require_true, ok_bind]
        rw [wr_get h2, ok_bind, rd_eq_ok.2 h6, ok_bind, wr_get h6, ok_bind, wr_get h7, ok_bind]
        have hb : w.stop t = ⟨false, a, w.total + (t - a)⟩ := by
          unfold Watch.stop; rw [h3, h5 a rfl]; rfl
        refine ⟨_, rfl, ?_⟩
        unfold Desc
        rw [labels_append]
        rw [if_pos (show label (Ev.stop x t) ∈ labels h from List.mem_of_getElem? hx)]
        have := update_inv hi (e := .stop x t) hx (Intervals.stop t h1) (w := w.stop t)
          (by rw [hb]; rfl) (by rw [hb, total_append, ← h4]) (by intro a ha; cases ha)
        simpa using this

theorem new_desc : Desc [] new :=
  ⟨rfl, by simp [labels], by intro x i; simp [new, indexOf, labels], rfl, rfl, rfl,
    by intro i x hx; simp [labels] at hx, by intro x _; rfl⟩

/-- The calls for one label stay matched when later calls are dropped. -/
theorem intervals_prefix {x : String} {h : List Ev} {l : List (Int × Int)} {o : Option Int}
    (hh : Intervals x h l o) : ∀ h1 h2, h = h1 ++ h2 → ∃ l' o', Intervals x h1 l' o' := by
  induction hh with
  | none =>
    intro h1 h2 hg
    have : h1 = [] := by
      cases h1 with
      | nil => rfl
      | cons a b => simp at hg
    subst this
    exact ⟨_, _, .none⟩
  | @start h l t hh ih =>
    intro h1 h2 hg
    rcases List.eq_nil_or_concat h2 with rfl | ⟨h2', e, rfl⟩
    · rw [List.append_nil] at hg; subst hg; exact ⟨_, _, .start t hh⟩
    · rw [List.concat_eq_append, ← List.append_assoc] at hg
      exact ih h1 h2' (List.append_inj' hg rfl).1
  | @stop h l a t hh ih =>
    intro h1 h2 hg
    rcases List.eq_nil_or_concat h2 with rfl | ⟨h2', e, rfl⟩
    · rw [List.append_nil] at hg; subst hg; exact ⟨_, _, .stop t hh⟩
    · rw [List.concat_eq_append, ← List.append_assoc] at hg
      exact ih h1 h2' (List.append_inj' hg rfl).1

theorem wellMatched_prefix {h1 h2 : List Ev} (hw : WellMatched (h1 ++ h2)) : WellMatched h1 := by
  intro x
  obtain ⟨l, o, hh⟩ := hw x
  exact intervals_prefix hh (ofLabel x h1) (ofLabel x h2) (by unfold ofLabel; rw [List.filter_append])

theorem desc_wellMatched {h : List Ev} {p : Profiler} (hi : Desc h p) : WellMatched h := by
  intro x
  by_cases hm : x ∈ labels h
  · obtain ⟨i, hx⟩ := List.getElem?_of_mem hm
    obtain ⟨l, o, w, h1, _⟩ := hi.recs i x hx
    exact ⟨l, o, h1⟩
  · rw [hi.rest x hm]; exact ⟨_, _, .none⟩

theorem loopFrom_succ {σ : Type} (body : Nat → σ → Outcome σ) : ∀ (k i : Nat) (s : σ),
    loopFrom body i (k + 1) s = loopFrom body i k s >>= body (i + k) := by
  intro k
  induction k with
  | zero =>
    intro i s
    show loopFrom body i 1 s = body i s
    rw [show (1 : Nat) = 0 + 1 from rfl, loopFrom]
    cases body i s <;> rfl
  | succ k ih =>
    intro i s
    rw [loopFrom]
    conv => rhs; rw [loopFrom]
    cases body i s with
    | error e => rfl
    | ok t =>
      show loopFrom body (i + 1) (k + 1) t = loopFrom body (i + 1) k t >>= body (i + (k + 1))
      rw [ih (i + 1) t]
      congr 2; omega

theorem loop_succ {σ : Type} (body : Nat → σ → Outcome σ) (k : Nat) (s : σ) :
    loop (k + 1) body s = loop k body s >>= body k := by
  have := loopFrom_succ body k 0 s
  rw [Nat.zero_add] at this
  exact this

theorem run_append (h : List Ev) (e : Ev) (p : Profiler) :
    run (h ++ [e]) p = run h p >>= fun q => step e q := by
  unfold run
  rw [List.foldlM_append]
  congr 1
  funext q
  show (step e q >>= fun r => pure r) = _
  cases step e q <;> rfl

theorem run_spec (h : List Ev) : (∃ p, run h new = .ok p ∧ Desc h p) ∨
    (run h new = .error .abort ∧ ¬ WellMatched h) := by
  induction h using List.reverseRecOn with
  | nil => exact .inl ⟨new, rfl, new_desc⟩
  | append_singleton h e ih =>
    rw [run_append]
    rcases ih with ⟨p, hp, hd⟩ | ⟨hp, hw⟩
    · rw [hp, ok_bind]
      rcases step_spec hd e with h1 | ⟨h1, h2⟩
      · exact .inl h1
      · exact .inr ⟨h1, fun hw => h2 (hw _)⟩
    · rw [hp]
      exact .inr ⟨rfl, fun h' => hw (wellMatched_prefix h')⟩

end Verif.Timer
