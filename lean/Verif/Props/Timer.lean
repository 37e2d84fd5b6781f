import Verif.Proofs.Timer

/-!
# C54: the time profiler accumulates matched intervals only

`Intervals x (ofLabel x h) l o` says that the calls for label `x` in the history `h` alternate between
start and stop, that `l` are the completed intervals and `o` the beginning of an open one.
-/

namespace Verif.Timer

open Verif Spec

/-- **C54**: a history runs through exactly if the calls of every label alternate, beginning with a start;
otherwise the program aborts. -/
theorem accepted_iff (h : List Ev) :
    ((∃ p, run h new = .ok p) ↔ WellMatched h) ∧ (¬ WellMatched h → run h new = .error .abort) := by
  rcases run_spec h with ⟨p, hp, hd⟩ | ⟨hp, hw⟩
  · exact ⟨⟨fun _ => desc_wellMatched hd, fun _ => ⟨p, hp⟩⟩, fun hn => absurd (desc_wellMatched hd) hn⟩
  · refine ⟨⟨?_, fun h' => absurd h' hw⟩, fun _ => hp⟩
    rintro ⟨p, h'⟩
    rw [hp] at h'; cases h'

theorem run_desc {h : List Ev} {p : Profiler} (hr : run h new = .ok p) : Desc h p := by
  rcases run_spec h with ⟨q, hq, hd⟩ | ⟨hp, hw⟩
  · rw [hr] at hq; cases hq; exact hd
  · rw [hr] at hp; cases hp

theorem intervals_nonempty {x : String} {h : List Ev} {l : List (Int × Int)}
    (hh : Intervals x h l none) (hn : h ≠ []) : 0 < l.length := by
  generalize hg : (none : Option Int) = o at hh
  cases hh with
  | none => exact absurd rfl hn
  | start t hh => cases hg
  | stop t hh => simp

theorem mem_labels (h : List Ev) (x : String) : x ∈ labels h ↔ ∃ e ∈ h, label e = x := by
  induction h using List.reverseRecOn with
  | nil => simp [labels]
  | append_singleton h e ih =>
    rw [labels_append]
    by_cases hm : label e ∈ labels h
    · rw [if_pos hm, ih]
      constructor
      · rintro ⟨e', h1, h2⟩; exact ⟨e', by simp [h1], h2⟩
      · rintro ⟨e', h1, h2⟩
        rw [List.mem_append] at h1
        rcases h1 with h1 | h1
        · exact ⟨e', h1, h2⟩
        · simp only [List.mem_singleton] at h1
          subst h1; subst h2
          exact ih.1 hm |> fun h => h
    · rw [if_neg hm, List.mem_append, ih]
      constructor
      · rintro (⟨e', h1, h2⟩ | h1)
        · exact ⟨e', by simp [h1], h2⟩
        · simp only [List.mem_singleton] at h1
          exact ⟨e, by simp, h1.symm⟩
      · rintro ⟨e', h1, h2⟩
        rw [List.mem_append] at h1
        rcases h1 with h1 | h1
        · exact .inl ⟨e', h1, h2⟩
        · simp only [List.mem_singleton] at h1
          subst h1; exact .inr (by simp [h2])

/-- **C54**: when every interval is closed, the report has one row for each label used, in order of first
use, with the sum of the label's intervals and their number, which is not zero. -/
theorem report_spec {h : List Ev} {p : Profiler} (hr : run h new = .ok p) (hs : AllStopped h) (now : Int) :
    ∃ rows, report 1 now p = .ok rows ∧ rows.map Prod.fst = labels h ∧
      (rows.map Prod.fst).Nodup ∧ (∀ x, x ∈ rows.map Prod.fst ↔ ∃ e ∈ h, label e = x) ∧
      ∀ r ∈ rows, ∃ l, Intervals r.1 (ofLabel r.1 h) l none ∧ r.2.1 = total l ∧ r.2.2 = l.length ∧
        0 < r.2.2 := by
  have hd := run_desc hr
  unfold Desc at hd
  have hst : ∀ (i : Nat) x, (labels h)[i]? = some x → ∃ l, ∃ w : Watch, Intervals x (ofLabel x h) l none ∧
      p.timers[i]? = some w ∧ w.running = false ∧ w.total = total l ∧ p.calls[i]? = some l.length ∧
      p.starts[i]? = some false := by
    intro i x hx
    obtain ⟨l, o, w, h1, h2, h3, h4, h5, h6, h7⟩ := hd.recs i x hx
    obtain ⟨l', hl'⟩ := hs x
    obtain ⟨rfl, rfl⟩ := intervals_unique h1 hl'
    exact ⟨_, w, h1, h2, h3, h4, h6, h7⟩
  have hx : ∀ i, i < p.timers.length → ∃ x, (labels h)[i]? = some x := by
    intro i hi
    rw [hd.lt] at hi
    exact ⟨_, List.getElem?_eq_getElem hi⟩
  have e1 : loop p.timers.length (fun k (_ : Unit) => do
      let s ← rd p.starts k
      require (!s)) () = .ok () := by
    refine loop_spec (fun _ => ()) rfl fun i hi => ?_
    obtain ⟨x, hx⟩ := hx i hi
    obtain ⟨l, w, _, _, _, _, _, h6⟩ := hst i x hx
    rw [rd_eq_ok.2 h6]; rfl
  obtain ⟨rows, e2, e3, e4⟩ := loop_total (n := p.timers.length) (body := fun k rows => do
      let w ← rd p.timers k
      let n ← rd p.names k
      let c ← rd p.calls k
      .ok (rows ++ [(n, w.realTime now, c)])) (s := ([] : List (String × Int × Nat)))
    (fun k rows => rows.map Prod.fst = (labels h).take k ∧
      ∀ r ∈ rows, ∃ l, Intervals r.1 (ofLabel r.1 h) l none ∧ r.2.1 = total l ∧ r.2.2 = l.length ∧
        0 < r.2.2)
    ⟨rfl, by simp⟩ (by
      rintro k rows hk ⟨i1, i2⟩
      obtain ⟨x, hx⟩ := hx k hk
      obtain ⟨l, w, h1, h2, h3, h4, h5, h6⟩ := hst k x hx
      refine ⟨rows ++ [(x, w.realTime now, l.length)], ?_, ?_, ?_⟩
      · rw [rd_eq_ok.2 h2, rd_eq_ok.2 (show p.names[k]? = some x by rw [hd.names]; exact hx),
          rd_eq_ok.2 h5]; rfl
      · rw [List.map_append, i1, List.take_add_one, hx]; rfl
      · intro r hr
        rw [List.mem_append] at hr
        rcases hr with hr | hr
        · exact i2 r hr
        · simp only [List.mem_singleton] at hr
          subst hr
          refine ⟨l, h1, ?_, rfl, intervals_nonempty h1 ?_⟩
          · show w.realTime now = _
            unfold Watch.realTime; rw [h3]; exact h4
          · obtain ⟨e, he, hl⟩ := (mem_labels h x).1 (List.mem_of_getElem? hx)
            exact List.ne_nil_of_mem (a := e) (by unfold ofLabel; simp [he, hl]))
  refine ⟨rows, ?_, ?_, ?_, ?_, e4⟩
  · unfold report
    rw [e1]
    exact e2
  · rw [e3, hd.lt, List.take_length]
  · rw [e3, hd.lt, List.take_length]; exact hd.nodup
  · intro x
    rw [e3, hd.lt, List.take_length]; exact mem_labels h x

/-- **C54**: a report while some interval is open aborts. -/
theorem report_running_aborts {h : List Ev} {p : Profiler} (hr : run h new = .ok p)
    (hs : ¬ AllStopped h) (n : Nat) (now : Int) : report n now p = .error .abort := by
  have hd := run_desc hr
  unfold Desc at hd
  have hno : ∀ k, k ≤ p.timers.length → (loop k (fun k (_ : Unit) => do
      let s ← rd p.starts k
      require (!s)) () = .ok () ∧ ∀ i x, i < k → (labels h)[i]? = some x →
        ∃ l, Intervals x (ofLabel x h) l none) ∨ loop k (fun k (_ : Unit) => do
      let s ← rd p.starts k
      require (!s)) () = .error .abort := by
    intro k
    induction k with
    | zero => intro _; exact .inl ⟨rfl, fun i x hi => by omega⟩
    | succ k ih =>
      intro hk
      rw [loop_succ]
      rcases ih (by omega) with ⟨h1, h2⟩ | h1
      · rw [h1, ok_bind]
        have hkl : k < (labels h).length := by rw [← hd.lt]; omega
        obtain ⟨l, o, w, a1, a2, a3, a4, a5, a6, a7⟩ :=
          hd.recs k _ (List.getElem?_eq_getElem hkl)
        rw [rd_eq_ok.2 a7, ok_bind]
        cases o with
        | none =>
          refine .inl ⟨rfl, ?_⟩
          intro i x hi hx
          by_cases hik : i = k
          · subst hik
            rw [List.getElem?_eq_getElem hkl] at hx
            cases hx
            exact ⟨l, a1⟩
          · exact h2 i x (by omega) hx
        | some a => exact .inr rfl
      · rw [h1]; exact .inr rfl
  unfold report
  rcases hno _ (Nat.le_refl _) with ⟨_, h2⟩ | h1
  · exfalso
    apply hs
    intro x
    by_cases hm : x ∈ labels h
    · obtain ⟨i, hx⟩ := List.getElem?_of_mem hm
      refine h2 i x ?_ hx
      by_contra hc
      rw [List.getElem?_eq_none (by rw [← hd.lt]; omega)] at hx; cases hx
    · rw [hd.rest x hm]; exact ⟨_, .none⟩
  · rw [h1]; rfl

/-- Finding: with more than one process the report never succeeds. -/
theorem report_parallel_aborts {h : List Ev} {p : Profiler} (hr : run h new = .ok p) {n : Nat}
    (hn : n ≠ 1) (now : Int) : report n now p = .error .abort := by
  by_cases hs : AllStopped h
  · have hd := run_desc hr
    have e1 : loop p.timers.length (fun k (_ : Unit) => do
        let s ← rd p.starts k
        require (!s)) () = .ok () := by
      refine loop_spec (fun _ => ()) rfl fun i hi => ?_
      rw [hd.lt] at hi
      obtain ⟨l, o, w, h1, h2, h3, h4, h5, h6, h7⟩ := hd.recs i _ (List.getElem?_eq_getElem hi)
      obtain ⟨l', hl'⟩ := hs (labels h)[i]
      obtain ⟨rfl, rfl⟩ := intervals_unique h1 hl'
      rw [rd_eq_ok.2 h7]; rfl
    unfold report
    rw [e1, ok_bind, show decide (n = 1) = false by simp [hn]]; rfl
  · exact report_running_aborts hr hs n now

/-! Non-vacuity: two labels with nested and repeated intervals. -/

/-- A history with three intervals of two labels. -/
def demo : List Ev :=
  [.start "solve" 0, .start "assemble" 2, .stop "assemble" 5, .stop "solve" 11, .start "solve" 20,
    .stop "solve" 21]

example : (run demo new >>= report 1 99) = .ok [("solve", 12, 2), ("assemble", 3, 1)] := by
  decide +kernel

example : AllStopped demo := by
  have key : ∀ x, x ≠ "solve" → x ≠ "assemble" → ofLabel x demo = [] := by
    intro x h1 h2
    unfold ofLabel demo
    simp [label, h1.symm, h2.symm]
  intro x
  by_cases h1 : x = "solve"
  · subst h1
    exact ⟨_, .stop 21 (.start 20 (.stop 11 (.start 0 .none)))⟩
  · by_cases h2 : x = "assemble"
    · subst h2
      exact ⟨_, .stop 5 (.start 2 .none)⟩
    · rw [key x h1 h2]; exact ⟨_, .none⟩

example : run (demo ++ [.stop "solve" 30]) new = .error .abort := by decide +kernel

end Verif.Timer
