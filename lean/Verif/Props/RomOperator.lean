import Verif.Proofs.RomOperator

/-! # C52: ownership of the ROM operator -/

namespace Verif.RomOperator

open Verif Verif.RomOperator.Spec

variable {α : Type}

theorem create_good (d g : Bool) (z : α) : Good (create d g z) z := by
  refine ⟨⟨0, rfl, rfl⟩, ?_, ?_, ?_, ?_, ?_, ?_⟩
  · intro m hm; cases hm
  · intro m hm; cases hm
  · intro m hm; cases hm
  · intro m hm; cases hm
  · intro q hq
    have hq1 : 1 ≤ q := hq
    have : q ≠ 0 := by omega
    show (if q = 0 then some (Obj.block z) else none) = none
    rw [if_neg this]
  · intro h; cases h

theorem create_tight (g : Bool) (z : α) : Tight (create false g z) := by
  refine ⟨rfl, rfl, ?_⟩
  intro q o hq
  right; left
  have hq' : (if q = 0 then some (Obj.block z) else none) = some o := hq
  by_cases h0 : q = 0
  · rw [h0]; rfl
  · rw [if_neg h0] at hq'; cases hq'

theorem destroy_ok {h : Handler α} {a : α} (g : Good h a) : ∃ x, destroy h = .ok x ∧
    ∀ q o, x.obj q = some o → h.heap.obj q = some o ∧ h.romMat ≠ some q ∧ h.mono ≠ some q := by
  obtain ⟨b, hb, gb⟩ := g.romMat
  have e1 := free_ok (x := h.heap) (p := h.romMat) fun m hm => by
    rw [hb] at hm; cases hm; rw [gb]; simp
  have e2 := free_ok (x := drop h.heap h.romMat) (p := h.mono) fun m hm => by
    rw [drop_live (g.mono m hm)]
    · simp
    · intro k hk; rw [hb] at hk; cases hk; rw [gb]; simp
  have e3 := free_ok (x := drop (drop h.heap h.romMat) h.mono) (p := h.hypre) fun m hm => by
    obtain ⟨k, hk⟩ := g.hypre m hm
    have h1 : h.romMat ≠ some m := by intro hc; rw [hb] at hc; cases hc; rw [gb] at hk; cases hk
    have h2 : h.mono ≠ some m := by intro hc; rw [g.mono m hc] at hk; cases hk
    rw [drop_obj h2, drop_obj h1, hk]; simp
  have e4 := free_ok (x := drop (drop (drop h.heap h.romMat) h.mono) h.hypre) (p := h.mumps)
    fun m hm => by
    obtain ⟨k, hk⟩ := g.mumps m hm
    have h1 : h.romMat ≠ some m := by intro hc; rw [hb] at hc; cases hc; rw [gb] at hk; cases hk
    have h2 : h.mono ≠ some m := by intro hc; rw [g.mono m hc] at hk; cases hk
    have h3 : h.hypre ≠ some m := by
      intro hc; obtain ⟨k', hk'⟩ := g.hypre m hc; rw [hk'] at hk; cases hk
    rw [drop_obj h3, drop_obj h2, drop_obj h1, hk]; simp
  have e5 := free_ok (x := drop (drop (drop (drop h.heap h.romMat) h.mono) h.hypre) h.mumps) (p := h.sol)
    fun m hm => by
    have hk := g.sol m hm
    have h1 : h.romMat ≠ some m := by intro hc; rw [hb] at hc; cases hc; rw [gb] at hk; cases hk
    have h2 : h.mono ≠ some m := by intro hc; rw [g.mono m hc] at hk; cases hk
    have h3 : h.hypre ≠ some m := by
      intro hc; obtain ⟨k', hk'⟩ := g.hypre m hc; rw [hk'] at hk; cases hk
    have h4 : h.mumps ≠ some m := by
      intro hc; obtain ⟨k', hk'⟩ := g.mumps m hc; rw [hk'] at hk; cases hk
    rw [drop_obj h4, drop_obj h3, drop_obj h2, drop_obj h1, hk]; simp
  refine ⟨_, by unfold destroy; rw [e1]; simp only [ok_bind, e2, e3, e4, e5]; rfl, ?_⟩
  intro q o hq
  obtain ⟨h5, -⟩ := drop_some hq
  obtain ⟨h4, -⟩ := drop_some h5
  obtain ⟨h3, -⟩ := drop_some h4
  obtain ⟨h2, k2⟩ := drop_some h3
  obtain ⟨h1, k1⟩ := drop_some h2
  exact ⟨h1, k1, k2⟩

/-- A load with a monolithic copy present frees the copy twice. -/
theorem load_ub {h : Handler α} {a : α} (g : Good h a) (hg : h.global = true)
    (hm : ∃ m, h.mono = some m) (b : α) : load h b = .error .ub := by
  obtain ⟨m, hm⟩ := hm
  obtain ⟨c, hc, gc⟩ := g.romMat
  have gm := g.mono m hm
  have hne : h.romMat ≠ some m := by intro hx; rw [hc] at hx; cases hx; rw [gc] at gm; cases gm
  have e1 := free_ok (x := h.heap) (p := h.romMat) fun k hk => by
    rw [hc] at hk; cases hk; rw [gc]; simp
  have m1 : (drop h.heap h.romMat).obj m = some (.mono a) := by rw [drop_obj hne]; exact gm
  have f1 := drop_fresh g.fresh (p := h.romMat)
  have e2 := free_ok (x := drop h.heap h.romMat) (p := h.mono) fun k hk => by
    rw [hm] at hk; cases hk; rw [m1]; simp
  have f2 := drop_fresh f1 (p := h.mono)
  have hlt : m < (drop (drop h.heap h.romMat) h.mono).next := by
    rw [drop_next]; exact lt_next f1 m1
  have dead : ((drop (drop h.heap h.romMat) h.mono).alloc (.block b)).obj m = none := by
    rw [alloc_obj (by omega), hm]; exact drop_self rfl
  unfold load
  simp only [hg, require_true, ok_bind, e1, e2]
  unfold setRomMat replaceMat
  simp only [ne_eq, not_true_eq_false, if_false, ok_bind, hm]
  rw [free_dead (by rw [← hm]; exact dead)]
  rfl

theorem run_inv {a : α} {cs : List (Call α)} : ∀ {h : Handler α}, Good h a → ∀ {h' : Handler α} {out},
    run h cs = .ok (h', out) → ∃ b, Good h' b ∧ h'.direct = h.direct ∧ h'.global = h.global ∧
      ((∃ m, h'.mono = some m) ↔ (∃ m, h.mono = some m) ∨ ∃ c ∈ cs, Copies c) ∧
      (Clean h a → (h.direct = true → ∀ c ∈ cs, ¬ Detaches c) → out = expected a cs) ∧
      (h.direct = false → Tight h → Tight h') := by
  induction cs generalizing a with
  | nil =>
    intro h g h' out e
    cases e
    exact ⟨a, g, rfl, rfl, by simp, fun _ _ => rfl, fun _ t => t⟩
  | cons c cs ih =>
    intro h g h' out e
    unfold run at e
    simp only [bind_eq_ok] at e
    obtain ⟨⟨h1, o1⟩, e1, ⟨h2, o2⟩, e2, e⟩ := e
    cases e
    have hl : ∀ b, c = .load b → h.mono = none := by
      rintro b rfl
      cases hm : h.mono with
      | none => rfl
      | some m =>
        have e1' : (load h b >>= fun h => .ok (h, [])) = Except.ok (h1, o1) := e1
        cases hg : h.global with
        | true => rw [load_ub g hg ⟨m, hm⟩ b] at e1'; cases e1'
        | false => unfold load at e1'; rw [hg] at e1'; cases e1'
    rcases step_ok g c hl with e' | ⟨h3, o3, e3, s⟩
    · rw [e'] at e1; cases e1
    · rw [e3] at e1; cases e1
      obtain ⟨b, k1, k2, k3, k4, k5, k6⟩ := ih s.good e2
      refine ⟨b, k1, k2.trans s.direct, k3.trans s.global, ?_, ?_, ?_⟩
      · rw [k4, s.mono]
        simp only [List.mem_cons, exists_eq_or_imp]
        exact or_assoc
      · intro cl hd
        obtain ⟨c1, c2⟩ := s.clean cl fun h => hd h c (by simp)
        rw [expected_cons, ← c2]
        show _ ++ o2 = _
        rw [k5 c1 fun h c' hc' => hd (by rw [← s.direct]; exact h) c' (by simp [hc'])]
      · intro hd t
        exact k6 (by rw [s.direct]; exact hd) (s.tight hd t)

/-- **C52**, the violation: in every history that gets so far, loading an operator from a file frees a
matrix twice exactly when an operator was set, projected, loaded or written as a system before. -/
theorem load_double_free_iff {d : Bool} {z : α} {cs : List (Call α)} {h : Handler α}
    {out : List (Option α)} (hr : run (create d true z) cs = .ok (h, out)) (b : α) :
    load h b = .error .ub ↔ ∃ c ∈ cs, Copies c := by
  obtain ⟨a, g, _, hg, hm, _⟩ := run_inv (create_good d true z) hr
  have hm' : (∃ m, h.mono = some m) ↔ ∃ c ∈ cs, Copies c := by
    rw [hm]
    simp [create]
  rw [← hm']
  constructor
  · intro hl
    by_contra hc
    have hn : h.mono = none := by
      cases hx : h.mono with
      | none => rfl
      | some m => exact absurd ⟨m, hx⟩ hc
    have hs : step h (.load b) = .error .ub := by
      show (load h b >>= _) = _
      rw [hl]; rfl
    rcases step_ok g (.load b) fun _ _ => hn with e | ⟨_, _, e, _⟩ <;> rw [hs] at e <;> cases e
  · intro hx
    exact load_ub g hg hx b

/-- **C52**, the part that holds: a history in which operators are loaded from a file only while the
handler has none has no double free and no use of a freed object, and the handler can be destroyed
after it.  Missing: loading again (`load_double_free_iff`). -/
theorem operator_safe_partial (d g : Bool) (z : α) (cs : List (Call α)) (hl : LoadsFirst cs) :
    run (create d g z) cs = .error .abort ∨
      ∃ h out x, run (create d g z) cs = .ok (h, out) ∧ destroy h = .ok x := by
  have key : ∀ (cs : List (Call α)) (h : Handler α) (a : α), Good h a → LoadsFirst cs →
      ((∃ m, h.mono = some m) → ∀ c ∈ cs, ∀ b, c ≠ .load b) →
      run h cs = .error .abort ∨ ∃ h' out x, run h cs = .ok (h', out) ∧ destroy h' = .ok x := by
    intro cs
    induction cs with
    | nil =>
      intro h a g _ _
      obtain ⟨x, hx, _⟩ := destroy_ok g
      exact .inr ⟨h, [], x, rfl, hx⟩
    | cons c cs ih =>
      intro h a g hf hm
      rcases step_ok g c (fun b hb => by
          cases hx : h.mono with
          | none => rfl
          | some m => exact absurd hb (hm ⟨m, hx⟩ c (by simp) b)) with e | ⟨h1, o1, e, s⟩
      · left; unfold run; rw [e]; rfl
      · have hf' : LoadsFirst cs := fun pre a post he c' hc' =>
          hf (c :: pre) a post (by rw [he]; rfl) c' (by simp [hc'])
        have hm' : (∃ m, h1.mono = some m) → ∀ c' ∈ cs, ∀ b, c' ≠ .load b := by
          intro hx c' hc' b hb
          subst hb
          rcases s.mono.1 hx with h0 | h0
          · exact hm h0 _ (by simp [hc']) b rfl
          · obtain ⟨pre, post, rfl⟩ := List.append_of_mem hc'
            exact hf (c :: pre) b post rfl c (by simp) h0
        rcases ih h1 _ s.good hf' hm' with e2 | ⟨h2, o2, x, e2, e3⟩
        · left; unfold run; rw [e]; simp only [ok_bind, e2]; rfl
        · right
          refine ⟨h2, o1 ++ o2, x, ?_, e3⟩
          unfold run; rw [e]; simp only [ok_bind, e2]; rfl
  exact key cs _ z (create_good d g z) hl fun ⟨m, hm⟩ => by cases hm

/-- Every linear solve uses, and every save writes, the operator given last (with a direct solver:
unless a nonlinear solve or a call that skips its initialisation intervenes). -/
theorem uses_last_operator {d g : Bool} {z : α} {cs : List (Call α)} {h : Handler α}
    {out : List (Option α)} (hr : run (create d g z) cs = .ok (h, out))
    (hd : d = true → ∀ c ∈ cs, ¬ Detaches c) : out = expected z cs := by
  obtain ⟨a, _, _, _, _, h5, _⟩ := run_inv (create_good d g z) hr
  exact h5 (fun _ hl => by cases hl) hd

/-- Without a direct solver, destroying the handler frees every operator object it ever created or took
over; only solution vectors may leak. -/
theorem iterative_no_leak {g : Bool} {z : α} {cs : List (Call α)} {h : Handler α}
    {out : List (Option α)} {x : Heap α} (hr : run (create false g z) cs = .ok (h, out))
    (hx : destroy h = .ok x) (q : Nat) (o : Obj α) (hq : x.obj q = some o) : o = .vec := by
  obtain ⟨a, g', hd, _, _, _, h6⟩ := run_inv (create_good false g z) hr
  have t := h6 rfl (create_tight g z)
  obtain ⟨x', hx', hk⟩ := destroy_ok g'
  rw [hx] at hx'; cases hx'
  obtain ⟨k1, k2, k3⟩ := hk q o hq
  rcases t.obj q o k1 with h | h | h
  · exact h
  · exact absurd h k2
  · exact absurd h k3

/-- Finding: with a direct solver, every operator set after the first leaks a factorisation, because
`delete romMat_hypre, mumps` deletes only the former. -/
theorem direct_solver_leaks (z a b : α) : ∃ h out x q, run (create true true z) [.set a true, .set b true] =
    .ok (h, out) ∧ destroy h = .ok x ∧ x.obj q = some (.mumps (some a)) :=
  ⟨_, _, _, 4, rfl, rfl, rfl⟩

/-- Finding: after a nonlinear solve the direct solver no longer holds the operator. -/
theorem nonlinear_detaches (z a : α) : ∃ h out, run (create true true z)
    [.set a true, .nonlinear, .solve .mono] = .ok (h, out) ∧ out = [none] :=
  ⟨_, _, rfl, rfl⟩

/-- The hypotheses of the theorems hold: load, solve, replace, solve, save. -/
example : LoadsFirst ([.load 5, .solve .mono, .set 6 true, .solve .block, .project 7, .saveOperator,
      .saveSystem true] : List (Call Nat)) ∧
    ∃ h, run (create false true 0) [.load 5, .solve .mono, .set 6 true, .solve .block, .project 7,
      .saveOperator, .saveSystem true] = .ok (h, [some 5, some 6, some 7, some 7]) := by
  refine ⟨?_, _, rfl⟩
  intro pre a post he c hc
  match pre, he with
  | [], _ => cases hc
  | _ :: pre, he =>
    simp only [List.cons_append, List.cons.injEq] at he
    have : Call.load a ∈ ([.solve .mono, .set 6 true, .solve .block, .project 7, .saveOperator,
        .saveSystem true] : List (Call Nat)) := by rw [he.2]; simp
    simp at this

/-- Loading twice. -/
example (a b : Nat) : run (create false true 0) [.load a, .load b] = .error .ub := rfl

end Verif.RomOperator
