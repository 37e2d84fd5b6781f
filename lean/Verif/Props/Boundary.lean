import Verif.Proofs.Boundary

/-!
# Boundary conditions: the properties

C33 (left- and right-hand sides are paired), C34 (last assignment wins), C35 (pressure flag), C37
(homogeneous boundaries), C57 (elasticity) and C58 (only the latest problem matters).
-/

namespace Verif.Boundary

open Verif.Topology

section
variable {F : Type}

theorem bcExists_eq {s : BC F} (hw : Wf s) {b : Nat} (hb : b < s.attrs.length) :
    bcExists s b = .ok ((s.coeffs[b]?).any Option.isSome) := by
  have hc : b < s.coeffs.length := by rw [hw.1]; exact hb
  unfold bcExists
  simp only [hb, decide_true, require_true, ok_bind, hw.1, beq_self_eq_true, rd_of_lt hc]
  rw [List.getElem?_eq_getElem hc]
  simp

theorem mem_forBoundaries {α : Type} {attrs mesh : List Int} {r : Nat → Option α} {b : Nat} {x : α} :
    (b, x) ∈ ((List.range attrs.length).filterMap fun b =>
      if (attrs[b]?).any (fun a => decide (a ∈ mesh)) then (r b).map (fun x => (b, x)) else none) ↔
      (∃ a, attrs[b]? = some a ∧ a ∈ mesh) ∧ r b = some x := by
  simp only [List.mem_filterMap, List.mem_range]
  constructor
  · rintro ⟨b', hb', h⟩
    split at h
    · rename_i hm
      rw [Option.map_eq_some_iff] at h
      obtain ⟨y, hy, h⟩ := h
      simp only [Prod.mk.injEq] at h
      obtain ⟨rfl, rfl⟩ := h
      refine ⟨?_, hy⟩
      simpa [Option.any_eq_true] using hm
    · cases h
  · rintro ⟨⟨a, ha, hm⟩, hr⟩
    refine ⟨b, (List.getElem?_eq_some_iff.1 ha).1, ?_⟩
    rw [if_pos (by simp [ha, hm]), hr]
    rfl

theorem fst_forBoundaries {α β : Type} {attrs mesh : List Int} {r : Nat → Option α}
    {q : Nat → Option β} (h : ∀ b, (r b).isSome = (q b).isSome) (l : List Nat) :
    (l.filterMap fun b =>
      if (attrs[b]?).any (fun a => decide (a ∈ mesh)) then (r b).map (fun x => (b, x))
      else none).map Prod.fst =
    (l.filterMap fun b =>
      if (attrs[b]?).any (fun a => decide (a ∈ mesh)) then (q b).map (fun x => (b, x))
      else none).map Prod.fst := by
  induction l with
  | nil => rfl
  | cons b l ih =>
    have hb := h b
    simp only [List.filterMap_cons]
    by_cases hm : (attrs[b]?).any (fun a => decide (a ∈ mesh)) = true
    · rw [if_pos hm, if_pos hm]
      cases hr : r b <;> cases hq : q b <;> simp_all
    · rw [if_neg hm, if_neg hm]
      exact ih

theorem nodup_forBoundaries {α : Type} {attrs mesh : List Int} {r : Nat → Option α} {l : List Nat}
    (hl : l.Nodup) :
    ((l.filterMap fun b =>
      if (attrs[b]?).any (fun a => decide (a ∈ mesh)) then (r b).map (fun x => (b, x))
      else none).map Prod.fst).Nodup := by
  have hsub : ∀ l : List Nat, ((l.filterMap fun b =>
      if (attrs[b]?).any (fun a => decide (a ∈ mesh)) then (r b).map (fun x => (b, x))
      else none).map Prod.fst).Sublist l := by
    intro l
    induction l with
    | nil => simp
    | cons b l ih =>
      simp only [List.filterMap_cons]
      split
      · exact ih.cons b
      · rename_i x hx
        split at hx
        · rw [Option.map_eq_some_iff] at hx
          obtain ⟨y, _, rfl⟩ := hx
          exact ih.cons_cons b
        · cases hx
  exact (hsub l).nodup hl

/-- Position `b` of the state asks for a weakly imposed condition. -/
def weakOf (s : BC F) (b : Nat) : Option F :=
  match s.coeffs[b]? with
  | some (some f) => if s.types[b]? = some .neumann then none else some f
  | _ => none

theorem weakOf_iff {s : BC F} {mesh : List Int} {b : Nat} {f : F} :
    ((∃ a, s.attrs[b]? = some a ∧ a ∈ mesh) ∧ weakOf s b = some f) ↔
      Spec.WeakDirichlet s.attrs s.coeffs s.types mesh b f := by
  unfold Spec.WeakDirichlet
  refine and_congr_right fun _ => ?_
  unfold weakOf
  cases h : s.coeffs[b]? with
  | none => simp
  | some c =>
    cases c with
    | none => simp
    | some g =>
      simp only [Option.some.injEq, ne_eq]
      split <;> simp_all

theorem rhsBC_eq {s : BC F} (hw : Wf s) (mesh : List Int) :
    rhsBC s mesh = .ok ((List.range s.attrs.length).filterMap fun b =>
      if (s.attrs[b]?).any (fun a => decide (a ∈ mesh)) then (weakOf s b).map (fun x => (b, x))
      else none) := by
  refine forBoundaries_eq (weakOf s) ?_
  intro b a ha _
  have hb : b < s.attrs.length := (List.getElem?_eq_some_iff.1 ha).1
  have hc : b < s.coeffs.length := by rw [hw.1]; exact hb
  have ht : b < s.types.length := by rw [hw.2]; exact hb
  rw [bcExists_eq hw hb]
  simp only [ok_bind, rd_of_lt ht, rd_of_lt hc, weakOf, List.getElem?_eq_getElem hc,
    List.getElem?_eq_getElem ht]
  cases h : s.coeffs[b] with
  | none => simp
  | some f => by_cases hn : s.types[b] = .neumann <;> simp [hn]

theorem lhsBC_eq {s : BC F} (hw : Wf s) (mesh : List Int) :
    lhsBC s mesh = .ok ((List.range s.attrs.length).filterMap fun b =>
      if (s.attrs[b]?).any (fun a => decide (a ∈ mesh))
      then ((weakOf s b).map fun _ => ()).map (fun x => (b, x)) else none) := by
  refine forBoundaries_eq (fun b => (weakOf s b).map fun _ => ()) ?_
  intro b a ha _
  have hb : b < s.attrs.length := (List.getElem?_eq_some_iff.1 ha).1
  have hc : b < s.coeffs.length := by rw [hw.1]; exact hb
  have ht : b < s.types.length := by rw [hw.2]; exact hb
  rw [bcExists_eq hw hb]
  simp only [ok_bind, rd_of_lt ht, weakOf, List.getElem?_eq_getElem hc,
    List.getElem?_eq_getElem ht]
  cases h : s.coeffs[b] with
  | none => simp
  | some f => by_cases hn : s.types[b] = .neumann <;> simp [hn]

/-- What C33 says about a state: on every mesh, both set-up routines succeed, they add integrators
for the same boundaries, at most one for each, and exactly for those that carry a weakly imposed
Dirichlet condition, with its function. -/
def Paired (s : BC F) : Prop :=
  ∀ mesh : List Int, ∃ r l, rhsBC s mesh = .ok r ∧ lhsBC s mesh = .ok l ∧
    r.map Prod.fst = l.map Prod.fst ∧ (r.map Prod.fst).Nodup ∧
    ∀ b f, (b, f) ∈ r ↔ Spec.WeakDirichlet s.attrs s.coeffs s.types mesh b f

theorem paired_of_wf {s : BC F} (hw : Wf s) : Paired s := by
  intro mesh
  refine ⟨_, _, rhsBC_eq hw mesh, lhsBC_eq hw mesh, ?_, nodup_forBoundaries List.nodup_range, ?_⟩
  · exact fst_forBoundaries (fun b => by simp) _
  · intro b f
    rw [mem_forBoundaries, weakOf_iff]

/-- C33: after every history of calls on a Poisson solver, left- and right-hand side boundary
integrators are paired on every mesh. -/
theorem poisson_paired (zero : F) (attrs : List Int) (calls : List (Call F)) (s : BC F)
    (h : runCalls (stepPoisson zero) (setupBCVariables attrs) calls = .ok s) : Paired s :=
  paired_of_wf ((runCalls_keeps stepPoisson_keeps calls _ _ h).2 (wf_setup attrs))

/-- C33: the same for Stokes and Navier-Stokes solvers. -/
theorem stokes_paired (zero : F) (attrs : List Int) (calls : List (Call F)) (s : BC F)
    (h : runCalls (stepStokes zero) (setupBCVariables attrs) calls = .ok s) : Paired s :=
  paired_of_wf ((runCalls_keeps stepStokes_keeps calls _ _ h).2 (wf_setup attrs))

theorem romBC_eq {s : BC F} (hw : Wf s) (c2g : List Int) :
    romBC s c2g = .ok ((List.range c2g.length).filter fun b =>
      match c2g[b]? with
      | some a =>
        match s.attrs.findIdx? (· == a) with
        | some g => (weakOf s g).isSome
        | none => false
      | none => false) := by
  refine loop_spec (fun n => (List.range n).filter fun b =>
      match c2g[b]? with
      | some a =>
        match s.attrs.findIdx? (· == a) with
        | some g => (weakOf s g).isSome
        | none => false
      | none => false) rfl ?_
  intro i hi
  simp only [rd_of_lt hi, ok_bind, List.range_succ, List.filter_append]
  rcases hf : s.attrs.findIdx? (· == c2g[i]) with _ | g
  · rw [arrFind_none hf]
    simp [hf, hi]
  · obtain ⟨hg, _, _⟩ := List.findIdx?_eq_some_iff_getElem.1 hf
    have hc : g < s.coeffs.length := by rw [hw.1]; exact hg
    have ht : g < s.types.length := by rw [hw.2]; exact hg
    rw [arrFind_some hf, if_neg (by omega), Int.toNat_natCast, bcExists_eq hw hg,
      rdI_of_lt (by omega) (by simpa using ht)]
    simp only [ok_bind, Int.toNat_natCast]
    cases h : s.coeffs[g] with
    | none => simp [hf, hi, weakOf, hc, h]
    | some f =>
      by_cases hn : s.types[g] = .neumann <;> simp [hf, hi, weakOf, hc, ht, h, hn]

/-- C33: the component-wise ROM assembly adds the boundary matrix of a component boundary exactly
when the full-order model imposes a Dirichlet condition on the global boundary it is mapped to,
and never twice. -/
theorem rom_agrees {s : BC F} (hw : Wf s) (hnd : s.attrs.Nodup) (c2g : List Int) :
    ∃ l, romBC s c2g = .ok l ∧ l.Nodup ∧
      ∀ b, b ∈ l ↔ ∃ a, c2g[b]? = some a ∧
        ∃ g f, s.attrs[g]? = some a ∧ Spec.WeakDirichlet s.attrs s.coeffs s.types c2g g f := by
  refine ⟨_, romBC_eq hw c2g, List.nodup_range.filter _, ?_⟩
  intro b
  rw [List.mem_filter, List.mem_range]
  constructor
  · rintro ⟨hb, h⟩
    rw [List.getElem?_eq_getElem hb] at h ⊢
    dsimp only at h
    refine ⟨_, rfl, ?_⟩
    split at h
    · rename_i g hg
      obtain ⟨hgl, hv, _⟩ := List.findIdx?_eq_some_iff_getElem.1 hg
      simp only [beq_iff_eq] at hv
      obtain ⟨f, hf⟩ := Option.isSome_iff_exists.1 h
      have ha : s.attrs[g]? = some c2g[b] := by rw [List.getElem?_eq_getElem hgl, hv]
      exact ⟨g, f, ha, weakOf_iff.1 ⟨⟨_, ha, List.getElem_mem hb⟩, hf⟩⟩
    · cases h
  · rintro ⟨a, ha, g, f, hg, hweak⟩
    have hb := (List.getElem?_eq_some_iff.1 ha).1
    refine ⟨hb, ?_⟩
    rw [ha]
    dsimp only
    have hf := (weakOf_iff.2 hweak).2
    obtain ⟨hgl, hge⟩ := List.getElem?_eq_some_iff.1 hg
    cases hi : s.attrs.findIdx? (· == a) with
    | none =>
      simp only [List.findIdx?_eq_none_iff, beq_eq_false_iff_ne] at hi
      exact absurd rfl (hi a (hge ▸ List.getElem_mem hgl))
    | some i =>
      obtain ⟨hil, hv, _⟩ := List.findIdx?_eq_some_iff_getElem.1 hi
      simp only [beq_iff_eq] at hv
      have : i = g := (List.Nodup.getElem_inj_iff hnd).1 (by rw [hv, hge])
      subst this
      simp [hf]

/-- The hypotheses are met: two boundaries of three carry a condition, one of them is on the mesh. -/
example : (runCalls (stepPoisson 0) (setupBCVariables [1, 2, 5])
      [.problem ⟨[1, 2, 5], [.dirichlet, .neumann, .zero], [some 7, none, none]⟩] >>= fun s => do
    let r ← rhsBC s [2, 5]
    let l ← lhsBC s [2, 5]
    let m ← romBC s [5, 2, 9]
    .ok (r, l.map Prod.fst, m)) = .ok ([(2, (0 : Int))], [2], [0]) := by decide

/-- C33: if all attributes lie between one and the largest attribute, the marker of each boundary
selects exactly the boundary elements with its attribute (an element with attribute `a` is selected
by entry `a - 1`). -/
theorem markers_spec {attrs : List Int} {maxAttr : Int} (h : ∀ a ∈ attrs, 0 < a ∧ a ≤ maxAttr) :
    ∃ ms, markers attrs maxAttr = .ok ms ∧ ms.length = attrs.length ∧
      ∀ (k : Nat) (a : Int), attrs[k]? = some a → ∃ mk, ms[k]? = some mk ∧
        mk.length = maxAttr.toNat ∧ ∀ e : Int, 0 < e → e ≤ maxAttr →
          mk[(e - 1).toNat]? = some (if e = a then 1 else 0) := by
  refine ⟨attrs.map fun a => (List.replicate maxAttr.toNat (0 : Int)).set (a - 1).toNat 1, ?_, by
    simp, ?_⟩
  · have := loop_spec (n := attrs.length) (body := fun k acc => do
      let a ← rd attrs k
      require (decide (0 < a ∧ a ≤ maxAttr))
      let mk ← wrI (List.replicate maxAttr.toNat (0 : Int)) (a - 1) 1
      .ok (acc ++ [mk])) (s := [])
      (fun i => (attrs.take i).map fun a =>
        (List.replicate maxAttr.toNat (0 : Int)).set (a - 1).toNat 1) (by simp) (by
      intro i hi
      have ha := h _ (List.getElem_mem hi)
      simp only [rd_of_lt hi, ok_bind, ha, and_self, decide_true, require_true]
      rw [wrI_of_lt (by omega) (by simp; omega), ok_bind, List.take_add_one,
        List.getElem?_eq_getElem hi, List.map_append]
      rfl)
    unfold markers
    rw [this]
    simp
  · intro k a hk
    have ha := h a (List.mem_of_getElem? hk)
    refine ⟨_, by rw [List.getElem?_map, hk]; rfl, by simp, ?_⟩
    intro e he1 he2
    rw [List.getElem?_set]
    by_cases hea : e = a
    · subst hea
      rw [if_pos rfl, if_pos (by simp; omega), if_pos rfl]
    · rw [if_neg (by omega), if_neg hea, List.getElem?_replicate, if_pos (by omega)]

example : markers [3, 1] 4 = .ok [[0, 0, 1, 0], [1, 0, 0, 0]] := by decide

/-!
### C34
-/

/-- Every state reached by calls from a freshly set up solver has one entry per global boundary in
each list, which is what the theorems below assume. -/
theorem reachable_wf (zero : F) (attrs : List Int) (calls : List (Call F)) (s : BC F)
    (h : runCalls (stepPoisson zero) (setupBCVariables attrs) calls = .ok s ∨
      runCalls (stepStokes zero) (setupBCVariables attrs) calls = .ok s ∨
      runCalls stepElast (setupBCVariables attrs) calls = .ok s) :
    Wf s ∧ s.attrs = attrs := by
  rcases h with h | h | h
  · have := runCalls_keeps stepPoisson_keeps calls _ _ h
    exact ⟨this.2 (wf_setup attrs), this.1⟩
  · have := runCalls_keeps stepStokes_keeps calls _ _ h
    exact ⟨this.2 (wf_setup attrs), this.1⟩
  · have := runCalls_keeps stepElast_keeps calls _ _ h
    exact ⟨this.2 (wf_setup attrs), this.1⟩

/-- C34: after any sequence of `AddBCFunction` calls, every boundary carries the function of the last
call that addressed it, or what it carried before; types are unchanged. -/
theorem lastAssignment_wins {s : BC F} (hw : Wf s) (hn : s.attrs ≠ []) (hnd : s.attrs.Nodup)
    (calls : List (F × Int)) :
    ∃ t, runAdds addBC s calls = .ok t ∧ t.attrs = s.attrs ∧ t.types = s.types ∧
      t.coeffs.length = s.attrs.length ∧
      ∀ (b : Nat) (a : Int), s.attrs[b]? = some a →
        t.coeffs[b]? = match Spec.lastFor calls a with
          | some f => some (some f)
          | none => s.coeffs[b]? := by
  refine ⟨_, runAdds_addBC hw hn calls, rfl, rfl, by simpa using hw.1, ?_⟩
  intro b a ha
  exact assignAll_get hnd ha calls _ hw.1

/-- C34 for Stokes and Navier-Stokes solvers. -/
theorem lastAssignment_wins_stokes {s : BC F} (hw : Wf s) (hn : s.attrs ≠ [])
    (hnd : s.attrs.Nodup) (calls : List (F × Int)) :
    ∃ t, runAdds addBCStokes s calls = .ok t ∧ t.attrs = s.attrs ∧ t.types = s.types ∧
      t.coeffs.length = s.attrs.length ∧
      ∀ (b : Nat) (a : Int), s.attrs[b]? = some a →
        t.coeffs[b]? = match Spec.lastFor calls a with
          | some f => some (some f)
          | none => s.coeffs[b]? := by
  refine ⟨_, runAdds_stokes hw hn calls, rfl, rfl, by simpa using hw.1, ?_⟩
  intro b a ha
  exact assignAll_get hnd ha calls _ hw.1

/-- C34: an unknown positive attribute changes nothing, the pressure flag included. -/
theorem unknown_attribute_ignored {s : BC F} (hw : Wf s) (hn : s.attrs ≠ []) (f : F) {a : Int}
    (hp : 0 < a) (ha : a ∉ s.attrs) : addBC s f a = .ok s ∧ addBCStokes s f a = .ok s := by
  have hf : s.attrs.findIdx? (· == a) = none := by
    simp only [List.findIdx?_eq_none_iff, beq_eq_false_iff_ne]
    rintro x hx rfl; exact ha hx
  have h1 : assign s.attrs s.coeffs f a = s.coeffs := by simp [assign, hp, hf]
  have h2 : touches s.attrs a = false := by simp [touches, ha]; omega
  constructor
  · rw [addBC_eq hw hn, h1]
  · rw [addBCStokes_eq hw hn, h1, h2]; rfl

/-- Without boundaries every call aborts. -/
theorem no_boundary_aborts {s : BC F} (h : s.coeffs = []) (f : F) (a : Int) :
    addBC s f a = .error .abort ∧ addBCStokes s f a = .error .abort := by
  simp [addBC, addBCStokes, h, require]

example : (runAdds addBC (setupBCVariables [3, 1, 4]) [(10, 1), (20, -1), (30, 4), (40, 2)]).map
    (·.coeffs) = .ok [some 20, some 20, some (30 : Int)] := by decide

example : (Spec.lastFor [((10 : Int), 1), (20, -1), (30, 4), (40, 2)] 3, Spec.lastFor
    [((10 : Int), 1), (20, -1), (30, 4), (40, 2)] 4) = (some 20, some 30) := by decide

/-!
### C35
-/

/-- C35: whenever `SetParameterizedProblem` of a Stokes or Navier-Stokes solver succeeds, the
pressure flag is set exactly if some boundary has no velocity function; otherwise the exclusion
marks are determined and passed on. -/
theorem pressureFlag_correct {zero : F} {s : BC F} {p : Problem F} (hw : Wf s)
    (hn : s.attrs ≠ []) {t : BC F} {nz : Option (List Bool)}
    (h : setProblemStokes zero s p = .ok (t, nz)) :
    (t.presDbc = true ↔ ∃ b, b < t.attrs.length ∧ t.coeffs[b]? = some none) ∧
      (t.presDbc = true ↔ nz = none) := by
  obtain ⟨u, hu, hr, hcase⟩ := setProblemStokes_inv h
  have hku := setTypes_keeps hu
  have hwu : Wf { u with coeffs := List.replicate u.coeffs.length none } :=
    (clear_keeps u).2 (hku.2 hw)
  have hnu : u.attrs ≠ [] := by rw [hku.1]; exact hn
  rw [runAdds_stokes hwu hnu] at hr
  simp only [Except.ok.injEq] at hr
  have hwt : Wf t := (setProblemStokes_keeps h).2 hw
  have hiff : (∃ b, b < t.attrs.length ∧ t.coeffs[b]? = some none) ↔
      t.coeffs.any Option.isNone = true := by
    rw [List.any_eq_true]
    constructor
    · rintro ⟨b, _, hb⟩
      exact ⟨none, List.mem_of_getElem? hb, rfl⟩
    · rintro ⟨c, hc, hnone⟩
      obtain ⟨b, hb, rfl⟩ := List.getElem_of_mem hc
      refine ⟨b, by rw [← hwt.1]; exact hb, ?_⟩
      rw [List.getElem?_eq_getElem hb]
      simpa using hnone
  rcases hcase with ⟨hp, hnone⟩ | ⟨hp, nz', hsome, _, hall⟩
  · refine ⟨⟨fun _ => ?_, fun _ => hp⟩, ⟨fun _ => hnone, fun _ => hp⟩⟩
    rw [hiff]
    subst hr
    dsimp only at hp ⊢
    by_cases ht : (Spec.problemCalls zero p).any (fun c => touches u.attrs c.2) = true
    · rw [if_pos ht] at hp; exact hp
    · have hno : ∀ d ∈ Spec.problemCalls zero p, touches u.attrs d.2 = false := by
        intro d hd
        rw [Bool.not_eq_true, List.any_eq_false] at ht
        simpa using ht d hd
      rw [assignAll_untouched _ _ hno, List.any_eq_true]
      refine ⟨none, ?_, rfl⟩
      rw [List.mem_replicate]
      refine ⟨?_, rfl⟩
      have := List.length_pos_iff.2 hn
      rw [(hku.2 hw).1, hku.1]
      omega
  · dsimp only at hp hsome hall
    constructor
    · rw [hiff, hp]
      simp only [Bool.false_eq_true, false_iff, Bool.not_eq_true, List.any_eq_false]
      intro c hc
      have := hall c hc
      cases c with
      | none => simp at this
      | some _ => simp
    · rw [hp, hsome]; simp

/-- C35, what the pinned code does when a problem assigns no function: the flag keeps its old value,
so on a solver whose flag is `false` (a fresh one, or after an all-Dirichlet problem) a problem with
Neumann conditions only is refused by an assertion. -/
theorem allNeumann_aborts :
    setProblemStokes (0 : Int) (setupBCVariables [1, 2])
      ⟨[1, 2], [.neumann, .neumann], [none, none]⟩ = .error .abort := by decide

/-- With a flag that is already set the same problem is accepted. -/
theorem allNeumann_after_mixed :
    ((setProblemStokes (0 : Int) (setupBCVariables [1, 2])
      ⟨[1, 2], [.dirichlet, .neumann], [some 3, none]⟩) >>= fun r =>
      setProblemStokes 0 r.1 ⟨[1, 2], [.neumann, .neumann], [none, none]⟩).map
        (fun r => (r.1.presDbc, r.1.coeffs, r.2)) = .ok (true, [none, none], none) := by decide

example : ((setProblemStokes (0 : Int) (setupBCVariables [1, 2])
      ⟨[1, 2], [.dirichlet, .zero], [some 3, none]⟩)).map
        (fun r => (r.1.presDbc, r.1.coeffs, r.2)) =
      .ok (false, [some 3, some 0], some [true, false]) := by decide

/-!
### C37
-/

theorem nzGo_spec {p : Problem F} (hp : p.types.length = p.battr.length) :
    ∀ (k b : Nat) (nz : List Bool), b + k = p.battr.length →
      (∀ j, b ≤ j → p.types[j]? = some .zero → p.battr[j]? ≠ some (-1) ∧ j < nz.length) →
      ∃ nz', nzGo p b k nz = .ok nz' ∧ nz'.length = nz.length ∧
        ∀ j : Nat, j < nz.length → nz'[j]? =
          if b ≤ j ∧ p.types[j]? = some .zero then some false else nz[j]?
  | 0, b, nz, hk, _ => by
    refine ⟨nz, rfl, rfl, ?_⟩
    intro j hj
    rw [if_neg]
    rintro ⟨hbj, hz⟩
    have := (List.getElem?_eq_some_iff.1 hz).1
    omega
  | k + 1, b, nz, hk, hall => by
    have hb : b < p.battr.length := by omega
    have hbt : b < p.types.length := by omega
    by_cases hz : p.types[b] = .zero
    · obtain ⟨hne, hlt⟩ := hall b le_rfl (by rw [List.getElem?_eq_getElem hbt, hz])
      rw [List.getElem?_eq_getElem hb] at hne
      have hne' : p.battr[b] ≠ -1 := by simpa using hne
      obtain ⟨nz', h1, h2, h3⟩ := nzGo_spec hp k (b + 1) (nz.set b false) (by omega) (by
        intro j hj hzj
        have := hall j (by omega) hzj
        simpa using this)
      refine ⟨nz', ?_, by simpa using h2, ?_⟩
      · simp only [nzGo, rd_of_lt hbt, rd_of_lt hb, ok_bind, hz, if_true, hne', if_false,
          wr_of_lt hlt, h1]
      · intro j hj
        rw [h3 j (by simpa using hj)]
        by_cases hjb : j = b
        · subst hjb
          rw [if_neg (by omega), if_pos ⟨le_rfl, by rw [List.getElem?_eq_getElem hbt, hz]⟩]
          simp [hj]
        · rw [List.getElem?_set_ne (by omega)]
          by_cases hbj : b ≤ j
          · simp [show b + 1 ≤ j by omega, hbj]
          · simp [show ¬ b + 1 ≤ j by omega, hbj]
    · obtain ⟨nz', h1, h2, h3⟩ := nzGo_spec hp k (b + 1) nz (by omega)
        (fun j hj => hall j (by omega))
      refine ⟨nz', ?_, h2, ?_⟩
      · simp only [nzGo, rd_of_lt hbt, ok_bind, hz, if_false, h1]
      · intro j hj
        rw [h3 j hj]
        by_cases hjb : j = b
        · subst hjb
          rw [if_neg (by omega), if_neg]
          rintro ⟨_, h⟩
          rw [List.getElem?_eq_getElem hbt] at h
          exact hz (by simpa using h)
        · by_cases hbj : b ≤ j
          · simp [show b + 1 ≤ j by omega, hbj]
          · simp [show ¬ b + 1 ≤ j by omega, hbj]

/-- C37, the case that works: if every homogeneous entry of the problem stands at the position its
boundary has among the global boundaries, exactly the homogeneous boundaries are excluded.
Missing: any other order of the problem's list, where the statement is false of the pinned code
(`zeroMarks_wrong_boundary`, `zeroMarks_overflow`, `zeroMarks_default_hides`). -/
theorem zeroMarks_partial {attrs : List Int} (hnd : attrs.Nodup) {p : Problem F}
    (hp : p.types.length = p.battr.length)
    (halign : ∀ (j : Nat) (a : Int), p.types[j]? = some .zero → p.battr[j]? = some a →
      a ≠ -1 ∧ attrs[j]? = some a) :
    ∃ nz, nzDbcs attrs.length p = .ok nz ∧ nz.length = attrs.length ∧
      ∀ (k : Nat) (a : Int), attrs[k]? = some a → (nz[k]? = some false ↔
        ∃ j : Nat, p.battr[j]? = some a ∧ p.types[j]? = some .zero) := by
  have hz : ∀ j : Nat, p.types[j]? = some .zero → ∃ a, p.battr[j]? = some a := by
    intro j hj
    have := (List.getElem?_eq_some_iff.1 hj).1
    exact ⟨_, List.getElem?_eq_getElem (by omega)⟩
  obtain ⟨nz, h1, h2, h3⟩ := nzGo_spec hp p.battr.length 0 (List.replicate attrs.length true)
    (by omega) (by
      intro j _ hj
      obtain ⟨a, ha⟩ := hz j hj
      obtain ⟨hne, hat⟩ := halign j a hj ha
      refine ⟨by rw [ha]; simpa using hne, ?_⟩
      simpa using (List.getElem?_eq_some_iff.1 hat).1)
  refine ⟨nz, h1, by simpa using h2, ?_⟩
  intro k a hk
  have hkl := (List.getElem?_eq_some_iff.1 hk).1
  rw [h3 k (by simpa using hkl)]
  constructor
  · intro h
    split at h
    · rename_i hzero
      obtain ⟨a', ha'⟩ := hz k hzero.2
      have := (halign k a' hzero.2 ha').2
      rw [hk] at this
      have e : a = a' := by simpa using this
      subst e
      exact ⟨k, ha', hzero.2⟩
    · simp [hkl] at h
  · rintro ⟨j, hj, hjz⟩
    have hja := (halign j a hjz hj).2
    have : j = k := by
      obtain ⟨hjl, hje⟩ := List.getElem?_eq_some_iff.1 hja
      obtain ⟨_, hke⟩ := List.getElem?_eq_some_iff.1 hk
      exact (List.Nodup.getElem_inj_iff hnd).1 (by rw [hje, hke])
    subst this
    rw [if_pos ⟨by omega, hjz⟩]

example : nzDbcs 3 (⟨[1, 2, 5], [.dirichlet, .zero, .dirichlet], [some 1, none, some 2]⟩ :
    Problem Int) = .ok [true, false, true] := by decide

/-- C37 fails for a reordered list: boundary `2` is homogeneous, yet boundary `1` is excluded from
the correction and boundary `2` is not. -/
theorem zeroMarks_wrong_boundary :
    (setProblemStokes (0 : Int) (setupBCVariables [1, 2])
      ⟨[2, 1], [.zero, .dirichlet], [none, some 3]⟩).map (fun r => (r.1.coeffs, r.2)) =
      .ok ([some 3, some 0], some [false, true]) := by decide

/-- C37 fails for a list longer than the global one: the attributes and types of `ComponentFlow`
(`src/parameterized_problem.cpp:734-743`) on a domain whose boundaries are `1` to `4` write outside
the array of marks. -/
theorem zeroMarks_overflow :
    setProblemStokes (0 : Int) (setupBCVariables [1, 2, 3, 4])
      ⟨[1, 2, 3, 4, 5], [.dirichlet, .dirichlet, .dirichlet, .dirichlet, .zero],
        [some 1, some 1, some 1, some 1, none]⟩ = .error .ub := by decide

/-- C37 fails for a default entry followed by a specific one: boundary `1` carries a
non-homogeneous function, yet it is excluded. -/
theorem zeroMarks_default_hides :
    (setProblemStokes (0 : Int) (setupBCVariables [1, 2])
      ⟨[-1, 1], [.zero, .dirichlet], [none, some 3]⟩).map (fun r => (r.1.coeffs, r.2)) =
      .ok ([some 3, some 0], some [false, false]) := by decide

/-!
### C57: elasticity
-/

/-- C57: with the discontinuous discretisation, every boundary with an assigned Dirichlet function gets
both a left- and a right-hand side term, at most one of each, every boundary with an assigned Neumann
function one traction term, and no boundary anything else. -/
theorem elast_paired (attrs : List Int) (calls : List (Call F)) (s : BC F)
    (h : runCalls stepElast (setupBCVariables attrs) calls = .ok s) (mesh : List Int) :
    ∃ r l, rhsElast s mesh = .ok r ∧ lhsElast true s mesh = .ok l ∧
      (r.map Prod.fst).Nodup ∧ (l.map Prod.fst).Nodup ∧
      (∀ b f, (b, ElastRhs.dirichlet f) ∈ r ↔ (∃ a, attrs[b]? = some a ∧ a ∈ mesh) ∧
        s.coeffs[b]? = some (some f) ∧ s.types[b]? = some .dirichlet) ∧
      (∀ b f, (b, ElastRhs.traction f) ∈ r ↔ (∃ a, attrs[b]? = some a ∧ a ∈ mesh) ∧
        s.coeffs[b]? = some (some f) ∧ s.types[b]? = some .neumann) ∧
      (∀ b, (b, ()) ∈ l ↔ ∃ f, (b, ElastRhs.dirichlet f) ∈ r) := by
  have hk := runCalls_keeps stepElast_keeps calls _ _ h
  have hw : Wf s := hk.2 (wf_setup attrs)
  have hattrs : s.attrs = attrs := hk.1
  let r : Nat → Option (ElastRhs F) := fun b =>
    match s.types[b]?, s.coeffs[b]? with
    | some .dirichlet, some (some f) => some (.dirichlet f)
    | some .neumann, some (some f) => some (.traction f)
    | _, _ => none
  let q : Nat → Option Unit := fun b =>
    match s.types[b]?, s.coeffs[b]? with
    | some .dirichlet, some (some _) => some ()
    | _, _ => none
  have hr := forBoundaries_eq (s := s) (mesh := mesh) (act := fun b => do
    if !(← bcExists s b) then .ok none
    else do
      let t ← rd s.types b
      let c ← rd s.coeffs b
      match t, c with
      | .dirichlet, some f => .ok (some (.dirichlet f))
      | .neumann, some f => .ok (some (.traction f))
      | _, _ => .ok none) r (by
    intro b a ha _
    have hb : b < s.attrs.length := (List.getElem?_eq_some_iff.1 ha).1
    have hc : b < s.coeffs.length := by rw [hw.1]; exact hb
    have ht : b < s.types.length := by rw [hw.2]; exact hb
    simp only [bcExists_eq hw hb, ok_bind, rd_of_lt ht, rd_of_lt hc, r,
      List.getElem?_eq_getElem hc, List.getElem?_eq_getElem ht]
    cases h : s.coeffs[b] <;> cases h' : s.types[b] <;> simp)
  have hq := forBoundaries_eq (s := s) (mesh := mesh) (act := fun b => do
      if !(← bcExists s b) then .ok none
      else do
        let t ← rd s.types b
        if t = .dirichlet then .ok (some ()) else .ok none) q (by
    intro b a ha _
    have hb : b < s.attrs.length := (List.getElem?_eq_some_iff.1 ha).1
    have hc : b < s.coeffs.length := by rw [hw.1]; exact hb
    have ht : b < s.types.length := by rw [hw.2]; exact hb
    simp only [bcExists_eq hw hb, ok_bind, rd_of_lt ht, q,
      List.getElem?_eq_getElem hc, List.getElem?_eq_getElem ht]
    cases h : s.coeffs[b] <;> cases h' : s.types[b] <;> simp)
  have hd : ∀ b f, r b = some (.dirichlet f) ↔
      s.coeffs[b]? = some (some f) ∧ s.types[b]? = some .dirichlet := by
    intro b f
    simp only [r]
    rcases s.types[b]? with _ | ty <;> rcases s.coeffs[b]? with _ | c
    · simp
    · simp
    · simp
    · cases ty <;> cases c <;> simp
  have ht : ∀ b f, r b = some (.traction f) ↔
      s.coeffs[b]? = some (some f) ∧ s.types[b]? = some .neumann := by
    intro b f
    simp only [r]
    rcases s.types[b]? with _ | ty <;> rcases s.coeffs[b]? with _ | c
    · simp
    · simp
    · simp
    · cases ty <;> cases c <;> simp
  have hqr : ∀ b, q b = some () ↔ ∃ f, r b = some (.dirichlet f) := by
    intro b
    simp only [hd, q]
    rcases s.types[b]? with _ | ty <;> rcases s.coeffs[b]? with _ | c
    · simp
    · simp
    · simp
    · cases ty <;> cases c <;> simp
  refine ⟨_, _, hr, hq, nodup_forBoundaries List.nodup_range,
    nodup_forBoundaries List.nodup_range, ?_, ?_, ?_⟩
  · intro b f
    rw [mem_forBoundaries, hd, hattrs]
  · intro b f
    rw [mem_forBoundaries, ht, hattrs]
  · intro b
    simp only [mem_forBoundaries, hqr]
    constructor
    · rintro ⟨ha, f, hf⟩; exact ⟨f, ha, hf⟩
    · rintro ⟨f, ha, hf⟩; exact ⟨ha, f, hf⟩

/-- C57, negation: with the continuous discretisation the pinned code adds the Dirichlet right-hand
side but no left-hand side term. -/
theorem elast_unpaired_continuous :
    (setProblemLinElast (setupBCVariables [1]) ⟨[1], [.dirichlet], [some (7 : Int)]⟩ >>= fun s => do
      let r ← rhsElast s [1]
      let l ← lhsElast false s [1]
      .ok (r, l)) = .ok ([(0, .dirichlet 7)], []) := by decide

/-- C57, negation: for a boundary whose type is neither Dirichlet nor Neumann but which carries a
function, the component-wise ROM adds a boundary matrix that the full-order model does not have. -/
theorem elast_rom_differs :
    (setProblemLinElast (setupBCVariables [1]) ⟨[1], [.zero], [some (7 : Int)]⟩ >>= fun s => do
      let r ← rhsElast s [1]
      let l ← lhsElast true s [1]
      let m ← romBC s [1]
      .ok (r, l, m)) = .ok ([], [], [0]) := by decide

/-!
### C58: only the latest problem matters
-/

/-- C58: if a valid problem lists every global boundary, then after `SetParameterizedProblem` of a Poisson
solver each boundary carries the type of its entry and the function of the last entry addressing it,
whatever happened before. -/
theorem poisson_latest {zero : F} {s : BC F} (hw : Wf s) (hn : s.attrs ≠ []) (hnd : s.attrs.Nodup)
    {p : Problem F} (hp : p.Valid) (hall : ∀ a ∈ s.attrs, a ∈ p.battr) :
    ∃ t, setProblemPoisson zero s p = .ok t ∧ t.attrs = s.attrs ∧ Wf t ∧
      ∀ (b : Nat) (a : Int), s.attrs[b]? = some a →
        t.coeffs[b]? = some (Spec.lastFor (Spec.problemCalls zero p) a) ∧
        ∃ i : Nat, p.battr[i]? = some a ∧ (∀ j < i, p.battr[j]? ≠ some a) ∧
          t.types[b]? = p.types[i]? := by
  have hst := setTypes_eq hw hp.1
  let u : BC F := { s with types := typesAfter s.attrs s.types p }
  let v : BC F := { u with coeffs := List.replicate u.coeffs.length none }
  have hwv : Wf v := ⟨by simpa [v, u] using hw.1, by simp [v, u]⟩
  obtain ⟨t, ht, hgt⟩ := applyProblem_ok (add := addBC) (zero := zero) (s := v) hp
    (fun w => Wf w ∧ w.attrs ≠ []) ⟨hwv, hn⟩ (by
      intro w f a hgood
      obtain ⟨h1, h2⟩ := hgood
      have he := addBC_eq h1 h2 f a
      have hk := addBC_keeps he
      exact ⟨_, he, hk.2 h1, by rw [hk.1]; exact h2⟩)
  have hrun := applyProblem_inv ht
  rw [runAdds_addBC hwv hn] at hrun
  simp only [Except.ok.injEq] at hrun
  refine ⟨t, ?_, by rw [← hrun], hgt.1, ?_⟩
  · unfold setProblemPoisson
    rw [hst]
    exact ht
  · intro b a ha
    have hb := (List.getElem?_eq_some_iff.1 ha).1
    subst hrun
    constructor
    · have := assignAll_get hnd ha (Spec.problemCalls zero p) v.coeffs hwv.1
      dsimp only
      rw [show v.attrs = s.attrs from rfl, this]
      cases hl : Spec.lastFor (Spec.problemCalls zero p) a with
      | some f => rfl
      | none =>
        have hbc : b < s.coeffs.length := by rw [hw.1]; exact hb
        simp [v, u, hbc]
    · have hmem := hall a (List.mem_of_getElem? ha)
      cases hf : p.battr.findIdx? (· == a) with
      | none =>
        simp only [List.findIdx?_eq_none_iff, beq_eq_false_iff_ne] at hf
        exact absurd rfl (hf a hmem)
      | some i =>
        obtain ⟨hi, hv, hmin⟩ := List.findIdx?_eq_some_iff_getElem.1 hf
        simp only [beq_iff_eq] at hv
        refine ⟨i, by rw [List.getElem?_eq_getElem hi, hv], ?_, ?_⟩
        · intro j hj hja
          obtain ⟨hjl, hje⟩ := List.getElem?_eq_some_iff.1 hja
          exact hmin j hj (by simp [hje])
        · have hit : i < p.types.length := by rw [hp.1]; exact hi
          simp only [v, u, typesAfter, getElem?_tab, hb, if_true, ha, hf]
          simp [hit]

/-- C58 for Stokes and Navier-Stokes solvers: whenever setting such a problem succeeds, the result
is the same whatever happened before. -/
theorem stokes_latest {zero : F} {s s' : BC F} (hw : Wf s) (hw' : Wf s') (hn : s.attrs ≠ [])
    (hsame : s'.attrs = s.attrs) {p : Problem F} (hp : p.types.length = p.battr.length)
    (hall : ∀ a ∈ s.attrs, a ∈ p.battr) {r r' : BC F × Option (List Bool)}
    (h : setProblemStokes zero s p = .ok r) (h' : setProblemStokes zero s' p = .ok r') :
    r = r' := by
  obtain ⟨t, nz⟩ := r
  obtain ⟨t', nz'⟩ := r'
  have hn' : s'.attrs ≠ [] := by rw [hsame]; exact hn
  have c := pressureFlag_correct hw hn h
  have c' := pressureFlag_correct hw' hn' h'
  obtain ⟨u, hu, hr, hc⟩ := setProblemStokes_inv h
  obtain ⟨u', hu', hr', hc'⟩ := setProblemStokes_inv h'
  rw [setTypes_eq hw hp] at hu
  rw [setTypes_eq hw' hp] at hu'
  have eu := Except.ok.inj hu
  have eu' := Except.ok.inj hu'
  have hty : typesAfter s'.attrs s'.types p = typesAfter s.attrs s.types p := by
    rw [hsame]
    apply tab_congr
    intro b hb
    rw [List.getElem?_eq_getElem hb]
    dsimp only
    cases hf : p.battr.findIdx? (· == s.attrs[b]) with
    | some i => rfl
    | none =>
      simp only [List.findIdx?_eq_none_iff, beq_eq_false_iff_ne] at hf
      exact absurd rfl (hf _ (hall _ (List.getElem_mem hb)))
  have hwu : Wf (F := F) { u with coeffs := List.replicate u.coeffs.length none } := by
    rw [← eu]; exact ⟨by simpa using hw.1, by simp⟩
  have hwu' : Wf (F := F) { u' with coeffs := List.replicate u'.coeffs.length none } := by
    rw [← eu']; exact ⟨by simpa using hw'.1, by simp⟩
  rw [runAdds_stokes hwu (by rw [← eu]; exact hn)] at hr
  rw [runAdds_stokes hwu' (by rw [← eu']; exact hn')] at hr'
  have et := Except.ok.inj hr
  have et' := Except.ok.inj hr'
  dsimp only at et et'
  have hat : t.attrs = t'.attrs := by rw [← et, ← et', ← eu, ← eu']; exact hsame.symm
  have hco : t.coeffs = t'.coeffs := by
    rw [← et, ← et', ← eu, ← eu']
    dsimp only
    rw [hsame, hw.1, hw'.1, hsame]
  have htt : t.types = t'.types := by
    rw [← et, ← et', ← eu, ← eu']
    exact hty.symm
  have hflag : t.presDbc = t'.presDbc := by
    have e : t.presDbc = true ↔ t'.presDbc = true := by
      rw [c.1, c'.1, hat, hco]
    cases h1 : t.presDbc <;> cases h2 : t'.presDbc <;> simp_all
  have hnz : nz = nz' := by
    rcases hc with ⟨hp1, hn1⟩ | ⟨hp1, nz1, hs1, hz1, _⟩ <;>
      rcases hc' with ⟨hp2, hn2⟩ | ⟨hp2, nz2, hs2, hz2, _⟩
    · exact (show nz = none from hn1).trans (show nz' = none from hn2).symm
    · exact absurd (hflag ▸ hp1 : t'.presDbc = true) (by
        have : t'.presDbc = false := hp2
        simp [this])
    · exact absurd (hflag ▸ hp2 : t.presDbc = true) (by
        have : t.presDbc = false := hp1
        simp [this])
    · have hz1' : nzDbcs t'.attrs.length p = .ok nz1 := by rw [← hat]; exact hz1
      have hz2' : nzDbcs t'.attrs.length p = .ok nz2 := hz2
      rw [hz1'] at hz2'
      have e : nz1 = nz2 := by simpa using hz2'
      exact ((show nz = some nz1 from hs1).trans (by rw [e])).trans (show nz' = some nz2 from hs2).symm
  have heq : t = t' := by
    obtain ⟨a1, b1, c1, d1⟩ := t
    obtain ⟨a2, b2, c2, d2⟩ := t'
    simp only at hat hco htt hflag
    subst hat hco htt hflag
    rfl
  rw [heq, hnz]

/-- C58, negation: an entry for all boundaries (attribute `-1`) never changes the types, so a Neumann
type of an earlier problem survives and the new function is not imposed. -/
theorem default_entry_keeps_types :
    (setProblemPoisson (0 : Int) (setupBCVariables [1]) ⟨[1], [.neumann], [none]⟩ >>= fun s =>
      setProblemPoisson 0 s ⟨[-1], [.dirichlet], [some 7]⟩ >>= fun s => do
        let r ← rhsBC s [1]
        .ok (s.coeffs, r)) = .ok ([some 7], []) ∧
    (setProblemPoisson (0 : Int) (setupBCVariables [1]) ⟨[-1], [.dirichlet], [some 7]⟩ >>= fun s => do
        let r ← rhsBC s [1]
        .ok (s.coeffs, r)) = .ok ([some 7], [(0, 7)]) := by decide

/-- C58, negation: the elasticity solver keeps the functions of earlier problems: a traction of the
first problem is still applied under the second, which has none. -/
theorem elast_keeps_functions :
    (setProblemLinElast (setupBCVariables [1]) ⟨[1], [.neumann], [some (7 : Int)]⟩ >>= fun s =>
      setProblemLinElast s ⟨[1], [.neumann], [none]⟩ >>= fun s => rhsElast s [1]) =
        .ok [(0, .traction 7)] ∧
    (setProblemLinElast (setupBCVariables [1]) ⟨[1], [.neumann], [(none : Option Int)]⟩ >>= fun s =>
      rhsElast s [1]) = .ok [] := by decide

example : (setProblemPoisson (0 : Int) (setupBCVariables [2, 1])
    ⟨[1, 2], [.neumann, .dirichlet], [none, some 4]⟩).map (fun s => (s.coeffs, s.types)) =
    .ok ([some 4, none], [.dirichlet, .neumann]) := by decide

end

/-- **C57.** The elasticity solver never accepts a problem with a Dirichlet entry without function. -/
theorem elast_missing_function {F : Type} (s t : BC F) (p : Problem F)
    (h : setProblemLinElast s p = .ok t) (b : Nat) (hb : b < p.battr.length)
    (hd : p.types[b]? = some .dirichlet) : ∃ f, p.ptr[b]? = some (some f) := by
  unfold setProblemLinElast at h
  obtain ⟨s', -, h⟩ := bind_eq_ok.mp h
  refine loop_inv (fun n _ => ∀ b, b < n → p.types[b]? = some .dirichlet →
    ∃ f, p.ptr[b]? = some (some f)) (by intro b hb; omega) ?_ h b hb hd
  intro j u v hj ih hv b hb hd
  rcases Nat.lt_or_ge b j with hlt | hge
  · exact ih b hlt hd
  · have : b = j := by omega
    subst this
    obtain ⟨ty, h1, hv⟩ := bind_eq_ok.mp hv
    obtain ⟨fo, h2, hv⟩ := bind_eq_ok.mp hv
    obtain ⟨_, h3, -⟩ := bind_eq_ok.mp hv
    have e1 := rd_eq_ok.mp h1
    rw [hd] at e1
    cases e1
    have e2 := rd_eq_ok.mp h2
    cases fo with
    | none => simp [require] at h3
    | some f => exact ⟨f, e2⟩

example : (setProblemLinElast (setupBCVariables [1]) ⟨[1], [.dirichlet], [some (7 : Int)]⟩).isOk ∧
    setProblemLinElast (setupBCVariables [1]) ⟨[1], [.dirichlet], [(none : Option Int)]⟩ =
      .error .abort := ⟨rfl, rfl⟩

end Verif.Boundary
