import Verif.Proofs.Problems

/-!
# The problems: the properties

C104 (each problem prescribes the conditions its description states).
-/

namespace Verif.Problems

open Verif Verif.Boundary Verif.Params Verif.Problems.Spec

/-- The value a condition prescribes. -/
def valueOf : Cond → Option Fn
  | .value f => some f
  | _ => none

/-- The elasticity term a condition asks for. -/
def termOf : Cond → Option (ElastRhs Fn)
  | .value f => some (.dirichlet f)
  | .load f => some (.traction f)
  | .natural => none

theorem valueOf_iff {c : Cond} {f : Fn} : valueOf c = some f ↔ c = .value f := by
  cases c <;> simp [valueOf]

/-- What is fixed about the boundary data of a problem while parameters are set. -/
def Shape (name : String) (p q : Problem Fn) : Prop :=
  if name = "poisson_component" then q.types = p.types ∧ q.ptr = p.ptr ∧ q.battr.length = 1
  else if name = "flow_past_array" ∨ name = "advdiff_flow_past_array" then
    q.battr = p.battr ∧ q.ptr = p.ptr ∧ q.types.length = 5 ∧ q.types[4]? = p.types[4]?
  else q = p

/-- The boundary data the last call of `SetParams` leaves. -/
theorem setCalls_last {name : String} {t : Table} {p : Problem Fn} (hp : Shape name p p)
    (hstep : ∀ m q q', Shape name p q → setBattr name m q = .ok q' → Shape name p q')
    (calls : List Params.Call) {m0 m : Mem} {q : Problem Fn}
    (h : setCalls name t calls (m0, p) = .ok (m, q)) :
    Shape name p q ∧ (calls = [] → q = p) ∧
      (calls ≠ [] → ∃ q', Shape name p q' ∧ setBattr name m q' = .ok q) := by
  induction calls using List.reverseRecOn generalizing m q with
  | nil =>
    have e := Except.ok.inj h
    simp only [Prod.mk.injEq] at e
    rw [← e.2]
    exact ⟨hp, fun _ => rfl, fun h => absurd rfl h⟩
  | append_singleton cs c ih =>
    unfold setCalls at h
    rw [List.foldlM_append] at h
    obtain ⟨⟨m1, q1⟩, h1, h⟩ := bind_eq_ok.1 h
    have i := ih h1
    simp only [List.foldlM_cons, List.foldlM_nil] at h
    obtain ⟨⟨m2, q2⟩, h2, h⟩ := bind_eq_ok.1 h
    have e := Except.ok.inj h
    simp only [Prod.mk.injEq] at e
    unfold setCall at h2
    obtain ⟨m3, q3, h3, h2⟩ : ∃ m3 q3, setBattr name m3 q1 = .ok q3 ∧
        (.ok (m3, q3) : Outcome (Mem × Problem Fn)) = .ok (m2, q2) := by
      cases c with
      | one k v =>
        obtain ⟨m3, -, h2⟩ := bind_eq_ok.1 h2
        obtain ⟨q3, h3, h2⟩ := bind_eq_ok.1 h2
        exact ⟨m3, q3, h3, h2⟩
      | many i v =>
        obtain ⟨m3, -, h2⟩ := bind_eq_ok.1 h2
        obtain ⟨q3, h3, h2⟩ := bind_eq_ok.1 h2
        exact ⟨m3, q3, h3, h2⟩
    have e2 := Except.ok.inj h2
    simp only [Prod.mk.injEq] at e2
    obtain ⟨rfl, rfl⟩ := e
    obtain ⟨rfl, rfl⟩ := e2
    exact ⟨hstep _ _ _ i.1 h3, fun h => by simp at h, fun _ => ⟨q1, i.1, h3⟩⟩

theorem five {α : Type} {l : List α} (h : l.length = 5) : ∃ a b c d e, l = [a, b, c, d, e] := by
  match l, h with
  | [a, b, c, d, e], _ => exact ⟨a, b, c, d, e, rfl⟩

theorem arrayBattr_eq (m : Mem) (a b c d e : BdrType) : arrayBattr m [a, b, c, d, e] = .ok
    [if 0 < m "component_flow::u0[1]" then .dirichlet else .neumann,
      if 0 < m "component_flow::u0[0]" then .neumann else .dirichlet,
      if 0 < m "component_flow::u0[1]" then .neumann else .dirichlet,
      if 0 < m "component_flow::u0[0]" then .dirichlet else .neumann, e] := by
  unfold arrayBattr inflow
  by_cases h0 : 0 < m "component_flow::u0[0]" <;> by_cases h1 : 0 < m "component_flow::u0[1]" <;>
    simp only [h0, h1, if_true, if_false] <;> rfl

theorem shape_step {name : String} {p : Problem Fn} (m : Mem) (q q' : Problem Fn)
    (hs : Shape name p q) (h : setBattr name m q = .ok q') : Shape name p q' := by
  unfold Shape setBattr at *
  by_cases h1 : name = "poisson_component"
  · rw [if_pos h1] at hs h ⊢
    obtain ⟨b, -, h⟩ := bind_eq_ok.1 h
    have e := Except.ok.inj h
    rw [← e]
    exact ⟨hs.1, hs.2.1, by simp⟩
  · rw [if_neg h1] at hs h ⊢
    by_cases h2 : name = "flow_past_array" ∨ name = "advdiff_flow_past_array"
    · rw [if_pos h2] at hs h ⊢
      obtain ⟨ty, ht, h⟩ := bind_eq_ok.1 h
      obtain ⟨a, b, c, d, e, he⟩ := five hs.2.2.1
      rw [he, arrayBattr_eq] at ht
      have e1 := Except.ok.inj h
      have e2 := Except.ok.inj ht
      rw [← e1, ← e2]
      refine ⟨hs.1, hs.2.1, rfl, ?_⟩
      rw [← hs.2.2.2, he]
      rfl
    · rw [if_neg h2] at hs h ⊢
      have e := Except.ok.inj h
      rw [← e, hs]

/-- The boundary data of a problem after parameters have been set any number of times. -/
theorem reached {name : String} {p : Built} (hp : initProblem name = .ok p) {t : Table}
    {calls : List Params.Call} {m0 m : Mem} {q : Problem Fn}
    (h : setCalls name t calls (m0, p.boundary) = .ok (m, q)) :
    (name = "poisson_component" → ∃ b, q = ⟨[b], [.dirichlet], [some .componentBdr]⟩ ∧
      (if calls ≠ [] ∧ 0 ≤ m "poisson_component::bdr_idx" then
        b = 1 + (m "poisson_component::bdr_idx").floor ∧ 1 ≤ b ∧ b ≤ 4 else b = -1)) ∧
    ((name = "flow_past_array" ∨ name = "advdiff_flow_past_array") →
      q = if calls = [] then p.boundary else { p.boundary with types :=
        [if 0 < m "component_flow::u0[1]" then .dirichlet else .neumann,
          if 0 < m "component_flow::u0[0]" then .neumann else .dirichlet,
          if 0 < m "component_flow::u0[1]" then .neumann else .dirichlet,
          if 0 < m "component_flow::u0[0]" then .dirichlet else .neumann,
          if name = "flow_past_array" then .zero else .neumann] }) ∧
    (name ≠ "poisson_component" → ¬ (name = "flow_past_array" ∨ name = "advdiff_flow_past_array") →
      q = p.boundary) := by
  have hshape : Shape name p.boundary p.boundary := by
    unfold Shape
    by_cases h1 : name = "poisson_component"
    · rw [if_pos h1]
      subst h1
      rw [← Except.ok.inj hp]
      exact ⟨rfl, rfl, rfl⟩
    · rw [if_neg h1]
      split
      · rename_i h2
        rcases h2 with rfl | rfl <;> rw [← Except.ok.inj hp] <;> exact ⟨rfl, rfl, rfl, rfl⟩
      · rfl
  obtain ⟨hq, hnil, hcons⟩ := setCalls_last hshape (fun m q q' => shape_step m q q') calls h
  refine ⟨?_, ?_, ?_⟩
  · intro hname
    have hpb : p.boundary = ⟨[-1], [.dirichlet], [some .componentBdr]⟩ := by
      subst hname; rw [← Except.ok.inj hp]; rfl
    by_cases hc : calls = []
    · refine ⟨-1, by rw [hnil hc, hpb], ?_⟩
      rw [if_neg (fun hh => hh.1 hc)]
    · obtain ⟨q', hs, hb⟩ := hcons hc
      unfold Shape at hs
      unfold setBattr at hb
      rw [if_pos hname] at hs hb
      obtain ⟨b, hb1, hb⟩ := bind_eq_ok.1 hb
      have e := Except.ok.inj hb
      refine ⟨b, ?_, ?_⟩
      · rw [← e, hs.1, hs.2.1, hpb]
        rfl
      · unfold componentBattr at hb1
        by_cases hi : 0 ≤ m "poisson_component::bdr_idx"
        · rw [if_pos ⟨hc, hi⟩]
          simp only [if_pos hi] at hb1
          obtain ⟨_, hr, hb1⟩ := bind_eq_ok.1 hb1
          have e1 := Except.ok.inj hb1
          unfold require at hr
          split at hr
          · rename_i hcond
            simp only [Bool.and_eq_true, decide_eq_true_eq] at hcond
            exact ⟨e1.symm, by omega, by omega⟩
          · cases hr
        · rw [if_neg (fun hh => hi hh.2)]
          simp only [if_neg hi] at hb1
          exact (Except.ok.inj hb1).symm
  · intro hname
    have hne : name ≠ "poisson_component" := by rcases hname with rfl | rfl <;> decide
    by_cases hc : calls = []
    · rw [if_pos hc, hnil hc]
    · rw [if_neg hc]
      obtain ⟨q', hs, hb⟩ := hcons hc
      unfold Shape at hs
      unfold setBattr at hb
      rw [if_neg hne, if_pos hname] at hs hb
      obtain ⟨ty, ht, hb⟩ := bind_eq_ok.1 hb
      obtain ⟨a1, a2, a3, a4, a5, he⟩ := five hs.2.2.1
      rw [he, arrayBattr_eq] at ht
      have e1 := Except.ok.inj hb
      have e2 := Except.ok.inj ht
      have h5 : a5 = if name = "flow_past_array" then .zero else .neumann := by
        have := hs.2.2.2
        rw [he] at this
        rcases hname with rfl | rfl
        · rw [← Except.ok.inj hp] at this
          exact Option.some.inj this
        · rw [← Except.ok.inj hp] at this
          exact Option.some.inj this
      rw [← e1, ← e2, h5, hs.1, hs.2.1]
  · intro h1 h2
    unfold Shape at hq
    rw [if_neg h1, if_neg h2] at hq
    exact hq

/-- Functions and types of a scalar or flow problem agree with the table of conditions. -/
def Agrees (q : Problem Fn) (a : Int) (c : Cond) : Prop :=
  Verif.Spec.lastFor (Verif.Spec.problemCalls .zero q) a = valueOf c ∧
    (typeOf q a = .neumann → valueOf c = none)

theorem Agrees.weak {q : Problem Fn} {a : Int} {c : Cond} (h : Agrees q a c) :
    weakCond .zero q a = valueOf c := by
  unfold weakCond
  rw [h.1]
  cases hv : valueOf c with
  | none => rfl
  | some f =>
    dsimp only
    rw [if_neg]
    intro hn
    rw [h.2 hn] at hv
    cases hv

theorem agrees_outside {q : Problem Fn} {a : Int} (hpos : ∀ c ∈ q.battr, 0 < c) (h : a ∉ q.battr)
    {c : Cond} (hc : valueOf c = none) : Agrees q a c := by
  refine ⟨?_, fun _ => hc⟩
  have := weakCond_outside (zero := Fn.zero) hpos h
  rw [weakCond, typeOf_outside h] at this
  rw [hc]
  split at this
  · simp at this
  · assumption

theorem mem_oneTo5 {a : Int} : a ∈ oneTo 5 ↔ a = 1 ∨ a = 2 ∨ a = 3 ∨ a = 4 ∨ a = 5 := by
  have : oneTo 5 = [1, 2, 3, 4, 5] := by decide
  rw [this]
  simp

theorem agrees_all {n : Int} (hn : n = -1) {ty : BdrType} {fo : Option Fn} {f : Fn} (a : Int)
    (h : (ty = .dirichlet ∧ fo = some f) ∨ (ty = .zero ∧ f = .zero)) :
    Agrees ⟨[n], [ty], [fo]⟩ a (.value f) := by
  subst hn
  rcases h with ⟨rfl, rfl⟩ | ⟨rfl, rfl⟩
  · refine ⟨by simp [Verif.Spec.lastFor, Verif.Spec.problemCalls, Verif.Spec.Addresses, valueOf], ?_⟩
    intro h
    unfold typeOf at h
    split at h
    · rename_i i hi
      have : i = 0 := by
        have := (List.findIdx?_eq_some_iff_getElem.1 hi).1
        simpa using this
      subst this
      simp at h
    · cases h
  · refine ⟨by simp [Verif.Spec.lastFor, Verif.Spec.problemCalls, Verif.Spec.Addresses, valueOf], ?_⟩
    intro h
    unfold typeOf at h
    split at h
    · rename_i i hi
      have : i = 0 := by
        have := (List.findIdx?_eq_some_iff_getElem.1 hi).1
        simpa using this
      subst this
      simp at h
    · cases h

instance (q : Problem Fn) (a : Int) (c : Cond) : Decidable (Agrees q a c) := by
  unfold Agrees; infer_instance

/-- Validity in terms of the entries. -/
theorem valid_iff {q : Problem Fn} : q.Valid ↔ q.types.length = q.battr.length ∧
    q.ptr.length = q.battr.length ∧
    ∀ b < q.battr.length, q.types[b]? = some .dirichlet → ((q.ptr[b]?).getD none).isSome := by
  unfold Problem.Valid
  refine and_congr_right fun h1 => and_congr_right fun h2 => ?_
  constructor
  · intro h b _ hd
    obtain ⟨f, hf⟩ := h b hd
    simp [hf]
  · intro h b hd
    have hb : b < q.battr.length := by
      have := (List.getElem?_eq_some_iff.1 hd).1
      omega
    have := h b hb hd
    have hbp : b < q.ptr.length := by omega
    rw [List.getElem?_eq_getElem hbp] at this ⊢
    exact ⟨_, congrArg some (Option.some_get this).symm⟩

instance (q : Problem Fn) : Decidable q.Valid := decidable_of_iff' _ valid_iff

/-- A table of conditions is checked boundary by boundary, and for all other attributes at once. -/
theorem agrees_table {q : Problem Fn} (cond : Int → Cond) (hpos : ∀ c ∈ q.battr, 1 ≤ c ∧ c ≤ 5)
    (h : ∀ a ∈ [(1 : Int), 2, 3, 4, 5], Agrees q a (cond a))
    (hout : ∀ a, ¬ (1 ≤ a ∧ a ≤ 5) → valueOf (cond a) = none) (a : Int) : Agrees q a (cond a) := by
  by_cases ha : 1 ≤ a ∧ a ≤ 5
  · have : a = 1 ∨ a = 2 ∨ a = 3 ∨ a = 4 ∨ a = 5 := by omega
    exact h a (by simpa using this)
  · exact agrees_outside (fun c hc => by have := hpos c hc; omega) (fun hm => ha (hpos a hm)) (hout a ha)

/-- The scalar and flow problems agree with their descriptions, except for the bottom of the lid-driven
cavity. -/
theorem agrees {name : String} (hn : name ∈ scalarProblems ++ flowProblems) {p : Built}
    (hp : initProblem name = .ok p) {t : Table} {calls : List Params.Call} {m0 m : Mem} {q : Problem Fn}
    (h : setCalls name t calls (m0, p.boundary) = .ok (m, q)) (a : Int)
    (hx : ¬ (name = "lid_driven_cavity" ∧ a = 1)) :
    q.Valid ∧ Agrees q a (condition name (!calls.isEmpty) m a) := by
  obtain ⟨hcomp, harr, hrest⟩ := reached hp h
  simp only [scalarProblems, flowProblems, List.cons_append, List.nil_append, List.mem_cons,
    List.not_mem_nil, or_false] at hn
  rcases hn with rfl | rfl | rfl | rfl | rfl | rfl | rfl | rfl | rfl | rfl | rfl
  · -- poisson0
    rw [hrest (by decide) (by decide), ← Except.ok.inj hp]
    exact ⟨⟨rfl, rfl, by intro b; rcases b with _ | b <;> simp [poisson0]⟩,
      agrees_all rfl a (.inr ⟨rfl, rfl⟩)⟩
  · -- poisson_component
    obtain ⟨b, hq, hb⟩ := hcomp rfl
    rw [hq]
    refine ⟨⟨rfl, rfl, fun k hk => ?_⟩, ?_⟩
    · rcases k with _ | k
      · exact ⟨_, rfl⟩
      · simp at hk
    have hcond : condition "poisson_component" (!calls.isEmpty) m a =
        if (!calls.isEmpty) = true ∧ 0 ≤ m "poisson_component::bdr_idx" then
          if a = 1 + (m "poisson_component::bdr_idx").floor then .value .componentBdr else .natural
        else .value .componentBdr := rfl
    rw [hcond]
    have hne : (!calls.isEmpty) = true ↔ calls ≠ [] := by cases calls <;> simp
    by_cases hc : calls ≠ [] ∧ 0 ≤ m "poisson_component::bdr_idx"
    · rw [if_pos hc] at hb
      rw [if_pos ⟨hne.2 hc.1, hc.2⟩]
      by_cases ha : a = 1 + (m "poisson_component::bdr_idx").floor
      · rw [if_pos ha]
        have : a = b := by rw [ha, hb.1]
        subst this
        refine ⟨?_, ?_⟩
        · simp [Verif.Spec.lastFor, Verif.Spec.problemCalls, Verif.Spec.Addresses, valueOf]
        · intro ht
          simp [typeOf] at ht
      · rw [if_neg ha]
        refine agrees_outside (by intro c hc; simp only [List.mem_singleton] at hc; omega) ?_ rfl
        simp only [List.mem_singleton]
        rw [hb.1]
        exact ha
    · rw [if_neg hc] at hb
      rw [if_neg (fun hh => hc ⟨hne.1 hh.1, hh.2⟩)]
      exact agrees_all hb a (.inl ⟨rfl, rfl⟩)
  · -- poisson_spiral
    rw [hrest (by decide) (by decide), ← Except.ok.inj hp]
    exact ⟨⟨rfl, rfl, by intro b; rcases b with _ | b <;> simp [poissonSpiral]⟩,
      agrees_all rfl a (.inr ⟨rfl, rfl⟩)⟩
  · -- advdiff_flow_past_array
    have hq := harr (.inr rfl)
    rw [← Except.ok.inj hp] at hq
    have hcond : condition "advdiff_flow_past_array" (!calls.isEmpty) m a =
        if !calls.isEmpty then array .qbdr .natural m a
        else if 1 ≤ a ∧ a ≤ 4 then .value .qbdr else .natural := rfl
    rw [hcond]
    by_cases hc : calls = []
    · rw [if_pos hc] at hq
      rw [hq, hc]
      exact ⟨by decide, agrees_table (fun a => if 1 ≤ a ∧ a ≤ 4 then .value .qbdr else .natural)
        (by decide +kernel) (by decide +kernel) (fun a ha => by simp (disch := omega) only [if_neg, valueOf]) a⟩
    · rw [if_neg hc] at hq
      have hne : (!calls.isEmpty) = true := by cases calls <;> simp_all
      rw [if_pos hne, hq]
      by_cases h0 : 0 < m "component_flow::u0[0]" <;> by_cases h1 : 0 < m "component_flow::u0[1]" <;>
        (unfold array
         simp only [h0, h1, if_true, if_false])
      · exact ⟨by decide, agrees_table (fun a => if a = 4 then .value .qbdr else if a = 2 then .natural
          else if a = 1 then .value .qbdr else if a = 3 then .natural
          else if a = 5 then .natural else .natural)
          (by decide +kernel) (by decide +kernel) (fun a ha => by simp (disch := omega) only [if_neg, valueOf]) a⟩
      · exact ⟨by decide, agrees_table (fun a => if a = 4 then .value .qbdr else if a = 2 then .natural
          else if a = 1 then .natural else if a = 3 then .value .qbdr
          else if a = 5 then .natural else .natural)
          (by decide +kernel) (by decide +kernel) (fun a ha => by simp (disch := omega) only [if_neg, valueOf]) a⟩
      · exact ⟨by decide, agrees_table (fun a => if a = 4 then .natural else if a = 2 then .value .qbdr
          else if a = 1 then .value .qbdr else if a = 3 then .natural
          else if a = 5 then .natural else .natural)
          (by decide +kernel) (by decide +kernel) (fun a ha => by simp (disch := omega) only [if_neg, valueOf]) a⟩
      · exact ⟨by decide, agrees_table (fun a => if a = 4 then .natural else if a = 2 then .value .qbdr
          else if a = 1 then .natural else if a = 3 then .value .qbdr
          else if a = 5 then .natural else .natural)
          (by decide +kernel) (by decide +kernel) (fun a ha => by simp (disch := omega) only [if_neg, valueOf]) a⟩
  · -- channel_flow
    rw [hrest (by decide) (by decide), ← Except.ok.inj hp]
    refine ⟨by decide, ?_⟩
    exact agrees_table (q := channelFlow.boundary) (fun a => if a = 4 then .value .channelU
      else if a = 1 ∨ a = 3 ∨ a = 5 then .value .zero else .natural)
      (by decide +kernel) (by decide +kernel) (fun a ha => by simp (disch := omega) only [if_neg, valueOf]) a
  · -- component_flow
    rw [hrest (by decide) (by decide), ← Except.ok.inj hp]
    refine ⟨by decide, ?_⟩
    exact agrees_table (q := componentFlow.boundary) (fun a => if a = 5 then .value .zero
      else if 1 ≤ a ∧ a ≤ 4 then .value .componentU else .natural)
      (by decide +kernel) (by decide +kernel) (fun a ha => by simp (disch := omega) only [if_neg, valueOf]) a
  · -- flow_past_array
    have hq := harr (.inl rfl)
    rw [← Except.ok.inj hp] at hq
    have hcond : condition "flow_past_array" (!calls.isEmpty) m a =
        if !calls.isEmpty then array .componentU (.value .zero) m a
        else if a = 5 then .value .zero else if 1 ≤ a ∧ a ≤ 4 then .value .componentU
        else .natural := rfl
    rw [hcond]
    by_cases hc : calls = []
    · rw [if_pos hc] at hq
      rw [hq, hc]
      exact ⟨by decide, agrees_table (fun a => if a = 5 then .value .zero
        else if 1 ≤ a ∧ a ≤ 4 then .value .componentU else .natural)
        (by decide +kernel) (by decide +kernel) (fun a ha => by simp (disch := omega) only [if_neg, valueOf]) a⟩
    · rw [if_neg hc] at hq
      have hne : (!calls.isEmpty) = true := by cases calls <;> simp_all
      rw [if_pos hne, hq]
      by_cases h0 : 0 < m "component_flow::u0[0]" <;> by_cases h1 : 0 < m "component_flow::u0[1]" <;>
        (unfold array
         simp only [h0, h1, if_true, if_false])
      · exact ⟨by decide, agrees_table (fun a => if a = 4 then .value .componentU else if a = 2 then .natural
          else if a = 1 then .value .componentU else if a = 3 then .natural
          else if a = 5 then .value .zero else .natural)
          (by decide +kernel) (by decide +kernel) (fun a ha => by simp (disch := omega) only [if_neg, valueOf]) a⟩
      · exact ⟨by decide, agrees_table (fun a => if a = 4 then .value .componentU else if a = 2 then .natural
          else if a = 1 then .natural else if a = 3 then .value .componentU
          else if a = 5 then .value .zero else .natural)
          (by decide +kernel) (by decide +kernel) (fun a ha => by simp (disch := omega) only [if_neg, valueOf]) a⟩
      · exact ⟨by decide, agrees_table (fun a => if a = 4 then .natural else if a = 2 then .value .componentU
          else if a = 1 then .value .componentU else if a = 3 then .natural
          else if a = 5 then .value .zero else .natural)
          (by decide +kernel) (by decide +kernel) (fun a ha => by simp (disch := omega) only [if_neg, valueOf]) a⟩
      · exact ⟨by decide, agrees_table (fun a => if a = 4 then .natural else if a = 2 then .value .componentU
          else if a = 1 then .natural else if a = 3 then .value .componentU
          else if a = 5 then .value .zero else .natural)
          (by decide +kernel) (by decide +kernel) (fun a ha => by simp (disch := omega) only [if_neg, valueOf]) a⟩
  · -- backward_facing_step
    rw [hrest (by decide) (by decide), ← Except.ok.inj hp]
    refine ⟨by decide, ?_⟩
    exact agrees_table (q := backwardFacingStep.boundary) (fun a => if a = 1 then .value .stepU
      else if a = 2 then .value .zero else .natural)
      (by decide +kernel) (by decide +kernel) (fun a ha => by simp (disch := omega) only [if_neg, valueOf]) a
  · -- lid_driven_cavity
    rw [hrest (by decide) (by decide), ← Except.ok.inj hp]
    refine ⟨by decide, ?_⟩
    have ha1 : a ≠ 1 := fun e => hx ⟨rfl, e⟩
    have := agrees_table (q := lidDrivenCavity.boundary) (fun a => if a = 1 ∨ a = 3 then .value .lidU
      else if 1 ≤ a ∧ a ≤ 5 then .value .zero else .natural) (by decide +kernel) (by decide +kernel)
      (fun a ha => by simp (disch := omega) only [if_neg, valueOf]) a
    change Agrees lidDrivenCavity.boundary a (if a = 3 then .value .lidU
      else if 1 ≤ a ∧ a ≤ 5 then .value .zero else .natural)
    simpa only [ha1, false_or] using this
  · -- force_driven_corner
    rw [hrest (by decide) (by decide), ← Except.ok.inj hp]
    refine ⟨by decide, ?_⟩
    exact agrees_table (q := forceDrivenCorner.boundary)
      (fun a => if a = 1 ∨ a = 2 ∨ a = 5 then .value .zero else .natural)
      (by decide +kernel) (by decide +kernel) (fun a ha => by simp (disch := omega) only [if_neg, valueOf]) a
  · -- periodic_flow_past_array
    rw [hrest (by decide) (by decide), ← Except.ok.inj hp]
    refine ⟨by decide, ?_⟩
    exact agrees_table (q := periodicFlowPastArray.boundary) (fun a => if a = 5 then .value .zero else .natural)
      (by decide +kernel) (by decide +kernel) (fun a ha => by simp (disch := omega) only [if_neg, valueOf]) a

/-- The elasticity problems agree with their descriptions, except for the third boundary of
`linelast_disp`. -/
theorem elast_agrees {name : String} (hn : name ∈ elasticityProblems) {p : Built}
    (hp : initProblem name = .ok p) {t : Table} {calls : List Params.Call} {m0 m : Mem} {q : Problem Fn}
    (h : setCalls name t calls (m0, p.boundary) = .ok (m, q)) (a : Int) :
    q.Valid ∧ (¬ (name = "linelast_disp" ∧ a = 3) →
      elastCond q a = termOf (condition name (!calls.isEmpty) m a)) := by
  have hrest := (reached hp h).2.2
  have tab : ∀ (cond : Int → Cond) (q : Problem Fn), (∀ c ∈ q.battr, 1 ≤ c ∧ c ≤ 5) →
      (∀ a ∈ [(1 : Int), 2, 3, 4, 5], elastCond q a = termOf (cond a)) →
      (∀ a, ¬ (1 ≤ a ∧ a ≤ 5) → termOf (cond a) = none) → ∀ a, elastCond q a = termOf (cond a) := by
    intro cond q hpos h hout a
    by_cases ha : 1 ≤ a ∧ a ≤ 5
    · have : a = 1 ∨ a = 2 ∨ a = 3 ∨ a = 4 ∨ a = 5 := by omega
      exact h a (by simpa using this)
    · rw [elastCond_outside (fun hm => ha (hpos a hm)), hout a ha]
  simp only [elasticityProblems, List.mem_cons, List.not_mem_nil, or_false] at hn
  rcases hn with rfl | rfl | rfl | rfl | rfl | rfl
  · rw [hrest (by decide) (by decide), ← Except.ok.inj hp]
    refine ⟨by decide, fun hx => ?_⟩
    have ha3 : a ≠ 3 := fun e => hx ⟨rfl, e⟩
    have := tab (fun a => if a = 1 ∨ a = 2 then .value .initDisp else .natural) linElastDisp.boundary
      (by decide +kernel) (by decide +kernel) (fun a ha => by simp (disch := omega) only [if_neg, termOf]) a
    change elastCond linElastDisp.boundary a = termOf (if a = 1 ∨ a = 2 then .value .initDisp
      else if a = 3 then .value .zero else .natural)
    rw [if_neg ha3]
    exact this
  · rw [hrest (by decide) (by decide), ← Except.ok.inj hp]
    exact ⟨by decide, fun _ => tab (fun a => if a = 1 ∨ a = 2 then .value .initDispCantilever else .natural)
      linElastDispLCantilever.boundary (by decide +kernel) (by decide +kernel)
      (fun a ha => by simp (disch := omega) only [if_neg, termOf]) a⟩
  · rw [hrest (by decide) (by decide), ← Except.ok.inj hp]
    exact ⟨by decide, fun _ => tab (fun a => if a = 2 ∨ a = 4 then .value .initDisp else .natural)
      linElastDispLattice.boundary (by decide +kernel) (by decide +kernel)
      (fun a ha => by simp (disch := omega) only [if_neg, termOf]) a⟩
  · rw [hrest (by decide) (by decide), ← Except.ok.inj hp]
    exact ⟨by decide, fun _ => tab (fun a => if a = 2 then .load .tipForce
      else if a = 4 then .value .initDisp else .natural)
      linElastForceCantilever.boundary (by decide +kernel) (by decide +kernel)
      (fun a ha => by simp (disch := omega) only [if_neg, termOf]) a⟩
  · rw [hrest (by decide) (by decide), ← Except.ok.inj hp]
    exact ⟨by decide, fun _ => tab (fun a => if a = 1 then .load .windLoad
      else if a = 4 then .value .frameFixed else .natural)
      linElastFrameWind.boundary (by decide +kernel) (by decide +kernel)
      (fun a ha => by simp (disch := omega) only [if_neg, termOf]) a⟩
  · rw [hrest (by decide) (by decide), ← Except.ok.inj hp]
    exact ⟨by decide, fun _ => tab (fun a => if a = 1 then .load .downDisp else if a = 2 then .load .rightDisp
      else if a = 3 then .load .upDisp else if a = 4 then .value .leftDisp else .natural)
      linElastComponentWiseTrain.boundary (by decide +kernel) (by decide +kernel)
      (fun a ha => by simp (disch := omega) only [if_neg, termOf]) a⟩

/-!
### C104: each problem prescribes the conditions its description states
-/

/-- **C104** (scalar problems): a new Poisson or advection-diffusion solver accepts the problem, whatever
parameters were set before, and on every mesh it prescribes values exactly on the boundaries the description
names, with the functions named; every prescribed value has its term in the operator. -/
theorem scalar_conditions {name : String} (hn : name ∈ scalarProblems) {p : Built}
    (hp : initProblem name = .ok p) {t : Table} {calls : List Params.Call} {m0 m : Mem} {q : Problem Fn}
    (h : setCalls name t calls (m0, p.boundary) = .ok (m, q)) {attrs : List Int} (ha : attrs ≠ [])
    (hnd : attrs.Nodup) :
    ∃ s, setProblemPoisson .zero (setupBCVariables attrs) q = .ok s ∧ ∀ mesh : List Int,
      ∃ r l, rhsBC s mesh = .ok r ∧ lhsBC s mesh = .ok l ∧ r.map Prod.fst = l.map Prod.fst ∧
        (r.map Prod.fst).Nodup ∧ ∀ b f, (b, f) ∈ r ↔
          ∃ a, attrs[b]? = some a ∧ a ∈ mesh ∧ condition name (!calls.isEmpty) m a = .value f := by
  have hx : ∀ a : Int, ¬ (name = "lid_driven_cavity" ∧ a = 1) := by
    rintro a ⟨rfl, -⟩
    revert hn
    decide
  have hag := fun a => agrees (List.mem_append_left _ hn) hp h a (hx a)
  obtain ⟨s, hs, hm⟩ := fresh_poisson (zero := Fn.zero) ha hnd (hag 0).1
  refine ⟨s, hs, fun mesh => ?_⟩
  obtain ⟨r, l, h1, h2, h3, h4, h5⟩ := hm mesh
  refine ⟨r, l, h1, h2, h3, h4, fun b f => ?_⟩
  rw [h5]
  simp only [(hag _).2.weak, valueOf_iff]

/-- **C104** (flow problems): the same for a new Stokes or Navier-Stokes solver that accepts the problem,
except for the bottom of the lid-driven cavity. -/
theorem flow_conditions_partial {name : String} (hn : name ∈ flowProblems) {p : Built}
    (hp : initProblem name = .ok p) {t : Table} {calls : List Params.Call} {m0 m : Mem} {q : Problem Fn}
    (h : setCalls name t calls (m0, p.boundary) = .ok (m, q)) {attrs : List Int} (ha : attrs ≠ [])
    (hnd : attrs.Nodup) (hlid : name = "lid_driven_cavity" → (1 : Int) ∉ attrs)
    {s : BC Fn} {nz : Option (List Bool)}
    (hs : setProblemStokes .zero (setupBCVariables attrs) q = .ok (s, nz)) (mesh : List Int) :
    ∃ r l, rhsBC s mesh = .ok r ∧ lhsBC s mesh = .ok l ∧ r.map Prod.fst = l.map Prod.fst ∧
      (r.map Prod.fst).Nodup ∧ ∀ b f, (b, f) ∈ r ↔
        ∃ a, attrs[b]? = some a ∧ a ∈ mesh ∧ condition name (!calls.isEmpty) m a = .value f := by
  have hv : q.Valid := (agrees (List.mem_append_right _ hn) hp h 0 (by rintro ⟨-, h0⟩; cases h0)).1
  obtain ⟨r, l, h1, h2, h3, h4, h5⟩ := fresh_stokes ha hnd hv.1 hs mesh
  refine ⟨r, l, h1, h2, h3, h4, fun b f => ?_⟩
  rw [h5]
  refine exists_congr fun a => and_congr_right fun hb => and_congr_right fun _ => ?_
  have hx : ¬ (name = "lid_driven_cavity" ∧ a = 1) := by
    rintro ⟨h1, rfl⟩
    exact hlid h1 (List.mem_of_getElem? hb)
  rw [(agrees (List.mem_append_right _ hn) hp h a hx).2.weak, valueOf_iff]

/-- **C104** (flow problems): a new solver accepts a flow problem as soon as some boundary of the domain has
a prescribed value and either some boundary is open or the domain has as many boundaries as the problem
lists. -/
theorem flow_accepted {name : String} (hn : name ∈ flowProblems) {p : Built}
    (hp : initProblem name = .ok p) {t : Table} {calls : List Params.Call} {m0 m : Mem} {q : Problem Fn}
    (h : setCalls name t calls (m0, p.boundary) = .ok (m, q)) {attrs : List Int}
    (hnd : attrs.Nodup) (hlid : name = "lid_driven_cavity" → (1 : Int) ∉ attrs)
    (hv : ∃ a ∈ attrs, ∃ f, condition name (!calls.isEmpty) m a = .value f)
    (hx : (∃ a ∈ attrs, condition name (!calls.isEmpty) m a = .natural) ∨ q.battr.length ≤ attrs.length) :
    ∃ r, setProblemStokes .zero (setupBCVariables attrs) q = .ok r := by
  have hval : q.Valid := (agrees (List.mem_append_right _ hn) hp h 0 (by rintro ⟨-, h0⟩; cases h0)).1
  have hag : ∀ a ∈ attrs, Agrees q a (condition name (!calls.isEmpty) m a) := by
    intro a ha
    refine (agrees (List.mem_append_right _ hn) hp h a ?_).2
    rintro ⟨h1, rfl⟩
    exact hlid h1 ha
  refine stokes_accepts hnd hval ?_ ?_
  · obtain ⟨a, ha, f, hf⟩ := hv
    refine ⟨a, ha, ?_⟩
    rw [(hag a ha).1, hf]
    rfl
  · rcases hx with ⟨a, ha, hf⟩ | hx
    · refine .inl ⟨a, ha, ?_⟩
      rw [(hag a ha).1, hf]
      rfl
    · exact .inr hx

/-- **C104** (elasticity problems): a new elasticity solver accepts the problem and adds displacement and
traction terms exactly as described, except for the boundary `linelast_disp` calls zero. -/
theorem elasticity_conditions_partial {name : String} (hn : name ∈ elasticityProblems) {p : Built}
    (hp : initProblem name = .ok p) {t : Table} {calls : List Params.Call} {m0 m : Mem} {q : Problem Fn}
    (h : setCalls name t calls (m0, p.boundary) = .ok (m, q)) {attrs : List Int} (ha : attrs ≠ [])
    (hnd : attrs.Nodup) (hdisp : name = "linelast_disp" → (3 : Int) ∉ attrs) :
    ∃ s, setProblemLinElast (setupBCVariables attrs) q = .ok s ∧ ∀ mesh : List Int,
      ∃ r, rhsElast s mesh = .ok r ∧ (r.map Prod.fst).Nodup ∧
        (∀ b f, (b, .dirichlet f) ∈ r ↔
          ∃ a, attrs[b]? = some a ∧ a ∈ mesh ∧ condition name (!calls.isEmpty) m a = .value f) ∧
        ∀ b f, (b, .traction f) ∈ r ↔
          ∃ a, attrs[b]? = some a ∧ a ∈ mesh ∧ condition name (!calls.isEmpty) m a = .load f := by
  have hag := fun a => elast_agrees hn hp h a
  obtain ⟨s, hs, -, -, hm⟩ := fresh_elast ha hnd (hag 0).1
  refine ⟨s, hs, fun mesh => ?_⟩
  obtain ⟨r, h1, h2, h3⟩ := hm mesh
  have hx : ∀ (b : Nat) (a : Int), attrs[b]? = some a → ¬ (name = "linelast_disp" ∧ a = 3) := by
    rintro b a hb ⟨h1, rfl⟩
    exact hdisp h1 (List.mem_of_getElem? hb)
  refine ⟨r, h1, h2, fun b f => ?_, fun b f => ?_⟩
  · rw [h3]
    refine exists_congr fun a => and_congr_right fun hb => and_congr_right fun _ => ?_
    rw [(hag a).2 (hx b a hb)]
    cases condition name (!calls.isEmpty) m a <;> simp [termOf]
  · rw [h3]
    refine exists_congr fun a => and_congr_right fun hb => and_congr_right fun _ => ?_
    rw [(hag a).2 (hx b a hb)]
    cases condition name (!calls.isEmpty) m a <;> simp [termOf]

/-- **C104, negation**: the bottom of the lid-driven cavity, which the description holds still, moves like
the lid. -/
theorem lid_violation (m : Mem) :
    condition "lid_driven_cavity" false m 1 = .value .zero ∧
    (setProblemStokes .zero (setupBCVariables [1, 2, 3, 4, 5]) lidDrivenCavity.boundary >>= fun s =>
      rhsBC s.1 [1, 2, 3, 4, 5]) =
        .ok [(0, .lidU), (1, .zero), (2, .lidU), (3, .zero), (4, .zero)] :=
  ⟨rfl, by decide +kernel⟩

/-- **C104, negation**: the boundary `linelast_disp` declares zero is left free of any condition. -/
theorem disp_violation (m : Mem) :
    condition "linelast_disp" false m 3 = .value .zero ∧
    (setProblemLinElast (setupBCVariables [1, 2, 3]) linElastDisp.boundary >>= fun s => do
      let r ← rhsElast s [1, 2, 3]
      let l ← lhsElast true s [1, 2, 3]
      .ok (r, l)) = .ok ([(0, .dirichlet .initDisp), (1, .dirichlet .initDisp)], [(0, ()), (1, ())]) :=
  ⟨rfl, by decide +kernel⟩

/-- **C104** (volume): the right-hand side of scalar and flow problems is the force of the description; a
time-dependent flow starts from the initial functions of the step and from rest otherwise. -/
theorem volume_terms {name : String} {p : Built} (hp : initProblem name = .ok p) :
    (name ∈ scalarProblems → volumePoisson p = ⟨[force name], []⟩) ∧
    (name ∈ flowProblems → volumeStokes p = ⟨[force name], []⟩ ∧
      volumeUnsteady p = .ok ⟨[force name], if name = "backward_facing_step" then [.stepIc, .stepPressure]
        else [.zero, .zero]⟩) := by
  constructor
  · intro hn
    simp only [scalarProblems, List.mem_cons, List.not_mem_nil, or_false] at hn
    rcases hn with rfl | rfl | rfl | rfl <;> rw [← Except.ok.inj hp] <;> rfl
  · intro hn
    simp only [flowProblems, List.mem_cons, List.not_mem_nil, or_false] at hn
    rcases hn with rfl | rfl | rfl | rfl | rfl | rfl | rfl <;> rw [← Except.ok.inj hp] <;>
      exact ⟨rfl, by decide +kernel⟩

/-- **C104** (volume, elasticity): the same, except for `linelast_cwtrain`; no force means no term. -/
theorem elasticity_volume_partial {name : String} (hn : name ∈ elasticityProblems)
    (hc : name ≠ "linelast_cwtrain") {p : Built} (hp : initProblem name = .ok p) :
    ∃ v, volumeElast p = .ok v ∧ v.rhs = (if force name = .zero then [] else [force name]) ∧
      force name ∉ v.initial := by
  simp only [elasticityProblems, List.mem_cons, List.not_mem_nil, or_false] at hn
  rcases hn with rfl | rfl | rfl | rfl | rfl | rfl <;> rw [← Except.ok.inj hp]
  all_goals first
    | exact absurd rfl hc
    | exact ⟨_, rfl, by decide +kernel, by decide +kernel⟩

/-- **C104, negation**: the body force of `linelast_cwtrain` is not on the right-hand side; the unknowns are
initialised with it instead. -/
theorem body_force_violation : ∃ p, initProblem "linelast_cwtrain" = .ok p ∧
    force "linelast_cwtrain" = .bodyForce ∧ volumeElast p = .ok ⟨[], [.bodyForce]⟩ :=
  ⟨_, rfl, rfl, rfl⟩

/-- **C104**: other names are rejected. -/
theorem unknown_name {name : String} (h : name ∉ scalarProblems ++ flowProblems ++ elasticityProblems) :
    initProblem name = .error .abort := by
  unfold initProblem
  split <;> first | rfl | exact absurd (by decide) h

/-! Non-vacuity. -/

example : ∃ p t q, initProblem "flow_past_array" = .ok p ∧ Params.initProblem "flow_past_array" = .ok t ∧
    setCalls "flow_past_array" t [.one "u0_x" 1, .one "u0_y" (-2)] (fun _ => 0, p.boundary) = .ok q ∧
    q.2.types = [.neumann, .neumann, .dirichlet, .dirichlet, .zero] ∧
    (setProblemStokes .zero (setupBCVariables [1, 2, 3, 4, 5]) q.2 >>= fun s => rhsBC s.1 [5, 4, 1]) =
      .ok [(3, .componentU), (4, .zero)] := by
  refine ⟨_, _, _, rfl, rfl, rfl, by decide +kernel, by decide +kernel⟩

example : (do
    let p ← initProblem "poisson_component"
    let t ← Params.initProblem "poisson_component"
    let q ← setCalls "poisson_component" t [.one "bdr_idx" (5 / 2)] (fun _ => 0, p.boundary)
    let s ← setProblemPoisson Fn.zero (setupBCVariables [1, 2, 3, 4]) q.2
    rhsBC s [1, 2, 3, 4]) = .ok [(2, .componentBdr)] := by decide +kernel

end Verif.Problems
