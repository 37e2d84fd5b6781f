import Verif.Spec.Params
import Verif.Proofs.Basic

/-!
# C56: problem parameters are set by name without cross-talk

`Spec.paramsOf problem` lists the names of the parameters of a problem and the global variables they stand
for.
-/

namespace Verif.Params

open Verif Spec Verif.Boundary

/-- The table leads from the names in `vs` to their variables. -/
def Leads (t : Table) (vs : List (String × String)) : Prop :=
  t.map.map (fun e => (e.1, decide (0 ≤ e.2), t.ptr[e.2.toNat]?)) =
    vs.map fun e => (e.1, true, some (some e.2))

instance (t : Table) (vs : List (String × String)) : Decidable (Leads t vs) := by
  unfold Leads; infer_instance

/-- What is checked for the table of every problem. -/
def Fits (p : String) (vs : List (String × String)) : Prop :=
  match initProblem p with
  | .ok t => Leads t vs ∧ (vs.map Prod.fst).Nodup ∧ (vs.map Prod.snd).Nodup
  | .error _ => False

instance (p : String) (vs : List (String × String)) : Decidable (Fits p vs) := by
  unfold Fits; split <;> infer_instance

theorem fits {p : String} {vs : List (String × String)} (h : paramsOf p = some vs) : Fits p vs := by
  unfold paramsOf at h
  split at h <;> first | (cases h; decide +kernel) | cases h

theorem fits_table {p : String} {vs : List (String × String)} (h : paramsOf p = some vs) :
    ∃ t, initProblem p = .ok t ∧ Leads t vs ∧ (vs.map Prod.fst).Nodup ∧ (vs.map Prod.snd).Nodup := by
  have := fits h
  unfold Fits at this
  split at this
  · rename_i t ht; exact ⟨t, ht, this⟩
  · exact absurd this id

theorem leads_get {t : Table} {vs : List (String × String)} (hl : Leads t vs)
    (hn : (vs.map Prod.fst).Nodup) (key : String) (v : Rat) (m : Mem) :
    (∀ x, (key, x) ∈ vs → setParam t key v m = .ok (m.set x v)) ∧
      ((∀ x, (key, x) ∉ vs) → setParam t key v m = .error .abort) := by
  unfold setParam Leads at *
  generalize hmap : t.map = l at *
  clear hmap
  induction l generalizing vs with
  | nil =>
    cases vs with
    | nil => exact ⟨fun x hx => by simp at hx, fun _ => rfl⟩
    | cons a b => simp at hl
  | cons a l ih =>
    cases vs with
    | nil => simp at hl
    | cons b vs =>
      obtain ⟨n, i⟩ := a
      obtain ⟨n', x'⟩ := b
      simp only [List.map_cons, List.cons.injEq, Prod.mk.injEq, decide_eq_true_eq] at hl
      obtain ⟨⟨h1, h2, h3⟩, h4⟩ := hl
      subst h1
      simp only [List.map_cons, List.nodup_cons] at hn
      obtain ⟨hn1, hn2⟩ := hn
      by_cases hk : n = key
      · subst hk
        have hst : store t i v m = .ok (m.set x' v) := by
          unfold store rdI
          rw [if_pos h2, rd_eq_ok.2 h3]; rfl
        refine ⟨?_, fun h => absurd List.mem_cons_self (h x')⟩
        intro x hx
        rw [List.mem_cons] at hx
        rcases hx with hx | hx
        · cases hx
          simp only [mapGet, if_true]
          exact hst
        · exact absurd (List.mem_map_of_mem (f := Prod.fst) hx) hn1
      · have ih' := ih hn2 h4
        have hg : mapGet key ((n, i) :: l) = mapGet key l := by
          rw [mapGet, if_neg hk]
        rw [hg]
        refine ⟨fun x hx => ?_, fun h => ih'.2 fun x hx => h x (List.mem_cons_of_mem _ hx)⟩
        rw [List.mem_cons] at hx
        rcases hx with hx | hx
        · cases hx; exact absurd rfl hk
        · exact ih'.1 x hx

/-- **C56**: setting a parameter by name writes the variable of that name, and nothing else; an unknown name
aborts. -/
theorem set_spec {p : String} {vs : List (String × String)} (h : paramsOf p = some vs) :
    ∃ t, initProblem p = .ok t ∧ ∀ key v m,
      (∀ x, (key, x) ∈ vs → setParam t key v m = .ok (m.set x v)) ∧
      ((∀ x, (key, x) ∉ vs) → setParam t key v m = .error .abort) := by
  obtain ⟨t, ht, hl, hn, _⟩ := fits_table h
  exact ⟨t, ht, fun key v m => leads_get hl hn key v m⟩

/-- **C56**: names and variables of a problem correspond one to one, so no parameter is touched by setting
another. -/
theorem no_cross_talk {p : String} {vs : List (String × String)} (h : paramsOf p = some vs)
    {k1 k2 x1 x2 : String} (h1 : (k1, x1) ∈ vs) (h2 : (k2, x2) ∈ vs) : k1 = k2 ↔ x1 = x2 := by
  obtain ⟨t, ht, hl, hn, hx⟩ := fits_table h
  constructor
  · rintro rfl
    exact congrArg Prod.snd (List.inj_on_of_nodup_map hn h1 h2 rfl)
  · rintro rfl
    exact congrArg Prod.fst (List.inj_on_of_nodup_map hx h1 h2 rfl)

/-- **C56**: a name that is no problem's aborts. -/
theorem unknown_problem {p : String} (h : paramsOf p = none) : initProblem p = .error .abort := by
  unfold paramsOf at h
  split at h <;> first | (cases h; done) | skip
  rename_i h1 h2 h3 h4 h5 h6 h7 h8 h9 h10 h11 h12 h13 h14 h15 h16 h17
  unfold initProblem
  simp only [if_neg h1, if_neg h2, if_neg h3, if_neg h4, if_neg h5, if_neg h6, if_neg h7, if_neg h8,
    if_neg h9, if_neg h10, if_neg h11, if_neg h12, if_neg h13, if_neg h14, if_neg h15, if_neg h16,
    if_neg h17]

/-- **C56**: later values win: after any list of settings every parameter has the value last given for
its name, or its old one. -/
theorem last_wins {p : String} {vs : List (String × String)} (h : paramsOf p = some vs) {t : Table}
    (ht : initProblem p = .ok t) {entries : List (String × Rat)}
    (hk : ∀ e ∈ entries, e.1 ∈ vs.map Prod.fst) (m : Mem) :
    ∃ m', singleRun t entries m = .ok m' ∧
      (∀ k x, (k, x) ∈ vs → m' x = lastFor k (m x) entries) ∧
      ∀ x, x ∉ vs.map Prod.snd → m' x = m x := by
  obtain ⟨t', ht', hs⟩ := set_spec h
  rw [ht] at ht'; cases ht'
  unfold singleRun
  induction entries generalizing m with
  | nil => exact ⟨m, rfl, fun k x _ => rfl, fun _ _ => rfl⟩
  | cons e es ih =>
    have he := hk e List.mem_cons_self
    rw [List.mem_map] at he
    obtain ⟨⟨k0, x0⟩, h0, h1⟩ := he
    simp only at h1
    subst h1
    obtain ⟨m', a1, a2, a3⟩ := ih (fun e' he' => hk e' (List.mem_cons_of_mem _ he')) (m.set x0 e.2)
    refine ⟨m', ?_, ?_, ?_⟩
    · rw [List.foldlM_cons, (hs e.1 e.2 m).1 x0 h0]
      exact a1
    · intro k x hkx
      rw [a2 k x hkx]
      unfold lastFor
      rw [List.foldl_cons]
      congr 1
      unfold Mem.set
      have := no_cross_talk h hkx h0
      by_cases hx : x = x0
      · rw [if_pos hx, if_pos (this.2 hx).symm]
      · rw [if_neg hx, if_neg (fun hh => hx (this.1 hh.symm))]
    · intro x hx
      rw [a3 x hx]
      unfold Mem.set
      rw [if_neg]
      rintro rfl
      exact hx (List.mem_map_of_mem (f := Prod.snd) h0)

/-- **C56** in part: setting parameters by index is setting them by name, one after the other. Missing: the
elasticity problems, which never set `param_num` (`elasticity_index_ub`). -/
theorem set_by_index_partial {t : Table} {n : Nat} (hn : t.num = some n) {keys : List String} {idx : List Int}
    (hk : List.Forall₂ (fun k i => paramIndex t k = .ok i) keys idx) {vals : List Rat}
    (hv : vals.length = keys.length) (hle : keys.length ≤ n) (m : Mem) :
    setParams t idx vals m = singleRun t (keys.zip vals) m := by
  have hlen := hk.length_eq
  unfold setParams
  rw [hn]
  simp only [ok_bind]
  rw [show decide (idx.length ≤ n) = true by simp; omega,
    show decide (idx.length = vals.length) = true by simp; omega]
  simp only [require_true, ok_bind]
  unfold singleRun loop
  have key : ∀ (ks : List String) (vs : List Rat) (is : List Int) (j : Nat) (m : Mem),
      List.Forall₂ (fun k i => paramIndex t k = .ok i) ks is → vs.length = ks.length →
      (∀ a, is[a]? = idx[j + a]?) → (∀ a, vs[a]? = vals[j + a]?) →
      loopFrom (fun k m => do
        let i ← rd idx k
        let v ← rd vals k
        store t i v m) j is.length m =
      (ks.zip vs).foldlM (fun m e => setParam t e.1 e.2 m) m := by
    intro ks vs is j m hf
    induction hf generalizing vs j m with
    | nil => intro _ _ _; rfl
    | @cons k i ks is hki hf ih =>
      intro hvl hi hv
      cases vs with
      | nil => simp at hvl
      | cons v vs =>
        rw [List.zip_cons_cons, List.foldlM_cons, List.length_cons, loopFrom]
        have e1 : rd idx j = .ok i := by
          have := hi 0; rw [Nat.add_zero] at this; exact rd_eq_ok.2 this.symm
        have e2 : rd vals j = .ok v := by
          have := hv 0; rw [Nat.add_zero] at this; exact rd_eq_ok.2 this.symm
        have e3 : setParam t k v m = store t i v m := by
          unfold setParam
          unfold paramIndex at hki
          cases hg : mapGet k t.map with
          | none => rw [hg] at hki; cases hki
          | some i' => rw [hg] at hki; cases hki; rfl
        rw [e1, e2]
        simp only [ok_bind]
        rw [e3]
        cases store t i v m with
        | error e => rfl
        | ok m' =>
          have := ih vs (j + 1) m' (by simpa using hvl)
            (by intro a; have := hi (a + 1); rw [List.getElem?_cons_succ] at this; rw [this]; congr 1; omega)
            (by intro a; have := hv (a + 1); rw [List.getElem?_cons_succ] at this; rw [this]; congr 1; omega)
          rw [ok_bind]
          exact this
  exact key keys vals idx 0 m hk hv (by intro a; rw [Nat.zero_add]) (by intro a; rw [Nat.zero_add])

/-- **C56**: setting by index with too many or mismatched values aborts. -/
theorem set_by_index_rejects {t : Table} {n : Nat} (hn : t.num = some n) (idx : List Int)
    (vals : List Rat) (m : Mem) (h : n < idx.length ∨ idx.length ≠ vals.length) :
    setParams t idx vals m = .error .abort := by
  unfold setParams
  rw [hn]
  simp only [ok_bind]
  by_cases h1 : idx.length ≤ n
  · rcases h with h | h
    · omega
    · rw [show decide (idx.length ≤ n) = true by simp [h1], require_true, ok_bind,
        show decide (idx.length = vals.length) = false by simp [h]]; rfl
  · rw [show decide (idx.length ≤ n) = false by simp; omega]; rfl

/-- Finding: an index out of range is not rejected, it is undefined behaviour. -/
theorem bad_index_ub : ∃ t, initProblem "poisson0" = .ok t ∧
    ∀ v m, setParams t [2] [v] m = .error .ub :=
  ⟨_, rfl, fun _ _ => rfl⟩

/-- Finding: elasticity problems never set the number of parameters, so setting by index reads an
uninitialised number. -/
theorem elasticity_index_ub {p : String} (h : p = "linelast_disp" ∨ p = "linelast_disp_lcantilever" ∨
    p = "linelast_disp_lattice" ∨ p = "linelast_force_cantilever" ∨ p = "linelast_cwtrain" ∨
    p = "linelast_frame_wind") : ∃ t, initProblem p = .ok t ∧
      ∀ idx vals m, setParams t idx vals m = .error .ub := by
  have key : ∃ t, initProblem p = .ok t ∧ t.num = none := by
    rcases h with rfl | rfl | rfl | rfl | rfl | rfl <;> exact ⟨_, rfl, rfl⟩
  obtain ⟨t, h1, h2⟩ := key
  refine ⟨t, h1, fun idx vals m => ?_⟩
  unfold setParams
  rw [h2]; rfl

/-! ### Boundaries that follow the parameters -/

/-- **C56**: after setting a parameter of a component problem, the driven boundary is the one the
parameter `bdr_idx` asks for: none if it is negative, boundary `⌊bdr_idx⌋ + 1` if it is below four, and an
abort otherwise. -/
theorem component_boundary (t : Table) (key : String) (v : Rat) (m m1 : Mem)
    (hs : setParam t key v m = .ok m1) :
    (m1 "poisson_component::bdr_idx" < 0 → componentSetParam t key v m = .ok (m1, -1)) ∧
    (∀ b : Int, 1 ≤ b → b ≤ 4 → (b : Rat) - 1 ≤ m1 "poisson_component::bdr_idx" →
      m1 "poisson_component::bdr_idx" < b → componentSetParam t key v m = .ok (m1, b)) ∧
    (4 ≤ m1 "poisson_component::bdr_idx" → componentSetParam t key v m = .error .abort) := by
  unfold componentSetParam componentBattr
  rw [hs, ok_bind]
  generalize m1 "poisson_component::bdr_idx" = q
  refine ⟨fun h => ?_, fun b h1 h2 h3 h4 => ?_, fun h => ?_⟩
  · rw [if_neg (by exact not_le.2 h)]; rfl
  · have hb : (1 : Rat) ≤ b := by exact_mod_cast h1
    rw [if_pos (by linarith)]
    have hf : q.floor = b - 1 := by
      rw [show q.floor = ⌊q⌋ from rfl, Int.floor_eq_iff]
      push_cast
      constructor <;> linarith
    rw [hf, show (1 : Int) + (b - 1) = b by omega]
    simp [h1, h2]
  · rw [if_pos (by linarith)]
    have hf : (4 : Int) ≤ q.floor := by
      rw [show q.floor = ⌊q⌋ from rfl, Int.le_floor]; exact_mod_cast h
    dsimp only
    rw [show (decide ((1 : Int) ≤ 1 + q.floor) && decide (1 + q.floor ≤ 4)) = false by
      simp; omega]
    rfl

/-- **C56**: after setting a parameter of a flow past an array, the inflow boundaries are those the flow
comes in through: left (entry 3) or right (entry 1) by the sign of `u0_x`, bottom (entry 0) or top (entry 2)
by the sign of `u0_y`; the opposite boundaries are outflow boundaries and the last entry is kept. -/
theorem array_boundary (t : Table) (key : String) (v : Rat) (m m1 : Mem) (a b c d e : BdrType)
    (hs : setParam t key v m = .ok m1) :
    arraySetParam t key v m [a, b, c, d, e] = .ok (m1,
      [if 0 < m1 "component_flow::u0[1]" then .dirichlet else .neumann,
        if 0 < m1 "component_flow::u0[0]" then .neumann else .dirichlet,
        if 0 < m1 "component_flow::u0[1]" then .neumann else .dirichlet,
        if 0 < m1 "component_flow::u0[0]" then .dirichlet else .neumann, e]) := by
  unfold arraySetParam arrayBattr inflow
  rw [hs, ok_bind]
  by_cases h0 : 0 < m1 "component_flow::u0[0]" <;> by_cases h1 : 0 < m1 "component_flow::u0[1]" <;>
    simp only [h0, h1, if_true, if_false] <;> rfl

/-! Non-vacuity. -/

example : ∃ vs, paramsOf "flow_past_array" = some vs ∧ ("k_v_x", "component_flow::k(0,1)") ∈ vs := by
  exact ⟨_, rfl, by decide +kernel⟩

example : ∃ vs, paramsOf "linelast_cwtrain" = some vs ∧ vs.length = 40 := ⟨_, rfl, by decide +kernel⟩

example : lastFor "k" 7 [("k", 1), ("offset", 2), ("k", 3)] = 3 ∧ lastFor "x" 7 [("k", 1)] = 7 := by
  decide +kernel

example : List.Forall₂ (fun k i => paramIndex (poisson0.toOption.get (by decide +kernel)) k = .ok i)
    ["offset", "k"] [1, 0] := .cons (by decide +kernel) (.cons (by decide +kernel) .nil)

end Verif.Params
