import Verif.Proofs.SampleConfig
import Verif.Props.Options
import Verif.Proofs.EqpStore

/-! # C86: the configuration of every sample -/

namespace Verif.SampleConfig

open Verif Verif.Options Verif.Options.Spec Verif.SampleConfig.Spec

theorem position_eq (ss is : List Int) : position ss is = Sampling.rm ss is := by
  induction ss generalizing is with
  | nil => cases is <;> rfl
  | cons s ss ih =>
    cases is with
    | nil => rfl
    | cons i is => simp only [position, Sampling.rm, ih]

theorem gridNode_eq (c : Codec) (k : Kind) (hk : Proper k) (n i : Int) (h0 : 0 ≤ i) (h1 : i < n) :
    gridNode c k n i = .ok (value c k n i) := by
  have hn : (1 : Int) ≤ n := by omega
  have hint : ∀ lo hi, Sampling.integerParam lo hi n i = .ok (integers lo hi n i) := by
    intro lo hi
    unfold Sampling.integerParam integers
    have e1 : decide (n > 0) = true := by simp; omega
    have e2 : (decide (i ≥ 0) && decide (i < n)) = true := by simp [h0, h1]
    rw [e1, e2]
    simp only [require_true, ok_bind]
    by_cases h : n = 1
    · have : i = 0 := by omega
      simp [h, this]; rfl
    · simp [h]; rfl
  cases k with
  | double lg lo hi =>
    cases lg with
    | false =>
      simp only [gridNode, value, linear]
      rw [ParamReal.setParam_linear _ _ _ _ h0 h1]
      simp only [ok_bind]
      by_cases h : n = 1
      · have : i = 0 := by omega
        simp [h, this]; rfl
      · rw [if_neg h, if_neg h]
        push_cast
        change Except.ok _ = Except.ok _
        congr 2
        ring
    | true =>
      obtain ⟨hlo, hhi⟩ := hk
      simp only [gridNode, value, geometric]
      rw [ParamReal.setParam_log _ _ _ _ h0 h1]
      simp only [ok_bind]
      by_cases h : n = 1
      · have : i = 0 := by omega
        simp [h, this]; rfl
      · rw [if_neg h, if_neg h]
        change Except.ok _ = Except.ok _
        congr 3
        rw [Real.rpow_def_of_pos (div_pos hhi hlo), ← Real.exp_mul]
        push_cast
        congr 1
        ring
  | integer lo hi => simp only [gridNode, value]; rw [hint]; rfl
  | filename f lo hi => simp only [gridNode, value, Sampling.filenameParam]; rw [hint]; rfl

/-- The options set when the parameters get the values `vals`. -/
def settings (ps : List Param) (vals : List Node) : List (List Str × Node) :=
  List.zipWith (fun q v => (pieces '/' q.key, v)) ps vals

theorem settings_paths : ∀ {ps : List Param} {vals : List Node}, vals.length = ps.length →
    (settings ps vals).map Prod.fst = ps.map fun q => pieces '/' q.key
  | [], [], _ => rfl
  | q :: ps, v :: vals, h => by
    simp only [settings, List.zipWith_cons_cons, List.map_cons]
    rw [← settings_paths (ps := ps) (vals := vals) (by simpa using h)]
    rfl

theorem settings_separate {ps : List Param} {vals : List Node} (h : vals.length = ps.length)
    (hs : Separate ps) : ((settings ps vals).map Prod.fst).Pairwise Unrelated := by
  rw [settings_paths h]
  exact List.pairwise_map.2 hs

theorem configured_of {ps : List Param} {vals : List Node} (h : vals.length = ps.length)
    (hs : Separate ps) {cfg cfg' : Node} (hc : assignSeq cfg (settings ps vals) = .ok cfg') :
    Configured ps vals cfg cfg' := by
  constructor
  · rw [List.forall₂_iff_get]
    refine ⟨h.symm, fun i h1 h2 => ?_⟩
    have hmem : (pieces '/' (ps.get ⟨i, h1⟩).key, vals.get ⟨i, h2⟩) ∈ settings ps vals := by
      unfold settings
      rw [List.mem_iff_getElem?]
      refine ⟨i, ?_⟩
      simp [List.getElem?_zipWith, h1, h2]
    exact (find_some_iff _ _ _).1 (seq_has (settings_separate h hs) hc _ hmem).1
  · intro path hp
    have : find cfg' path = find cfg path := seq_other hc (fun x hx => by
      have hx' : x.1 ∈ (settings ps vals).map Prod.fst := List.mem_map_of_mem hx
      rw [settings_paths h, List.mem_map] at hx'
      obtain ⟨q, hq, e⟩ := hx'
      rw [← e]; exact hp q hq)
    constructor
    · intro n; rw [← find_some_iff, this, find_some_iff]
    · rw [← find_abort_iff, this, find_abort_iff]

theorem settings_ok_iff {ps : List Param} {vals : List Node} (h : vals.length = ps.length)
    (hs : Separate ps) (cfg : Node) :
    (∃ cfg', assignSeq cfg (settings ps vals) = .ok cfg') ↔
      ∀ q ∈ ps, ¬ Blocked cfg (pieces '/' q.key) := by
  have hm : ∀ q ∈ ps, ∃ v, (pieces '/' q.key, v) ∈ settings ps vals := by
    intro q hq
    have : pieces '/' q.key ∈ (settings ps vals).map Prod.fst := by
      rw [settings_paths h]; exact List.mem_map_of_mem hq
    obtain ⟨x, hx, e⟩ := List.mem_map.1 this
    exact ⟨x.2, by rw [← e]; exact hx⟩
  constructor
  · rintro ⟨cfg', hc⟩ q hq
    obtain ⟨v, hv⟩ := hm q hq
    exact (seq_has (settings_separate h hs) hc _ hv).2
  · intro hb
    apply seq_total (settings_separate h hs)
    intro x hx
    have hx' : x.1 ∈ (settings ps vals).map Prod.fst := List.mem_map_of_mem hx
    rw [settings_paths h, List.mem_map] at hx'
    obtain ⟨q, hq, e⟩ := hx'
    rw [← e]; exact hb q hq

theorem length_zipWith3 {α β γ δ : Type} (f : α → β → γ → δ) : ∀ {a : List α} {b : List β}
    {d : List γ}, b.length = a.length → d.length = a.length → (List.zipWith3 f a b d).length = a.length
  | [], [], [], _, _ => rfl
  | _ :: a, _ :: b, _ :: d, h1, h2 => by
    simp only [List.zipWith3, List.length_cons]
    rw [length_zipWith3 f (by simpa using h1) (by simpa using h2)]

theorem getElem?_zipWith3 {α β γ δ : Type} (f : α → β → γ → δ) : ∀ {a : List α} {b : List β}
    {d : List γ} {p : Nat} {x : α} {y : β} {z : γ}, a[p]? = some x → b[p]? = some y → d[p]? = some z →
    (List.zipWith3 f a b d)[p]? = some (f x y z)
  | _ :: a, _ :: b, _ :: d, 0, _, _, _, h1, h2, h3 => by
    simp only [List.getElem?_cons_zero, Option.some.injEq] at h1 h2 h3
    subst h1 h2 h3; rfl
  | _ :: a, _ :: b, _ :: d, p + 1, _, _, _, h1, h2, h3 => by
    simp only [List.getElem?_cons_succ] at h1 h2 h3
    simp only [List.zipWith3, List.getElem?_cons_succ]
    exact getElem?_zipWith3 f h1 h2 h3

theorem setSampleParams_eq (c : Codec) (g : Gen) (hg : Sized g)
    (hp : ∀ q ∈ g.params, Proper q.kind) (s : Int) (h0 : 0 ≤ s) (cfg : Node) :
    setSampleParams c g s cfg =
      assignSeq cfg (settings g.params (values c g (Sampling.digits g.sizes s))) := by
  obtain ⟨_, hlen, hpos, _⟩ := hg
  unfold setSampleParams
  rw [Sampling.getSampleIndexNested_eq _ hpos _ h0]
  simp only [ok_bind]
  have hdl : (Sampling.digits g.sizes s).length = g.params.length := by
    rw [Sampling.length_digits, hlen]
  have hvl : (values c g (Sampling.digits g.sizes s)).length = g.params.length :=
    length_zipWith3 _ hlen hdl
  have hl : (settings g.params (values c g (Sampling.digits g.sizes s))).length = g.params.length := by
    simp [settings, hvl]
  conv => lhs; arg 1; rw [← hl]
  apply loop_assign
  intro p x hx t
  have hpl : p < g.params.length := by
    rw [← hl]
    exact (List.getElem?_eq_some_iff.1 hx).1
  have e1 : g.params[p]? = some g.params[p] := List.getElem?_eq_getElem hpl
  have e2 : g.sizes[p]? = some (g.sizes[p]'(by omega)) := List.getElem?_eq_getElem _
  have e3 : (Sampling.digits g.sizes s)[p]? = some ((Sampling.digits g.sizes s)[p]'(by omega)) :=
    List.getElem?_eq_getElem _
  have e4 := getElem?_zipWith3 (fun (q : Param) n i => value c q.kind n i) e1 e2 e3
  have hr := List.forall₂_iff_get.1 (Sampling.digits_range g.sizes hpos s)
  have hr' := hr.2 p (by omega) (by omega)
  simp only [List.get_eq_getElem] at hr'
  rw [rd_eq_ok.2 e1, rd_eq_ok.2 e2, rd_eq_ok.2 e3]
  simp only [ok_bind]
  rw [gridNode_eq c _ (hp _ (List.getElem_mem hpl)) _ _ hr'.1 hr'.2]
  simp only [ok_bind]
  have : (settings g.params (values c g (Sampling.digits g.sizes s)))[p]? =
      some (pieces '/' g.params[p].key,
        value c g.params[p].kind (g.sizes[p]'(by omega)) ((Sampling.digits g.sizes s)[p]'(by omega))) := by
    unfold settings values
    rw [List.getElem?_zipWith, e1, e4]
  rw [this] at hx
  cases hx
  rfl

theorem randomNode_eq (c : Codec) (k : Kind) (d : Draw) : randomNode c k d = drawn c k d := by
  cases k with
  | double lg lo hi => cases lg <;> rfl
  | integer lo hi => rfl
  | filename f lo hi => rfl

/-- The values drawn for all parameters. -/
noncomputable def drawnAll (c : Codec) (g : Gen) (d : Nat → Draw) : List Node :=
  g.params.mapIdx fun p q => drawn c q.kind (d p)

theorem setRandomParams_eq (c : Codec) (g : Gen) (d : Nat → Draw) (cfg : Node) :
    setRandomParams c g d cfg = assignSeq cfg (settings g.params (drawnAll c g d)) := by
  unfold setRandomParams
  have hl : (settings g.params (drawnAll c g d)).length = g.params.length := by
    simp [settings, drawnAll]
  conv => lhs; arg 1; rw [← hl]
  apply loop_assign
  intro p x hx t
  have hpl : p < g.params.length := by
    rw [← hl]
    exact (List.getElem?_eq_some_iff.1 hx).1
  have e1 : g.params[p]? = some g.params[p] := List.getElem?_eq_getElem hpl
  rw [rd_eq_ok.2 e1]
  simp only [ok_bind, randomNode_eq]
  have : (settings g.params (drawnAll c g d))[p]? =
      some (pieces '/' g.params[p].key, drawn c g.params[p].kind (d p)) := by
    unfold settings drawnAll
    simp [List.getElem?_zipWith, hpl]
  rw [this] at hx
  cases hx
  rfl

/-! ## One sample -/

/-- **C86**: sample `s` sets every parameter to its value at the `s`-th point of the grid (the last
parameter running fastest), and changes nothing else. -/
theorem sample_config (c : Codec) (g : Gen) (hg : Sized g) (hs : Separate g.params)
    (hp : ∀ q ∈ g.params, Proper q.kind) (s : Int) (h0 : 0 ≤ s) (h1 : s < g.total) :
    ∃ idx, InGrid g.sizes idx ∧ position g.sizes idx = s ∧
      ∀ cfg cfg', setSampleParams c g s cfg = .ok cfg' →
        Configured g.params (values c g idx) cfg cfg' := by
  obtain ⟨_, hlen, hpos, htot⟩ := id hg
  refine ⟨Sampling.digits g.sizes s, Sampling.digits_range _ hpos _, ?_, ?_⟩
  · rw [position_eq, Sampling.rm_digits _ hpos, Int.emod_eq_of_lt h0 (by rw [← htot]; exact h1)]
  · intro cfg cfg' h
    rw [setSampleParams_eq c g hg hp s h0] at h
    exact configured_of (length_zipWith3 _ hlen (by rw [Sampling.length_digits, hlen])) hs h

/-- **C86**: a sample can be set up unless the key of a parameter leads below a plain value. -/
theorem sample_possible (c : Codec) (g : Gen) (hg : Sized g) (hs : Separate g.params)
    (hp : ∀ q ∈ g.params, Proper q.kind) (s : Int) (h0 : 0 ≤ s) (cfg : Node) :
    (∃ cfg', setSampleParams c g s cfg = .ok cfg') ↔
      ∀ q ∈ g.params, ¬ Blocked cfg (pieces '/' q.key) := by
  rw [setSampleParams_eq c g hg hp s h0]
  exact settings_ok_iff (length_zipWith3 _ hg.2.1 (by rw [Sampling.length_digits, hg.2.1])) hs cfg

/-- **C86**: every point of the grid belongs to exactly one sample. -/
theorem grid_covered (g : Gen) (hg : Sized g) (idx : List Int) (hi : InGrid g.sizes idx) :
    0 ≤ position g.sizes idx ∧ position g.sizes idx < g.total ∧
      ∀ idx', InGrid g.sizes idx' → position g.sizes idx' = position g.sizes idx → idx' = idx := by
  obtain ⟨_, _, hpos, htot⟩ := hg
  have hr := Sampling.rm_range g.sizes idx hi
  rw [position_eq, htot]
  refine ⟨hr.1, hr.2, fun idx' hi' he => ?_⟩
  rw [position_eq] at he
  have h1 := Sampling.digits_rm g.sizes idx hi 0
  have h2 := Sampling.digits_rm g.sizes idx' hi' 0
  rw [he, h1] at h2
  exact h2.symm

theorem fold_fresh (f : Int → Node → Outcome Node) (ps : List Param) (hs : Separate ps)
    (vals : Int → List Node) (hv : ∀ s, (vals s).length = ps.length)
    (S : Int → Prop) (hf : ∀ s, S s → ∀ t, f s t = assignSeq t (settings ps (vals s)))
    (s : Int) (hS : S s) : ∀ (hist : List Int) (cfg cfg1 : Node), (∀ k ∈ hist, S k) →
      hist.foldlM (fun t k => f k t) cfg = .ok cfg1 → f s cfg1 = f s cfg := by
  intro hist
  induction hist with
  | nil => intro cfg cfg1 _ h; cases h; rfl
  | cons k hist ih =>
    intro cfg cfg1 hk h
    simp only [List.foldlM_cons, bind_eq_ok] at h
    obtain ⟨t, h1, h2⟩ := h
    rw [ih t cfg1 (fun j hj => hk j (by simp [hj])) h2, hf s hS, hf s hS]
    rw [hf k (hk k (by simp))] at h1
    exact seq_again (by rw [settings_paths (hv _), settings_paths (hv _)])
      (settings_separate (hv _) hs) h1

/-- **C86**: the configuration of a sample does not depend on the samples set up before it, in whatever
order: it is that of a program that starts with this sample, to the last entry. -/
theorem sample_fresh (c : Codec) (g : Gen) (hg : Sized g) (hs : Separate g.params)
    (hp : ∀ q ∈ g.params, Proper q.kind) (hist : List Int) (hh : ∀ k ∈ hist, 0 ≤ k)
    (cfg cfg1 : Node) (h : hist.foldlM (fun t k => setSampleParams c g k t) cfg = .ok cfg1)
    (s : Int) (h0 : 0 ≤ s) :
    setSampleParams c g s cfg1 = setSampleParams c g s cfg :=
  fold_fresh (setSampleParams c g) g.params hs (fun s => values c g (Sampling.digits g.sizes s))
    (fun s => length_zipWith3 _ hg.2.1 (by rw [Sampling.length_digits, hg.2.1])) (fun s => 0 ≤ s)
    (fun s h t => setSampleParams_eq c g hg hp s h t) s h0 hist cfg cfg1 hh h

/-- **C86**: a random sample sets every parameter to the value drawn for it, and changes nothing else; it
does not depend on the draws before it. -/
theorem random_config (c : Codec) (g : Gen) (hs : Separate g.params) (d : Nat → Draw) :
    (∀ cfg cfg', setRandomParams c g d cfg = .ok cfg' →
      Configured g.params (g.params.mapIdx fun p q => drawn c q.kind (d p)) cfg cfg') ∧
    ∀ cfg cfg1 (hist : List (Nat → Draw)),
      hist.foldlM (fun t e => setRandomParams c g e t) cfg = .ok cfg1 →
      setRandomParams c g d cfg1 = setRandomParams c g d cfg := by
  have hl : ∀ e, (drawnAll c g e).length = g.params.length := fun e => by simp [drawnAll]
  constructor
  · intro cfg cfg' h
    rw [setRandomParams_eq] at h
    exact configured_of (hl d) hs h
  · intro cfg cfg1 hist
    induction hist generalizing cfg with
    | nil => intro h; cases h; rfl
    | cons e hist ih =>
      intro h
      simp only [List.foldlM_cons, bind_eq_ok] at h
      obtain ⟨t, h1, h2⟩ := h
      rw [ih t h2, setRandomParams_eq, setRandomParams_eq]
      rw [setRandomParams_eq] at h1
      exact seq_again (by rw [settings_paths (hl _), settings_paths (hl _)])
        (settings_separate (hl _) hs) h1

theorem integers_inj {lo hi n i j : Int} (hn : n ≤ hi - lo + 1) (hi0 : 0 ≤ i) (hi1 : i < n)
    (hj0 : 0 ≤ j) (hj1 : j < n) (h : integers lo hi n i = integers lo hi n j) : i = j := by
  unfold integers at h
  by_cases h1 : n = 1
  · omega
  · rw [if_neg h1, if_neg h1] at h
    have hd : 0 < (hi - lo).tdiv (n - 1) := by
      rw [Int.tdiv_eq_ediv_of_nonneg (by omega)]
      have := (Int.le_ediv_iff_mul_le (a := 1) (b := hi - lo) (c := n - 1) (by omega)).2 (by omega)
      omega
    have := mul_right_cancel₀ (ne_of_gt hd) (add_left_cancel h)
    exact this

theorem value_inj (c : Codec) {k : Kind} {n i j : Int} (hk : Proper k) (hs : Spread k n)
    (hf : Faithful c k n) (hi0 : 0 ≤ i) (hi1 : i < n) (hj0 : 0 ≤ j) (hj1 : j < n)
    (h : value c k n i = value c k n j) : i = j := by
  cases k with
  | double lg lo hi =>
    by_cases h1 : n = 1
    · omega
    have hn : ((n : ℝ) - 1) ≠ 0 := by
      intro h2; apply h1; have : (n : ℝ) = 1 := by linarith
      exact_mod_cast this
    cases lg with
    | false =>
      have := hf ⟨i, hi0, hi1, rfl⟩ ⟨j, hj0, hj1, rfl⟩ h
      change linear lo hi n i = linear lo hi n j at this
      unfold linear at this
      rw [if_neg h1, if_neg h1] at this
      rcases hs with hs | hs
      · exact absurd hs h1
      · have h2 := mul_left_cancel₀ (sub_ne_zero.2 (Ne.symm hs)) (add_left_cancel this)
        rw [div_left_inj' hn] at h2
        exact_mod_cast h2
    | true =>
      have := hf ⟨i, hi0, hi1, rfl⟩ ⟨j, hj0, hj1, rfl⟩ h
      change geometric lo hi n i = geometric lo hi n j at this
      unfold geometric at this
      rw [if_neg h1, if_neg h1] at this
      rcases hs with hs | hs
      · exact absurd hs h1
      · have h2 := mul_left_cancel₀ (ne_of_gt hk.1) this
        have hq : hi / lo ≠ 1 := by
          intro e; rw [div_eq_one_iff_eq (ne_of_gt hk.1)] at e; exact hs e.symm
        have hq0 : 0 < hi / lo := div_pos hk.2 hk.1
        have h3 := congrArg Real.log h2
        rw [Real.log_rpow hq0, Real.log_rpow hq0] at h3
        have hl : Real.log (hi / lo) ≠ 0 := by
          intro e
          rcases Real.log_eq_zero.1 e with e | e | e
          · exact absurd e (ne_of_gt hq0)
          · exact hq e
          · rw [e] at hq0; linarith
        have h4 := mul_right_cancel₀ hl h3
        rw [div_left_inj' hn] at h4
        exact_mod_cast h4
  | integer lo hi => exact integers_inj hs hi0 hi1 hj0 hj1 (hf ⟨i, hi0, hi1, rfl⟩ ⟨j, hj0, hj1, rfl⟩ h)
  | filename f lo hi => exact integers_inj hs hi0 hi1 hj0 hj1 (hf ⟨i, hi0, hi1, rfl⟩ ⟨j, hj0, hj1, rfl⟩ h)

theorem forall₂_at {α β : Type} {R : α → β → Prop} {a : List α} {b : List β} (h : List.Forall₂ R a b)
    {p : Nat} {x : α} {y : β} (hx : a[p]? = some x) (hy : b[p]? = some y) : R x y := by
  obtain ⟨h1, e1⟩ := List.getElem?_eq_some_iff.1 hx
  obtain ⟨h2, e2⟩ := List.getElem?_eq_some_iff.1 hy
  have := (List.forall₂_iff_get.1 h).2 p h1 h2
  simp only [List.get_eq_getElem, e1, e2] at this
  exact this

/-- **C86**: different samples have different configurations, when every interval holds enough values
and different values are written differently. -/
theorem samples_differ (c : Codec) (g : Gen) (hg : Sized g) (hs : Separate g.params)
    (hp : ∀ q ∈ g.params, Proper q.kind)
    (hsp : List.Forall₂ (fun q n => Spread q.kind n ∧ Faithful c q.kind n) g.params g.sizes)
    (s s' : Int) (h0 : 0 ≤ s)
    (h1 : s < g.total) (h0' : 0 ≤ s') (h1' : s' < g.total) (cfg cfg1 : Node)
    (h : setSampleParams c g s cfg = .ok cfg1) (h' : setSampleParams c g s' cfg = .ok cfg1) :
    s = s' := by
  obtain ⟨idx, hi, hpo, hc⟩ := sample_config c g hg hs hp s h0 h1
  obtain ⟨idx', hi', hpo', hc'⟩ := sample_config c g hg hs hp s' h0' h1'
  have a := (hc cfg cfg1 h).1
  have a' := (hc' cfg cfg1 h').1
  have hlen := hg.2.1
  have li : idx.length = g.params.length := by rw [← hlen]; exact hi.length_eq.symm
  have li' : idx'.length = g.params.length := by rw [← hlen]; exact hi'.length_eq.symm
  have : idx = idx' := by
    apply List.ext_getElem (by omega)
    intro p hp1 hp2
    have hpl : p < g.params.length := by omega
    have e1 : g.params[p]? = some g.params[p] := List.getElem?_eq_getElem hpl
    have e2 : g.sizes[p]? = some (g.sizes[p]'(by omega)) := List.getElem?_eq_getElem _
    have e3 : idx[p]? = some idx[p] := List.getElem?_eq_getElem hp1
    have e3' : idx'[p]? = some idx'[p] := List.getElem?_eq_getElem hp2
    have e4 := getElem?_zipWith3 (fun (q : Param) n i => value c q.kind n i) e1 e2 e3
    have e4' := getElem?_zipWith3 (fun (q : Param) n i => value c q.kind n i) e1 e2 e3'
    have hv := at_unique (forall₂_at a e1 e4) (forall₂_at a' e1 e4')
    have r := (List.forall₂_iff_get.1 hi).2 p (by omega) hp1
    have r' := (List.forall₂_iff_get.1 hi').2 p (by omega) hp2
    have sp := (List.forall₂_iff_get.1 hsp).2 p hpl (by omega)
    simp only [List.get_eq_getElem] at r r' sp
    have hm : g.params[p] ∈ g.params := List.getElem_mem hpl
    exact value_inj c (hp _ hm) sp.1 sp.2 r.1 r.2 r'.1 r'.2 hv
  rw [← hpo, ← hpo', this]

/-! ## File names -/

theorem int_text (a : Int) : '_' ∉ (toString a : String).toList := by
  cases a with
  | ofNat n => exact EqpStore.digits_not_mem n (by decide)
  | negSucc n =>
    have : (toString (Int.negSucc n) : String).toList = '-' :: (toString (n + 1) : String).toList := by
      change (String.append "-" (Nat.repr (n + 1))).toList = _
      exact String.toList_append
    rw [this]
    have := EqpStore.digits_not_mem (n + 1) (c := '_') (by decide)
    intro h
    rcases List.mem_cons.1 h with h | h
    · exact absurd h (by decide)
    · exact this h

theorem int_text_inj {a b : Int} (h : (toString a : String).toList = (toString b : String).toList) :
    a = b := by
  have hneg : ∀ n : Nat, (toString (Int.negSucc n) : String).toList =
      '-' :: (toString (n + 1) : String).toList := fun n => by
    change (String.append "-" (Nat.repr (n + 1))).toList = _
    exact String.toList_append
  have hno : ∀ n : Nat, '-' ∉ (toString n : String).toList := fun n =>
    EqpStore.digits_not_mem n (by decide)
  cases a with
  | ofNat n =>
    cases b with
    | ofNat m => exact congrArg Int.ofNat (Options.digits_inj h)
    | negSucc m =>
      rw [hneg] at h
      exact absurd (by rw [show (toString (Int.ofNat n) : String) = toString n from rfl] at h
                       rw [h]; simp) (hno n)
  | negSucc n =>
    cases b with
    | ofNat m =>
      rw [hneg] at h
      exact absurd (by rw [show (toString (Int.ofNat m) : String) = toString m from rfl] at h
                       rw [← h]; simp) (hno m)
    | negSucc m =>
      rw [hneg, hneg] at h
      simp only [List.cons.injEq, true_and] at h
      have := Options.digits_inj h
      have : n = m := by omega
      rw [this]

/-- **C86**: different samples are saved to different files, whatever prefix each of them uses. -/
theorem file_names_differ (g : Gen) (a b : Int) (pa pb : String)
    (h : samplePath g a pa ++ ".h5" = samplePath g b pb ++ ".h5") : a = b := by
  have h := congrArg String.toList h
  unfold samplePath at h
  simp only [String.toList_append, List.append_assoc] at h
  have h := List.append_cancel_left (List.append_cancel_left h)
  have hu : "_".toList = ['_'] := by decide
  simp only [hu, List.singleton_append] at h
  exact int_text_inj (list_split_unique (int_text a) (int_text b) h).1

theorem setting_of {T : Type} {as : Node → Outcome T} {cfg : Node} {k : String} {path : List String} {dflt v : T}
    (hk : pieces '/' (key k) = path.map String.toList) (h : option as (key k) dflt cfg = .ok v) :
    Setting as cfg path dflt v := by
  rcases (option_iff _ _ _ _ _).1 h with ⟨n, hn, hv⟩ | ⟨h1, _, h2⟩
  · exact .inl ⟨n, hk ▸ hn, hv⟩
  · exact .inr ⟨hk ▸ h1, h2⟩

theorem construct_files {c : Codec} {ty : Sampling.GenType} {cfg : Node} {g : Gen}
    (h : construct c ty cfg = .ok g) :
    ∃ name, Setting c.str cfg ["parameterized_problem", "name"] "sample" name ∧
      Setting c.str cfg ["sample_generation", "file_path", "directory"] "." g.dir ∧
      Setting c.str cfg ["sample_generation", "file_path", "prefix"] name g.pre ∧
      Setting c.int cfg ["sample_generation", "file_path", "offset"] 0 g.offset := by
  unfold construct at h
  simp only [bind_eq_ok] at h
  obtain ⟨dir, h1, name, h2, pre, h3, off, h4, _, _, _, _, h⟩ := h
  cases h
  exact ⟨name, setting_of (by decide) h2, setting_of (by decide) h1, setting_of (by decide) h3,
    setting_of (by decide) h4⟩

/-- **C86**: where files go: the directory, prefix and offset of the configuration; without a prefix the name
of the problem, without that "sample". -/
theorem generator_files (c : Codec) (cfg : Node) (g : Gen) (h : initGen c cfg = .ok g) :
    ∃ name, Setting c.str cfg ["parameterized_problem", "name"] "sample" name ∧
      Setting c.str cfg ["sample_generation", "file_path", "directory"] "." g.dir ∧
      Setting c.str cfg ["sample_generation", "file_path", "prefix"] name g.pre ∧
      Setting c.int cfg ["sample_generation", "file_path", "offset"] 0 g.offset := by
  unfold initGen at h
  simp only [bind_eq_ok] at h
  obtain ⟨ty, _, h⟩ := h
  split at h
  · simp only [bind_eq_ok] at h
    obtain ⟨g0, h0, h⟩ := h
    unfold setSizes at h
    simp only [bind_eq_ok] at h
    obtain ⟨_, _, _, _, _, _, h⟩ := h
    cases h
    have := construct_files h0; exact this
  · split at h
    · simp only [bind_eq_ok] at h
      obtain ⟨g0, h0, h⟩ := h
      unfold setSizesRandom at h
      simp only [bind_eq_ok] at h
      obtain ⟨_, _, _, _, _, _, h⟩ := h
      cases h
      have := construct_files h0; exact this
    · cases h

/-- **C86**: the name of the file of sample `s`.  If solutions are saved, their prefix (by default
"solution") is used, unless it is empty; otherwise that of the generator. -/
theorem file_named (c : Codec) (g : Gen) (cfg : Node) (s : Nat) (pre : String)
    (h : solPrefix c cfg = .ok pre) :
    ∃ save p, Setting c.bool cfg ["save_solution", "enabled"] false save ∧
      (if save then Setting c.str cfg ["save_solution", "file_path", "prefix"] "solution" p else p = "") ∧
      samplePath g (s + g.offset) pre ++ ".h5" =
        g.dir ++ "/sample" ++ toString (s + g.offset : Int) ++ "_" ++ (if p = "" then g.pre else p) ++ ".h5" := by
  unfold solPrefix at h
  simp only [bind_eq_ok] at h
  obtain ⟨save, h1, h⟩ := h
  refine ⟨save, pre, setting_of (by decide) h1, ?_, ?_⟩
  · cases save with
    | true => exact setting_of (by decide) h
    | false => cases h; rfl
  · unfold samplePath
    by_cases hp : pre = "" <;> simp [hp, String.append_assoc]

/-! ## The generator -/

theorem entry_of {T : Type} {as : Node → Outcome T} {e : Node} {k : String} {v : T}
    (hk : pieces '/' (key k) = [k.toList]) (h : required as (key k) e = .ok v) : Entry as e k v := by
  obtain ⟨n, hn, hv⟩ := (required_iff _ _ _ _).1 h
  rw [hk] at hn
  exact ⟨n, hn, hv⟩

theorem readParam_describes {c : Codec} {e : Node} {q : Param} (h : readParam c e = .ok q) :
    Describes c e q := by
  unfold readParam at h
  simp only [bind_eq_ok] at h
  obtain ⟨k, hk, ty, hty, h⟩ := h
  have ek := entry_of (by decide) hk
  have et := entry_of (by decide) hty
  split at h
  · rename_i ht
    subst ht
    simp only [bind_eq_ok] at h
    obtain ⟨lg, hlg, lo, hlo, hi, hhi, h⟩ := h
    cases h
    refine .double ek et ?_ (entry_of (by decide) hlo) (entry_of (by decide) hhi)
    have hp : pieces '/' (key "log_scale") = ["log_scale".toList] := by decide
    rcases (option_iff _ _ _ _ _).1 hlg with ⟨n, hn, hv⟩ | ⟨h1, _, h2⟩
    · rw [hp] at hn; exact .inl ⟨n, hn, hv⟩
    · rw [hp] at h1; exact .inr ⟨h1, h2⟩
  · split at h
    · rename_i ht
      subst ht
      simp only [bind_eq_ok] at h
      obtain ⟨lo, hlo, hi, hhi, h⟩ := h
      cases h
      exact .integer ek et (entry_of (by decide) hlo) (entry_of (by decide) hhi)
    · split at h
      · rename_i ht
        subst ht
        simp only [bind_eq_ok] at h
        obtain ⟨lo, hlo, hi, hhi, f, hf, h⟩ := h
        cases h
        exact .filename ek et (entry_of (by decide) hlo) (entry_of (by decide) hhi)
          (entry_of (by decide) hf)
      · cases h

theorem mapM_forall₂ {α β : Type} {f : α → Outcome β} : ∀ {l : List α} {r : List β},
    l.mapM f = .ok r → List.Forall₂ (fun a b => f a = .ok b) l r := by
  intro l
  induction l with
  | nil => intro r h; cases h; exact .nil
  | cons a l ih =>
    intro r h
    rw [List.mapM_cons] at h
    simp only [bind_eq_ok] at h
    obtain ⟨b, hb, bs, hbs, h⟩ := h
    cases h
    exact .cons hb (ih hbs)

theorem entries {c : Codec} : ∀ {l : List (Option Node)} {ps : List Param},
    List.Forall₂ (fun a b => readEntry c a = .ok b) l ps →
    ∃ es, l = es.map some ∧ List.Forall₂ (Describes c) es ps := by
  intro l
  induction l with
  | nil => intro ps h; cases h; exact ⟨[], rfl, .nil⟩
  | cons a l ih =>
    intro ps h
    cases h with
    | cons h1 h2 =>
      obtain ⟨es, rfl, he⟩ := ih h2
      cases a with
      | none => cases h1
      | some e => exact ⟨e :: es, rfl, .cons (readParam_describes h1) he⟩

theorem items_of {l : Node} {es : List Node} (h : elems l = es.map some) (hne : es ≠ []) :
    Items l es := by
  cases l with
  | null => simp only [elems] at h; exact absurd (List.map_eq_nil_iff.1 h.symm) hne
  | scalar s => simp only [elems] at h; exact absurd (List.map_eq_nil_iff.1 h.symm) hne
  | seq l =>
    left
    have : l.map some = es.map some := h
    rw [List.map_injective_iff.2 (Option.some_injective _) this]
  | map m =>
    right
    refine ⟨m, rfl, ?_, ?_⟩
    · have := congrArg List.length h
      simpa [elems] using this
    · intro k e he
      have hk : (elems (.map m))[k]? = some (some e) := by rw [h]; simp [he]
      simp only [elems, List.getElem?_map, Option.map_eq_some_iff] at hk
      obtain ⟨k', hk', hl⟩ := hk
      have : k' = k := by
        have := (List.getElem?_eq_some_iff.1 hk').2
        simpa using this.symm
      subst this
      rw [← find_some_iff, find_cons_of (t := .map m) rfl, hl]
      rfl

/-- Where the list of parameters is. -/
def paramPath : List Str := ["sample_generation".toList, "parameters".toList]

theorem paramList_at {cfg l : Node} (h : paramList cfg = .ok l) : At cfg paramPath l := by
  unfold paramList at h
  simp only [bind_eq_ok] at h
  obtain ⟨o, ho, h⟩ := h
  cases o with
  | none => cases h
  | some n =>
    cases h
    have : pieces '/' (key "sample_generation/parameters") = paramPath := by decide
    rw [this] at ho
    exact (find_some_iff _ _ _).1 ho

theorem construct_reads {c : Codec} {ty : Sampling.GenType} {cfg : Node} {g : Gen}
    (h : construct c ty cfg = .ok g) : g.ty = ty ∧ ∃ l es, At cfg paramPath l ∧
      elems l = es.map some ∧ List.Forall₂ (Describes c) es g.params := by
  unfold construct at h
  simp only [bind_eq_ok] at h
  obtain ⟨dir, _, name, _, pre, _, off, _, l, hl, ps, hps, h⟩ := h
  cases h
  obtain ⟨es, he, hd⟩ := entries (mapM_forall₂ hps)
  exact ⟨rfl, l, es, paramList_at hl, he, hd⟩

theorem sizes_read {c : Codec} : ∀ {es : List Node} {ns : List Int},
    List.Forall₂ (fun a b => readSize c a = .ok b) (es.map some) ns →
    List.Forall₂ (fun e n => Entry c.int e "sample_size" n ∧ 0 < n) es ns := by
  intro es
  induction es with
  | nil => intro ns h; cases h; exact .nil
  | cons e es ih =>
    intro ns h
    cases h with
    | cons h1 h2 =>
      refine .cons ?_ (ih h2)
      simp only [readSize, bind_eq_ok] at h1
      obtain ⟨n, hn, _, hr, h1⟩ := h1
      cases h1
      exact ⟨entry_of (by decide) hn, by simpa using require_eq_ok.1 hr⟩

/-- **C86**: the generator has one parameter per entry of the list `sample_generation/parameters`, as
that entry describes it.  The grid generator has as many samples as its grid has points, with the
number of points of each direction as given; the random generator has the number asked for. -/
theorem generator_reads (c : Codec) (cfg : Node) (g : Gen) (h : initGen c cfg = .ok g) :
    ∃ l es, At cfg paramPath l ∧ Items l es ∧ List.Forall₂ (Describes c) es g.params ∧
      g.params ≠ [] ∧
      (g.ty = .base → Sized g ∧ List.Forall₂ (fun e n => Entry c.int e "sample_size" n) es g.sizes) ∧
      (g.ty = .random → 0 < g.total ∧ ∃ n, At cfg ["sample_generation".toList,
        "random_sample_generator".toList, "number_of_samples".toList] n ∧ c.int n = .ok g.total) := by
  unfold initGen at h
  simp only [bind_eq_ok] at h
  obtain ⟨ty, _, h⟩ := h
  split at h
  · simp only [bind_eq_ok] at h
    obtain ⟨g0, h0, h⟩ := h
    obtain ⟨hty, l, es, hl, he, hd⟩ := construct_reads h0
    unfold setSizes at h
    simp only [bind_eq_ok] at h
    obtain ⟨l', hl', _, hr, ns, hns, h⟩ := h
    cases h
    have := at_unique (paramList_at hl') hl
    subst this
    rw [he] at hns
    have hs := sizes_read (mapM_forall₂ hns)
    have hne : g0.params ≠ [] := by
      have := require_eq_ok.1 hr
      intro e; rw [e] at this; simp at this
    have hes : es ≠ [] := by
      intro e; rw [e] at hd; exact hne (List.length_eq_zero_iff.1 hd.length_eq.symm)
    refine ⟨l', es, hl, items_of he hes, hd, hne, fun _ => ⟨⟨hne, ?_, ?_, ?_⟩, ?_⟩, ?_⟩
    · change ns.length = g0.params.length
      rw [← hs.length_eq, hd.length_eq]
    · intro n hn
      obtain ⟨i, hi, e⟩ := List.getElem_of_mem hn
      have := (List.forall₂_iff_get.1 hs).2 i (by rw [hs.length_eq]; exact hi) hi
      have e' : ns.get ⟨i, hi⟩ = n := e
      rw [e'] at this
      exact this.2
    · exact (List.prod_eq_foldl (xs := ns)).symm
    · exact hs.imp fun _ _ h => h.1
    · intro e
      change g0.ty = _ at e
      rw [hty] at e; cases e
  · split at h
    · simp only [bind_eq_ok] at h
      obtain ⟨g0, h0, h⟩ := h
      obtain ⟨hty, l, es, hl, he, hd⟩ := construct_reads h0
      unfold setSizesRandom at h
      simp only [bind_eq_ok] at h
      obtain ⟨_, hr, n, hn, _, hr2, h⟩ := h
      cases h
      have hne : g0.params ≠ [] := by
        have := require_eq_ok.1 hr
        intro e; rw [e] at this; simp at this
      have hes : es ≠ [] := by
        intro e; rw [e] at hd; exact hne (List.length_eq_zero_iff.1 hd.length_eq.symm)
      refine ⟨l, es, hl, items_of he hes, hd, hne, ?_, fun _ => ⟨?_, ?_⟩⟩
      · intro e
        change g0.ty = _ at e
        rw [hty] at e; cases e
      · simpa using require_eq_ok.1 hr2
      · obtain ⟨x, hx, hv⟩ := (required_iff _ _ _ _).1 hn
        have : pieces '/' (key "sample_generation/random_sample_generator/number_of_samples") =
          ["sample_generation".toList, "random_sample_generator".toList,
            "number_of_samples".toList] := by decide
        rw [this] at hx
        exact ⟨x, hx, hv⟩
    · cases h

/-! ## All samples -/

/-- What the loop of `GenerateSamples` maintains: samples `0, …, s-1` are saved, the configuration in
force is the original one or that of a sample. -/
structure Inv (c : Codec) (g : Gen) (conv : Nat → Bool) (d : Nat → Nat → Draw) (cfg : Node)
    (st : State) : Prop where
  le : (st.s : Int) ≤ g.total
  order : st.saved.map Saved.s = List.range st.s
  base : g.ty = .base → ∀ e ∈ st.saved, setSampleParams c g e.s cfg = .ok e.cfg
  random : g.ty = .random → ∃ ks : List Nat, ks.Pairwise (· < ·) ∧ (∀ k ∈ ks, k < st.runs) ∧
    List.Forall₂ (fun k e => conv k = true ∧ setRandomParams c g (d k) cfg = .ok e.cfg) ks st.saved
  file : ∀ e ∈ st.saved, ∃ pre, solPrefix c e.cfg = .ok pre ∧
    e.file = samplePath g (e.s + g.offset) pre ++ ".h5"
  cur : st.cfg = cfg ∨ ∃ vals, vals.length = g.params.length ∧
    assignSeq cfg (settings g.params vals) = .ok st.cfg

theorem genStep_inv {c : Codec} {g : Gen} {mine : Nat → Bool} {conv : Nat → Bool}
    {d : Nat → Nat → Draw} {cfg : Node} (hs : Separate g.params)
    (hb : g.ty = .base → Sized g ∧ ∀ q ∈ g.params, Proper q.kind)
    {st st' : State} {b : Bool} (hI : Inv c g conv d cfg st)
    (h : genStep c g mine conv d st = .ok (b, st')) :
    Inv c g conv d cfg st' ∧ (b = false → g.total ≤ st'.s) := by
  unfold genStep at h
  split at h
  · rename_i hlt
    split at h
    · cases h; exact ⟨hI, fun h => by cases h⟩
    · simp only [bind_eq_ok] at h
      obtain ⟨t, ht, pre, hpre, h⟩ := h
      -- the configuration is that of a fresh start
      have hfresh : ∀ vals : List Node, vals.length = g.params.length →
          assignSeq st.cfg (settings g.params vals) = assignSeq cfg (settings g.params vals) := by
        intro vals hv
        rcases hI.cur with e | ⟨w, hw, e⟩
        · rw [e]
        · exact seq_again (by rw [settings_paths hw, settings_paths hv]) (settings_separate hw hs) e
      cases hty : g.ty with
      | base =>
        obtain ⟨hg, hp⟩ := hb hty
        unfold setParams at ht
        rw [hty] at ht h
        have hlen : (values c g (Sampling.digits g.sizes (st.s : Int))).length = g.params.length :=
          length_zipWith3 _ hg.2.1 (by rw [Sampling.length_digits, hg.2.1])
        have ht' : setSampleParams c g st.s st.cfg = .ok t := ht
        rw [setSampleParams_eq c g hg hp _ (by omega), hfresh _ hlen] at ht'
        have hset : setSampleParams c g st.s cfg = .ok t := by
          rw [setSampleParams_eq c g hg hp _ (by omega)]; exact ht'
        split at h
        · cases h
        · cases h
          refine ⟨⟨?_, ?_, ?_, ?_, ?_, ?_⟩, fun h => by cases h⟩
          · push_cast; omega
          · simp [hI.order, List.range_succ]
          · intro _ e he
            rcases List.mem_append.1 he with he | he
            · exact hI.base hty e he
            · rw [List.mem_singleton.1 he]; exact hset
          · intro e; rw [hty] at e; cases e
          · intro e he
            rcases List.mem_append.1 he with he | he
            · exact hI.file e he
            · rw [List.mem_singleton.1 he]; exact ⟨pre, hpre, rfl⟩
          · exact .inr ⟨_, hlen, ht'⟩
      | random =>
        unfold setParams at ht
        rw [hty] at ht h
        have hlen : (drawnAll c g (d st.runs)).length = g.params.length := by simp [drawnAll]
        have ht' : setRandomParams c g (d st.runs) st.cfg = .ok t := ht
        rw [setRandomParams_eq, hfresh _ hlen] at ht'
        have hset : setRandomParams c g (d st.runs) cfg = .ok t := by
          rw [setRandomParams_eq]; exact ht'
        obtain ⟨ks, hk1, hk2, hk3⟩ := hI.random hty
        split at h
        · cases h
          refine ⟨⟨hI.le, hI.order, hI.base, fun _ => ⟨ks, hk1, fun k hk => ?_, hk3⟩, hI.file,
            .inr ⟨_, hlen, ht'⟩⟩, fun h => by cases h⟩
          have := hk2 k hk
          change k < st.runs + 1
          omega
        · rename_i hcv
          cases h
          refine ⟨⟨?_, ?_, ?_, ?_, ?_, ?_⟩, fun h => by cases h⟩
          · push_cast; omega
          · simp [hI.order, List.range_succ]
          · intro e; rw [hty] at e; cases e
          · intro _
            refine ⟨ks ++ [st.runs], ?_, ?_, ?_⟩
            · rw [List.pairwise_append]
              exact ⟨hk1, by simp, fun a ha b hb' => by
                rw [List.mem_singleton.1 hb']; exact hk2 a ha⟩
            · intro k hk
              change k < st.runs + 1
              rcases List.mem_append.1 hk with hk | hk
              · have := hk2 k hk; omega
              · rw [List.mem_singleton.1 hk]; omega
            · exact List.rel_append hk3 (.cons ⟨by simpa using hcv, hset⟩ .nil)
          · intro e he
            rcases List.mem_append.1 he with he | he
            · exact hI.file e he
            · rw [List.mem_singleton.1 he]; exact ⟨pre, hpre, rfl⟩
          · exact .inr ⟨_, hlen, ht'⟩
  · cases h
    exact ⟨hI, fun _ => by omega⟩

theorem genRun_inv {c : Codec} {g : Gen} {mine : Nat → Bool} {conv : Nat → Bool}
    {d : Nat → Nat → Draw} {cfg : Node} (hs : Separate g.params)
    (hb : g.ty = .base → Sized g ∧ ∀ q ∈ g.params, Proper q.kind) :
    ∀ (fuel : Nat) {st st' : State} {b : Bool}, Inv c g conv d cfg st →
      genRun c g mine conv d fuel st = .ok (b, st') →
      Inv c g conv d cfg st' ∧ (b = false → g.total ≤ st'.s) := by
  intro fuel
  induction fuel with
  | zero => intro st st' b hI h; cases h; exact ⟨hI, fun h => by cases h⟩
  | succ fuel ih =>
    intro st st' b hI h
    unfold genRun at h
    simp only [bind_eq_ok] at h
    obtain ⟨⟨b1, st1⟩, h1, h⟩ := h
    obtain ⟨hI1, hf⟩ := genStep_inv hs hb hI h1
    cases b1 with
    | true => exact ih hI1 h
    | false => cases h; exact ⟨hI1, hf⟩

/-- **C86**: when `GenerateSamples` ends, every sample has been saved, once and in order, to a file of
its own, under exactly the configuration that a program starting with this sample would use; for the
random generator, the configurations are those of the draws that converged, in order.  The
configuration is the original one again. -/
theorem generate_samples (c : Codec) (mine : Nat → Bool) (conv : Nat → Bool) (d : Nat → Nat → Draw)
    (fuel : Nat) (cfg cfg' : Node) (saved : List Saved)
    (h : generate c mine conv d fuel cfg = .ok (some (saved, cfg')))
    (hs : ∀ g, initGen c cfg = .ok g → Separate g.params)
    (hp : ∀ g, initGen c cfg = .ok g → g.ty = .base → ∀ q ∈ g.params, Proper q.kind) :
    cfg' = cfg ∧ ∃ g, initGen c cfg = .ok g ∧
      saved.map Saved.s = List.range g.total.toNat ∧
      (saved.map Saved.file).Nodup ∧
      (∀ e ∈ saved, ∃ pre, solPrefix c e.cfg = .ok pre ∧
        e.file = samplePath g (e.s + g.offset) pre ++ ".h5") ∧
      (g.ty = .base → ∀ e ∈ saved, setSampleParams c g e.s cfg = .ok e.cfg) ∧
      (g.ty = .random → ∃ ks : List Nat, ks.Pairwise (· < ·) ∧
        List.Forall₂ (fun k e => conv k = true ∧ setRandomParams c g (d k) cfg = .ok e.cfg)
          ks saved) := by
  unfold generate at h
  simp only [bind_eq_ok] at h
  obtain ⟨g, hg, ⟨b, st⟩, hr, h⟩ := h
  obtain ⟨l, es, _, _, _, hne, hbase, hrand⟩ := generator_reads c cfg g hg
  have ht0 : 0 ≤ g.total := by
    cases hty : g.ty with
    | base =>
      obtain ⟨_, _, hpos, ht⟩ := (hbase hty).1
      rw [ht]; exact le_of_lt (Sampling.prod_pos _ hpos)
    | random => exact le_of_lt (hrand hty).1
  obtain ⟨hI, hf⟩ := genRun_inv (cfg := cfg) (hs g hg)
    (fun e => ⟨(hbase e).1, hp g hg e⟩) fuel
    (st := ⟨0, 0, [], cfg⟩)
    ⟨by simpa using ht0, rfl, fun _ _ he => by simp at he,
      fun _ => ⟨[], .nil, by simp, .nil⟩, fun _ he => by simp at he, .inl rfl⟩ hr
  cases b with
  | true => cases h
  | false =>
    cases h
    have hst : st.s = g.total.toNat := by
      have := hf rfl
      have := hI.le
      omega
    refine ⟨rfl, g, hg, by rw [← hst]; exact hI.order, ?_, hI.file, hI.base, ?_⟩
    · have hnd : (st.saved.map Saved.s).Nodup := by rw [hI.order]; exact List.nodup_range
      unfold List.Nodup at hnd ⊢
      rw [List.pairwise_map] at hnd ⊢
      refine hnd.imp_of_mem fun {x y} hx hy hxy he => hxy ?_
      obtain ⟨px, _, ex⟩ := hI.file x hx
      obtain ⟨py, _, ey⟩ := hI.file y hy
      rw [ex, ey] at he
      have := file_names_differ g _ _ _ _ he
      omega
    · intro e
      obtain ⟨ks, h1, _, h3⟩ := hI.random e
      exact ⟨ks, h1, h3⟩

/-- The paths of the options that decide the name of the solution file. -/
def filePaths : List (List Str) :=
  [["save_solution".toList, "enabled".toList],
    ["save_solution".toList, "file_path".toList, "prefix".toList]]

theorem solPrefix_congr (c : Codec) {t t' : Node} (h : ∀ p ∈ filePaths, find t' p = find t p) :
    solPrefix c t' = solPrefix c t := by
  have p1 : pieces '/' (key "save_solution/enabled") = ["save_solution".toList, "enabled".toList] := by
    decide
  have p2 : pieces '/' (key "save_solution/file_path/prefix") =
      ["save_solution".toList, "file_path".toList, "prefix".toList] := by decide
  unfold solPrefix option
  rw [p1, p2, h _ (by simp [filePaths]), h _ (by simp [filePaths])]

/-- **C86**: on one process, if the parameters do not interfere with the options that decide file names,
none of their keys leads below a plain value, and solutions converge (for the random generator: again
and again), `GenerateSamples` ends, and all files carry the prefix of the original configuration. -/
theorem generate_ends (c : Codec) (conv : Nat → Bool) (d : Nat → Nat → Draw) (cfg : Node) (g : Gen)
    (pre : String) (hg : initGen c cfg = .ok g) (hs : Separate g.params)
    (hp : g.ty = .base → ∀ q ∈ g.params, Proper q.kind)
    (hb : ∀ q ∈ g.params, ¬ Blocked cfg (pieces '/' q.key))
    (hk : ∀ q ∈ g.params, ∀ p ∈ filePaths, Unrelated (pieces '/' q.key) p)
    (hpre : solPrefix c cfg = .ok pre)
    (hconv : match g.ty with
      | .base => ∀ k, conv k = true
      | .random => ∀ k, ∃ m, k ≤ m ∧ conv m = true) :
    ∃ fuel saved, generate c (fun _ => true) conv d fuel cfg = .ok (some (saved, cfg)) ∧
      ∀ e ∈ saved, e.file = samplePath g (e.s + g.offset) pre ++ ".h5" := by
  obtain ⟨l, es, _, _, _, hne, hbase, hrand⟩ := generator_reads c cfg g hg
  have hbb : g.ty = .base → Sized g ∧ ∀ q ∈ g.params, Proper q.kind :=
    fun e => ⟨(hbase e).1, hp e⟩
  -- a configuration of a sample has the same prefix
  have hsame : ∀ (vals : List Node) (t : Node), vals.length = g.params.length →
      assignSeq cfg (settings g.params vals) = .ok t → solPrefix c t = .ok pre := by
    intro vals t hv ht
    rw [solPrefix_congr c (t := cfg) (t' := t) ?_, hpre]
    intro p hpp
    refine seq_other ht fun x hx => ?_
    have hx' : x.1 ∈ (settings g.params vals).map Prod.fst := List.mem_map_of_mem hx
    rw [settings_paths hv, List.mem_map] at hx'
    obtain ⟨q, hq, e⟩ := hx'
    rw [← e]; exact hk q hq p hpp
  have hset : ∀ st, Inv c g conv d cfg st → ∃ t, setParams c g st.s (d st.runs) st.cfg = .ok t ∧
      solPrefix c t = .ok pre := by
    intro st hI
    have hfresh : ∀ vals : List Node, vals.length = g.params.length →
        assignSeq st.cfg (settings g.params vals) = assignSeq cfg (settings g.params vals) := by
      intro vals hv
      rcases hI.cur with e | ⟨w, hw, e⟩
      · rw [e]
      · exact seq_again (by rw [settings_paths hw, settings_paths hv]) (settings_separate hw hs) e
    unfold setParams
    cases hty : g.ty with
    | base =>
      obtain ⟨hgs, hpp⟩ := hbb hty
      have hlen : (values c g (Sampling.digits g.sizes (st.s : Int))).length = g.params.length :=
        length_zipWith3 _ hgs.2.1 (by rw [Sampling.length_digits, hgs.2.1])
      obtain ⟨t, ht⟩ := (settings_ok_iff hlen hs cfg).2 hb
      refine ⟨t, ?_, hsame _ _ hlen ht⟩
      change setSampleParams c g st.s st.cfg = _
      rw [setSampleParams_eq c g hgs hpp _ (by omega), hfresh _ hlen, ht]
    | random =>
      have hlen : (drawnAll c g (d st.runs)).length = g.params.length := by simp [drawnAll]
      obtain ⟨t, ht⟩ := (settings_ok_iff hlen hs cfg).2 hb
      refine ⟨t, ?_, hsame _ _ hlen ht⟩
      change setRandomParams c g (d st.runs) st.cfg = _
      rw [setRandomParams_eq, hfresh _ hlen, ht]
  have hstep : ∀ st, Inv c g conv d cfg st → (st.s : Int) < g.total → conv st.runs = true →
      ∃ st1, genStep c g (fun _ => true) conv d st = .ok (true, st1) ∧ st1.s = st.s + 1 := by
    intro st hI hlt hc
    obtain ⟨t, ht, hpt⟩ := hset st hI
    unfold genStep
    rw [if_pos hlt, ht]
    simp only [Bool.not_true, Bool.false_eq_true, if_false, ok_bind, hpt, hc]
    exact ⟨_, rfl, rfl⟩
  have hretry : g.ty = .random → ∀ st, Inv c g conv d cfg st → (st.s : Int) < g.total →
      conv st.runs = false → ∃ st1, genStep c g (fun _ => true) conv d st = .ok (true, st1) ∧
        st1.s = st.s ∧ st1.runs = st.runs + 1 := by
    intro hty st hI hlt hc
    obtain ⟨t, ht, hpt⟩ := hset st hI
    unfold genStep
    rw [if_pos hlt, ht]
    simp only [Bool.not_true, Bool.false_eq_true, if_false, ok_bind, hpt, hc, Bool.not_false, if_true,
      hty]
    exact ⟨_, rfl, rfl, rfl⟩
  -- the next sample is reached
  have hnext : ∀ (k : Nat) st, Inv c g conv d cfg st → (st.s : Int) < g.total →
      (g.ty = .base → conv st.runs = true) → conv (st.runs + k) = true →
      ∃ f st1, st1.s = st.s + 1 ∧ Inv c g conv d cfg st1 ∧ ∀ fuel,
        genRun c g (fun _ => true) conv d (f + fuel) st = genRun c g (fun _ => true) conv d fuel st1 := by
    intro k
    induction k with
    | zero =>
      intro st hI hlt _ hc
      obtain ⟨st1, h1, h2⟩ := hstep st hI hlt hc
      refine ⟨1, st1, h2, (genStep_inv hs hbb hI h1).1, fun fuel => ?_⟩
      rw [Nat.add_comm 1 fuel]
      conv => lhs; unfold genRun
      rw [h1]; rfl
    | succ k ih =>
      intro st hI hlt hbs hc
      cases hcv : conv st.runs with
      | true =>
        obtain ⟨st1, h1, h2⟩ := hstep st hI hlt hcv
        refine ⟨1, st1, h2, (genStep_inv hs hbb hI h1).1, fun fuel => ?_⟩
        rw [Nat.add_comm 1 fuel]
        conv => lhs; unfold genRun
        rw [h1]; rfl
      | false =>
        have hty : g.ty = .random := by
          cases hty : g.ty with
          | random => rfl
          | base => rw [hbs hty] at hcv; cases hcv
        obtain ⟨st1, h1, h2, h3⟩ := hretry hty st hI hlt hcv
        obtain ⟨f, st2, h4, h5, h6⟩ := ih st1 (genStep_inv hs hbb hI h1).1 (by rw [h2]; exact hlt)
          (fun e => by rw [hty] at e; cases e) (by rw [h3]; rw [← hc]; congr 1; omega)
        refine ⟨f + 1, st2, by rw [h4, h2], h5, fun fuel => ?_⟩
        rw [show f + 1 + fuel = (f + fuel) + 1 by omega]
        conv => lhs; unfold genRun
        rw [h1]
        exact h6 fuel
  have hall : ∀ (n : Nat) st, Inv c g conv d cfg st → g.total - st.s = n →
      ∃ f st1, genRun c g (fun _ => true) conv d f st = .ok (false, st1) := by
    intro n
    induction n with
    | zero =>
      intro st hI hn
      refine ⟨1, st, ?_⟩
      unfold genRun genStep
      rw [if_neg (by omega)]
      rfl
    | succ n ih =>
      intro st hI hn
      obtain ⟨k, hk1, hk2⟩ : ∃ k, conv (st.runs + k) = true ∧ (g.ty = .base → conv st.runs = true) := by
        cases hty : g.ty with
        | base => rw [hty] at hconv; exact ⟨0, hconv _, fun _ => hconv _⟩
        | random =>
          rw [hty] at hconv
          obtain ⟨m, h1, h2⟩ := hconv st.runs
          exact ⟨m - st.runs, by rw [Nat.add_sub_cancel' h1]; exact h2, fun e => by cases e⟩
      obtain ⟨f, st1, h1, h2, h3⟩ := hnext k st hI (by omega) hk2 hk1
      obtain ⟨f2, st2, h4⟩ := ih st1 h2 (by rw [h1]; push_cast; omega)
      exact ⟨f + f2, st2, by rw [h3 f2]; exact h4⟩
  have ht0 : 0 ≤ g.total := by
    cases hty : g.ty with
    | base =>
      obtain ⟨_, _, hpos, ht⟩ := (hbase hty).1
      rw [ht]; exact le_of_lt (Sampling.prod_pos _ hpos)
    | random => exact le_of_lt (hrand hty).1
  have hI0 : Inv c g conv d cfg ⟨0, 0, [], cfg⟩ :=
    ⟨by simpa using ht0, rfl, fun _ _ he => by simp at he,
      fun _ => ⟨[], .nil, by simp, .nil⟩, fun _ he => by simp at he, .inl rfl⟩
  obtain ⟨f, st1, hf⟩ := hall g.total.toNat _ hI0 (by simp; omega)
  refine ⟨f, st1.saved, ?_, ?_⟩
  · unfold generate
    rw [hg]
    simp only [ok_bind, hf]
    rfl
  · intro e he
    have hI := (genRun_inv hs hbb f hI0 hf).1
    obtain ⟨p, hp1, hp2⟩ := hI.file e he
    have : solPrefix c e.cfg = .ok pre := by
      cases hty : g.ty with
      | base =>
        obtain ⟨hgs, hpp⟩ := hbb hty
        have h1 := hI.base hty e he
        rw [setSampleParams_eq c g hgs hpp _ (by omega)] at h1
        exact hsame _ _ (length_zipWith3 _ hgs.2.1 (by rw [Sampling.length_digits, hgs.2.1])) h1
      | random =>
        obtain ⟨ks, _, _, h3⟩ := hI.random hty
        obtain ⟨i, hi, e'⟩ := List.getElem_of_mem he
        have := (List.forall₂_iff_get.1 h3).2 i (by rw [h3.length_eq]; exact hi) hi
        rw [List.get_eq_getElem, List.get_eq_getElem, e', setRandomParams_eq] at this
        exact hsame _ _ (by simp [drawnAll]) this.2
    rw [this] at hp1
    cases hp1
    exact hp2

/-! ## Keys that contain one another -/

/-- Simple conversions, for examples: a number `n` is written as `n` strokes. -/
noncomputable def demo : Codec where
  str | .scalar s => .ok (String.ofList s) | _ => .error .abort
  strs _ := .error .abort
  int | .scalar s => .ok s.length | _ => .error .abort
  format f v := f ++ toString v
  dbl | .scalar s => .ok s.length | _ => .error .abort
  bool | .scalar s => .ok (s == ['y']) | _ => .error .abort
  ofDbl r := .scalar (List.replicate ⌊r⌋.toNat 'i')
  ofInt v := .scalar (List.replicate v.toNat 'i')
  ofStr s := .scalar s.toList

/-- Two parameters, the key of one contained in that of the other. -/
def clash : Gen :=
  ⟨.base, ".", "p", 0, [⟨"a/b".toList, .integer 1 2⟩, ⟨"a".toList, .integer 3 4⟩], [2, 2], 4⟩

/-- **C86** (why keys must be unrelated): with keys `a/b` and `a`, either of the first two samples can be
set up in an empty configuration, but the value of `a/b` is lost, and the second cannot be set up after
the first. -/
theorem related_keys_stop : Sized clash ∧ (∀ q ∈ clash.params, Proper q.kind) ∧
    (∀ q ∈ clash.params, ¬ Blocked .null (pieces '/' q.key)) ∧
    ∃ t0 t1, setSampleParams demo clash 0 .null = .ok t0 ∧
      setSampleParams demo clash 1 .null = .ok t1 ∧
      ¬ Spec.Exists t0 (pieces '/' "a/b".toList) ∧
      setSampleParams demo clash 1 t0 = .error .abort := by
  have hg : Sized clash := ⟨by decide, rfl, by decide, by decide⟩
  have hp : ∀ q ∈ clash.params, Proper q.kind := by
    intro q hq
    simp only [clash, List.mem_cons, List.not_mem_nil, or_false] at hq
    rcases hq with rfl | rfl <;> trivial
  refine ⟨hg, hp, ?_, .map [("a".toList, .scalar ['i', 'i', 'i'])],
    .map [("a".toList, .scalar ['i', 'i', 'i', 'i'])], ?_, ?_, ?_, ?_⟩
  · intro q _
    rw [← find_abort_iff]
    cases pieces '/' q.key with
    | nil => intro h; cases h
    | cons s ss => intro h; cases h
  · rw [setSampleParams_eq demo clash hg hp 0 (by decide)]; rfl
  · rw [setSampleParams_eq demo clash hg hp 1 (by decide)]; rfl
  · rintro ⟨n, hn⟩
    rw [← find_some_iff] at hn
    have : find (.map [("a".toList, .scalar ['i', 'i', 'i'])]) (pieces '/' "a/b".toList) =
      .error .abort := by rfl
    rw [this] at hn
    cases hn
  · rw [setSampleParams_eq demo clash hg hp 1 (by decide)]; rfl

/-! ## The hypotheses can be met -/

/-- A configuration with two parameters. -/
def demoCfg : Node :=
  .map [("sample_generation".toList, .map [("parameters".toList, .seq [
    .map [("key".toList, .scalar "x/k".toList), ("type".toList, .scalar "double".toList),
      ("minimum".toList, .scalar "i".toList), ("maximum".toList, .scalar "iii".toList),
      ("sample_size".toList, .scalar "iii".toList)],
    .map [("key".toList, .scalar "n".toList), ("type".toList, .scalar "integer".toList),
      ("minimum".toList, .scalar "ii".toList), ("maximum".toList, .scalar "iii".toList),
      ("sample_size".toList, .scalar "ii".toList)]])])]

/-- The generator it describes. -/
noncomputable def demoGen : Gen :=
  ⟨.base, ".", "sample", 0, [⟨"x/k".toList, .double false 1 3⟩, ⟨"n".toList, .integer 2 3⟩], [3, 2], 6⟩

theorem demo_init : initGen demo demoCfg = .ok demoGen := by
  have h : initGen demo demoCfg = .ok ⟨.base, ".", "sample", 0,
    [⟨"x/k".toList, .double false (("i".toList.length : Nat) : ℝ) (("iii".toList.length : Nat) : ℝ)⟩,
      ⟨"n".toList, .integer 2 3⟩], [3, 2], 6⟩ := by rfl
  have e1 : "i".toList.length = 1 := by decide
  have e3 : "iii".toList.length = 3 := by decide
  rw [h, e1, e3]
  unfold demoGen
  norm_num

example : Sized demoGen ∧ Separate demoGen.params ∧ (∀ q ∈ demoGen.params, Proper q.kind) ∧
    (∀ q ∈ demoGen.params, ¬ Blocked demoCfg (pieces '/' q.key)) ∧
    (∀ q ∈ demoGen.params, ∀ p ∈ filePaths, Unrelated (pieces '/' q.key) p) ∧
    solPrefix demo demoCfg = .ok "" := by
  refine ⟨⟨by simp [demoGen], rfl, by decide, by decide⟩, ?_, ?_, ?_, ?_, rfl⟩
  · unfold Separate demoGen Unrelated
    simp only [List.pairwise_cons, List.mem_singleton, forall_eq]
    decide
  · intro q hq
    simp only [demoGen, List.mem_cons, List.not_mem_nil, or_false] at hq
    rcases hq with rfl | rfl <;> trivial
  · intro q hq
    simp only [demoGen, List.mem_cons, List.not_mem_nil, or_false] at hq
    rw [← find_abort_iff]
    rcases hq with rfl | rfl
    · have : find demoCfg (pieces '/' "x/k".toList) = .ok none := by rfl
      rw [this]; simp
    · have : find demoCfg (pieces '/' "n".toList) = .ok none := by rfl
      rw [this]; simp
  · intro q hq
    simp only [demoGen, List.mem_cons, List.not_mem_nil, or_false] at hq
    rcases hq with rfl | rfl <;> unfold Unrelated <;> decide

example : List.Forall₂ (fun q n => Spread q.kind n ∧ Faithful demo q.kind n)
    demoGen.params demoGen.sizes := by
  refine .cons ⟨.inr (by norm_num), ?_⟩ (.cons ⟨show (2 : Int) ≤ 3 - 2 + 1 by decide, ?_⟩ .nil)
  · rintro _ ⟨i, h0, h1, rfl⟩ _ ⟨j, h2, h3, rfl⟩ h
    have e : ∀ k : Int, linear 1 3 3 k = ((1 + k : Int) : ℝ) := by
      intro k; unfold linear; rw [if_neg (by decide)]; push_cast; ring
    simp only [Bool.false_eq_true, if_false, e] at h ⊢
    have h' := congrArg (fun n => match n with | Node.scalar s => s.length | _ => 0) h
    simp only [demo, Int.floor_intCast, List.length_replicate] at h'
    have : i = j := by omega
    rw [this]
  · rintro _ ⟨i, h0, h1, rfl⟩ _ ⟨j, h2, h3, rfl⟩ h
    have e : ∀ k : Int, integers 2 3 2 k = 2 + k := by
      intro k; unfold integers; rw [if_neg (by decide)]; norm_num
    rw [e, e] at h ⊢
    have h' := congrArg (fun n => match n with | Node.scalar s => s.length | _ => 0) h
    simp only [demo, List.length_replicate] at h'
    omega

end Verif.SampleConfig
