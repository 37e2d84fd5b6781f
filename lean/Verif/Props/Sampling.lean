import Verif.Proofs.Sampling
import Verif.Model.ParamReal
import Mathlib.Tactic.Positivity
import Mathlib.Tactic.FieldSimp

/-!
# Properties C01-C06: sample distribution, grid indices, sampling loop, parameters
-/

namespace Verif.Sampling

open Verif

/-! ## C01 -/

/-- Number of sample indices below `total` that a rank owns. -/
def load (off : List Nat) (total rank : Nat) : Nat :=
  (List.range total).countP (fun i => decide (isMyJob off rank i = .ok true))

theorem countP_interval (lo hi : Nat) (hlh : lo ≤ hi) :
    ∀ n, hi ≤ n → (List.range n).countP (fun i => decide (lo ≤ i) && decide (i < hi)) = hi - lo := by
  have aux : ∀ n, (List.range n).countP (fun i => decide (lo ≤ i) && decide (i < hi))
      = min n hi - min n lo := by
    intro n
    induction n with
    | zero => simp
    | succ n ih =>
      rw [List.range_succ, List.countP_append, ih]
      simp only [List.countP_cons, List.countP_nil, Bool.and_eq_true, decide_eq_true_eq]
      split <;> omega
  intro n hn
  rw [aux]; omega

/-- C01.  `DistributeSamples` never fails, every sample index below `total` is the job of exactly one
rank, other indices are nobody's job, each rank's jobs are contiguous, earlier ranks own smaller
indices, and the loads of any two ranks differ by at most one. -/
theorem distributeSamples_partition (total n : Nat) (hn : 0 < n) :
    ∃ off, distributeSamples total n = .ok off ∧
      (∀ idx, idx < total → ∃! r, r < n ∧ isMyJob off r idx = .ok true) ∧
      (∀ idx, total ≤ idx → ∀ r, r < n → isMyJob off r idx = .ok false) ∧
      (∀ r i j k, r < n → i ≤ j → j ≤ k → isMyJob off r i = .ok true → isMyJob off r k = .ok true →
        isMyJob off r j = .ok true) ∧
      (∀ r r' i j, r < r' → r' < n → isMyJob off r i = .ok true → isMyJob off r' j = .ok true →
        i < j) ∧
      (∀ r r', r < n → r' < n → load off total r ≤ load off total r' + 1) := by
  refine ⟨_, distributeSamples_eq total n hn, ?_, ?_, ?_, ?_, ?_⟩
  · intro idx hidx
    obtain ⟨r, h1, h2, h3⟩ := exists_owner (offs total n) (offs_zero total n) n idx
      (by rw [offs_last total n hn]; exact hidx)
    refine ⟨r, ⟨h1, ?_⟩, ?_⟩
    · rw [isMyJob_offs _ _ _ _ h1]; simp [h2, h3]
    · rintro r' ⟨h1', h'⟩
      rw [isMyJob_offs _ _ _ _ h1'] at h'
      simp only [Except.ok.injEq, Bool.and_eq_true, decide_eq_true_eq] at h'
      rcases Nat.lt_trichotomy r r' with h | h | h
      · have := offs_mono total n (show r + 1 ≤ r' from h); omega
      · exact h.symm
      · have := offs_mono total n (show r' + 1 ≤ r from h); omega
  · intro idx hidx r hr
    rw [isMyJob_offs _ _ _ _ hr]
    have := offs_mono total n (show r + 1 ≤ n from hr)
    rw [offs_last total n hn] at this
    simp; omega
  · intro r i j k hr hij hjk hi hk
    rw [isMyJob_offs _ _ _ _ hr] at *
    simp at *
    omega
  · intro r r' i j hrr hr' hi hj
    rw [isMyJob_offs _ _ _ _ (by omega)] at hi
    rw [isMyJob_offs _ _ _ _ hr'] at hj
    simp at hi hj
    have := offs_mono total n (show r + 1 ≤ r' from hrr)
    omega
  · have key : ∀ r, r < n → load (tab (n + 1) (offs total n)) total r
        = total / n + (if r < total % n then 1 else 0) := by
      intro r hr
      have hle := offs_mono total n (show r + 1 ≤ n from hr)
      rw [offs_last total n hn] at hle
      have := countP_interval (offs total n r) (offs total n (r + 1))
        (offs_mono total n (by omega)) total hle
      unfold load
      have e : (fun i => decide (isMyJob (tab (n + 1) (offs total n)) r i = .ok true))
          = (fun i => decide (offs total n r ≤ i) && decide (i < offs total n (r + 1))) := by
        funext i
        rw [isMyJob_offs _ _ _ _ hr]
        simp
      rw [e, this, offs_succ]
      generalize total / n = q
      generalize (if r < total % n then 1 else 0) = b
      omega
    intro r r' hr hr'
    rw [key r hr, key r' hr']
    split <;> split <;> omega

-- 7 samples on 3 ranks: offsets 0,3,5,7; rank 1 owns 3 and 4.
example : distributeSamples 7 3 = .ok [0, 3, 5, 7] ∧ isMyJob [0, 3, 5, 7] 1 4 = .ok true ∧
    isMyJob [0, 3, 5, 7] 1 5 = .ok false := by decide

/-! ## C02 -/

/-- An in-range multi-index: one entry per parameter, each in `[0, size)`. -/
def InGrid (sizes idx : List Int) : Prop := List.Forall₂ (fun s i => 0 ≤ i ∧ i < s) sizes idx

/-- C02 (forward).  Every flat index in `[0, total)` has a multi-index, it is in range, and it
converts back to the flat index. -/
theorem sampleIndex_roundtrip_flat (sizes : List Int) (hne : sizes ≠ []) (hpos : ∀ s ∈ sizes, 0 < s)
    (total : Int) (htot : totalSamples sizes = .ok total) (x : Int) (h0 : 0 ≤ x) (h1 : x < total) :
    ∃ idx, getSampleIndexNested sizes x = .ok idx ∧ InGrid sizes idx ∧
      getSampleIndexFlat sizes total idx = .ok x := by
  rw [totalSamples_eq sizes hne hpos] at htot
  cases htot
  refine ⟨_, getSampleIndexNested_eq sizes hpos x h0, digits_range sizes hpos x, ?_⟩
  obtain ⟨s, ss, rfl⟩ : ∃ s ss, sizes = s :: ss := by
    cases sizes with
    | nil => exact absurd rfl hne
    | cons s ss => exact ⟨s, ss, rfl⟩
  have hrm := rm_digits (s :: ss) hpos x
  rw [Int.emod_eq_of_lt h0 h1] at hrm
  rw [digits] at hrm ⊢
  rw [getSampleIndexFlat_eq _ _ _ _ _ (length_digits ss x), hrm, if_pos ⟨h0, h1⟩]

/-- C02 (backward).  Every in-range multi-index has a flat index in `[0, total)` which converts back
to it; so the two maps are inverse bijections. -/
theorem sampleIndex_roundtrip_nested (sizes : List Int) (hne : sizes ≠ [])
    (hpos : ∀ s ∈ sizes, 0 < s) (total : Int) (htot : totalSamples sizes = .ok total)
    (idx : List Int) (hidx : InGrid sizes idx) :
    ∃ x, getSampleIndexFlat sizes total idx = .ok x ∧ 0 ≤ x ∧ x < total ∧
      getSampleIndexNested sizes x = .ok idx := by
  rw [totalSamples_eq sizes hne hpos] at htot
  cases htot
  obtain ⟨h0, h1⟩ := rm_range sizes idx hidx
  have hd := digits_rm sizes idx hidx 0
  rw [zero_mul, add_zero] at hd
  refine ⟨rm sizes idx, ?_, h0, h1, by rw [getSampleIndexNested_eq sizes hpos _ h0, hd]⟩
  cases hidx with
  | nil => exact absurd rfl hne
  | @cons s i ss is h2 h3 =>
    rw [getSampleIndexFlat_eq _ _ _ _ _ h3.length_eq.symm, if_pos ⟨h0, h1⟩]

/-- C02 (consequence).  Two in-range multi-indices with the same flat index are equal. -/
theorem sampleIndex_injective (sizes : List Int) (hne : sizes ≠ []) (hpos : ∀ s ∈ sizes, 0 < s)
    (total : Int) (htot : totalSamples sizes = .ok total) (a b : List Int) (ha : InGrid sizes a)
    (hb : InGrid sizes b)
    (h : getSampleIndexFlat sizes total a = getSampleIndexFlat sizes total b) : a = b := by
  obtain ⟨x, hx, _, _, hxa⟩ := sampleIndex_roundtrip_nested sizes hne hpos total htot a ha
  obtain ⟨y, hy, _, _, hyb⟩ := sampleIndex_roundtrip_nested sizes hne hpos total htot b hb
  rw [hx, hy] at h
  cases h
  rw [hxa] at hyb
  cases hyb; rfl

/-- C02 (last index fastest).  The order of the samples is row-major: incrementing the last entry of
a multi-index increments the flat index by one. -/
theorem sampleIndex_rowMajor (sizes : List Int) (hne : sizes ≠ []) (hpos : ∀ s ∈ sizes, 0 < s)
    (total : Int) (htot : totalSamples sizes = .ok total) (pre : List Int) (i : Int)
    (h1 : InGrid sizes (pre ++ [i])) (h2 : InGrid sizes (pre ++ [i + 1])) :
    ∃ x, getSampleIndexFlat sizes total (pre ++ [i]) = .ok x ∧
      getSampleIndexFlat sizes total (pre ++ [i + 1]) = .ok (x + 1) := by
  have hlen1 := h1.length_eq
  have key : ∀ (ss p : List Int) (i : Int), ss.length = (p ++ [i]).length →
      rm ss (p ++ [i + 1]) = rm ss (p ++ [i]) + 1 := by
    intro ss p
    induction p generalizing ss with
    | nil =>
      intro i hl
      match ss, hl with
      | [s], _ => simp [rm]
    | cons a p ih =>
      intro i hl
      match ss, hl with
      | s :: ss, hl =>
        simp only [List.cons_append, rm]
        rw [ih ss i (by simpa using hl)]
        ring
  rw [totalSamples_eq sizes hne hpos] at htot
  cases htot
  have r1 := rm_range _ _ h1
  have r2 := rm_range _ _ h2
  refine ⟨rm sizes (pre ++ [i]), ?_, ?_⟩
  · match sizes, hd : pre ++ [i], h1, hne with
    | s :: ss, a :: as, .cons h2' h3, _ =>
      rw [hd] at r1
      rw [getSampleIndexFlat_eq _ _ _ _ _ h3.length_eq.symm, if_pos ⟨r1.1, r1.2⟩]
  · rw [← key sizes pre i hlen1]
    match sizes, hd : pre ++ [i + 1], h2, hne with
    | s :: ss, a :: as, .cons h2' h3, _ =>
      rw [hd] at r2
      rw [getSampleIndexFlat_eq _ _ _ _ _ h3.length_eq.symm, if_pos ⟨r2.1, r2.2⟩]

-- sizes 2 x 3 x 4: the multi-index (1,2,3) is sample 23.
example : totalSamples [2, 3, 4] = .ok 24 ∧ getSampleIndexFlat [2, 3, 4] 24 [1, 2, 3] = .ok 23 ∧
    getSampleIndexNested [2, 3, 4] 23 = .ok [1, 2, 3] := by decide
example : InGrid [2, 3, 4] [1, 2, 3] := by
  unfold InGrid; repeat (first | exact .nil | refine .cons (by omega) ?_)

/-- C02 (negative result).  `GetSampleIndex(Array)` does not reject every out-of-range multi-index:
for sizes `2 x 3` it accepts the out-of-range `(0, 3)` and returns the index of `(1, 0)`. -/
theorem sampleIndex_accepts_out_of_range :
    ¬ ∀ (sizes idx : List Int) (total x : Int), (∀ s ∈ sizes, 0 < s) →
      totalSamples sizes = .ok total → getSampleIndexFlat sizes total idx = .ok x →
      InGrid sizes idx := by
  intro h
  have := h [2, 3] [0, 3] 6 3 (by decide) (by decide) (by decide)
  cases this with
  | cons _ h2 => cases h2 with
    | cons h3 _ => omega

/-! ## C03 -/

/-- C03.  Random generator: index `s` is the constant multi-index, and converts back. -/
theorem randomIndex_roundtrip (n : Nat) (hn : 0 < n) (total x : Int) (h0 : 0 ≤ x) (h1 : x < total) :
    ∃ idx, randomIndexNested n total x = .ok idx ∧ idx.length = n ∧ (∀ i ∈ idx, i = x) ∧
      randomIndexFlat n total idx = .ok x := by
  refine ⟨List.replicate n x, ?_, by simp, fun i hi => List.eq_of_mem_replicate hi, ?_⟩
  · simp [randomIndexNested, h0, h1]
  · unfold randomIndexFlat
    have e1 : ((List.replicate n x).length == n) = true := by simp
    rw [e1]
    simp only [require_true, ok_bind]
    rw [rd_of_lt (by simpa using hn)]
    simp only [ok_bind, List.getElem_replicate]
    rw [loop_spec (n := n - 1) (fun _ => ()) rfl]
    · simp [h0, h1]
    · intro i hi
      rw [rd_of_lt (by simp; omega)]
      simp

/-- C03.  A multi-index is accepted only if it has one entry per parameter, all entries agree, and
the common entry is a valid sample index; the result is that entry. -/
theorem randomIndex_sound (n : Nat) (total x : Int) (idx : List Int)
    (h : randomIndexFlat n total idx = .ok x) :
    idx = List.replicate n x ∧ 0 ≤ x ∧ x < total := by
  unfold randomIndexFlat at h
  by_cases hl : (idx.length == n) = true
  · rw [hl] at h
    simp only [require_true, ok_bind] at h
    cases hr : rd idx 0 with
    | error e => rw [hr] at h; cases h
    | ok g =>
      rw [hr] at h
      simp only [ok_bind] at h
      cases hL : loop (n - 1) (fun k (_ : Unit) => (do
          let ip ← rd idx (k + 1)
          require (g == ip) : Outcome Unit)) () with
      | error e => rw [hL] at h; cases h
      | ok u =>
        rw [hL] at h
        simp only [ok_bind] at h
        by_cases hc : (decide (g ≥ 0) && decide (g < total)) = true
        · rw [hc] at h
          simp only [require_true, ok_bind] at h
          cases h
          have hall := loop_inv (fun k (_ : Unit) => ∀ j, j < k → idx[j + 1]? = some x)
            (by intro j hj; omega) (by
              intro j u v hj ih hb k hk
              by_cases hkj : k < j
              · exact ih k hkj
              · have : k = j := by omega
                subst this
                cases hrd : rd idx (k + 1) with
                | error e => rw [hrd] at hb; cases hb
                | ok w =>
                  rw [hrd] at hb
                  simp only [ok_bind] at hb
                  have := require_eq_ok.mp hb
                  have hw : x = w := by simpa using this
                  rw [rd_eq_ok.mp hrd, hw]) hL
          have hn : idx.length = n := by simpa using hl
          refine ⟨?_, by simpa using hc⟩
          apply List.ext_getElem?
          intro i
          rw [List.getElem?_replicate]
          by_cases hi : i < n
          · rw [if_pos hi]
            cases i with
            | zero => exact rd_eq_ok.mp hr
            | succ i => exact hall i (by omega)
          · rw [if_neg hi]; simp; omega
        · simp only [Bool.not_eq_true] at hc
          rw [hc] at h; cases h
  · simp only [Bool.not_eq_true] at hl
    rw [hl] at h; cases h

example : randomIndexNested 3 10 7 = .ok [7, 7, 7] ∧ randomIndexFlat 3 10 [7, 7, 7] = .ok 7 ∧
    randomIndexFlat 3 10 [7, 6, 7] = .error .abort := by decide

/-! ## C04 -/

/-- C04 (safety).  Whatever the convergence history, at any moment the solutions saved are those of
samples `0, 1, ..., s-1` in order, each of them owned by this rank, and `s` never exceeds the
total. -/
theorem generateSamples_safe (total : Nat) (mine : Nat → Bool) (ty : GenType) (conv : Nat → Bool)
    (fuel : Nat) (st : GenState)
    (h : genRun total mine ty conv fuel genInit = .running st ∨
      genRun total mine ty conv fuel genInit = .finished st ∨
      genRun total mine ty conv fuel genInit = .aborted st) :
    st.saved = List.range st.s ∧ st.s ≤ total ∧ ∀ i ∈ st.saved, mine i = true := by
  have aux : ∀ fuel (st0 st : GenState),
      (st0.saved = List.range st0.s ∧ st0.s ≤ total ∧ ∀ i ∈ st0.saved, mine i = true) →
      (genRun total mine ty conv fuel st0 = .running st ∨
        genRun total mine ty conv fuel st0 = .finished st ∨
        genRun total mine ty conv fuel st0 = .aborted st) →
      (st.saved = List.range st.s ∧ st.s ≤ total ∧ ∀ i ∈ st.saved, mine i = true) := by
    intro fuel
    induction fuel with
    | zero =>
      intro st0 st h0 h
      simp [genRun] at h
      subst h; exact h0
    | succ fuel ih =>
      intro st0 st h0 h
      rw [genRun] at h
      unfold genStep at h
      by_cases h1 : st0.s < total
      · rw [if_pos h1] at h
        cases h2 : mine st0.s with
        | false => rw [h2] at h; exact ih _ _ h0 h
        | true =>
          rw [h2] at h
          cases h3 : conv st0.attempts with
          | false =>
            rw [h3] at h
            cases ty with
            | base =>
              simp at h
              subst h; exact h0
            | random => exact ih { st0 with attempts := st0.attempts + 1 } _ h0 h
          | true =>
            rw [h3] at h
            refine ih _ _ ?_ h
            refine ⟨by simp [h0.1, List.range_succ], h1, ?_⟩
            intro i hi
            simp at hi
            rcases hi with hi | hi
            · exact h0.2.2 i hi
            · rw [hi, h2]
      · rw [if_neg h1] at h
        simp at h
        subst h; exact h0
  exact aux fuel genInit st ⟨rfl, Nat.zero_le _, by simp [genInit]⟩ h

/-- C04 (the pinned code violates termination).  On a rank that does not own some sample index, the
sampling loop never finishes: whatever the convergence history, no number of iterations reaches the
end of the loop. -/
theorem generateSamples_diverges (total : Nat) (mine : Nat → Bool) (ty : GenType)
    (conv : Nat → Bool) (s0 : Nat) (hs0 : s0 < total) (hmine : mine s0 = false) :
    ∀ fuel st, genRun total mine ty conv fuel genInit ≠ .finished st := by
  intro fuel st h
  have aux : ∀ fuel (st0 : GenState), st0.s ≤ s0 →
      ∀ st, genRun total mine ty conv fuel st0 ≠ .finished st := by
    intro fuel
    induction fuel with
    | zero => intro st0 _ st h; cases h
    | succ fuel ih =>
      intro st0 h0 st h
      rw [genRun] at h
      unfold genStep at h
      rw [if_pos (by omega)] at h
      cases h2 : mine st0.s with
      | false => rw [h2] at h; exact ih _ h0 _ h
      | true =>
        rw [h2] at h
        cases h3 : conv st0.attempts with
        | false =>
          rw [h3] at h
          cases ty with
          | base => cases h
          | random => exact ih { st0 with attempts := st0.attempts + 1 } h0 _ h
        | true =>
          rw [h3] at h
          refine ih _ ?_ _ h
          have : st0.s ≠ s0 := by
            intro e; rw [e, hmine] at h2; cases h2
          show st0.s + 1 ≤ s0
          omega
  exact aux fuel genInit (Nat.zero_le _) st h

/-- C04 (the pinned code violates termination, in terms of the distribution).  With two or more
processes and at least one sample, some rank never finishes `GenerateSamples`; with two or more
samples, every rank hangs. -/
theorem generateSamples_parallel_hangs (total n : Nat) (hn : 2 ≤ n) (ht : 1 ≤ total) (ty : GenType)
    (conv : Nat → Bool) (off : List Nat) (hoff : distributeSamples total n = .ok off) :
    (∃ r, r < n ∧ ∀ fuel st,
      genRun total (fun s => decide (isMyJob off r s = .ok true)) ty conv fuel genInit ≠ .finished st) ∧
    (2 ≤ total → ∀ r, r < n → ∀ fuel st,
      genRun total (fun s => decide (isMyJob off r s = .ok true)) ty conv fuel genInit ≠ .finished st) := by
  rw [distributeSamples_eq total n (by omega)] at hoff
  cases hoff
  constructor
  · refine ⟨n - 1, by omega, ?_⟩
    apply generateSamples_diverges _ _ _ _ 0 (by omega)
    rw [isMyJob_offs _ _ _ _ (by omega)]
    have h1 := offs_mono total n (show 1 ≤ n - 1 by omega)
    have h2 : 1 ≤ offs total n 1 := by
      unfold offs
      rw [Nat.one_mul]
      have := Nat.div_add_mod total n
      generalize total / n = q at *
      generalize total % n = m at *
      rcases Nat.eq_zero_or_pos q with h | h
      · subst h; simp at this; omega
      · omega
    simp; omega
  · intro h2 r hr
    by_cases hr0 : r = 0
    · apply generateSamples_diverges _ _ _ _ (total - 1) (by omega)
      rw [isMyJob_offs _ _ _ _ hr]
      subst hr0
      have : offs total n 1 ≤ total - 1 := by
        unfold offs
        rw [Nat.one_mul]
        have e := Nat.div_add_mod total n
        have : 2 * (total / n) ≤ n * (total / n) := Nat.mul_le_mul_right _ hn
        generalize total / n = q at *
        generalize n * q = nq at *
        generalize total % n = m at *
        by_cases h : m = 0
        · by_cases hq : q = 0
          · omega
          · omega
        · omega
      simp; omega
    · apply generateSamples_diverges _ _ _ _ 0 (by omega)
      rw [isMyJob_offs _ _ _ _ hr]
      have h1 := offs_mono total n (show 1 ≤ r by omega)
      have h2 : 1 ≤ offs total n 1 := by
        unfold offs
        rw [Nat.one_mul]
        have := Nat.div_add_mod total n
        generalize total / n = q at *
        generalize total % n = m at *
        rcases Nat.eq_zero_or_pos q with h | h
        · subst h; simp at this; omega
        · omega
      simp; omega

/-- C04 (what does hold).  If the rank owns every sample, and the solver converges infinitely often
(base generator: always), then the loop terminates having saved samples `0, ..., total-1`, each
exactly once and in order.  Missing for the full property: ranks that own only part of the samples. -/
theorem generateSamples_partial (total : Nat) (mine : Nat → Bool) (ty : GenType) (conv : Nat → Bool)
    (hmine : ∀ s, s < total → mine s = true)
    (hconv : match ty with
      | .base => ∀ k, conv k = true
      | .random => ∀ k, ∃ m, k ≤ m ∧ conv m = true) :
    ∃ fuel st, genRun total mine ty conv fuel genInit = .finished st ∧
      st.saved = List.range total := by
  have hprog : ∀ k, ∃ m, k ≤ m ∧ conv m = true ∧ (ty = .base → m = k) := by
    intro k
    cases ty with
    | base => exact ⟨k, Nat.le_refl _, hconv k, fun _ => rfl⟩
    | random =>
      obtain ⟨m, h1, h2⟩ := hconv k
      exact ⟨m, h1, h2, fun h => by cases h⟩
  -- from attempt `a`, reach the next converged attempt
  have hone : ∀ d (st0 : GenState), st0.s < total →
      (∃ m, m = st0.attempts + d ∧ conv m = true ∧ (ty = .base → m = st0.attempts)) →
      ∃ f a, ∀ fuel, genRun total mine ty conv (f + fuel) st0
        = genRun total mine ty conv fuel ⟨st0.s + 1, a, st0.saved ++ [st0.s]⟩ := by
    intro d
    induction d with
    | zero =>
      rintro st0 hlt ⟨m, rfl, hm, _⟩
      refine ⟨1, st0.attempts + 1, fun fuel => ?_⟩
      rw [Nat.add_comm 1 fuel, genRun, genStep.eq_def, if_pos hlt, hmine _ hlt]
      rw [Nat.add_zero] at hm
      rw [hm]; rfl
    | succ d ih =>
      rintro st0 hlt ⟨m, hm0, hm, hb⟩
      cases hc : conv st0.attempts with
      | true =>
        refine ⟨1, st0.attempts + 1, fun fuel => ?_⟩
        rw [Nat.add_comm 1 fuel, genRun, genStep.eq_def, if_pos hlt, hmine _ hlt, hc]
        rfl
      | false =>
        cases ty with
        | base => have := hb rfl; omega
        | random =>
          obtain ⟨f, a, hf⟩ := ih { st0 with attempts := st0.attempts + 1 } hlt
            ⟨m, by show m = st0.attempts + 1 + d; omega, hm, fun h => by cases h⟩
          refine ⟨f + 1, a, fun fuel => ?_⟩
          rw [show f + 1 + fuel = (f + fuel) + 1 by omega, genRun, genStep.eq_def, if_pos hlt,
            hmine _ hlt, hc]
          exact hf fuel
  have hall : ∀ d (st0 : GenState), st0.s + d = total → st0.saved = List.range st0.s →
      ∃ fuel st, genRun total mine ty conv fuel st0 = .finished st ∧ st.saved = List.range total := by
    intro d
    induction d with
    | zero =>
      intro st0 h1 h2
      refine ⟨1, st0, ?_, by rw [h2, show st0.s = total by omega]⟩
      rw [genRun, genStep.eq_def, if_neg (by omega)]
    | succ d ih =>
      intro st0 h1 h2
      obtain ⟨m, hm1, hm2, hm3⟩ := hprog st0.attempts
      obtain ⟨f, a, hf⟩ := hone (m - st0.attempts) st0 (by omega) ⟨m, by omega, hm2, hm3⟩
      obtain ⟨fuel, st, h3, h4⟩ := ih ⟨st0.s + 1, a, st0.saved ++ [st0.s]⟩
        (by show st0.s + 1 + d = total; omega) (by simp [h2, List.range_succ])
      exact ⟨f + fuel, st, by rw [hf]; exact h3, h4⟩
  exact hall total genInit (by simp [genInit]) rfl

-- one rank, three samples, random generator, second attempt fails: all samples saved
example : genRun 3 (fun _ => true) .random (fun k => k != 1) 10 genInit =
    .finished ⟨3, 4, [0, 1, 2]⟩ := by decide
-- two ranks, two samples: rank 1 is still at s = 0 after 50 iterations (a test, the theorem is above)
example : genRun 2 (fun s => decide (1 ≤ s)) .base (fun _ => true) 50 genInit = .running genInit := by
  decide

/-! ## C06 -/

/-- C06.  Integer parameters stay within their interval, start at the minimum and never decrease. -/
theorem integerParam_range (minval maxval size : Int) (hmm : minval ≤ maxval) (i : Int) (h0 : 0 ≤ i)
    (h1 : i < size) :
    ∃ v, integerParam minval maxval size i = .ok v ∧ minval ≤ v ∧ v ≤ maxval ∧
      (i = 0 → v = minval) ∧
      ∀ j w, i ≤ j → integerParam minval maxval size j = .ok w → v ≤ w := by
  have hform : ∀ j, 0 ≤ j → j < size → integerParam minval maxval size j =
      .ok (minval + j * ((maxval - minval) / (if size = 1 then 1 else size - 1))) := by
    intro j hj0 hj1
    unfold integerParam
    have e1 : decide (size > 0) = true := by simp; omega
    have e2 : (decide (j ≥ 0) && decide (j < size)) = true := by simp [hj0, hj1]
    rw [e1, e2]
    simp only [require_true, ok_bind]
    rw [Int.tdiv_eq_ediv_of_nonneg (by omega)]
    rfl
  have hnp : (0 : Int) < (if size = 1 then 1 else size - 1) := by split <;> omega
  have hile : i ≤ (if size = 1 then 1 else size - 1) := by split <;> omega
  generalize (if size = 1 then (1 : Int) else size - 1) = np at *
  have hdp0 : 0 ≤ (maxval - minval) / np := Int.ediv_nonneg (by omega) (by omega)
  have hdp1 : np * ((maxval - minval) / np) ≤ maxval - minval := by
    have := Int.mul_ediv_add_emod (maxval - minval) np
    have := Int.emod_nonneg (maxval - minval) (show np ≠ 0 by omega)
    omega
  refine ⟨_, hform i h0 h1, ?_, ?_, ?_, ?_⟩
  · have := mul_nonneg h0 hdp0; omega
  · have := mul_le_mul_of_nonneg_right hile hdp0; omega
  · intro h; subst h; simp
  · intro j w hij hw
    by_cases hj : j < size
    · rw [hform j (by omega) hj] at hw
      cases hw
      have := mul_le_mul_of_nonneg_right hij hdp0; omega
    · exfalso
      unfold integerParam at hw
      have e1 : decide (size > 0) = true := by simp; omega
      have e2 : (decide (j ≥ 0) && decide (j < size)) = false := by simp; omega
      rw [e1, e2] at hw
      cases hw

/-- C06.  An index outside `[0, size)` is rejected. -/
theorem integerParam_rejects (minval maxval size i : Int) (h : i < 0 ∨ size ≤ i) :
    integerParam minval maxval size i = .error .abort := by
  unfold integerParam
  by_cases hs : size > 0
  · have e1 : decide (size > 0) = true := by simp; omega
    have e2 : (decide (i ≥ 0) && decide (i < size)) = false := by
      rw [Bool.and_eq_false_iff]; simp; omega
    rw [e1, e2]; rfl
  · have e1 : decide (size > 0) = false := by simp; omega
    rw [e1]; rfl

/-- C06.  With `size ≥ 2` samples, the last sample equals the maximum exactly when `size - 1` divides
the length of the interval. -/
theorem integerParam_last (minval maxval size : Int) (hmm : minval ≤ maxval) (h2 : 2 ≤ size) :
    integerParam minval maxval size (size - 1) = .ok maxval ↔ (size - 1) ∣ (maxval - minval) := by
  unfold integerParam
  have e1 : decide (size > 0) = true := by simp; omega
  have e2 : (decide (size - 1 ≥ 0) && decide (size - 1 < size)) = true := by simp; omega
  rw [e1, e2, if_neg (by omega)]
  simp only [require_true, ok_bind]
  rw [Int.tdiv_eq_ediv_of_nonneg (by omega)]
  show Except.ok _ = Except.ok _ ↔ _
  rw [Except.ok.injEq, Int.dvd_iff_emod_eq_zero]
  have := Int.mul_ediv_add_emod (maxval - minval) (size - 1)
  omega

example : integerParam 0 6 4 0 = .ok 0 ∧ integerParam 0 6 4 3 = .ok 6 ∧
    integerParam 0 6 4 4 = .error .abort := by decide

/-- C06 (negative result).  The last sample need not be the maximum: 4 samples of `[0,5]` give
0,1,2,3. -/
theorem integerParam_last_not_max :
    ¬ ∀ (minval maxval size : Int), minval ≤ maxval → 2 ≤ size →
      integerParam minval maxval size (size - 1) = .ok maxval := by
  intro h
  have := h 0 5 4 (by decide) (by decide)
  revert this
  decide

/-- C06.  The file name parameter formats an integer of the interval. -/
theorem filenameParam_range (fmt : Int → String) (minval maxval size : Int) (hmm : minval ≤ maxval)
    (i : Int) (h0 : 0 ≤ i) (h1 : i < size) :
    ∃ v, filenameParam fmt minval maxval size i = .ok (fmt v) ∧ minval ≤ v ∧ v ≤ maxval := by
  obtain ⟨v, hv, h2, h3, _⟩ := integerParam_range minval maxval size hmm i h0 h1
  exact ⟨v, by simp [filenameParam, hv], h2, h3⟩

/-- C06.  `ParseFilenames` appends the names of all integers of `[minval, maxval]`, in order, and
keeps what was there. -/
theorem parseFilenames_all (fmt : Int → String) (minval maxval : Int) (fs : List String) :
    ∃ l, parseFilenames fmt minval maxval fs = .ok (fs ++ l) ∧
      l.length = (maxval - minval + 1).toNat ∧
      ∀ (k : Nat), minval + k ≤ maxval → l[k]? = some (fmt (minval + k)) := by
  refine ⟨tab (maxval - minval + 1).toNat (fun k => fmt (minval + k)), ?_, by simp, ?_⟩
  · unfold parseFilenames
    rw [loop_spec (fun n => fs ++ tab n (fun k => fmt (minval + k))) (by simp [tab])]
    intro i _
    simp [tab, List.range_succ]
  · intro k hk
    rw [getElem?_tab, if_pos (by omega)]

/-- C06 (negative result).  Sampling an integer parameter at the size set by `SetMaximumSize` does
not reach the maximum when the interval has length three or more. -/
theorem setMaximumSize_misses_max (minval maxval size : Int) (h3 : 3 ≤ maxval - minval)
    (hs : setMaximumSize minval maxval = .ok size) (i : Int) :
    integerParam minval maxval size i ≠ .ok maxval := by
  unfold setMaximumSize at hs
  dsimp only at hs
  have e1 : decide (maxval - minval > 0) = true := by simp; omega
  rw [e1] at hs
  cases hs
  by_cases h : 0 ≤ i ∧ i < maxval - minval
  · unfold integerParam
    have e2 : (decide (i ≥ 0) && decide (i < maxval - minval)) = true := by simp [h.1]; omega
    rw [e1, e2, if_neg (by omega)]
    simp only [require_true, ok_bind]
    rw [Int.tdiv_eq_ediv_of_nonneg (by omega)]
    have : (maxval - minval) / (maxval - minval - 1) = 1 := by
      generalize maxval - minval = d at h3
      obtain ⟨e, rfl⟩ : ∃ e, d = 1 + e * 1 := ⟨d - 1, by ring⟩
      rw [show 1 + e * 1 - 1 = e by ring, Int.add_mul_ediv_left _ _ (by omega),
        Int.ediv_eq_zero_of_lt (by omega) (by omega)]
      rfl
    rw [this]
    intro hh
    cases hh
    omega
  · rw [integerParam_rejects _ _ _ _ (by omega)]
    intro hh; cases hh

example : setMaximumSize 2 7 = .ok 5 := by decide

end Verif.Sampling

namespace Verif.ParamReal

open Verif

/-! ## C05 -/

theorem setParam_linear (minval maxval : ℝ) (size i : Int) (h0 : 0 ≤ i) (h1 : i < size) :
    setParam false minval maxval size i =
      .ok (minval + (i : ℝ) * ((maxval - minval) / ((if size = 1 then 1 else size - 1 : Int) : ℝ))) := by
  unfold setParam
  have e1 : decide (size > 0) = true := by simp; omega
  have e2 : (decide (i ≥ 0) && decide (i < size)) = true := by simp [h0, h1]
  rw [e1, e2]
  simp only [require_true, ok_bind]
  rfl

theorem setParam_log (minval maxval : ℝ) (size i : Int) (h0 : 0 ≤ i) (h1 : i < size) :
    setParam true minval maxval size i =
      .ok (minval * (Real.exp (Real.log (maxval / minval) /
        ((if size = 1 then 1 else size - 1 : Int) : ℝ))) ^ (i : ℝ)) := by
  unfold setParam
  have e1 : decide (size > 0) = true := by simp; omega
  have e2 : (decide (i ≥ 0) && decide (i < size)) = true := by simp [h0, h1]
  rw [e1, e2]
  simp only [require_true, ok_bind]
  rfl

/-- C05 (linear scale).  With at least two samples the values run from the minimum (index 0) to the
maximum (last index), are strictly increasing in the index, and stay within the interval. -/
theorem doubleParam_linear (minval maxval : ℝ) (hlt : minval < maxval) (size : Int) (h2 : 2 ≤ size) :
    setParam false minval maxval size 0 = .ok minval ∧
    setParam false minval maxval size (size - 1) = .ok maxval ∧
    (∀ i j, 0 ≤ i → i < j → j < size → ∃ a b, setParam false minval maxval size i = .ok a ∧
      setParam false minval maxval size j = .ok b ∧ a < b) ∧
    (∀ i, 0 ≤ i → i < size → ∃ a, setParam false minval maxval size i = .ok a ∧
      minval ≤ a ∧ a ≤ maxval) := by
  have hN : (0 : ℝ) < ((size - 1 : Int) : ℝ) := by exact_mod_cast (by omega : 0 < size - 1)
  have hd : 0 < maxval - minval := by linarith
  refine ⟨?_, ?_, ?_, ?_⟩
  · rw [setParam_linear _ _ _ _ (by omega) (by omega)]; simp
  · rw [setParam_linear _ _ _ _ (by omega) (by omega), if_neg (by omega)]
    congr 1
    field_simp
    ring
  · intro i j h0 hij hj
    rw [setParam_linear _ _ _ _ h0 (by omega), setParam_linear _ _ _ _ (by omega) hj,
      if_neg (by omega)]
    refine ⟨_, _, rfl, rfl, ?_⟩
    have : (i : ℝ) < j := by exact_mod_cast hij
    have := mul_lt_mul_of_pos_right this (div_pos hd hN)
    linarith
  · intro i h0 h1
    rw [setParam_linear _ _ _ _ h0 h1, if_neg (by omega)]
    refine ⟨_, rfl, ?_, ?_⟩
    · have : (0 : ℝ) ≤ i := by exact_mod_cast h0
      have := mul_nonneg this (le_of_lt (div_pos hd hN))
      linarith
    · have : (i : ℝ) ≤ ((size - 1 : Int) : ℝ) := by exact_mod_cast (by omega : i ≤ size - 1)
      have := mul_le_mul_of_nonneg_right this (le_of_lt (div_pos hd hN))
      rw [mul_div_cancel₀ _ (ne_of_gt hN)] at this
      linarith

/-- C05 (linear scale).  Consecutive samples are equally spaced. -/
theorem doubleParam_linear_equispaced (minval maxval : ℝ) (size : Int) (h2 : 2 ≤ size) (i : Int)
    (h0 : 0 ≤ i) (h1 : i + 1 < size) :
    ∃ a b, setParam false minval maxval size i = .ok a ∧
      setParam false minval maxval size (i + 1) = .ok b ∧
      b - a = (maxval - minval) / ((size : ℝ) - 1) := by
  rw [setParam_linear _ _ _ _ h0 (by omega), setParam_linear _ _ _ _ (by omega) h1,
    if_neg (by omega)]
  refine ⟨_, _, rfl, rfl, ?_⟩
  push_cast
  ring

/-- C05 (log scale).  With positive end points and at least two samples the values run from the
minimum to the maximum, consecutive samples have the constant ratio `(max/min)^(1/(N-1))`, and all
values stay within the interval. -/
theorem doubleParam_log (minval maxval : ℝ) (hpos : 0 < minval) (hlt : minval < maxval) (size : Int)
    (h2 : 2 ≤ size) :
    setParam true minval maxval size 0 = .ok minval ∧
    setParam true minval maxval size (size - 1) = .ok maxval ∧
    (∀ i, 0 ≤ i → i + 1 < size → ∃ a b, setParam true minval maxval size i = .ok a ∧
      setParam true minval maxval size (i + 1) = .ok b ∧
      b = a * (maxval / minval) ^ (1 / ((size : ℝ) - 1)) ∧ a < b) ∧
    (∀ i, 0 ≤ i → i < size → ∃ a, setParam true minval maxval size i = .ok a ∧
      minval ≤ a ∧ a ≤ maxval) := by
  have hN : (0 : ℝ) < ((size - 1 : Int) : ℝ) := by exact_mod_cast (by omega : 0 < size - 1)
  have hr : 1 < maxval / minval := by rwa [lt_div_iff₀ hpos, one_mul]
  have hr0 : 0 < maxval / minval := by linarith
  have hbase : Real.exp (Real.log (maxval / minval) / ((size - 1 : Int) : ℝ))
      = (maxval / minval) ^ (1 / ((size : ℝ) - 1)) := by
    rw [Real.rpow_def_of_pos hr0]
    congr 1
    push_cast
    ring
  have hb1 : 1 < Real.exp (Real.log (maxval / minval) / ((size - 1 : Int) : ℝ)) := by
    rw [Real.one_lt_exp_iff]
    exact div_pos (Real.log_pos hr) hN
  have hlast : (Real.exp (Real.log (maxval / minval) / ((size - 1 : Int) : ℝ)))
      ^ (((size - 1 : Int)) : ℝ) = maxval / minval := by
    rw [← Real.exp_mul, div_mul_cancel₀ _ (ne_of_gt hN), Real.exp_log hr0]
  refine ⟨?_, ?_, ?_, ?_⟩
  · rw [setParam_log _ _ _ _ (by omega) (by omega)]; simp
  · rw [setParam_log _ _ _ _ (by omega) (by omega), if_neg (by omega), hlast]
    congr 1
    field_simp
  · intro i h0 h1
    rw [setParam_log _ _ _ _ h0 (by omega), setParam_log _ _ _ _ (by omega) h1,
      if_neg (by omega)]
    refine ⟨_, _, rfl, rfl, ?_, ?_⟩
    · rw [← hbase]
      push_cast
      rw [Real.rpow_add (Real.exp_pos _), Real.rpow_one, mul_assoc]
    · apply mul_lt_mul_of_pos_left _ hpos
      apply Real.rpow_lt_rpow_of_exponent_lt hb1
      push_cast
      linarith
  · intro i h0 h1
    rw [setParam_log _ _ _ _ h0 h1, if_neg (by omega)]
    refine ⟨_, rfl, ?_, ?_⟩
    · have : (1 : ℝ) ≤ (Real.exp (Real.log (maxval / minval) / ((size - 1 : Int) : ℝ))) ^ (i : ℝ) :=
        Real.one_le_rpow (le_of_lt hb1) (by exact_mod_cast h0)
      nlinarith
    · have h3 := Real.rpow_le_rpow_of_exponent_le (le_of_lt hb1)
        (show (i : ℝ) ≤ ((size - 1 : Int) : ℝ) by exact_mod_cast (by omega : i ≤ size - 1))
      rw [hlast] at h3
      have h4 := mul_le_mul_of_nonneg_left h3 (le_of_lt hpos)
      rwa [mul_div_cancel₀ _ (ne_of_gt hpos)] at h4

/-- C05.  An index outside `[0, size)` is rejected. -/
theorem doubleParam_rejects (ls : Bool) (minval maxval : ℝ) (size i : Int) (h : i < 0 ∨ size ≤ i) :
    setParam ls minval maxval size i = .error .abort := by
  unfold setParam
  by_cases hs : size > 0
  · have e1 : decide (size > 0) = true := by simp; omega
    have e2 : (decide (i ≥ 0) && decide (i < size)) = false := by
      rw [Bool.and_eq_false_iff]; simp; omega
    rw [e1, e2]; rfl
  · have e1 : decide (size > 0) = false := by simp; omega
    rw [e1]; rfl

/-- C05.  A random parameter stays within the interval for every random number in `[0,1]`. -/
theorem doubleParam_random (ls : Bool) (minval maxval u : ℝ) (hle : minval ≤ maxval)
    (hpos : ls = true → 0 < minval) (h0 : 0 ≤ u) (h1 : u ≤ 1) :
    minval ≤ setRandomParam ls minval maxval u ∧ setRandomParam ls minval maxval u ≤ maxval := by
  cases ls with
  | false =>
    simp only [setRandomParam]
    constructor
    · have := mul_nonneg (sub_nonneg.mpr hle) h0
      simpa using this
    · have := mul_le_mul_of_nonneg_left h1 (sub_nonneg.mpr hle)
      simp only [Bool.false_eq_true, if_false]
      linarith
  | true =>
    have hp := hpos rfl
    simp only [setRandomParam, if_true]
    have hr : 1 ≤ maxval / minval := by rwa [le_div_iff₀ hp, one_mul]
    constructor
    · have := Real.one_le_rpow hr h0
      nlinarith
    · have h3 := Real.rpow_le_rpow_of_exponent_le hr h1
      rw [Real.rpow_one] at h3
      have h4 := mul_le_mul_of_nonneg_left h3 (le_of_lt hp)
      rwa [mul_div_cancel₀ _ (ne_of_gt hp)] at h4

example : setParam false 1 3 5 2 = .ok 2 := by
  rw [setParam_linear _ _ _ _ (by norm_num) (by norm_num)]; norm_num
example : (1 : ℝ) < 3 ∧ (2 : Int) ≤ 5 := by norm_num
example : setRandomParam false 1 3 (1/2) = 2 := by norm_num [setRandomParam]

end Verif.ParamReal
