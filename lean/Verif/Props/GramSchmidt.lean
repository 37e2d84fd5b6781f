import Verif.Spec.GramSchmidt
import Verif.Proofs.Basic
import Mathlib.LinearAlgebra.LinearIndependent.Lemmas
import Mathlib.LinearAlgebra.Dimension.Finite
import Mathlib.LinearAlgebra.Dimension.DivisionRing
import Mathlib.LinearAlgebra.Dimension.Constructions
import Mathlib.LinearAlgebra.FiniteDimensional.Lemmas
import Mathlib.Tactic.FieldSimp
import Mathlib.Tactic.Linarith
import Mathlib.Tactic.FinCases
import Mathlib.Tactic.NormNum
import Mathlib.Tactic.Positivity
import Mathlib.Data.Fin.VecNotation
import Mathlib.LinearAlgebra.Matrix.Notation
import Mathlib.LinearAlgebra.Dimension.OrzechProperty

/-!
# Property C22: Gram-Schmidt
-/

namespace Verif.GramSchmidt

open Verif Spec

variable {n : Nat}

/-! ## Functional form of the loops -/

/-- Columns as a function. -/
noncomputable def stepF (f : Nat → Col n) (c : Nat) : Nat → Col n :=
  let q := (1 / Real.sqrt (f c ⬝ᵥ f c)) • f c
  fun i => if i = c then q else if c < i then f i + (-(f i ⬝ᵥ q)) • q else f i

theorem rd_col {m : Nat} {f : Nat → Col n} {i : Nat} (h : i < m) : rd (tab m f) i = .ok (f i) := rd_tab h

theorem mgsSub_loop (m c : Nat) (q : Col n) (f : Nat → Col n) (hc : c < m) :
    loopFrom (mgsSub q) (c + 1) (m - (c + 1)) (tab m f) =
      .ok (tab m (fun i => if c < i then f i + (-(f i ⬝ᵥ q)) • q else f i)) := by
  have := loopFrom_spec (mgsSub q)
    (fun k => tab m (fun i => if c < i ∧ i < k then f i + (-(f i ⬝ᵥ q)) • q else f i))
    (m - (c + 1)) (c + 1) (fun k hk1 hk2 => by
      have hk : k < m := by omega
      unfold mgsSub
      rw [rd_col hk, ok_bind, wr_tab hk]
      congr 1
      refine tab_congr fun i hi => ?_
      by_cases h : i = k
      · subst h
        rw [Function.update_self, if_neg (by omega), if_pos ⟨by omega, by omega⟩]
      · rw [Function.update_of_ne h]
        by_cases h2 : c < i ∧ i < k
        · rw [if_pos h2, if_pos ⟨h2.1, by omega⟩]
        · rw [if_neg h2, if_neg (by omega)])
  have e0 : tab m f = tab m (fun i => if c < i ∧ i < c + 1 then f i + (-(f i ⬝ᵥ q)) • q else f i) :=
    tab_congr fun i _ => by rw [if_neg (by omega)]
  rw [← e0] at this
  rw [this]
  congr 1
  refine tab_congr fun i hi => ?_
  by_cases h : c < i
  · rw [if_pos ⟨h, by omega⟩, if_pos h]
  · rw [if_neg (by omega), if_neg h]

theorem mgsStep_ok (m c : Nat) (f : Nat → Col n) (hc : c < m) (h : f c ≠ 0) :
    mgsStep m c (tab m f) = .ok (tab m (stepF f c)) := by
  have h' : ¬ f c ⬝ᵥ f c = 0 := by rw [dotProduct_self_eq_zero]; exact h
  unfold mgsStep
  rw [rd_col hc, ok_bind, if_neg h']
  dsimp only
  rw [wr_tab hc, ok_bind, mgsSub_loop m c _ _ hc]
  congr 1
  refine tab_congr fun i hi => ?_
  unfold stepF
  by_cases hi : i = c
  · subst hi; rw [if_neg (by omega), Function.update_self, if_pos rfl]
  · rw [Function.update_of_ne hi, if_neg hi]

theorem mgsStep_zero (m c : Nat) (f : Nat → Col n) (hc : c < m) (h : f c = 0) :
    mgsStep m c (tab m f) = .error .ub := by
  unfold mgsStep
  rw [rd_col hc, ok_bind, if_pos (by rw [h, zero_dotProduct])]

/-- Span of the first `k` values of a function. -/
def spanF (f : Nat → Col n) (k : Nat) : Submodule ℝ (Col n) := Submodule.span ℝ {v | ∃ i, i < k ∧ f i = v}

theorem mem_spanF {f : Nat → Col n} {k i : Nat} (h : i < k) : f i ∈ spanF f k :=
  Submodule.subset_span ⟨i, h, rfl⟩

theorem spanF_le {f g : Nat → Col n} {k : Nat} (h : ∀ i, i < k → f i ∈ spanF g k) : spanF f k ≤ spanF g k := by
  refine Submodule.span_le.2 ?_
  rintro v ⟨i, hi, rfl⟩
  exact h i hi

theorem norm_pos {v : Col n} (h : v ≠ 0) : 0 < Real.sqrt (v ⬝ᵥ v) := by
  apply Real.sqrt_pos.2
  have h1 : 0 ≤ v ⬝ᵥ v := by
    unfold dotProduct
    exact Finset.sum_nonneg fun i _ => mul_self_nonneg _
  have h2 : v ⬝ᵥ v ≠ 0 := fun e => h (dotProduct_self_eq_zero.1 e)
  exact lt_of_le_of_ne h1 (Ne.symm h2)

theorem unit_q {v : Col n} (h : v ≠ 0) :
    ((1 / Real.sqrt (v ⬝ᵥ v)) • v) ⬝ᵥ ((1 / Real.sqrt (v ⬝ᵥ v)) • v) = 1 := by
  have hp := norm_pos h
  rw [smul_dotProduct, dotProduct_smul, smul_eq_mul, smul_eq_mul]
  have hs : v ⬝ᵥ v = Real.sqrt (v ⬝ᵥ v) * Real.sqrt (v ⬝ᵥ v) := by
    rw [Real.mul_self_sqrt]
    unfold dotProduct
    exact Finset.sum_nonneg fun i _ => mul_self_nonneg _
  conv_lhs => rw [hs]
  rw [Real.sqrt_mul_self hp.le]
  field_simp

/-- A step keeps every prefix span. -/
theorem spanF_step (f : Nat → Col n) (c : Nat) (h : f c ≠ 0) (k : Nat) :
    spanF (stepF f c) k = spanF f k := by
  have hp := norm_pos h
  apply le_antisymm
  · apply spanF_le
    intro i hi
    unfold stepF
    by_cases h1 : i = c
    · rw [if_pos h1]; exact Submodule.smul_mem _ _ (mem_spanF (by omega))
    · rw [if_neg h1]
      by_cases h2 : c < i
      · rw [if_pos h2]
        exact Submodule.add_mem _ (mem_spanF hi)
          (Submodule.smul_mem _ _ (Submodule.smul_mem _ _ (mem_spanF (by omega))))
      · rw [if_neg h2]; exact mem_spanF hi
  · apply spanF_le
    intro i hi
    have hq : c < k → (1 / Real.sqrt (f c ⬝ᵥ f c)) • f c ∈ spanF (stepF f c) k := fun hc => by
      have := mem_spanF (f := stepF f c) hc
      rwa [show stepF f c c = (1 / Real.sqrt (f c ⬝ᵥ f c)) • f c by unfold stepF; rw [if_pos rfl]] at this
    by_cases h1 : i = c
    · subst h1
      have e : f i = Real.sqrt (f i ⬝ᵥ f i) • ((1 / Real.sqrt (f i ⬝ᵥ f i)) • f i) := by
        rw [smul_smul, mul_one_div, div_self hp.ne', one_smul]
      rw [e]; exact Submodule.smul_mem _ _ (hq hi)
    · have hm := mem_spanF (f := stepF f c) hi
      by_cases h2 : c < i
      · have hm' : f i + (-(f i ⬝ᵥ ((1 / Real.sqrt (f c ⬝ᵥ f c)) • f c))) •
            ((1 / Real.sqrt (f c ⬝ᵥ f c)) • f c) ∈ spanF (stepF f c) k := by
          have : stepF f c i = f i + (-(f i ⬝ᵥ ((1 / Real.sqrt (f c ⬝ᵥ f c)) • f c))) •
            ((1 / Real.sqrt (f c ⬝ᵥ f c)) • f c) := by
            unfold stepF; rw [if_neg h1, if_pos h2]
          rwa [← this]
        have := Submodule.add_mem _ hm' (Submodule.smul_mem _ (f i ⬝ᵥ ((1 / Real.sqrt (f c ⬝ᵥ f c)) • f c))
          (hq (by omega)))
        rwa [add_assoc, ← add_smul, neg_add_cancel, zero_smul, add_zero] at this
      · have : stepF f c i = f i := by unfold stepF; rw [if_neg h1, if_neg h2]
        rwa [← this]

/-- The loop invariant after `k` iterations. -/
structure Inv (f0 : Nat → Col n) (k : Nat) (f : Nat → Col n) : Prop where
  orth : ∀ i j, i < k → j < k → f i ⬝ᵥ f j = if i = j then 1 else 0
  perp : ∀ i j, i < k → k ≤ j → f i ⬝ᵥ f j = 0
  span : ∀ m, spanF f m = spanF f0 m

theorem inv_step {f0 f : Nat → Col n} {k : Nat} (hI : Inv f0 k f) (h : f k ≠ 0) :
    Inv f0 (k + 1) (stepF f k) := by
  set q := (1 / Real.sqrt (f k ⬝ᵥ f k)) • f k with hq
  have hk : stepF f k k = q := by unfold stepF; simp [hq]
  have hlt : ∀ i, i < k → stepF f k i = f i := fun i hi => by
    unfold stepF; rw [if_neg (by omega), if_neg (by omega)]
  have hgt : ∀ i, k < i → stepF f k i = f i + (-(f i ⬝ᵥ q)) • q := fun i hi => by
    unfold stepF; rw [if_neg (by omega), if_pos hi]
  have hqq : q ⬝ᵥ q = 1 := unit_q h
  have hiq : ∀ i, i < k → f i ⬝ᵥ q = 0 := fun i hi => by
    rw [hq, dotProduct_smul, hI.perp i k hi (le_refl _), smul_zero]
  refine ⟨?_, ?_, ?_⟩
  · intro i j hi hj
    by_cases h1 : i = k
    · by_cases h2 : j = k
      · subst h1 h2; rw [hk, if_pos rfl, hqq]
      · subst h1; rw [hk, hlt j (by omega), dotProduct_comm, hiq j (by omega), if_neg (Ne.symm h2)]
    · by_cases h2 : j = k
      · subst h2; rw [hk, hlt i (by omega), hiq i (by omega), if_neg h1]
      · rw [hlt i (by omega), hlt j (by omega)]; exact hI.orth i j (by omega) (by omega)
  · intro i j hi hj
    rw [hgt j (by omega)]
    by_cases h1 : i = k
    · subst h1
      rw [hk, dotProduct_add, dotProduct_smul, hqq, smul_eq_mul, mul_one, dotProduct_comm q]
      ring
    · rw [hlt i (by omega), dotProduct_add, dotProduct_smul, hiq i (by omega), smul_zero, add_zero]
      exact hI.perp i j (by omega) (by omega)
  · intro m; rw [spanF_step f k h m, hI.span m]

/-- The loop succeeds when no column lies in the span of the earlier ones. -/
theorem mgs_run {f0 : Nat → Col n} {m : Nat} (hind : ∀ c, c < m → f0 c ∉ spanF f0 c) :
    ∃ f, loop m (mgsStep m) (tab m f0) = .ok (tab m f) ∧ Inv f0 m f := by
  obtain ⟨t, ht, f, rfl, hI⟩ := loop_total (n := m) (body := mgsStep m)
    (fun k t => ∃ f, t = tab m f ∧ Inv f0 k f) (s := tab m f0)
    ⟨f0, rfl, ⟨fun i j hi => by omega, fun i j hi => by omega, fun _ => rfl⟩⟩ (by
      rintro k u hk ⟨f, rfl, hI⟩
      have hne : f k ≠ 0 := by
        intro h0
        apply hind k hk
        have : spanF f (k + 1) ≤ spanF f k := by
          refine Submodule.span_le.2 ?_
          rintro v ⟨i, hi, rfl⟩
          by_cases hik : i = k
          · subst hik; rw [h0]; exact Submodule.zero_mem _
          · exact mem_spanF (by omega)
        rw [hI.span, hI.span] at this
        exact this (mem_spanF (by omega))
      exact ⟨_, mgsStep_ok m k f hk hne, _, rfl, inv_step hI hne⟩)
  exact ⟨f, ht, hI⟩

/-- Whenever the loop succeeds, the invariant holds at the end. -/
theorem mgs_inv {f0 : Nat → Col n} {m : Nat} {t : List (Col n)}
    (h : loop m (mgsStep m) (tab m f0) = .ok t) : ∃ f, t = tab m f ∧ Inv f0 m f := by
  refine loop_inv (n := m) (body := mgsStep m) (fun k t => ∃ f, t = tab m f ∧ Inv f0 k f)
    ⟨f0, rfl, ⟨fun i j hi => by omega, fun i j hi => by omega, fun _ => rfl⟩⟩ ?_ h
  rintro k u v hk ⟨f, rfl, hI⟩ hv
  by_cases h0 : f k = 0
  · rw [mgsStep_zero m k f hk h0] at hv; cases hv
  · rw [mgsStep_ok m k f hk h0] at hv
    cases hv
    exact ⟨_, rfl, inv_step hI h0⟩

theorem cols_tab (cols : List (Col n)) : cols = tab cols.length (colAt cols) := (tab_getD cols 0).symm

theorem colAt_tab {m i : Nat} {f : Nat → Col n} (h : i < m) : colAt (tab m f) i = f i := by
  unfold colAt; rw [getElem?_tab, if_pos h]; rfl

theorem prefixSpan_tab {m k : Nat} {f : Nat → Col n} : prefixSpan (tab m f) k = spanF f (min k m) := by
  unfold prefixSpan spanF
  congr 1
  ext v
  constructor
  · rintro ⟨i, h1, h2, rfl⟩
    rw [length_tab] at h2
    exact ⟨i, by omega, (colAt_tab h2).symm⟩
  · rintro ⟨i, h1, rfl⟩
    exact ⟨i, by omega, by rw [length_tab]; omega, colAt_tab (by omega)⟩

theorem notMem_span_of_independent {cols : List (Col n)} (h : IndependentCols cols) {c : Nat}
    (hc : c < cols.length) : colAt cols c ∉ spanF (colAt cols) c := by
  have := h.notMem_span_image (s := {i | i.1 < c}) (x := ⟨c, hc⟩) (by simp)
  intro hm
  apply this
  refine Submodule.span_mono ?_ hm
  rintro v ⟨i, hi, rfl⟩
  exact ⟨⟨i, by omega⟩, hi, rfl⟩

/-- On linearly independent columns `modifiedGramSchmidt` succeeds; the result has as many columns,
they are orthonormal, and for every `k` the first `k` columns span the same subspace as before. -/
theorem modifiedGramSchmidt_spec (cols : List (Col n)) (h : IndependentCols cols) :
    ∃ r, modifiedGramSchmidt cols = .ok r ∧ r.length = cols.length ∧ OrthonormalCols r ∧
      ∀ k, prefixSpan r k = prefixSpan cols k := by
  obtain ⟨f, hf, hI⟩ := mgs_run (f0 := colAt cols) (m := cols.length)
    (fun c hc => notMem_span_of_independent h hc)
  refine ⟨tab cols.length f, ?_, length_tab _ _, ?_, ?_⟩
  · unfold modifiedGramSchmidt
    rw [← cols_tab] at hf; exact hf
  · intro i j hi hj
    rw [length_tab] at hi hj
    rw [colAt_tab hi, colAt_tab hj]
    exact hI.orth i j hi hj
  · intro k
    rw [prefixSpan_tab, hI.span]
    conv_rhs => rw [cols_tab cols]
    rw [prefixSpan_tab]

theorem independent_of_orthonormal {r : List (Col n)} (h : OrthonormalCols r) : IndependentCols r := by
  unfold IndependentCols
  rw [Fintype.linearIndependent_iff]
  intro g hg i
  have h1 : (∑ j, g j • colAt r j) ⬝ᵥ colAt r i = g i := by
    rw [sum_dotProduct]
    rw [Finset.sum_eq_single i]
    · rw [smul_dotProduct, h i i i.2 i.2, if_pos rfl, smul_eq_mul, mul_one]
    · intro j _ hji
      rw [smul_dotProduct, h j i j.2 i.2, if_neg (fun e => hji (Fin.ext e)), smul_zero]
    · intro hi; exact absurd (Finset.mem_univ _) hi
  rw [hg, zero_dotProduct] at h1
  exact h1.symm

/-- `modifiedGramSchmidt` succeeds only on linearly independent columns: on dependent ones some norm
vanishes (NaN in the program). -/
theorem modifiedGramSchmidt_iff (cols : List (Col n)) :
    (∃ r, modifiedGramSchmidt cols = .ok r) ↔ IndependentCols cols := by
  constructor
  · rintro ⟨r, hr⟩
    unfold modifiedGramSchmidt at hr
    have hr' : loop cols.length (mgsStep cols.length) (tab cols.length (colAt cols)) = .ok r := by
      rw [← cols_tab]; exact hr
    obtain ⟨f, rfl, hI⟩ := mgs_inv hr'
    have hon : OrthonormalCols (tab cols.length f) := by
      intro i j hi hj
      rw [length_tab] at hi hj
      rw [colAt_tab hi, colAt_tab hj]
      exact hI.orth i j hi hj
    have hind := independent_of_orthonormal hon
    unfold IndependentCols at hind ⊢
    rw [linearIndependent_iff_card_eq_finrank_span] at hind ⊢
    rw [Fintype.card_fin] at hind ⊢
    refine ((length_tab _ _).symm.trans hind).trans ?_
    unfold Set.finrank
    have e1 : Submodule.span ℝ (Set.range fun i : Fin (tab cols.length f).length => colAt (tab cols.length f) i)
        = spanF f cols.length := by
      unfold spanF
      congr 1
      ext v
      constructor
      · rintro ⟨i, rfl⟩
        have hi : i.1 < cols.length := lt_of_lt_of_eq i.2 (length_tab _ _)
        exact ⟨i, hi, (colAt_tab hi).symm⟩
      · rintro ⟨i, hi, rfl⟩
        exact ⟨⟨i, by rw [length_tab]; exact hi⟩, colAt_tab hi⟩
    have e2 : Submodule.span ℝ (Set.range fun i : Fin cols.length => colAt cols i)
        = spanF (colAt cols) cols.length := by
      unfold spanF
      congr 1
      ext v
      constructor
      · rintro ⟨i, rfl⟩; exact ⟨i, i.2, rfl⟩
      · rintro ⟨i, hi, rfl⟩; exact ⟨⟨i, hi⟩, rfl⟩
    rw [e1, e2, hI.span]
  · intro h
    obtain ⟨r, hr, _⟩ := modifiedGramSchmidt_spec cols h
    exact ⟨r, hr⟩

/-! ## Orthonormalisation against a given basis -/

theorem proj_loop (m : Nat) (u : Col n) (f : Nat → Col n) (hu : u ≠ 0) :
    loop m (projStep u) (tab m f) =
      .ok (tab m (fun c => f c + (-(u ⬝ᵥ f c) / (u ⬝ᵥ u)) • u)) := by
  have h' : ¬ u ⬝ᵥ u = 0 := by rw [dotProduct_self_eq_zero]; exact hu
  have := loop_spec (n := m) (body := projStep u)
    (fun k => tab m (fun c => if c < k then f c + (-(u ⬝ᵥ f c) / (u ⬝ᵥ u)) • u else f c))
    (s := tab m f) (by simp) (fun k hk => by
      unfold projStep
      rw [rd_col hk, ok_bind, if_neg h', wr_tab hk]
      congr 1
      refine tab_congr fun i hi => ?_
      by_cases h : i = k
      · subst h; rw [Function.update_self, if_neg (by omega), if_pos (by omega)]
      · rw [Function.update_of_ne h]
        by_cases h2 : i < k
        · rw [if_pos h2, if_pos (by omega)]
        · rw [if_neg h2, if_neg (by omega)])
  rw [this]
  congr 1
  exact tab_congr fun i hi => by rw [if_pos hi]

/-- All columns of `mat1` and `cols` together are linearly independent. -/
def JointlyIndependent (mat1 cols : List (Col n)) : Prop :=
  LinearIndependent ℝ (Sum.elim (fun i : Fin mat1.length => colAt mat1 i)
    (fun i : Fin cols.length => colAt cols i))

/-- The projection loop leaves columns orthogonal to `mat1`, changed by combinations of `mat1`. -/
theorem project_run (mat1 cols : List (Col n)) (ho : OrthogonalCols mat1) :
    ∃ f, loop mat1.length (fun i cols => do
        let tmp ← rd mat1 i
        loop cols.length (projStep tmp) cols) cols = .ok (tab cols.length f) ∧
      (∀ c i, i < mat1.length → colAt mat1 i ⬝ᵥ f c = 0) ∧
      ∀ c, f c - colAt cols c ∈ prefixSpan mat1 mat1.length := by
  obtain ⟨t, ht, f, rfl, h1, h2⟩ := loop_total (n := mat1.length)
    (body := fun i cols => do
        let tmp ← rd mat1 i
        loop cols.length (projStep tmp) cols)
    (fun k t => ∃ f, t = tab cols.length f ∧ (∀ c i, i < k → colAt mat1 i ⬝ᵥ f c = 0) ∧
      ∀ c, f c - colAt cols c ∈ prefixSpan mat1 mat1.length) (s := cols)
    ⟨colAt cols, cols_tab cols, fun c i hi => by omega, fun c => by rw [sub_self]; exact Submodule.zero_mem _⟩
    (by
      rintro k u hk ⟨f, rfl, h1, h2⟩
      have hne : colAt mat1 k ≠ 0 := by
        intro h0
        have := (ho k k hk hk).1 (by rw [h0, zero_dotProduct])
        exact this rfl
      have hnn : colAt mat1 k ⬝ᵥ colAt mat1 k ≠ 0 := fun h => (ho k k hk hk).1 h rfl
      refine ⟨_, by
        have e : rd mat1 k = .ok (colAt mat1 k) := by
          rw [rd_of_lt hk]; unfold colAt; simp [hk]
        rw [e, ok_bind, length_tab]
        exact proj_loop cols.length (colAt mat1 k) f hne, _, rfl, ?_, ?_⟩
      · intro c i hi
        rw [dotProduct_add, dotProduct_smul]
        by_cases hik : i = k
        · subst hik
          rw [smul_eq_mul, div_mul_cancel₀ _ hnn]; ring
        · rw [h1 c i (by omega), (ho i k (by omega) hk).2 hik, smul_zero, add_zero]
      · intro c
        rw [add_sub_right_comm]
        exact Submodule.add_mem _ (h2 c) (Submodule.smul_mem _ _ (Submodule.subset_span ⟨k, hk, hk, rfl⟩)))
  exact ⟨f, ht, h1, h2⟩

/-- `Orthonormalize(mat1, mat)` for orthogonal nonzero (not necessarily normalised) `mat1` columns and
jointly independent columns: the result is orthonormal, orthogonal to `mat1`, and together with
`mat1` every prefix spans the same space as before. -/
theorem orthonormalize_spec (mat1 cols : List (Col n)) (ho : OrthogonalCols mat1)
    (hi : JointlyIndependent mat1 cols) :
    ∃ r, orthonormalize mat1 cols = .ok r ∧ r.length = cols.length ∧ OrthonormalCols r ∧
      (∀ i j, i < mat1.length → j < r.length → colAt mat1 i ⬝ᵥ colAt r j = 0) ∧
      ∀ k, prefixSpan mat1 mat1.length ⊔ prefixSpan r k = prefixSpan mat1 mat1.length ⊔ prefixSpan cols k := by
  obtain ⟨g, hg, g1, g2⟩ := project_run mat1 cols ho
  set U := prefixSpan mat1 mat1.length with hU
  have hle : ∀ k, k ≤ cols.length → U ⊔ spanF g k = U ⊔ spanF (colAt cols) k := by
    intro k _
    apply le_antisymm
    · refine sup_le le_sup_left (Submodule.span_le.2 ?_)
      rintro v ⟨i, hi, rfl⟩
      have : g i = (g i - colAt cols i) + colAt cols i := by abel
      rw [this]
      exact Submodule.add_mem_sup (g2 i) (mem_spanF hi)
    · refine sup_le le_sup_left (Submodule.span_le.2 ?_)
      rintro v ⟨i, hi, rfl⟩
      have : colAt cols i = -(g i - colAt cols i) + g i := by abel
      rw [this]
      exact Submodule.add_mem_sup (Submodule.neg_mem _ (g2 i)) (mem_spanF hi)
  have hind : ∀ c, c < cols.length → g c ∉ spanF g c := by
    intro c hc hm
    have h1 : colAt cols c ∈ U ⊔ spanF (colAt cols) c := by
      rw [← hle c (by omega)]
      have : colAt cols c = -(g c - colAt cols c) + g c := by abel
      rw [this]
      exact Submodule.add_mem_sup (Submodule.neg_mem _ (g2 c)) hm
    have h2 := LinearIndependent.notMem_span_image hi (s := {x | ∀ i : Fin cols.length, x = Sum.inr i → i.1 < c})
      (x := Sum.inr ⟨c, hc⟩) (by simp)
    apply h2
    have hsub : U ⊔ spanF (colAt cols) c ≤ Submodule.span ℝ
        ((Sum.elim (fun i : Fin mat1.length => colAt mat1 i) (fun i : Fin cols.length => colAt cols i)) ''
          {x | ∀ i : Fin cols.length, x = Sum.inr i → i.1 < c}) := by
      refine sup_le (Submodule.span_le.2 ?_) (Submodule.span_le.2 ?_)
      · rintro v ⟨i, _, h3, rfl⟩
        exact Submodule.subset_span ⟨Sum.inl ⟨i, h3⟩, by simp, rfl⟩
      · rintro v ⟨i, h3, rfl⟩
        refine Submodule.subset_span ⟨Sum.inr ⟨i, by omega⟩, ?_, rfl⟩
        intro j hj
        cases hj
        exact h3
    exact hsub h1
  obtain ⟨f, hf, hI⟩ := mgs_run (f0 := g) (m := cols.length) hind
  refine ⟨tab cols.length f, ?_, length_tab _ _, ?_, ?_, ?_⟩
  · unfold orthonormalize
    rw [hg, ok_bind]
    unfold modifiedGramSchmidt
    rw [length_tab]; exact hf
  · intro i j hi hj
    rw [length_tab] at hi hj
    rw [colAt_tab hi, colAt_tab hj]
    exact hI.orth i j hi hj
  · intro i j hi hj
    rw [length_tab] at hj
    rw [colAt_tab hj]
    have hmem : f j ∈ spanF g cols.length := by
      rw [← hI.span]; exact mem_spanF hj
    refine Submodule.span_induction (p := fun v _ => colAt mat1 i ⬝ᵥ v = 0) ?_ ?_ ?_ ?_ hmem
    · rintro v ⟨c, _, rfl⟩; exact g1 c i hi
    · exact dotProduct_zero _
    · intro x y _ _ hx hy; rw [dotProduct_add, hx, hy, add_zero]
    · intro a x _ hx; rw [dotProduct_smul, hx, smul_zero]
  · intro k
    rw [prefixSpan_tab, hI.span, hle _ (by omega)]
    conv_rhs => rw [cols_tab cols]
    rw [prefixSpan_tab]

/-- A zero column in `mat1` faults (0/0 in the program) as soon as there is a column to project. -/
theorem orthonormalize_zero_fails (cols : List (Col n)) (h : cols ≠ []) :
    orthonormalize [0] cols = .error .ub := by
  unfold orthonormalize
  cases cols with
  | nil => exact absurd rfl h
  | cons v vs =>
    have : loop [(0 : Col n)].length (fun i cols => do
        let tmp ← rd [(0 : Col n)] i
        loop cols.length (projStep tmp) cols) (v :: vs) = .error .ub := by
      have e : loop (v :: vs).length (projStep (0 : Col n)) (v :: vs) = .error .ub := by
        show loopFrom _ 0 (vs.length + 1) _ = _
        unfold loopFrom
        have : projStep (0 : Col n) 0 (v :: vs) = .error .ub := by
          unfold projStep
          rw [show rd (v :: vs) 0 = .ok v from rfl, ok_bind, if_pos (zero_dotProduct _)]
        rw [this]
      show loopFrom _ 0 1 _ = _
      unfold loopFrom
      rw [show (do
        let tmp ← rd [(0 : Col n)] 0
        loop (v :: vs).length (projStep tmp) (v :: vs) : Outcome _) = .error .ub from e]
    rw [this]; rfl

/-! ## Concrete cases -/

/-- Two independent, non-orthogonal columns. -/
noncomputable def exCols : List (Col 2) := [![1, 1], ![0, 1]]

theorem exCols_independent : IndependentCols exCols := by
  show LinearIndependent ℝ (fun i : Fin 2 => colAt exCols i)
  rw [Fintype.linearIndependent_iff]
  intro g hg
  have hg' : g 0 • (![1, 1] : Col 2) + g 1 • (![0, 1] : Col 2) = 0 := by
    rw [Fin.sum_univ_two] at hg
    exact hg
  have h0 := congrFun hg' 0
  have h1 := congrFun hg' 1
  simp at h0 h1
  intro i
  fin_cases i
  · exact h0
  · rw [h0] at h1; simpa using h1

example : ∃ r, modifiedGramSchmidt exCols = .ok r ∧ OrthonormalCols r := by
  obtain ⟨r, h, _, ho, _⟩ := modifiedGramSchmidt_spec exCols exCols_independent
  exact ⟨r, h, ho⟩

/-- A non-normalised orthogonal `mat1` and a jointly independent column. -/
example : OrthogonalCols ([![2, 0]] : List (Col 2)) ∧ JointlyIndependent ([![2, 0]] : List (Col 2)) [![1, 1]] := by
  constructor
  · intro i j hi hj
    simp at hi hj
    subst hi hj
    simp [colAt, dotProduct]
  · unfold JointlyIndependent
    rw [Fintype.linearIndependent_iff]
    intro g hg
    rw [Fintype.sum_sum_type] at hg
    have hg' : g (.inl 0) • (![2, 0] : Col 2) + g (.inr 0) • (![1, 1] : Col 2) = 0 := by
      have h := hg
      rw [show (∑ i : Fin ([![2, 0]] : List (Col 2)).length, g (.inl i) • Sum.elim
        (fun i : Fin ([![2, 0]] : List (Col 2)).length => colAt [![2, 0]] i)
        (fun i : Fin ([![1, 1]] : List (Col 2)).length => colAt [![1, 1]] i) (.inl i)) =
        ∑ i : Fin 1, g (.inl i) • colAt ([![2, 0]] : List (Col 2)) i from rfl,
        show (∑ i : Fin ([![1, 1]] : List (Col 2)).length, g (.inr i) • Sum.elim
        (fun i : Fin ([![2, 0]] : List (Col 2)).length => colAt [![2, 0]] i)
        (fun i : Fin ([![1, 1]] : List (Col 2)).length => colAt [![1, 1]] i) (.inr i)) =
        ∑ i : Fin 1, g (.inr i) • colAt ([![1, 1]] : List (Col 2)) i from rfl,
        Fin.sum_univ_one, Fin.sum_univ_one] at h
      exact h
    have h0 := congrFun hg' 0
    have h1 := congrFun hg' 1
    simp at h0 h1
    have h0' : g (.inl 0) = 0 := by rw [h1] at h0; simpa using h0
    rintro (i | i)
    · have : i = (0 : Fin 1) := Fin.ext (by have := i.2; simp at this; simp)
      rw [this]; exact h0'
    · have : i = (0 : Fin 1) := Fin.ext (by have := i.2; simp at this; simp)
      rw [this]; exact h1

/-- Orthogonality of `mat1` is needed: with `mat1 = (e1, e1+e2)` and `mat = (e2+e3)` the call succeeds
but its result is not orthogonal to `e1`. -/
theorem orthonormalize_needs_orthogonal :
    ∃ r, orthonormalize ([![1, 0, 0], ![1, 1, 0]] : List (Col 3)) [![0, 1, 1]] = .ok r ∧
      colAt ([![1, 0, 0], ![1, 1, 0]] : List (Col 3)) 0 ⬝ᵥ colAt r 0 ≠ 0 := by
  let u1 : Col 3 := ![1, 0, 0]
  let u2 : Col 3 := ![1, 1, 0]
  let v0 : Col 3 := ![0, 1, 1]
  have hu1 : u1 ≠ 0 := fun h => by simpa [u1] using congrFun h 0
  have hu2 : u2 ≠ 0 := fun h => by simpa [u2] using congrFun h 0
  let v1 : Col 3 := v0 + (-(u1 ⬝ᵥ v0) / (u1 ⬝ᵥ u1)) • u1
  let v2 : Col 3 := v1 + (-(u2 ⬝ᵥ v1) / (u2 ⬝ᵥ u2)) • u2
  have e1 : v1 = ![0, 1, 1] := by
    simp [v1, v0, u1, dotProduct, Fin.sum_univ_three]
  have e2 : v2 = ![-1/2, 1/2, 1] := by
    simp only [v2, e1]
    ext i
    fin_cases i <;> simp [u2, dotProduct, Fin.sum_univ_three] <;> norm_num
  have hv2 : v2 ≠ 0 := fun h => by
    rw [e2] at h; simpa using congrFun h 2
  have t1 : ∀ v : Col 3, ([v] : List (Col 3)) = tab 1 (fun _ => v) := fun v => rfl
  have hp : loop ([u1, u2] : List (Col 3)).length (fun i cols => do
        let tmp ← rd [u1, u2] i
        loop cols.length (projStep tmp) cols) [v0] = .ok [v2] := by
    have s1 : loop 1 (projStep u1) [v0] = .ok [v1] := by
      rw [t1, proj_loop 1 u1 _ hu1]; rfl
    have s2 : loop 1 (projStep u2) [v1] = .ok [v2] := by
      rw [t1, proj_loop 1 u2 _ hu2]; rfl
    show loopFrom _ 0 2 _ = _
    unfold loopFrom
    rw [show (do
        let tmp ← rd [u1, u2] 0
        loop [v0].length (projStep tmp) [v0] : Outcome _) = .ok [v1] from s1]
    dsimp only
    unfold loopFrom
    rw [show (do
        let tmp ← rd [u1, u2] (0 + 1)
        loop [v1].length (projStep tmp) [v1] : Outcome _) = .ok [v2] from s2]
    rfl
  have hm : modifiedGramSchmidt [v2] = .ok [(1 / Real.sqrt (v2 ⬝ᵥ v2)) • v2] := by
    unfold modifiedGramSchmidt
    show loopFrom _ 0 1 _ = _
    unfold loopFrom
    have : mgsStep 1 0 (tab 1 (fun _ => v2)) = .ok (tab 1 (stepF (fun _ => v2) 0)) :=
      mgsStep_ok 1 0 _ (by omega) hv2
    rw [show mgsStep [v2].length 0 [v2] = .ok (tab 1 (stepF (fun _ => v2) 0)) from this]
    rfl
  refine ⟨[(1 / Real.sqrt (v2 ⬝ᵥ v2)) • v2], ?_, ?_⟩
  · unfold orthonormalize
    rw [show (loop ([![1, 0, 0], ![1, 1, 0]] : List (Col 3)).length (fun i cols => do
        let tmp ← rd ([![1, 0, 0], ![1, 1, 0]] : List (Col 3)) i
        loop cols.length (projStep tmp) cols) [![0, 1, 1]]) = .ok [v2] from hp, ok_bind, hm]
  · show u1 ⬝ᵥ ((1 / Real.sqrt (v2 ⬝ᵥ v2)) • v2) ≠ 0
    rw [dotProduct_smul, smul_eq_mul]
    have hpos := norm_pos hv2
    have : u1 ⬝ᵥ v2 = -1/2 := by
      rw [e2]; simp [u1, dotProduct, Fin.sum_univ_three]
    rw [this]
    have : (1 / Real.sqrt (v2 ⬝ᵥ v2)) ≠ 0 := by positivity
    exact mul_ne_zero this (by norm_num)

end Verif.GramSchmidt
