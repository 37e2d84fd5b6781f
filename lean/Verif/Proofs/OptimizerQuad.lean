import Verif.Proofs.Optimizer
import Mathlib.Analysis.Calculus.Deriv.Slope
import Mathlib.Analysis.SpecificLimits.Basic

/-!
# The line search on a quadratic function, and its first loop
-/

namespace Verif.Optimizer

open Verif Filter Topology

/-- The distances in the first bracket. -/
theorem tripleAt_ratio {J : ℝ → ℝ} {b : ℝ} (hb : 0 < b) {i : Nat} (h2 : 2 ≤ i) :
    0 < (tripleAt J b i).b ∧ (tripleAt J b i).c = (tripleAt J b i).b * golden ∧
      ((tripleAt J b i).a = 0 ∨ (tripleAt J b i).a = (tripleAt J b i).b * (golden - 1)) := by
  obtain ⟨k, rfl⟩ : ∃ k, i = k + 2 := ⟨i - 2, by omega⟩
  have e : tripleAt J b (k + 2) =
      ⟨pts b k, pts b (k + 1), pts b (k + 2), J (pts b k), J (pts b (k + 1)), J (pts b (k + 2))⟩ := by
    simp only [tripleAt, show k + 2 - 1 = k + 1 by omega, show k + 2 - 2 = k by omega]
  rw [e]
  refine ⟨pts_pos hb k, (pts_next (by omega)).symm, ?_⟩
  cases k with
  | zero => exact .inl rfl
  | succ k =>
    right
    show pts b (k + 1) = pts b (k + 1 + 1) * (golden - 1)
    rw [← pts_next (j := k + 1) (by omega)]
    have := golden_sq
    have e2 : golden * (golden - 1) = 1 := by nlinarith
    rw [mul_assoc, e2, mul_one]

theorem farFromOne_num {r : ℝ} (h1 : 1 / 10 ≤ r) (h2 : r ≤ 10) : farFromOne (.num r) = false := by
  have h0 : 0 < r := by linarith
  have hu : Real.logb 10 r ≤ 1 := by
    rw [← Real.logb_self_eq_one (b := 10) (by norm_num)]
    exact Real.logb_le_logb_of_le (by norm_num) h0 h2
  have hl : -1 ≤ Real.logb 10 r := by
    have : Real.logb 10 (1 / 10) = -1 := by
      rw [one_div, Real.logb_inv, Real.logb_self_eq_one (by norm_num)]
    rw [← this]
    exact Real.logb_le_logb_of_le (by norm_num) (by norm_num) h1
  simp [farFromOne, h0.ne', h0.le, abs_le.2 ⟨hl, hu⟩]

/-- `α x² - 2 α m x + γ`, with its minimum at `m`. -/
structure Quad (J : ℝ → ℝ) (α m : ℝ) : Prop where
  pos : 0 < α
  eq : ∀ x, J x = J m + α * (x - m) ^ 2

theorem Quad.le {J : ℝ → ℝ} {α m : ℝ} (q : Quad J α m) (x : ℝ) : J m ≤ J x := by
  rw [q.eq x]; nlinarith [q.pos, sq_nonneg (x - m), mul_nonneg q.pos.le (sq_nonneg (x - m))]

theorem Quad.eq_of_le {J : ℝ → ℝ} {α m : ℝ} (q : Quad J α m) {x : ℝ} (h : J x ≤ J m) : x = m := by
  rw [q.eq x] at h
  have h0 := mul_nonneg q.pos.le (sq_nonneg (x - m))
  have : α * (x - m) ^ 2 = 0 := by linarith
  have := (mul_eq_zero.1 this).resolve_left q.pos.ne'
  have := pow_eq_zero_iff (two_ne_zero) |>.1 this
  linarith

theorem Quad.lt_iff {J : ℝ → ℝ} {α m : ℝ} (q : Quad J α m) {x y : ℝ} (h : x < y) :
    J x < J y ↔ 2 * m < x + y := by
  rw [q.eq x, q.eq y]
  have h' : α * (y - m) ^ 2 - α * (x - m) ^ 2 = α * ((y - x) * (x + y - 2 * m)) := by ring
  constructor
  · intro hh
    have h1 : 0 < α * ((y - x) * (x + y - 2 * m)) := by linarith
    have h2 := (mul_pos_iff_of_pos_left q.pos).1 h1
    have h3 := (mul_pos_iff_of_pos_left (sub_pos.2 h)).1 h2
    linarith
  · intro hh
    have h1 : 0 < α * ((y - x) * (x + y - 2 * m)) :=
      mul_pos q.pos (mul_pos (by linarith) (by linarith))
    linarith

theorem shift_quad {J : ℝ → ℝ} {α m : ℝ} (q : Quad J α m) {t : Triple} (h : Inv J t) (hbc : t.b < t.c) :
    t.b - shift t = m := by
  have h1 := h.ab
  have e : shift t = t.b - m := by
    have hne : (t.b - t.a) * (t.b - t.c) * (t.c - t.a) ≠ 0 := by
      have a1 : t.b - t.a ≠ 0 := by linarith
      have a2 : t.b - t.c ≠ 0 := by linarith
      have a3 : t.c - t.a ≠ 0 := by linarith
      exact mul_ne_zero (mul_ne_zero a1 a2) a3
    have hα := q.pos.ne'
    have hden : (t.b - t.a) * (t.fb - t.fc) - (t.b - t.c) * (t.fb - t.fa) =
        α * ((t.b - t.a) * (t.b - t.c) * (t.c - t.a)) := by
      rw [h.ea, h.eb, h.ec, q.eq t.a, q.eq t.b, q.eq t.c]; ring
    unfold shift
    rw [hden, div_eq_iff (mul_ne_zero hα hne), h.ea, h.eb, h.ec, q.eq t.a, q.eq t.b, q.eq t.c]
    ring
  rw [e]; ring

/-- On a quadratic function, once a first bracket has been found which is not too small, the loop of
parabolic estimates ends with the minimum. -/
theorem para_quad {J : ℝ → ℝ} {α m : ℝ} (q : Quad J α m) (hm : 2 / 10 ^ 14 ≤ m) {b : ℝ} (hb : 0 < b) {i : Nat}
    (h2 : 2 ≤ i) (h : Inv J (tripleAt J b i)) (hi : J (pts b i) > J (pts b (i - 1))) :
    ∃ r, para J linTol nPara (tripleAt J b i) = .ok r ∧ r.1.b = m := by
  obtain ⟨hb', hc, ha⟩ := tripleAt_ratio (J := J) hb h2
  have hbc := tripleAt_lt (J := J) hb h2
  have hfc : (tripleAt J b i).fb < (tripleAt J b i).fc := hi
  clear hi
  revert h hb' hc ha hbc hfc
  generalize tripleAt J b i = t
  intro h hb' hc ha hbc hfc
  have g1 := golden_gt; have g2 := golden_lt; have g3 := golden_sq
  have hab := h.ab
  have hmc : 2 * m < t.b + t.c := by
    refine (q.lt_iff hbc).1 ?_
    rw [h.eb, h.ec] at hfc; exact hfc
  have hd : (t.b - t.a) * (t.fb - t.fc) - (t.b - t.c) * (t.fb - t.fa) < 0 := by
    rcases h.den with hd | ⟨e, _⟩
    · exact hd
    · exact absurd e hbc.ne
  obtain ⟨hq, hl, hu⟩ := vertex_mem h hd
  rw [shift_quad q h hbc] at hl hu
  have hn : narrow linTol t = false := by
    unfold narrow linTol eps
    rw [decide_eq_false_iff_not, not_lt]
    have hca : t.b ≤ t.c - t.a := by
      rcases ha with ha | ha <;> rw [ha, hc] <;> nlinarith
    have hmb : m ≤ t.b * 1.325 := by nlinarith
    have : (2 : ℝ) / 10 ^ 14 = 2 * (1 / 10 ^ 14) := by ring
    rw [this] at hm
    nlinarith
  have hfar : farFromOne (quot (t.c - t.b) (t.b - t.a)) = false := by
    unfold quot
    rw [if_pos (by linarith)]
    apply farFromOne_num
    · rw [le_div_iff₀ (by linarith)]
      rcases ha with ha | ha <;> rw [ha, hc] <;> nlinarith
    · rw [div_le_iff₀ (by linarith)]
      rcases ha with ha | ha <;> rw [ha, hc] <;> nlinarith
  have hout : outside t (paraQuot t) = false := by
    rw [hq]
    simp only [outside, shift_quad q h hbc, Bool.or_eq_false_iff, decide_eq_false_iff_not, not_lt]
    exact ⟨by linarith, by linarith⟩
  have hnext : nextPoint t = some m := by
    unfold nextPoint
    simp only [hout, hfar, Bool.or_self, Bool.false_eq_true, if_false]
    rw [hq]
    simp only [shift_quad q h hbc]
  have ham : t.a < m := by linarith
  rw [show nPara = 9999 + 1 from rfl, para, hn, hnext]
  simp only [Bool.false_eq_true, if_false]
  rcases reduceTo_eq h ham (by linarith : m ≤ t.c) with ⟨_, hx, _⟩ | ⟨t', e', h', hs', _, hx, _⟩
  · rw [h.ea] at hx
    exact absurd (q.eq_of_le hx) ham.ne
  · obtain ⟨r, er, i1, i2, -⟩ := para_ok (J := J) (tol := linTol) 9999 h' hs'
    refine ⟨(r.1, r.2 + 1), ?_, ?_⟩
    · simp only [e', ok_bind, er]; rfl
    · apply q.eq_of_le
      rw [← i1.eb]; exact i2.trans hx

theorem brent_quad {J : ℝ → ℝ} {α m : ℝ} (q : Quad J α m) (hm : 2 / 10 ^ 14 ≤ m) {fuel : Nat} {b0 : ℝ}
    (hb0 : 0 < b0) {r : ℝ × Nat} (h : brent J linTol fuel b0 = .ok (some r)) : r.1 = m := by
  cases hs : shrink J (J 0) fuel b0 with
  | none => unfold brent at h; rw [hs] at h; cases h
  | some b1 =>
    obtain ⟨j, e, hJ, _⟩ := shrink_some hs
    have hb1 : 0 < b1 := by rw [e]; have := golden_pos; positivity
    rcases brent_eq (tol := linTol) hb1 hs hJ with ⟨_, e'⟩ | ⟨i, h2, hi, h3, h4, hinv, e'⟩
    · rw [e'] at h; cases h
    · obtain ⟨r', er, hr⟩ := para_quad q hm hb1 h2 hinv h3
      rw [e', er] at h
      cases h
      exact hr

/-- Dividing by the golden ratio often enough makes a number as small as desired. -/
theorem exists_small {b0 δ : ℝ} (hδ : 0 < δ) : ∃ i : Nat, b0 / golden ^ i < δ := by
  have hg : 1 < golden := by linarith [golden_gt]
  obtain ⟨i, hi⟩ := pow_unbounded_of_one_lt (b0 / δ) hg
  refine ⟨i, ?_⟩
  rw [div_lt_iff₀ hδ] at hi
  rw [div_lt_iff₀ (by have := golden_pos; positivity)]
  linarith

/-- The first loop ends if all small steps are acceptable. -/
theorem shrink_ends {J : ℝ → ℝ} {J0 δ b0 : ℝ} (hb0 : 0 < b0) (hδ : 0 < δ)
    (h : ∀ b, 0 < b → b < δ → J b ≤ J0) :
    ∃ i, J (b0 / golden ^ i) ≤ J0 ∧ (∀ l, l < i → J (b0 / golden ^ l) > J0) ∧
      ∀ fuel, i ≤ fuel → shrink J J0 fuel b0 = some (b0 / golden ^ i) := by
  classical
  have hex : ∃ i : Nat, J (b0 / golden ^ i) ≤ J0 := by
    obtain ⟨i, hi⟩ := exists_small (b0 := b0) hδ
    exact ⟨i, h _ (by have := golden_pos; positivity) hi⟩
  have hmin : ∀ l, l < Nat.find hex → J (b0 / golden ^ l) > J0 :=
    fun l hl => not_le.1 (Nat.find_min hex hl)
  exact ⟨Nat.find hex, Nat.find_spec hex, hmin, fun fuel hf => shrink_of hf (Nat.find_spec hex) hmin⟩

theorem shrink_quad {J : ℝ → ℝ} {α m : ℝ} (q : Quad J α m) (hm : 0 < m) {b0 : ℝ} (hb0 : 0 < b0) :
    ∃ (K : Nat) (b1 : ℝ), 0 < b1 ∧ J b1 ≤ J 0 ∧ (b0 ≤ b1 ∨ m ≤ b1) ∧
      ∀ fuel, K ≤ fuel → shrink J (J 0) fuel b0 = some b1 := by
  have hg := golden_pos
  obtain ⟨i, h1, h2, h3⟩ := shrink_ends (J := J) (J0 := J 0) (δ := 2 * m) hb0 (by linarith) (by
    intro b hb hlt
    by_contra hc
    have := (q.lt_iff hb).1 (not_le.1 hc)
    linarith)
  refine ⟨i, b0 / golden ^ i, by positivity, h1, ?_, h3⟩
  cases i with
  | zero => left; simp
  | succ i =>
    right
    have hpos : 0 < b0 / golden ^ i := by positivity
    have := (q.lt_iff hpos).1 (h2 i (by omega))
    rw [pow_succ, ← div_div, le_div_iff₀ hg]
    have := golden_lt
    nlinarith

/-- On a quadratic function the line search finds the minimum, if ten thousand enlargements of the first
step reach it. -/
theorem brent_quad_total {J : ℝ → ℝ} {α m : ℝ} (q : Quad J α m) (hm : 2 / 10 ^ 14 ≤ m) {b0 : ℝ}
    (hb0 : 0 < b0) (hr : m ≤ b0 * golden ^ (nBrak - 3)) :
    ∃ K, ∀ fuel, K ≤ fuel → ∃ k, brent J linTol fuel b0 = .ok (some (m, k)) := by
  have hm0 : 0 < m := lt_of_lt_of_le (by positivity) hm
  obtain ⟨K, b1, hb1, hJ, hor, hK⟩ := shrink_quad q hm0 hb0
  refine ⟨K, fun fuel hf => ?_⟩
  have hp : m ≤ b1 * golden ^ (nBrak - 3) := by
    have h1 : (1 : ℝ) ≤ golden ^ (nBrak - 3) := one_le_pow₀ (by linarith [golden_gt])
    rcases hor with h | h <;> nlinarith
  rcases brent_eq (tol := linTol) hb1 (hK fuel hf) hJ with ⟨hno, _⟩ | ⟨i, h2, hi, h3, h4, hinv, e'⟩
  · exfalso
    have hne := hno (nBrak - 1) (by unfold nBrak; omega) (by unfold nBrak; omega)
    apply hne
    have e1 : pts b1 (nBrak - 1 - 1) = b1 * golden ^ (nBrak - 3) := rfl
    have hlt : pts b1 (nBrak - 1 - 1) < pts b1 (nBrak - 1) := pts_lt hb1 (nBrak - 1 - 1)
    refine (q.lt_iff hlt).2 ?_
    rw [e1] at hlt ⊢
    linarith
  · obtain ⟨r', er, hr⟩ := para_quad q hm hb1 h2 hinv h3
    rw [e', er]
    exact ⟨r'.2, by rw [← hr]; rfl⟩

/-- A function that decreases at zero is smaller at all small steps. -/
theorem small_steps {J : ℝ → ℝ} {d : ℝ} (h : HasDerivAt J d 0) (hd : d < 0) :
    ∃ δ, 0 < δ ∧ ∀ b, 0 < b → b < δ → J b ≤ J 0 := by
  have hs := h.tendsto_slope_zero_right
  have := (hs.eventually (gt_mem_nhds hd))
  rw [eventually_nhdsWithin_iff, Metric.eventually_nhds_iff] at this
  obtain ⟨δ, hδ, hb⟩ := this
  refine ⟨δ, hδ, fun b h0 hlt => ?_⟩
  have := hb (y := b) (by simpa [abs_of_pos h0] using hlt) h0
  rw [zero_add, smul_eq_mul] at this
  have h1 : J b - J 0 < 0 := by
    by_contra hc
    have : 0 ≤ b⁻¹ * (J b - J 0) := mul_nonneg (by positivity) (not_lt.1 hc)
    linarith
  linarith

end Verif.Optimizer
