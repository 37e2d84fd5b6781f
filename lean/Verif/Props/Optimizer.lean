import Verif.Proofs.OptimizerLinear
import Verif.Spec.Optimizer
import Mathlib.Topology.Order.Compact
import Mathlib.Topology.Order.LocalExtr
import Mathlib.Analysis.Calculus.Deriv.Pow

/-!
# The optimiser of the nonlinear ROM: C88, C89, C90
-/

namespace Verif.Optimizer

open Verif Verif.Optimizer.Spec Matrix

theorem enlarged_eq (b : ℝ) (k : Nat) : enlarged b k = pts b (k + 1) := rfl

theorem reduced_eq (b : ℝ) (k : Nat) : reduced b k = b / golden ^ k := rfl

theorem residualSq_eq {n m : Nat} (F : (Fin n → ℝ) → Fin m → ℝ) (rhs : Fin m → ℝ) (x : Fin n → ℝ) :
    residualSq F rhs x = objective F rhs x := by
  unfold residualSq objective dotProduct
  exact Finset.sum_congr rfl (fun i _ => by simp [pow_two])

/-! ## C88: the line search -/

/-- The step returned is positive and the objective there is not larger than where the search started. -/
theorem step_descends {J : ℝ → ℝ} {tol b0 : ℝ} {fuel : Nat} {r : ℝ × Nat} (hb0 : 0 < b0)
    (h : brent J tol fuel b0 = .ok (some r)) : 0 < r.1 ∧ J r.1 ≤ J 0 := by
  refine ⟨?_, brent_descends_aux hb0 h⟩
  obtain ⟨b1, j, i, _, hb1, hJ, _, h2, _, h4, hinv, t, ht, et⟩ := brent_some hb0 h
  obtain ⟨hinv', -⟩ := para_inv nPara hinv ht
  rw [← et]
  have := hinv'.ab; have := hinv'.nonneg
  linarith

/-- The step returned is bracketed by an interval of the length asked for, unless ten thousand points have
been tried. -/
theorem step_bracketed {J : ℝ → ℝ} {tol b0 : ℝ} {fuel : Nat} {r : ℝ × Nat} (hb0 : 0 < b0)
    (h : brent J tol fuel b0 = .ok (some r)) :
    ∃ a c, Bracketed J a r.1 c ∧ (c - a < r.1 * tol + 1 / 10 ^ 14 ∨ r.2 = 10000) := by
  obtain ⟨b1, j, i, _, hb1, hJ, _, h2, _, h4, hinv, t, ht, et⟩ := brent_some hb0 h
  obtain ⟨hinv', -, -, -, hor⟩ := para_inv nPara hinv ht
  rw [← et]
  refine ⟨t.a, t.c, ⟨hinv'.nonneg, hinv'.ab, hinv'.bc, ?_, ?_⟩, ?_⟩
  · rw [← hinv'.ea, ← hinv'.eb]; exact hinv'.la
  · rw [← hinv'.ec, ← hinv'.eb]; exact hinv'.lc
  · rcases hor with hor | hor
    · left; exact of_decide_eq_true hor
    · right; exact hor

/-- A bracket with a point inside contains a local minimum of a continuous function. -/
theorem bracketed_minimum {J : ℝ → ℝ} (hJ : Continuous J) {a b c : ℝ} (h : Bracketed J a b c) (hbc : b < c) :
    ∃ x, a < x ∧ x < c ∧ IsLocalMin J x ∧ J x ≤ J b := by
  have hab := h.left
  obtain ⟨x, hx, hmin⟩ := isCompact_Icc.exists_isMinOn (s := Set.Icc a c)
    ⟨b, hab.le, hbc.le⟩ hJ.continuousOn
  have hle : ∀ y, a ≤ y → y ≤ c → J x ≤ J y := fun y h1 h2 => hmin ⟨h1, h2⟩
  by_cases he : J x = J b
  · refine ⟨b, hab, hbc, ?_, le_refl _⟩
    have : Set.Icc a c ∈ nhds b := Icc_mem_nhds hab hbc
    filter_upwards [this] with y hy
    rw [← he]; exact hle y hy.1 hy.2
  · have hlt : J x < J b := lt_of_le_of_ne (hle b hab.le hbc.le) he
    have h1 : a < x := lt_of_le_of_ne hx.1 (fun e => by
      have := h.leftValue; rw [e] at this; linarith)
    have h2 : x < c := lt_of_le_of_ne hx.2 (fun e => by
      have := h.rightValue; rw [← e] at this; linarith)
    refine ⟨x, h1, h2, ?_, hlt.le⟩
    filter_upwards [Icc_mem_nhds h1 h2] with y hy
    exact hle y hy.1 hy.2

/-- The interval left at the end contains a local minimum, unless it has collapsed onto the step from the
right. -/
theorem step_near_minimum_partial {J : ℝ → ℝ} (hJ : Continuous J) {tol b0 : ℝ} {fuel : Nat} {r : ℝ × Nat}
    (hb0 : 0 < b0) (h : brent J tol fuel b0 = .ok (some r)) :
    ∃ a c, a < r.1 ∧ r.1 ≤ c ∧ (c - a < r.1 * tol + 1 / 10 ^ 14 ∨ r.2 = 10000) ∧
      (r.1 < c → ∃ x, a < x ∧ x < c ∧ IsLocalMin J x ∧ J x ≤ J r.1) := by
  obtain ⟨a, c, hb, hor⟩ := step_bracketed hb0 h
  exact ⟨a, c, hb.left, hb.right, hor, fun hlt => bracketed_minimum hJ hb hlt⟩

/-- The search keeps to its arrays and returns if some reduction of the first step is acceptable, one of the
next ten thousand enlargements makes the objective larger again, and no two consecutive values are equal. -/
theorem line_search_safe_partial {J : ℝ → ℝ} {tol b0 : ℝ} (hb0 : 0 < b0) {i k : Nat}
    (hacc : J (reduced b0 i) ≤ J 0) (hrej : ∀ l, l < i → J (reduced b0 l) > J 0)
    (hk : k + 2 < 10000) (hinc : J (enlarged (reduced b0 i) (k + 1)) > J (enlarged (reduced b0 i) k))
    (hne0 : J (reduced b0 i) ≠ J 0)
    (hne : ∀ l, J (enlarged (reduced b0 i) (l + 1)) ≠ J (enlarged (reduced b0 i) l))
    (fuel : Nat) (hf : i ≤ fuel) : ∃ r, brent J tol fuel b0 = .ok (some r) := by
  have hpos : 0 < reduced b0 i := by rw [reduced_eq]; have := golden_pos; positivity
  have hs := shrink_of (J := J) (J0 := J 0) hf hacc hrej
  rcases brent_eq (tol := tol) hpos hs hacc with ⟨hno, _⟩ | ⟨i', h2, hi, h3, h4, hinv, e'⟩
  · exact absurd hinc (hno (k + 2) (by omega) hk)
  · have hstr : (tripleAt J (reduced b0 i) i').fb < (tripleAt J (reduced b0 i) i').fa := by
      refine lt_of_le_of_ne hinv.la ?_
      show J (pts _ (i' - 1)) ≠ J (pts _ (i' - 2))
      obtain ⟨q, rfl⟩ : ∃ q, i' = q + 2 := ⟨i' - 2, by omega⟩
      cases q with
      | zero =>
        show J (pts _ 1) ≠ J 0
        rw [pts_one]; exact hne0
      | succ q => exact hne q
    obtain ⟨r, hr, -⟩ := para_ok (tol := tol) nPara hinv hstr
    exact ⟨(r.1.b, r.2), by rw [e', hr]; rfl⟩

/-- If the objective does not increase along the enlargements, the search writes past the end of its
array. -/
theorem no_bracket_overruns {J : ℝ → ℝ} {tol b0 : ℝ} (hb0 : 0 < b0) (hacc : J b0 ≤ J 0)
    (hno : ∀ k, k < 10000 → J (enlarged b0 (k + 1)) ≤ J (enlarged b0 k)) (fuel : Nat) :
    brent J tol fuel b0 = .error .ub := by
  have hs : shrink J (J 0) fuel b0 = some b0 := by
    have := shrink_of (J := J) (J0 := J 0) (i := 0) (fuel := fuel) (b0 := b0) (by omega)
      (by simpa using hacc) (by intro l hl; omega)
    simpa using this
  rcases brent_eq (tol := tol) hb0 hs hacc with ⟨_, e⟩ | ⟨i, h2, hi, h3, _⟩
  · exact e
  · exfalso
    obtain ⟨q, rfl⟩ : ∃ q, i = q + 2 := ⟨i - 2, by omega⟩
    exact absurd (hno q (by unfold nBrak at hi; omega)) (not_le.2 h3)

/-- If the first step leaves the objective as it is and the point half way is no better, the search stops
with a failing assertion. -/
theorem tie_aborts {J : ℝ → ℝ} {b0 : ℝ} (hb0 : 1 / 10 ^ 14 ≤ b0) (heq : J b0 = J 0)
    (hinc : J (enlarged b0 1) > J 0) (hhalf : J 0 ≤ J (b0 / 2)) (fuel : Nat) :
    brent J (1 / 100) fuel b0 = .error .abort := by
  have hpos : 0 < b0 := lt_of_lt_of_le (by positivity) hb0
  have g1 := golden_gt; have g2 := golden_lt
  have hs : shrink J (J 0) fuel b0 = some b0 := by
    have := shrink_of (J := J) (J0 := J 0) (i := 0) (fuel := fuel) (b0 := b0) (by omega)
      (by simpa using heq.le) (by intro l hl; omega)
    simpa using this
  rcases brent_eq (tol := 1 / 100) hpos hs heq.le with ⟨hno, _⟩ | ⟨i, h2, hi, h3, h4, hinv, e⟩
  · exfalso
    refine hno 2 (by omega) (by unfold nBrak; omega) ?_
    show J (pts b0 2) > J (pts b0 1)
    rw [pts_one, heq]; exact hinc
  · have hi2 : i = 2 := by
      by_contra hc
      refine h4 2 (by omega) (by omega) ?_
      show J (pts b0 2) > J (pts b0 1)
      rw [pts_one, heq]; exact hinc
    subst hi2
    have et : tripleAt J b0 2 = ⟨0, b0, b0 * golden, J 0, J 0, J (enlarged b0 1)⟩ := by
      have e2 : pts b0 2 = b0 * golden := by simp [pts]
      have e3 : enlarged b0 1 = b0 * golden := by rw [enlarged_eq]; exact e2
      show (⟨pts b0 0, pts b0 1, pts b0 2, J (pts b0 0), J (pts b0 1), J (pts b0 2)⟩ : Triple) = _
      rw [pts_one, e2, heq, e3]; rfl
    rw [et] at e hinv
    have hn : narrow (1 / 100) ⟨0, b0, b0 * golden, J 0, J 0, J (enlarged b0 1)⟩ = false := by
      unfold narrow eps
      rw [decide_eq_false_iff_not, not_lt]
      show b0 * (1 / 100) + 1 / 10 ^ 14 ≤ b0 * golden - 0
      nlinarith
    have hsh : shift ⟨0, b0, b0 * golden, J 0, J 0, J (enlarged b0 1)⟩ = b0 / 2 := by
      have hne : J 0 - J (enlarged b0 1) ≠ 0 := by linarith
      unfold shift
      simp only [sub_zero, sub_self, mul_zero]
      field_simp
      norm_num
    have hd : (b0 - 0) * (J 0 - J (enlarged b0 1)) - (b0 - b0 * golden) * (J 0 - J 0) < 0 := by
      have : 0 < b0 * (J (enlarged b0 1) - J 0) := mul_pos hpos (by linarith)
      nlinarith
    obtain ⟨hq, hl, hu⟩ := vertex_mem hinv hd
    have hfar : farFromOne (quot (b0 * golden - b0) (b0 - 0)) = false := by
      unfold quot
      rw [if_pos (by linarith)]
      apply farFromOne_num
      · rw [le_div_iff₀ (by linarith)]; nlinarith
      · rw [div_le_iff₀ (by linarith)]; nlinarith
    have hout : outside ⟨0, b0, b0 * golden, J 0, J 0, J (enlarged b0 1)⟩ (.num (b0 / 2)) = false := by
      simp only [outside, Bool.or_eq_false_iff, decide_eq_false_iff_not, not_lt]
      constructor
      · nlinarith
      · linarith
    have hnext : nextPoint ⟨0, b0, b0 * golden, J 0, J 0, J (enlarged b0 1)⟩ = some (b0 / 2) := by
      unfold nextPoint
      rw [hsh] at hq
      simp only [hq, hout, hfar, Bool.or_self, Bool.false_eq_true, if_false]
      congr 1; ring
    rw [e, show nPara = 9999 + 1 from rfl, para, hn, hnext]
    simp only [Bool.false_eq_true, if_false]
    rcases reduceTo_eq hinv (x := b0 / 2) (show (0 : ℝ) < b0 / 2 by linarith)
      (show b0 / 2 ≤ b0 * golden by nlinarith) with ⟨_, _, e'⟩ | ⟨t', e', h', hs', hb, hx, _, _, _, hor⟩
    · rw [e']; rfl
    · exfalso
      rcases hor with hor | hor
      · exact lt_irrefl _ hor
      · exact absurd hhalf (not_le.2 hor)

/-- The first loop ends if the objective decreases along the direction at first. -/
theorem first_step_found {J : ℝ → ℝ} {tol b0 d : ℝ} (hb0 : 0 < b0) (hd : HasDerivAt J d 0) (hneg : d < 0) :
    ∃ K, ∀ fuel, K ≤ fuel → brent J tol fuel b0 ≠ .ok none := by
  obtain ⟨δ, hδ, h⟩ := small_steps hd hneg
  obtain ⟨i, hi, _, hs⟩ := shrink_ends hb0 hδ h
  refine ⟨i, fun fuel hf => ?_⟩
  have hpos : 0 < b0 / golden ^ i := by have := golden_pos; positivity
  rcases brent_eq (tol := tol) hpos (hs fuel hf) hi with ⟨_, e⟩ | ⟨k, _, _, _, _, _, e⟩
  · rw [e]; simp
  · rw [e]
    cases hp : para J tol nPara (tripleAt J (b0 / golden ^ i) k) with
    | error e => simp
    | ok r => simp [pure, Except.pure]

/-- If every positive step makes the objective larger, the first loop never ends. -/
theorem first_step_never {J : ℝ → ℝ} {tol b0 : ℝ} (hb0 : 0 < b0) (h : ∀ b, 0 < b → J b > J 0) (fuel : Nat) :
    brent J tol fuel b0 = .ok none := by
  unfold brent
  rw [shrink_none h hb0]

/-- A function with the values of `(x - 1)²` up to 1 and at the golden ratio, and lower values between. -/
noncomputable def dip (x : ℝ) : ℝ := (x - 1) ^ 2 - 10 * (max 0 (x - 1)) ^ 2 * ((1 + √5) / 2 - x)

theorem dip_left {x : ℝ} (h : x ≤ 1) : dip x = (x - 1) ^ 2 := by
  unfold dip; rw [max_eq_left (by linarith)]; ring

theorem dip_right {x : ℝ} (h : 1 ≤ x) : dip x = (x - 1) ^ 2 - 10 * (x - 1) ^ 2 * (golden - x) := by
  unfold dip; rw [max_eq_right (by linarith)]; rfl

/-- Once the bracket has collapsed onto its middle point from the right, at least three fifths of it are
cut off at every turn. -/
theorem collapsed_turns {J : ℝ → ℝ} {b tol : ℝ} (hJ : ∀ x, 0 ≤ x → x < b → J b < J x) (i : Nat) :
    ∀ {k : Nat} {a : ℝ}, 0 ≤ a → a < b → cr ^ i * (b - a) < b * tol →
      ∃ a' l, para J tol k ⟨a, b, b, J a, J b, J b⟩ = .ok (⟨a', b, b, J a', J b, J b⟩, l) ∧ l ≤ i := by
  induction i with
  | zero =>
    intro k a ha hab hlt
    have hn : narrow tol ⟨a, b, b, J a, J b, J b⟩ = true := by
      unfold narrow
      have := eps_pos
      simp only [pow_zero, one_mul] at hlt
      simpa using by linarith
    cases k with
    | zero => exact ⟨a, 0, rfl, le_refl _⟩
    | succ k => rw [para, if_pos hn]; exact ⟨a, 0, rfl, le_refl _⟩
  | succ i ih =>
    intro k a ha hab hlt
    cases k with
    | zero => exact ⟨a, 0, rfl, by omega⟩
    | succ k =>
      rw [para]
      by_cases hn : narrow tol ⟨a, b, b, J a, J b, J b⟩ = true
      · rw [if_pos hn]; exact ⟨a, 0, rfl, by omega⟩
      · rw [if_neg hn]
        have hinv : Inv J ⟨a, b, b, J a, J b, J b⟩ :=
          ⟨ha, hab, le_refl _, rfl, rfl, rfl, (hJ a ha hab).le, le_refl _, .inl (hJ a ha hab)⟩
        have hnext : nextPoint ⟨a, b, b, J a, J b, J b⟩ = some (b - cr * (b - a)) := by
          unfold nextPoint
          rw [skewed_of_eq hinv rfl]
          simp only [Bool.or_true, if_true]
          rw [if_pos (by show b > 0.5 * (a + b); linarith)]
        rw [hnext]
        have c0 := cr_pos; have c1 := cr_lt
        have hx1 : a < b - cr * (b - a) := by nlinarith
        have hx2 : b - cr * (b - a) < b := by nlinarith
        have hlt' : J b < J (b - cr * (b - a)) := hJ _ (by linarith) hx2
        have hred : reduceTo J ⟨a, b, b, J a, J b, J b⟩ (b - cr * (b - a)) =
            .ok ⟨b - cr * (b - a), b, b, J (b - cr * (b - a)), J b, J b⟩ := by
          rcases findIdx_four (p := J a) (q := J (b - cr * (b - a))) (r := J b) (s := J b)
            (min_le_right _ _) (le_trans (min_le_right _ _) (hJ a ha hab).le) with
            ⟨e1, e2, _⟩ | ⟨e1, e2, _⟩ | ⟨e1, e2, e3, e4⟩
          · exact absurd (hJ a ha hab) (not_lt.2 e2)
          · exact absurd hlt' (not_lt.2 e2)
          · have hx : ¬ (b - cr * (b - a) > b) := by linarith
            simp only [reduceTo, hx, if_false, e4]; rw [e3]; rfl
        obtain ⟨a', l, e, hl⟩ := ih (k := k) (a := b - cr * (b - a)) (by linarith) hx2 (by
          rw [show b - (b - cr * (b - a)) = cr * (b - a) by ring, ← mul_assoc, ← pow_succ]; exact hlt)
        refine ⟨a', l + 1, ?_, by omega⟩
        simp only [hred, ok_bind, e]; rfl

theorem dip_anti {x y : ℝ} (hx : 9 / 10 ≤ x) (hxy : x < y) (hy : y ≤ 11 / 10) : dip y < dip x := by
  have g1 := golden_gt
  have right : ∀ u v, 1 ≤ u → u < v → v ≤ 11 / 10 → dip v < dip u := by
    intro u v hu huv hv
    rw [dip_right hu, dip_right (hu.trans huv.le)]
    have e : (v - 1) ^ 2 - 10 * (v - 1) ^ 2 * (golden - v) - ((u - 1) ^ 2 - 10 * (u - 1) ^ 2 * (golden - u)) =
        (v - u) * ((v - 1 + (u - 1)) * (1 - 10 * (golden - 1)) +
          10 * ((v - 1) ^ 2 + (v - 1) * (u - 1) + (u - 1) ^ 2)) := by ring
    have h1 : (v - 1 + (u - 1)) * (1 - 10 * (golden - 1)) +
          10 * ((v - 1) ^ 2 + (v - 1) * (u - 1) + (u - 1) ^ 2) < 0 := by
      have hs : 0 < v - 1 + (u - 1) := by linarith
      have hs2 : v - 1 + (u - 1) ≤ 0.2 := by linarith
      have hg : 1 - 10 * (golden - 1) < -5 := by linarith
      have hq : (v - 1) ^ 2 + (v - 1) * (u - 1) + (u - 1) ^ 2 ≤ (v - 1 + (u - 1)) ^ 2 := by
        nlinarith [mul_nonneg (show 0 ≤ v - 1 by linarith) (show 0 ≤ u - 1 by linarith)]
      nlinarith
    nlinarith [mul_neg_of_pos_of_neg (show 0 < v - u by linarith) h1]
  have left : ∀ u v, u < v → v ≤ 1 → dip v < dip u := by
    intro u v huv hv
    rw [dip_left hv, dip_left (huv.le.trans hv)]
    nlinarith
  rcases le_total y 1 with h | h
  · exact left x y hxy h
  · rcases le_total 1 x with h' | h'
    · exact right x y h' hxy hy
    · rcases eq_or_lt_of_le h with e | h2
      · subst e; exact left x 1 hxy (le_refl _)
      · have a1 := right 1 y (le_refl _) h2 hy
        rcases eq_or_lt_of_le h' with e | h3
        · subst e; exact a1
        · exact a1.trans (left x 1 h3 (le_refl _))

/-- The search can end on a point from which the objective still decreases, with no local minimum anywhere
near: when the parabola through the first bracket has its minimum exactly in the middle point. -/
theorem misses_minimum : Continuous dip ∧ (∃ k, brent dip (1 / 100) 0 1 = .ok (some (1, k)) ∧ k < 10000) ∧
    ∀ x, |x - 1| < 1 / 10 → ¬ IsLocalMin dip x := by
  have g1 := golden_gt; have g2 := golden_lt
  refine ⟨by unfold dip; fun_prop, ?_, ?_⟩
  · have d0 : dip 0 = 1 := by rw [dip_left (by norm_num)]; norm_num
    have d1 : dip 1 = 0 := by rw [dip_left (by norm_num)]; norm_num
    have dg : dip golden = (golden - 1) ^ 2 := by
      rw [dip_right (by linarith)]; ring
    have hs : shrink dip (dip 0) 0 1 = some 1 := by
      rw [shrink, if_neg (by rw [d0, d1]; norm_num)]
    have p2 : pts 1 2 = golden := by simp [pts]
    have hinc : dip (pts 1 2) > dip (pts 1 (2 - 1)) := by
      rw [show 2 - 1 = 1 from rfl, pts_one, p2, d1, dg]; nlinarith
    rcases brent_eq (tol := 1 / 100) one_pos hs (by rw [d0, d1]; norm_num) with
      ⟨hno, _⟩ | ⟨i, h2, hi, h3, h4, hinv, e⟩
    · exact absurd hinc (hno 2 (by omega) (by unfold nBrak; omega))
    · have hi2 : i = 2 := by
        by_contra hc
        exact h4 2 (by omega) (by omega) hinc
      subst hi2
      have et : tripleAt dip 1 2 = ⟨0, 1, golden, 1, 0, (golden - 1) ^ 2⟩ := by
        show (⟨pts 1 0, pts 1 1, pts 1 2, dip (pts 1 0), dip (pts 1 1), dip (pts 1 2)⟩ : Triple) = _
        rw [pts_one, p2, d1, dg]
        show (⟨0, 1, golden, dip 0, 0, _⟩ : Triple) = _
        rw [d0]
      rw [et] at e hinv
      have hn : narrow (1 / 100) ⟨0, 1, golden, 1, 0, (golden - 1) ^ 2⟩ = false := by
        unfold narrow eps
        rw [decide_eq_false_iff_not, not_lt]
        show (1 : ℝ) * (1 / 100) + 1 / 10 ^ 14 ≤ golden - 0
        norm_num
        linarith
      have hsh : shift ⟨0, 1, golden, 1, 0, (golden - 1) ^ 2⟩ = 0 := by
        unfold shift
        simp only
        rw [div_eq_zero_iff]; left; ring
      have hd : ((1 : ℝ) - 0) * (0 - (golden - 1) ^ 2) - (1 - golden) * (0 - 1) < 0 := by
        nlinarith
      obtain ⟨hq, -⟩ := vertex_mem hinv hd
      have hfar : farFromOne (quot (golden - 1) (1 - 0)) = false := by
        unfold quot
        rw [if_pos (by norm_num)]
        apply farFromOne_num
        · rw [le_div_iff₀ (by norm_num)]; linarith
        · rw [div_le_iff₀ (by norm_num)]; linarith
      have hout : outside ⟨0, 1, golden, 1, 0, (golden - 1) ^ 2⟩ (.num 0) = false := by
        simp only [outside, Bool.or_eq_false_iff, decide_eq_false_iff_not, not_lt]
        constructor <;> linarith
      have hnext : nextPoint ⟨0, 1, golden, 1, 0, (golden - 1) ^ 2⟩ = some 1 := by
        unfold nextPoint
        rw [hsh] at hq
        simp only [hq, hout, hfar, Bool.or_self, Bool.false_eq_true, if_false]
        congr 1; ring
      have hred : reduceTo dip ⟨0, 1, golden, 1, 0, (golden - 1) ^ 2⟩ 1 = .ok ⟨0, 1, 1, dip 0, dip 1, dip 1⟩ := by
        have e4 : [(1 : ℝ), 0, 0, (golden - 1) ^ 2].findIdx
            (fun v => decide (v = arrMin [1, 0, 0, (golden - 1) ^ 2])) = 1 ∧
            arrMin [1, 0, 0, (golden - 1) ^ 2] = 0 := by
          rcases findIdx_four (p := 1) (q := 0) (r := 0) (s := (golden - 1) ^ 2)
            (by simp; positivity) (by simp) with ⟨e1, e2, _⟩ | ⟨e1, e2, e3, e4⟩ | ⟨e1, e2, _⟩
          · norm_num at e1
          · exact ⟨e4, e3⟩
          · exact absurd e2 (lt_irrefl _)
        simp only [reduceTo, gt_iff_lt, lt_irrefl, if_false, d1, e4.1]
        rw [e4.2, d0]; rfl
      have c0 := cr_pos
      have c1 : cr < 0.4 := by rw [cr_eq]; linarith
      obtain ⟨a', l, e5, hl⟩ := collapsed_turns (J := dip) (b := 1) (tol := 1 / 100) (by
          intro x _ hx
          rw [d1, dip_left hx.le]
          have : x - 1 ≠ 0 := by linarith
          positivity) 6 (k := 9999) (a := 0) (le_refl _) one_pos (by
          have : cr ^ 6 < 0.4 ^ 6 := pow_lt_pow_left₀ c1 c0.le (by norm_num)
          norm_num at this ⊢
          linarith)
      refine ⟨l + 1, ?_, by omega⟩
      rw [e, show nPara = 9999 + 1 from rfl, para, hn, hnext]
      simp only [Bool.false_eq_true, if_false, hred, ok_bind, e5]
      rfl
  · intro x hx hmin
    rw [abs_lt] at hx
    rw [IsLocalMin, IsMinFilter, Metric.eventually_nhds_iff] at hmin
    obtain ⟨ε, hε, h⟩ := hmin
    let y := x + min (ε / 2) ((11 / 10 - x) / 2)
    have hy : 0 < min (ε / 2) ((11 / 10 - x) / 2) := lt_min (by linarith) (by linarith)
    have h1 : min (ε / 2) ((11 / 10 - x) / 2) ≤ ε / 2 := min_le_left _ _
    have h2 : min (ε / 2) ((11 / 10 - x) / 2) ≤ (11 / 10 - x) / 2 := min_le_right _ _
    have := h (y := y) (by
      rw [Real.dist_eq, show y - x = min (ε / 2) ((11 / 10 - x) / 2) by simp [y], abs_of_pos hy]; linarith)
    have h3 := dip_anti (x := x) (y := y) (by linarith) (by simp only [y]; linarith) (by simp only [y]; linarith)
    linarith

/-- On a quadratic function with its minimum at `m`, the search returns `m` itself. -/
theorem exact_on_quadratic {J : ℝ → ℝ} {α m b0 : ℝ} (hα : 0 < α) (hJ : ∀ x, J x = J m + α * (x - m) ^ 2)
    (hm : 2 / 10 ^ 14 ≤ m) (hb0 : 0 < b0) (hr : m ≤ enlarged b0 9997) :
    ∃ K, ∀ fuel, K ≤ fuel → ∃ k, brent J (1 / 100) fuel b0 = .ok (some (m, k)) :=
  brent_quad_total ⟨hα, hJ⟩ hm hb0 hr

/-! The hypotheses of the theorems above are met by simple functions. -/

/-- `(x - 1)²` with a first step of one half. -/
example : ∃ (K : Nat), ∀ fuel, K ≤ fuel → ∃ k, brent (fun x => (x - 1) ^ 2) (1 / 100) fuel (1 / 2) =
    .ok (some (1, k)) := by
  refine exact_on_quadratic (α := 1) (m := 1) one_pos (by intro x; ring) (by norm_num) (by norm_num) ?_
  rw [enlarged_eq]
  show (1 : ℝ) ≤ 1 / 2 * golden ^ 9997
  have h2 : (2 : ℝ) ≤ golden ^ 2 := by rw [golden_sq]; linarith [golden_gt]
  have := pow_le_pow_right₀ (show (1 : ℝ) ≤ golden by linarith [golden_gt]) (show 2 ≤ 9997 by norm_num)
  linarith

/-- `(x - 1)²` decreases at zero. -/
example : HasDerivAt (fun x : ℝ => (x - 1) ^ 2) (-2) 0 := by
  have := ((hasDerivAt_id (0 : ℝ)).sub_const 1).fun_pow 2
  simpa using this

/-- `(x - 1)²` with a first step of one: the hypotheses of `line_search_safe_partial` hold. -/
example (tol : ℝ) (fuel : Nat) : ∃ r, brent (fun x => (x - 1) ^ 2) tol fuel 1 = .ok (some r) := by
  have g1 := golden_gt
  have e : ∀ k, enlarged (reduced 1 0) k = golden ^ k := by
    intro k; rw [enlarged_eq, reduced_eq]; simp [pts]
  have e0 : reduced 1 0 = 1 := by rw [reduced_eq]; simp
  refine line_search_safe_partial one_pos (i := 0) (k := 0) (by simp [e0]) (by omega) (by norm_num) ?_
    (by simp [e0]) ?_ fuel (by omega)
  · simp only [e]; norm_num; nlinarith
  · intro l
    simp only [e, pow_succ]
    have h1 : 1 ≤ golden ^ l := one_le_pow₀ (by linarith)
    have : (golden ^ l - 1) ^ 2 < (golden ^ l * golden - 1) ^ 2 := by
      apply pow_lt_pow_left₀ _ (by linarith) (by norm_num)
      nlinarith
    exact this.ne'

/-- An objective that keeps decreasing: the array is overrun. -/
example (fuel : Nat) : brent (fun x => -x) (1 / 100) fuel 1 = .error .ub := by
  refine no_bracket_overruns one_pos (by norm_num) ?_ fuel
  intro k _
  rw [enlarged_eq, enlarged_eq]
  have := pts_lt one_pos (k + 1)
  linarith

/-- An objective with a tie: the assertion fails. -/
example (fuel : Nat) : brent (fun x => 1 + (x * (x - 1)) ^ 2) (1 / 100) fuel 1 = .error .abort := by
  refine tie_aborts (by norm_num) (by norm_num) ?_ (by norm_num) fuel
  have e : enlarged 1 1 = golden := by rw [enlarged_eq]; simp [pts]
  rw [e]
  have := golden_gt
  have h : 0 < golden * (golden - 1) := mul_pos (by linarith) (by linarith)
  have : 0 < (golden * (golden - 1)) ^ 2 := by positivity
  simp only [zero_sub, zero_mul]
  linarith [show ((0 : ℝ) ^ 2) = 0 by norm_num]

/-- An objective that increases at once: the search never ends. -/
example (fuel : Nat) : brent (fun x => x) (1 / 100) fuel 1 = .ok none :=
  first_step_never one_pos (by intro b hb; exact hb) fuel

/-! ## C89: the optimiser -/

section

variable {n m : Nat} {F : (Fin n → ℝ) → Fin m → ℝ} {DF : (Fin n → ℝ) → Matrix (Fin m) (Fin n) ℝ}
  {rhs : Fin m → ℝ} {atol rtol : ℝ} {maxIter fuel : Nat} {x y : Fin n → ℝ} {conv : Bool}

theorem gradient_apply (k : Fin n) :
    gradient F DF rhs x k = ∑ i, DF x i k * (2 * (F x i - rhs i)) := by
  simp [gradient, mulVec, dotProduct]

/-- The vector used as the gradient is the gradient of the squared residual. -/
theorem gradient_exact (h : IsJacobian F x (DF x)) :
    IsGradient (residualSq F rhs) x (gradient F DF rhs x) := by
  intro v
  unfold residualSq
  have hi : ∀ i : Fin m, HasDerivAt (fun t : ℝ => (F (x + t • v) i - rhs i) ^ 2)
      (2 * (F x i - rhs i) * ∑ k, DF x i k * v k) 0 := by
    intro i
    have := ((h i v).sub_const (rhs i)).fun_pow 2
    simpa using this
  have hs := HasDerivAt.fun_sum (u := Finset.univ) (fun i _ => hi i)
  refine hs.congr_deriv ?_
  simp only [gradient_apply, Finset.mul_sum, Finset.sum_mul]
  rw [Finset.sum_comm]
  refine Finset.sum_congr rfl (fun k _ => Finset.sum_congr rfl (fun i _ => ?_))
  ring

/-- Starting at a point where the gradient is zero, the optimiser writes past the end of an array. -/
theorem stationary_overruns (hg : ∀ k, ∑ i, DF x i k * (F x i - rhs i) = 0) (hm : 0 < maxIter) :
    mult F DF rhs atol rtol maxIter fuel x = .error .ub := by
  have hz : gradient F DF rhs x = 0 := by
    funext k
    rw [gradient_apply]
    have : ∑ i, DF x i k * (2 * (F x i - rhs i)) = 2 * ∑ i, DF x i k * (F x i - rhs i) := by
      rw [Finset.mul_sum]; exact Finset.sum_congr rfl (fun i _ => by ring)
    rw [this, hg k]; simp
  obtain ⟨k, rfl⟩ : ∃ k, maxIter = k + 1 := ⟨maxIter - 1, by omega⟩
  unfold mult
  simp only [hz, neg_zero]
  rw [cgLoop, cgStep]
  have := brent_const (J := fun b => objective F rhs (x + b • (0 : Fin n → ℝ))) (by intro b; simp) linTol fuel
    (ib / √((0 : Fin n → ℝ) ⬝ᵥ 0))
  simp only [this, error_bind]

/-- In particular when it starts at a solution. -/
theorem solved_overruns (hx : F x = rhs) (hm : 0 < maxIter) :
    mult F DF rhs atol rtol maxIter fuel x = .error .ub :=
  stationary_overruns (fun k => by simp [hx]) hm

theorem mult_inv (hm : 0 < maxIter) (h : mult F DF rhs atol rtol maxIter fuel x = .ok (some (y, conv))) :
    ∃ s, 0 < (-gradient F DF rhs x) ⬝ᵥ (-gradient F DF rhs x) ∧ s.sol = y ∧
      cgLoop F DF rhs atol rtol (√(objective F rhs x)) fuel maxIter 0
        ⟨x, -gradient F DF rhs x, -gradient F DF rhs x, -gradient F DF rhs x,
          ib / √((-gradient F DF rhs x) ⬝ᵥ (-gradient F DF rhs x))⟩ = .ok (some (conv, s)) := by
  have hpos : 0 < (-gradient F DF rhs x) ⬝ᵥ (-gradient F DF rhs x) := by
    refine lt_of_le_of_ne (self_nonneg _) (fun e => ?_)
    have hz : gradient F DF rhs x = 0 := neg_eq_zero.1 (dotProduct_self_eq_zero.1 e.symm)
    rw [stationary_overruns (fun k => ?_) hm] at h
    · cases h
    · have := congrFun hz k
      rw [gradient_apply] at this
      have e2 : ∑ i, DF x i k * (2 * (F x i - rhs i)) = 2 * ∑ i, DF x i k * (F x i - rhs i) := by
        rw [Finset.mul_sum]; exact Finset.sum_congr rfl (fun i _ => by ring)
      rw [e2] at this
      simpa using this
  unfold mult at h
  obtain ⟨o, ho, h⟩ := bind_eq_ok.1 h
  cases o with
  | none => cases h
  | some p =>
    obtain ⟨f, s⟩ := p
    cases h
    exact ⟨s, hpos, rfl, ho⟩

theorem first_pos {g : Fin n → ℝ} (h : 0 < g ⬝ᵥ g) : 0 < ib / √(g ⬝ᵥ g) := by
  have : 0 < √(g ⬝ᵥ g) := Real.sqrt_pos.2 h
  unfold ib; positivity

/-- The optimiser never returns a point with a larger residual than the one it was given. -/
theorem descends (h : mult F DF rhs atol rtol maxIter fuel x = .ok (some (y, conv))) :
    residualNorm F rhs y ≤ residualNorm F rhs x := by
  unfold residualNorm
  rw [residualSq_eq, residualSq_eq]
  apply Real.sqrt_le_sqrt
  rcases Nat.eq_zero_or_pos maxIter with rfl | hm
  · unfold mult at h
    cases h
    exact le_refl _
  · obtain ⟨s, hpos, rfl, hl⟩ := mult_inv hm h
    exact (cgLoop_descends maxIter (first_pos hpos) hl).1

/-- It reports convergence only if the residual at the point returned is below the absolute tolerance, or
below the relative tolerance times the initial residual. -/
theorem converged (h : mult F DF rhs atol rtol maxIter fuel x = .ok (some (y, true))) :
    residualNorm F rhs y < atol ∨ residualNorm F rhs y < rtol * residualNorm F rhs x := by
  rcases Nat.eq_zero_or_pos maxIter with rfl | hm
  · unfold mult at h
    cases h
  · have h' := h
    obtain ⟨s, hpos, rfl, hl⟩ := mult_inv hm h
    have := (cgLoop_descends maxIter (first_pos hpos) hl).2.1 rfl
    unfold residualNorm
    rw [residualSq_eq, residualSq_eq]
    have h0 : 0 < √(objective F rhs x) := by
      refine lt_of_le_of_ne (Real.sqrt_nonneg _) (fun e => ?_)
      have e0 : objective F rhs x = 0 := by
        have := Real.sqrt_eq_zero (objective_nonneg F rhs x) |>.1 e.symm
        exact this
      have e1 : F x = rhs := sub_eq_zero.1 (dotProduct_self_eq_zero.1 e0)
      rw [solved_overruns e1 hm] at h'
      cases h'
    rcases this with h1 | h1
    · exact .inl h1
    · right; rwa [div_lt_iff₀ h0] at h1

/-- If it makes at least one turn and does not report convergence, neither tolerance is met at the point
returned. -/
theorem not_converged (hm : 0 < maxIter) (h : mult F DF rhs atol rtol maxIter fuel x = .ok (some (y, false))) :
    atol ≤ residualNorm F rhs y ∧ rtol * residualNorm F rhs x ≤ residualNorm F rhs y := by
  have h' := h
  obtain ⟨s, hpos, rfl, hl⟩ := mult_inv hm h
  have := (cgLoop_descends maxIter (first_pos hpos) hl).2.2 rfl
  rcases this with h1 | h1
  · omega
  · unfold residualNorm
    rw [residualSq_eq, residualSq_eq]
    have h0 : 0 < √(objective F rhs x) := by
      refine lt_of_le_of_ne (Real.sqrt_nonneg _) (fun e => ?_)
      have e0 : objective F rhs x = 0 := Real.sqrt_eq_zero (objective_nonneg F rhs x) |>.1 e.symm
      have e1 : F x = rhs := sub_eq_zero.1 (dotProduct_self_eq_zero.1 e0)
      rw [solved_overruns e1 hm] at h'
      cases h'
    rw [not_or, not_lt, not_lt, le_div_iff₀ h0] at h1
    exact h1

end

/-! ## C90: linear systems -/

section

variable {n m : Nat} {A : Matrix (Fin m) (Fin n) ℝ} {c rhs : Fin m → ℝ} {atol rtol : ℝ} {maxIter : Nat}
  {x : Fin n → ℝ}

theorem form_eq (v : Fin n → ℝ) : form A v v = ∑ i, ((A *ᵥ v) i) ^ 2 := by
  unfold form dotProduct
  exact Finset.sum_congr rfl (fun i _ => by ring)

theorem self_eq (v : Fin n → ℝ) : v ⬝ᵥ v = ∑ k, v k ^ 2 := by
  unfold dotProduct
  exact Finset.sum_congr rfl (fun i _ => by ring)

theorem lin_start {b0 : ℝ} (hb : 0 < b0)
    (hpos : 0 < (-gradient (affine A c) (fun _ => A) rhs x) ⬝ᵥ (-gradient (affine A c) (fun _ => A) rhs x)) :
    LinInv A c rhs ⟨x, -gradient (affine A c) (fun _ => A) rhs x, -gradient (affine A c) (fun _ => A) rhs x,
      -gradient (affine A c) (fun _ => A) rhs x, b0⟩ [] :=
  ⟨rfl, rfl, Hist.start A _, hpos.ne', hb⟩

/-- A linear system that has a solution: if as many turns are allowed as there are unknowns and the
optimiser returns, it reports convergence. -/
theorem linear_converges (hx : ∃ z, ∀ i, (A *ᵥ z) i + c i = rhs i) (hat : 0 < atol)
    (hK : ∀ v : Fin n → ℝ, ∑ i, ((A *ᵥ v) i) ^ 2 ≤ 10 ^ 13 * ∑ k, v k ^ 2) (hn : n ≤ maxIter) (hm : 0 < maxIter)
    {fuel : Nat} {y : Fin n → ℝ} {conv : Bool}
    (h : mult (fun x i => (A *ᵥ x) i + c i) (fun _ => A) rhs atol rtol maxIter fuel x = .ok (some (y, conv))) :
    conv = true := by
  obtain ⟨z, hz⟩ := hx
  obtain ⟨s, hpos, rfl, hl⟩ := mult_inv hm h
  refine cgLoop_linear (A := A) (c := c) (rhs := rhs) ⟨z, funext hz⟩ hat (fun v => ?_) maxIter
    (lin_start (first_pos hpos) hpos) (by simpa using hn) hl
  rw [form_eq, self_eq]; exact hK v

theorem arith_one {T U : ℝ} (hT : 1 ≤ T) (hU : 10 ^ 15 ≤ U) : T / 2 ≤ 5 / 10 ^ 14 * (T * (T * U)) := by
  have h1 : T * 10 ^ 15 ≤ T * U := mul_le_mul_of_nonneg_left hU (by linarith)
  have h2 : 1 * (T * U) ≤ T * (T * U) := mul_le_mul_of_nonneg_right hT (by nlinarith)
  nlinarith

theorem arith_two {T U : ℝ} (hT : 1 ≤ T) (hU : 10 ^ 15 ≤ U) : T / 2 ≤ ib / T * (T * (T * U)) := by
  have e : ib / T * (T * (T * U)) = T * (U / 10) := by
    have : T ≠ 0 := by linarith
    unfold ib; field_simp
  rw [e]
  nlinarith

/-- If the matrix is injective, within very generous bounds on its size, and the starting point is not
already a solution, the optimiser does return, and reports convergence. -/
theorem linear_total (hx : ∃ z, ∀ i, (A *ᵥ z) i + c i = rhs i) (hat : 0 < atol)
    (hK : ∀ v : Fin n → ℝ, ∑ i, ((A *ᵥ v) i) ^ 2 ≤ 10 ^ 13 * ∑ k, v k ^ 2)
    (hσ : ∀ v : Fin n → ℝ, 1 / 10 ^ 300 * ∑ k, v k ^ 2 ≤ ∑ i, ((A *ᵥ v) i) ^ 2) (hn : n ≤ maxIter)
    (hns : (fun i => (A *ᵥ x) i + c i) ≠ rhs)
    (hg : ∑ k, (∑ i, A i k * (2 * ((A *ᵥ x) i + c i - rhs i))) ^ 2 ≤ 10 ^ 600) :
    ∃ K y, ∀ fuel, K ≤ fuel →
      mult (fun x i => (A *ᵥ x) i + c i) (fun _ => A) rhs atol rtol maxIter fuel x = .ok (some (y, true)) := by
  have hx' : ∃ z, affine A c z = rhs := by obtain ⟨z, hz⟩ := hx; exact ⟨z, funext hz⟩
  have hK' : ∀ v, form A v v ≤ 10 ^ 13 * (v ⬝ᵥ v) := fun v => by rw [form_eq, self_eq]; exact hK v
  have hσ' : ∀ v, 1 / 10 ^ 300 * (v ⬝ᵥ v) ≤ form A v v := fun v => by rw [form_eq, self_eq]; exact hσ v
  have hnz : gradient (affine A c) (fun _ => A) rhs x ≠ 0 := by
    intro hz
    have := residual_zero hx' hz
    have e1 : affine A c x = rhs := sub_eq_zero.1 (dotProduct_self_eq_zero.1 this)
    exact hns e1
  have hpos : 0 < (-gradient (affine A c) (fun _ => A) rhs x) ⬝ᵥ
      (-gradient (affine A c) (fun _ => A) rhs x) := by
    refine lt_of_le_of_ne (self_nonneg _) (fun e => hnz ?_)
    exact neg_eq_zero.1 (dotProduct_self_eq_zero.1 e.symm)
  have hgg : (-gradient (affine A c) (fun _ => A) rhs x) ⬝ᵥ
      (-gradient (affine A c) (fun _ => A) rhs x) ≤ 10 ^ 600 := by
    rw [neg_dotProduct_neg, self_eq]
    refine le_trans (le_of_eq ?_) hg
    exact Finset.sum_congr rfl (fun k _ => by rw [gradient_apply]; rfl)
  have hgold := golden_pow_ge
  have h1999 : (10 : ℝ) ^ 1999 = 10 ^ 300 * (10 ^ 300 * 10 ^ 1399) := by rw [← pow_add, ← pow_add]
  have p300 : (0 : ℝ) < 10 ^ 300 := by positivity
  have p1399 : (10 : ℝ) ^ 15 ≤ 10 ^ 1399 := pow_le_pow_right₀ (by norm_num) (by norm_num)
  have hs1 : 1 / (2 * (1 / (10 : ℝ) ^ 300)) = 10 ^ 300 / 2 := by field_simp
  have hsq : √((-gradient (affine A c) (fun _ => A) rhs x) ⬝ᵥ
      (-gradient (affine A c) (fun _ => A) rhs x)) ≤ 10 ^ 300 := by
    rw [show (10 : ℝ) ^ 300 = √((10 ^ 300) ^ 2) by rw [Real.sqrt_sq p300.le]]
    apply Real.sqrt_le_sqrt
    rw [← pow_mul]; exact hgg
  have hsp := Real.sqrt_pos.2 hpos
  have hone : (1 : ℝ) ≤ 10 ^ 300 := one_le_pow₀ (by norm_num)
  obtain ⟨K, s, hs⟩ := cgLoop_total (A := A) (c := c) (rhs := rhs) (atol := atol) (rtol := rtol)
    (res0 := √(objective (affine A c) rhs x)) hx' hat hK' (by positivity : (0 : ℝ) < 1 / 10 ^ 300) hσ' (by
      rw [hs1]
      refine le_trans ?_ (mul_le_mul_of_nonneg_left hgold (by positivity))
      rw [h1999]
      exact arith_one hone p1399) maxIter (j := 0) (lin_start (first_pos hpos) hpos) (by simpa using hn) (by
      rw [hs1]
      show (10 : ℝ) ^ 300 / 2 ≤ ib / √_ * golden ^ (nBrak - 3)
      have h1 : ib / 10 ^ 300 ≤ ib / √((-gradient (affine A c) (fun _ => A) rhs x) ⬝ᵥ
          (-gradient (affine A c) (fun _ => A) rhs x)) := by
        apply div_le_div_of_nonneg_left _ hsp hsq
        unfold ib; positivity
      have h2 : (10 : ℝ) ^ 300 / 2 ≤ ib / 10 ^ 300 * 10 ^ 1999 := by
        rw [h1999]
        exact arith_two hone p1399
      refine h2.trans (mul_le_mul h1 hgold (by positivity) (le_trans (by unfold ib; positivity) h1)))
  refine ⟨K, s.sol, fun fuel hf => ?_⟩
  have e : mult (fun x i => (A *ᵥ x) i + c i) (fun _ => A) rhs atol rtol maxIter fuel x =
      mult (affine A c) (fun _ => A) rhs atol rtol maxIter fuel x := rfl
  rw [e]
  unfold mult
  simp only [hs fuel hf, ok_bind]
  rfl

end

/-- A system of two equations with two unknowns, `x₀ = 1`, `2 x₁ = 6`, started at the origin, meets the
hypotheses of the theorems on linear systems. -/
example : ∃ K y, ∀ fuel, K ≤ fuel →
    mult (fun x i => ((!![1, 0; 0, 2] : Matrix (Fin 2) (Fin 2) ℝ) *ᵥ x) i + (0 : Fin 2 → ℝ) i)
      (fun _ => !![1, 0; 0, 2]) ![1, 6] (1 / 10 ^ 8) (1 / 10 ^ 8) 5 fuel 0 = .ok (some (y, true)) := by
  have hA : ∀ v : Fin 2 → ℝ, ∑ i, (((!![1, 0; 0, 2] : Matrix (Fin 2) (Fin 2) ℝ) *ᵥ v) i) ^ 2 =
      v 0 ^ 2 + 4 * v 1 ^ 2 := by
    intro v
    simp [Fin.sum_univ_two, mulVec, dotProduct]; ring
  have p : (1 : ℝ) / 10 ^ 300 ≤ 1 := by
    rw [div_le_one (by positivity)]; exact one_le_pow₀ (by norm_num)
  refine linear_total ⟨![1, 3], ?_⟩ (by positivity) ?_ ?_ (by norm_num) ?_ ?_
  · intro i; fin_cases i <;> simp [mulVec, dotProduct, Fin.sum_univ_two]
    norm_num
  · intro v; rw [hA, Fin.sum_univ_two]; nlinarith [sq_nonneg (v 0), sq_nonneg (v 1)]
  · intro v; rw [hA, Fin.sum_univ_two]; nlinarith [sq_nonneg (v 0), sq_nonneg (v 1), p]
  · intro h; have := congrFun h 0; simp at this
  · have e : ∑ k, (∑ i, (!![1, 0; 0, 2] : Matrix (Fin 2) (Fin 2) ℝ) i k *
        (2 * (((!![1, 0; 0, 2] : Matrix (Fin 2) (Fin 2) ℝ) *ᵥ (0 : Fin 2 → ℝ)) i + (0 : Fin 2 → ℝ) i -
          (![1, 6] : Fin 2 → ℝ) i))) ^ 2 = 580 := by
      simp [Fin.sum_univ_two]; norm_num
    rw [e]
    calc (580 : ℝ) ≤ 10 ^ 3 := by norm_num
      _ ≤ 10 ^ 600 := pow_le_pow_right₀ (by norm_num) (by norm_num)

end Verif.Optimizer
