import Verif.Model.Optimizer
import Verif.Proofs.Basic
import Mathlib.Tactic.Linarith
import Mathlib.Tactic.FieldSimp
import Mathlib.Tactic.Positivity

/-!
# Lemmas on the line search
-/

namespace Verif.Optimizer

open Verif

theorem golden_sq : golden ^ 2 = golden + 1 := by
  unfold golden
  have h : √(5 : ℝ) ^ 2 = 5 := Real.sq_sqrt (by norm_num)
  nlinarith

theorem golden_gt : 1.6 < golden := by
  unfold golden
  have h : (2.2 : ℝ) < √5 := by
    rw [show (2.2 : ℝ) = √(2.2 ^ 2) by rw [Real.sqrt_sq (by norm_num)]]
    exact Real.sqrt_lt_sqrt (by norm_num) (by norm_num)
  linarith

theorem golden_lt : golden < 1.65 := by
  unfold golden
  have h : √(5 : ℝ) < 2.3 := by
    rw [show (2.3 : ℝ) = √(2.3 ^ 2) by rw [Real.sqrt_sq (by norm_num)]]
    exact Real.sqrt_lt_sqrt (by norm_num) (by norm_num)
  linarith

theorem golden_pos : 0 < golden := by linarith [golden_gt]

theorem inv_golden : 1 / golden = golden - 1 := by
  have := golden_sq
  have h := golden_pos
  field_simp
  nlinarith

theorem cr_eq : cr = 2 - golden := by
  unfold cr; rw [inv_golden]; ring

theorem cr_pos : 0 < cr := by rw [cr_eq]; linarith [golden_lt]
theorem cr_lt : cr < 1 := by rw [cr_eq]; linarith [golden_gt]

theorem eps_pos : 0 < eps := by unfold eps; positivity

/-- The points tried by the loop that looks for a bracket, for a first step `b`. -/
noncomputable def pts (b : ℝ) : Nat → ℝ
  | 0 => 0
  | i + 1 => b * golden ^ i

theorem pts_lt {b : ℝ} (hb : 0 < b) (i : Nat) : pts b i < pts b (i + 1) := by
  have hg := golden_gt
  cases i with
  | zero => simpa [pts] using hb
  | succ i =>
    have : 0 < b * golden ^ i := by have := golden_pos; positivity
    have e : pts b (i + 1 + 1) = pts b (i + 1) * golden := by simp [pts, pow_succ]; ring
    rw [e]
    have : 0 < pts b (i + 1) := by simpa [pts] using this
    nlinarith

theorem pts_nonneg {b : ℝ} (hb : 0 < b) (i : Nat) : 0 ≤ pts b i := by
  cases i with
  | zero => simp [pts]
  | succ i => have := golden_pos; simp only [pts]; positivity

theorem pts_pos {b : ℝ} (hb : 0 < b) (i : Nat) : 0 < pts b (i + 1) := by
  have := golden_pos; simp only [pts]; positivity

/-- What the arrays of the loop hold before turn `j`. -/
structure BrakInv (J : ℝ → ℝ) (b : ℝ) (N j : Nat) (step Jb : List ℝ) : Prop where
  pos : 1 ≤ j
  ls : step.length = N + 1
  lj : Jb.length = N
  s : ∀ i : Nat, i < j → step[i]? = some (pts b i)
  f : ∀ i : Nat, i < j → i < N → Jb[i]? = some (J (pts b i))

theorem BrakInv.next {J : ℝ → ℝ} {b : ℝ} {N j : Nat} {step Jb : List ℝ} (h : BrakInv J b N j step Jb)
    (hj : j < N) : BrakInv J b N (j + 1) (step.set j (pts b j)) (Jb.set j (J (pts b j))) := by
  refine ⟨by omega, by simp [h.ls], by simp [h.lj], ?_, ?_⟩
  · intro i hi
    rw [List.getElem?_set]
    by_cases e : j = i
    · subst e; have := h.ls; simp [show j < step.length by omega]
    · rw [if_neg e]; exact h.s i (by omega)
  · intro i hi hN
    rw [List.getElem?_set]
    by_cases e : j = i
    · subst e; have := h.lj; simp [show j < Jb.length by omega]
    · rw [if_neg e]; exact h.f i (by omega) hN

/-- The triple of three consecutive points, ending with the `i`-th. -/
noncomputable def tripleAt (J : ℝ → ℝ) (b : ℝ) (i : Nat) : Triple :=
  ⟨pts b (i - 2), pts b (i - 1), pts b i, J (pts b (i - 2)), J (pts b (i - 1)), J (pts b i)⟩

theorem bracket_turn {J : ℝ → ℝ} {b : ℝ} {N j k : Nat} {step Jb : List ℝ} (h : BrakInv J b N j step Jb)
    (hj : j < N) :
    bracket J (k + 1) j (pts b j) step Jb =
      if J (pts b j) > J (pts b (j - 1)) then
        (if 2 ≤ j then .ok (tripleAt J b j) else .error .ub)
      else bracket J k (j + 1) (pts b j * golden) (step.set j (pts b j)) (Jb.set j (J (pts b j))) := by
  have hn := h.next hj
  have hp := h.pos
  rw [bracket, wr_of_lt (by rw [h.ls]; omega), ok_bind, wr_of_lt (by rw [h.lj]; omega), ok_bind,
    rd_eq_ok.2 (hn.f j (by omega) hj), ok_bind]
  have e1 : rdI (Jb.set j (J (pts b j))) ((j : Int) - 1) = .ok (J (pts b (j - 1))) := by
    unfold rdI
    rw [if_pos (by omega), show ((j : Int) - 1).toNat = j - 1 by omega]
    exact rd_eq_ok.2 (hn.f (j - 1) (by omega) (by omega))
  rw [e1, ok_bind]
  by_cases hc : J (pts b j) > J (pts b (j - 1))
  · rw [if_pos hc, if_pos hc]
    by_cases h2 : 2 ≤ j
    · rw [if_pos h2]
      have a1 : rdI (step.set j (pts b j)) ((j : Int) - 2) = .ok (pts b (j - 2)) := by
        unfold rdI
        rw [if_pos (by omega), show ((j : Int) - 2).toNat = j - 2 by omega]
        exact rd_eq_ok.2 (hn.s (j - 2) (by omega))
      have a2 : rdI (step.set j (pts b j)) ((j : Int) - 1) = .ok (pts b (j - 1)) := by
        unfold rdI
        rw [if_pos (by omega), show ((j : Int) - 1).toNat = j - 1 by omega]
        exact rd_eq_ok.2 (hn.s (j - 1) (by omega))
      have a3 : rdI (Jb.set j (J (pts b j))) ((j : Int) - 2) = .ok (J (pts b (j - 2))) := by
        unfold rdI
        rw [if_pos (by omega), show ((j : Int) - 2).toNat = j - 2 by omega]
        exact rd_eq_ok.2 (hn.f (j - 2) (by omega) (by omega))
      rw [a1, ok_bind, a2, ok_bind, rd_eq_ok.2 (hn.s j (by omega)), ok_bind, a3, ok_bind, ok_bind,
        ok_bind]
      rfl
    · rw [if_neg h2]
      have a1 : rdI (step.set j (pts b j)) ((j : Int) - 2) = .error .ub := by
        unfold rdI; rw [if_neg (by omega)]
      rw [a1]; rfl
  · rw [if_neg hc, if_neg hc]

theorem pts_next {b : ℝ} {j : Nat} (hj : 1 ≤ j) : pts b j * golden = pts b (j + 1) := by
  obtain ⟨i, rfl⟩ : ∃ i, j = i + 1 := ⟨j - 1, by omega⟩
  simp [pts, pow_succ]; ring

/-- The loop finds the first point after which the objective is larger. -/
theorem bracket_found {J : ℝ → ℝ} {b : ℝ} {N : Nat} (k : Nat) :
    ∀ {j i : Nat} {step Jb : List ℝ}, BrakInv J b N j step Jb → j ≤ i → i < N → i < j + k → 2 ≤ i →
      J (pts b i) > J (pts b (i - 1)) →
      (∀ l, j ≤ l → l < i → ¬ J (pts b l) > J (pts b (l - 1))) →
      bracket J k j (pts b j) step Jb = .ok (tripleAt J b i) := by
  induction k with
  | zero => intro j i step Jb _ h1 _ h3; omega
  | succ k ih =>
    intro j i step Jb h hji hiN hik h2 hi hl
    rw [bracket_turn h (by omega)]
    by_cases e : j = i
    · subst e; rw [if_pos hi, if_pos h2]
    · rw [if_neg (hl j (le_refl _) (by omega)), pts_next h.pos]
      exact ih (h.next (by omega)) (by omega) hiN (by omega) h2 hi (fun l h1 h2 => hl l (by omega) h2)

/-- If there is no such point, the loop writes past the end of its array. -/
theorem bracket_lost {J : ℝ → ℝ} {b : ℝ} {N : Nat} (k : Nat) :
    ∀ {j : Nat} {step Jb : List ℝ}, BrakInv J b N j step Jb → j ≤ N →
      (∀ l, j ≤ l → l < N → ¬ J (pts b l) > J (pts b (l - 1))) →
      bracket J k j (pts b j) step Jb = .error .ub := by
  induction k with
  | zero => intros; rfl
  | succ k ih =>
    intro j step Jb h hjN hl
    by_cases e : j = N
    · rw [bracket, wr_of_lt (by rw [h.ls]; omega), ok_bind]
      have : wr Jb j (J (pts b j)) = .error .ub := by
        unfold wr; rw [if_neg (by rw [h.lj]; omega)]
      rw [this]; rfl
    · rw [bracket_turn h (by omega), if_neg (hl j (le_refl _) (by omega)), pts_next h.pos]
      exact ih (h.next (by omega)) (by omega) (fun l h1 h2 => hl l (by omega) h2)

theorem brakInv_start (J : ℝ → ℝ) (b : ℝ) :
    BrakInv J b nBrak 1 (List.replicate (nBrak + 1) 0) ((List.replicate nBrak (0 : ℝ)).set 0 (J 0)) := by
  refine ⟨le_refl _, by simp, by simp, ?_, ?_⟩
  · intro i hi
    obtain rfl : i = 0 := by omega
    rw [List.getElem?_replicate, if_pos (by omega)]; rfl
  · intro i hi hN
    obtain rfl : i = 0 := by omega
    rw [List.getElem?_set, if_pos rfl, if_pos (by simpa using hN)]; rfl

/-! ## The bracket -/

/-- What holds of the six numbers throughout the loop of parabolic estimates. -/
structure Inv (J : ℝ → ℝ) (t : Triple) : Prop where
  nonneg : 0 ≤ t.a
  ab : t.a < t.b
  bc : t.b ≤ t.c
  ea : t.fa = J t.a
  eb : t.fb = J t.b
  ec : t.fc = J t.c
  la : t.fb ≤ t.fa
  lc : t.fb ≤ t.fc
  str : t.fb < t.fa ∨ (t.b < t.c ∧ t.fb < t.fc)

theorem Inv.den {J : ℝ → ℝ} {t : Triple} (h : Inv J t) :
    (t.b - t.a) * (t.fb - t.fc) - (t.b - t.c) * (t.fb - t.fa) < 0 ∨ (t.b = t.c ∧ t.fb < t.fa) := by
  have h1 := h.ab; have h2 := h.bc; have h3 := h.la; have h4 := h.lc
  by_cases hbc : t.b = t.c
  · right
    refine ⟨hbc, ?_⟩
    rcases h.str with h | h
    · exact h
    · exact absurd hbc h.1.ne
  · left
    have h2' : t.b < t.c := lt_of_le_of_ne h2 hbc
    rcases h.str with h5 | h5
    · have : 0 < (t.c - t.b) * (t.fa - t.fb) := mul_pos (by linarith) (by linarith)
      have : 0 ≤ (t.b - t.a) * (t.fc - t.fb) := mul_nonneg (by linarith) (by linarith)
      nlinarith
    · have : 0 ≤ (t.c - t.b) * (t.fa - t.fb) := mul_nonneg (by linarith) (by linarith)
      have : 0 < (t.b - t.a) * (t.fc - t.fb) := mul_pos (by linarith) (by linarith)
      nlinarith

theorem skewed_of_eq {J : ℝ → ℝ} {t : Triple} (h : Inv J t) (e : t.b = t.c) :
    farFromOne (quot (t.c - t.b) (t.b - t.a)) = true := by
  have h1 := h.ab
  have : t.b - t.a ≠ 0 := by linarith
  unfold quot
  rw [if_pos this, e, sub_self, zero_div]
  simp [farFromOne]

/-- The number subtracted from the middle point by the parabolic estimate. -/
noncomputable def shift (t : Triple) : ℝ :=
  0.5 * ((t.b - t.a) ^ 2 * (t.fb - t.fc) - (t.b - t.c) ^ 2 * (t.fb - t.fa)) /
    ((t.b - t.a) * (t.fb - t.fc) - (t.b - t.c) * (t.fb - t.fa))

theorem vertex_mem {J : ℝ → ℝ} {t : Triple} (h : Inv J t)
    (hd : (t.b - t.a) * (t.fb - t.fc) - (t.b - t.c) * (t.fb - t.fa) < 0) :
    paraQuot t = .num (shift t) ∧ (t.a + t.b) / 2 ≤ t.b - shift t ∧ t.b - shift t ≤ (t.b + t.c) / 2 := by
  have h1 := h.ab; have h2 := h.bc
  refine ⟨?_, ?_, ?_⟩
  · unfold paraQuot quot; rw [if_pos hd.ne]; rfl
  · have : shift t ≤ (t.b - t.a) / 2 := by
      unfold shift
      rw [div_le_iff_of_neg hd]
      have hA : 0 ≤ (t.c - t.b) * (t.fa - t.fb) := mul_nonneg (by linarith) (by linarith [h.la])
      nlinarith [mul_nonneg hA (show 0 ≤ t.c - t.a by linarith)]
    linarith
  · have : -((t.c - t.b) / 2) ≤ shift t := by
      unfold shift
      rw [le_div_iff_of_neg hd]
      have hA : 0 ≤ (t.b - t.a) * (t.fc - t.fb) := mul_nonneg (by linarith) (by linarith [h.lc])
      nlinarith [mul_nonneg hA (show 0 ≤ t.c - t.a by linarith)]
    linarith

/-- The next point is in the bracket. -/
theorem nextPoint_mem {J : ℝ → ℝ} {t : Triple} (h : Inv J t) :
    ∃ x, nextPoint t = some x ∧ t.a < x ∧ x ≤ t.c := by
  have h1 := h.ab; have h2 := h.bc; have c0 := cr_pos; have c1 := cr_lt
  unfold nextPoint
  by_cases hg : (outside t (paraQuot t) || farFromOne (quot (t.c - t.b) (t.b - t.a))) = true
  · simp only [hg, if_true]
    by_cases hh : t.b > 0.5 * (t.a + t.c)
    · rw [if_pos hh]
      refine ⟨_, rfl, ?_, ?_⟩ <;> nlinarith
    · rw [if_neg hh]
      refine ⟨_, rfl, ?_, ?_⟩ <;> nlinarith
  · rcases h.den with hd | ⟨e, _⟩
    · obtain ⟨hq, hl, hu⟩ := vertex_mem h hd
      simp only [hg, Bool.false_eq_true, if_false]
      rw [hq]
      exact ⟨_, rfl, by linarith, by linarith⟩
    · rw [skewed_of_eq h e, Bool.or_true] at hg
      exact absurd rfl hg

theorem arrMin_four (p q r s : ℝ) : arrMin [p, q, r, s] = min (min (min p q) r) s := rfl

/-- The first position of the smallest of four numbers, none of the last three being below the
second or third. -/
theorem findIdx_four {p q r s : ℝ} (hs : min q r ≤ s) (hp : min q r ≤ p) :
    (p ≤ q ∧ p ≤ r ∧ [p, q, r, s].findIdx (fun v => decide (v = arrMin [p, q, r, s])) = 0) ∨
    (q < p ∧ q ≤ r ∧ arrMin [p, q, r, s] = q ∧
      [p, q, r, s].findIdx (fun v => decide (v = arrMin [p, q, r, s])) = 1) ∨
    (r < p ∧ r < q ∧ arrMin [p, q, r, s] = r ∧
      [p, q, r, s].findIdx (fun v => decide (v = arrMin [p, q, r, s])) = 2) := by
  rw [arrMin_four]
  by_cases h1 : p ≤ q ∧ p ≤ r
  · left
    refine ⟨h1.1, h1.2, ?_⟩
    have : min (min (min p q) r) s = p := by
      rw [min_eq_left h1.1, min_eq_left h1.2, min_eq_left]
      exact le_trans (le_min h1.1 h1.2) hs
    rw [this]; simp [List.findIdx_cons]
  · right
    by_cases h2 : q ≤ r
    · left
      have hq : q < p := by
        rw [min_eq_left h2] at hp
        refine lt_of_le_of_ne hp (fun e => h1 ⟨e ▸ le_refl _, e ▸ h2⟩)
      have : min (min (min p q) r) s = q := by
        rw [min_eq_right hq.le, min_eq_left h2, min_eq_left]
        rw [min_eq_left h2] at hs; exact hs
      refine ⟨hq, h2, this, ?_⟩
      rw [this]; simp [List.findIdx_cons, hq.ne']
    · right
      have h2' : r < q := not_le.1 h2
      have hr : r < p := by
        rw [min_eq_right h2'.le] at hp
        refine lt_of_le_of_ne hp (fun e => h1 ⟨?_, e ▸ le_refl _⟩)
        rw [← e]; exact h2'.le
      have : min (min (min p q) r) s = r := by
        rw [min_eq_right (le_min hr.le h2'.le), min_eq_left]
        rw [min_eq_right h2'.le] at hs; exact hs
      refine ⟨hr, h2', this, ?_⟩
      rw [this]; simp [List.findIdx_cons, hr.ne', h2'.ne']

/-- The values of the four points, in order. -/
theorem reduceTo_eq {J : ℝ → ℝ} {t : Triple} (h : Inv J t) {x : ℝ} (hax : t.a < x) (hxc : x ≤ t.c) :
    (t.fa ≤ t.fb ∧ t.fa ≤ J x ∧ reduceTo J t x = .error .abort) ∨
      ∃ t', reduceTo J t x = .ok t' ∧ Inv J t' ∧ t'.fb < t'.fa ∧ t'.fb ≤ t.fb ∧ t'.fb ≤ J x ∧
        t.a ≤ t'.a ∧ t'.c ≤ t.c ∧ (t'.b = t.b ∨ t'.b = x) ∧ (t.fb < t.fa ∨ J x < t.fa) := by
  have h1 := h.ab; have h2 := h.bc; have hla := h.la; have hlc := h.lc
  by_cases hx : x > t.b
  · rcases findIdx_four (p := t.fa) (q := t.fb) (r := J x) (s := t.fc)
      (le_trans (min_le_left _ _) hlc) (le_trans (min_le_left _ _) hla) with
      ⟨e1, e2, e3⟩ | ⟨e1, e2, e3, e4⟩ | ⟨e1, e2, e3, e4⟩
    · left
      refine ⟨e1, e2, ?_⟩
      simp only [reduceTo, hx, if_true, e3]; rfl
    · right
      refine ⟨⟨t.a, t.b, x, t.fa, t.fb, J x⟩, ?_, ?_, e1, le_refl _, e2, le_refl _, hxc, .inl rfl, .inl e1⟩
      · simp only [reduceTo, hx, if_true, e4]; rw [e3]; rfl
      · exact ⟨h.nonneg, h1, hx.le, h.ea, h.eb, rfl, hla, e2, .inl e1⟩
    · right
      refine ⟨⟨t.b, x, t.c, t.fb, J x, t.fc⟩, ?_, ?_, e2, e2.le, le_refl _, h1.le, le_refl _, .inr rfl,
        .inr e1⟩
      · simp only [reduceTo, hx, if_true, e4]; rw [e3]; rfl
      · exact ⟨by linarith [h.nonneg], hx, hxc, h.eb, rfl, h.ec, e2.le, by linarith, .inl e2⟩
  · have hx' : x ≤ t.b := not_lt.1 hx
    rcases findIdx_four (p := t.fa) (q := J x) (r := t.fb) (s := t.fc)
      (le_trans (min_le_right _ _) hlc) (le_trans (min_le_right _ _) hla) with
      ⟨e1, e2, e3⟩ | ⟨e1, e2, e3, e4⟩ | ⟨e1, e2, e3, e4⟩
    · left
      refine ⟨e2, e1, ?_⟩
      simp only [reduceTo, hx, if_false, e3]; rfl
    · right
      refine ⟨⟨t.a, x, t.b, t.fa, J x, t.fb⟩, ?_, ?_, e1, e2, le_refl _, le_refl _, h2, .inr rfl, .inr e1⟩
      · simp only [reduceTo, hx, if_false, e4]; rw [e3]; rfl
      · exact ⟨h.nonneg, hax, hx', h.ea, rfl, h.eb, e1.le, e2, .inl e1⟩
    · right
      have hne : x < t.b := by
        refine lt_of_le_of_ne hx' (fun e => ?_)
        rw [e, ← h.eb] at e2
        exact lt_irrefl _ e2
      refine ⟨⟨x, t.b, t.c, J x, t.fb, t.fc⟩, ?_, ?_, e2, le_refl _, e2.le, hax.le, le_refl _, .inl rfl,
        .inl e1⟩
      · simp only [reduceTo, hx, if_false, e4]; rw [e3]; rfl
      · exact ⟨by linarith [h.nonneg], hne, h2, rfl, h.eb, h.ec, e2.le, hlc, .inl e2⟩

/-- Once the left end is strictly above, the loop runs without a fault. -/
theorem para_ok {J : ℝ → ℝ} {tol : ℝ} (k : Nat) : ∀ {t : Triple}, Inv J t → t.fb < t.fa →
    ∃ r, para J tol k t = .ok r ∧ Inv J r.1 ∧ r.1.fb ≤ t.fb ∧ t.a ≤ r.1.a ∧ r.1.c ≤ t.c ∧
      (narrow tol r.1 = true ∨ r.2 = k) := by
  induction k with
  | zero => intro t h _; exact ⟨(t, 0), rfl, h, le_refl _, le_refl _, le_refl _, .inr rfl⟩
  | succ k ih =>
    intro t h hs
    rw [para]
    by_cases hn : narrow tol t = true
    · rw [if_pos hn]; exact ⟨(t, 0), rfl, h, le_refl _, le_refl _, le_refl _, .inl hn⟩
    · rw [if_neg hn]
      obtain ⟨x, e, hax, hxc⟩ := nextPoint_mem h
      rw [e]
      rcases reduceTo_eq h hax hxc with ⟨h1, _⟩ | ⟨t', e', h', hs', hb, _, ha, hc, _⟩
      · exact absurd hs (not_lt.2 h1)
      · obtain ⟨r, er, i1, i2, i3, i4, i5⟩ := ih h' hs'
        refine ⟨(r.1, r.2 + 1), ?_, i1, i2.trans hb, ha.trans i3, i4.trans hc, ?_⟩
        · simp only [e', ok_bind, er]; rfl
        · rcases i5 with i5 | i5
          · exact .inl i5
          · exact .inr (by simp [i5])

theorem para_inv {J : ℝ → ℝ} {tol : ℝ} (k : Nat) {t : Triple} {r : Triple × Nat} (h : Inv J t)
    (hr : para J tol k t = .ok r) : Inv J r.1 ∧ r.1.fb ≤ t.fb ∧ t.a ≤ r.1.a ∧ r.1.c ≤ t.c ∧
      (narrow tol r.1 = true ∨ r.2 = k) := by
  cases k with
  | zero =>
    rw [para] at hr
    cases hr
    exact ⟨h, le_refl _, le_refl _, le_refl _, .inr rfl⟩
  | succ k =>
    rw [para] at hr
    by_cases hn : narrow tol t = true
    · rw [if_pos hn] at hr
      cases hr
      exact ⟨h, le_refl _, le_refl _, le_refl _, .inl hn⟩
    · rw [if_neg hn] at hr
      obtain ⟨x, e, hax, hxc⟩ := nextPoint_mem h
      rw [e] at hr
      rcases reduceTo_eq h hax hxc with ⟨h1, _, e'⟩ | ⟨t', e', h', hs', hb, _, ha, hc, _⟩
      · simp only [e', error_bind] at hr; cases hr
      · obtain ⟨r', er, i1, i2, i3, i4, i5⟩ := para_ok (tol := tol) k h' hs'
        simp only [e', ok_bind, er] at hr
        cases hr
        refine ⟨i1, i2.trans hb, ha.trans i3, i4.trans hc, ?_⟩
        rcases i5 with i5 | i5
        · exact .inl i5
        · exact .inr (by simp [i5])

/-! ## The whole line search -/

theorem shrink_some {J : ℝ → ℝ} {J0 : ℝ} : ∀ {fuel : Nat} {b0 b : ℝ}, shrink J J0 fuel b0 = some b →
    ∃ i, b = b0 / golden ^ i ∧ J b ≤ J0 ∧ ∀ l, l < i → J (b0 / golden ^ l) > J0 := by
  intro fuel
  induction fuel with
  | zero =>
    intro b0 b h
    rw [shrink] at h
    by_cases hc : J b0 > J0
    · rw [if_pos hc] at h; cases h
    · rw [if_neg hc] at h; cases h
      exact ⟨0, by simp, not_lt.1 hc, by intro l hl; omega⟩
  | succ k ih =>
    intro b0 b h
    rw [shrink] at h
    by_cases hc : J b0 > J0
    · rw [if_pos hc] at h
      obtain ⟨i, e, h1, h2⟩ := ih h
      refine ⟨i + 1, ?_, h1, ?_⟩
      · rw [e, pow_succ, mul_comm (golden ^ i), div_div]
      · intro l hl
        cases l with
        | zero => simpa using hc
        | succ l =>
          have := h2 l (by omega)
          rwa [pow_succ, mul_comm (golden ^ l), ← div_div]
    · rw [if_neg hc] at h; cases h
      exact ⟨0, by simp, not_lt.1 hc, by intro l hl; omega⟩

theorem shrink_of {J : ℝ → ℝ} {J0 : ℝ} : ∀ {i fuel : Nat} {b0 : ℝ}, i ≤ fuel →
    J (b0 / golden ^ i) ≤ J0 → (∀ l, l < i → J (b0 / golden ^ l) > J0) →
    shrink J J0 fuel b0 = some (b0 / golden ^ i) := by
  intro i
  induction i with
  | zero =>
    intro fuel b0 _ h _
    have h' : ¬ J b0 > J0 := by simpa using h
    cases fuel <;> simp [shrink, h']
  | succ i ih =>
    intro fuel b0 hf h hl
    obtain ⟨fuel, rfl⟩ : ∃ f, fuel = f + 1 := ⟨fuel - 1, by omega⟩
    have h0 : J b0 > J0 := by simpa using hl 0 (by omega)
    have e : ∀ l, b0 / golden ^ (l + 1) = b0 / golden / golden ^ l := by
      intro l; rw [pow_succ, mul_comm (golden ^ l), ← div_div]
    rw [shrink, if_pos h0, e]
    apply ih (by omega)
    · rw [← e]; exact h
    · intro l hl'; rw [← e]; exact hl (l + 1) (by omega)

theorem shrink_none {J : ℝ → ℝ} {J0 : ℝ} (h : ∀ b, 0 < b → J b > J0) :
    ∀ {fuel : Nat} {b0 : ℝ}, 0 < b0 → shrink J J0 fuel b0 = none := by
  intro fuel
  induction fuel with
  | zero => intro b0 hb; rw [shrink, if_pos (h b0 hb)]
  | succ k ih =>
    intro b0 hb
    rw [shrink, if_pos (h b0 hb)]
    exact ih (by have := golden_pos; positivity)

theorem tripleAt_inv {J : ℝ → ℝ} {b : ℝ} (hb : 0 < b) {i : Nat} (h2 : 2 ≤ i)
    (hi : J (pts b i) > J (pts b (i - 1))) (hl : ¬ J (pts b (i - 1)) > J (pts b (i - 2))) :
    Inv J (tripleAt J b i) := by
  obtain ⟨k, rfl⟩ : ∃ k, i = k + 2 := ⟨i - 2, by omega⟩
  simp only [show k + 2 - 1 = k + 1 by omega, show k + 2 - 2 = k by omega] at hi hl
  have e : tripleAt J b (k + 2) =
      ⟨pts b k, pts b (k + 1), pts b (k + 2), J (pts b k), J (pts b (k + 1)), J (pts b (k + 2))⟩ := by
    simp only [tripleAt, show k + 2 - 1 = k + 1 by omega, show k + 2 - 2 = k by omega]
  rw [e]
  exact ⟨pts_nonneg hb k, pts_lt hb k, (pts_lt hb (k + 1)).le, rfl, rfl, rfl, not_lt.1 hl, hi.le,
    .inr ⟨pts_lt hb (k + 1), hi⟩⟩

theorem tripleAt_lt {J : ℝ → ℝ} {b : ℝ} (hb : 0 < b) {i : Nat} (h2 : 2 ≤ i) :
    (tripleAt J b i).b < (tripleAt J b i).c := by
  obtain ⟨k, rfl⟩ : ∃ k, i = k + 2 := ⟨i - 2, by omega⟩
  simpa [tripleAt] using pts_lt hb (k + 1)

/-- Whether there is a bracket, and which is the first. -/
theorem first_bracket (J : ℝ → ℝ) (b : ℝ) :
    (∀ l, 1 ≤ l → l < nBrak → ¬ J (pts b l) > J (pts b (l - 1))) ∨
      ∃ i, 1 ≤ i ∧ i < nBrak ∧ J (pts b i) > J (pts b (i - 1)) ∧
        ∀ l, 1 ≤ l → l < i → ¬ J (pts b l) > J (pts b (l - 1)) := by
  classical
  by_cases h : ∃ i, 1 ≤ i ∧ i < nBrak ∧ J (pts b i) > J (pts b (i - 1))
  · right
    refine ⟨Nat.find h, (Nat.find_spec h).1, (Nat.find_spec h).2.1, (Nat.find_spec h).2.2, ?_⟩
    intro l h1 hl hc
    exact Nat.find_min h hl ⟨h1, by have := (Nat.find_spec h).2.1; omega, hc⟩
  · left
    intro l h1 h2 hc
    exact h ⟨l, h1, h2, hc⟩

theorem pts_one (b : ℝ) : pts b 1 = b := by simp [pts]

/-- The line search after the first loop has ended with `b`. -/
theorem brent_eq {J : ℝ → ℝ} {tol : ℝ} {fuel : Nat} {b0 b : ℝ} (hb : 0 < b)
    (hs : shrink J (J 0) fuel b0 = some b) (hJ : J b ≤ J 0) :
    ((∀ l, 1 ≤ l → l < nBrak → ¬ J (pts b l) > J (pts b (l - 1))) ∧
        brent J tol fuel b0 = .error .ub) ∨
      ∃ i, 2 ≤ i ∧ i < nBrak ∧ J (pts b i) > J (pts b (i - 1)) ∧
        (∀ l, 1 ≤ l → l < i → ¬ J (pts b l) > J (pts b (l - 1))) ∧ Inv J (tripleAt J b i) ∧
        brent J tol fuel b0 =
          (do let r ← para J tol nPara (tripleAt J b i)
              return some (r.1.b, r.2)) := by
  have hwr : wr (List.replicate nBrak (0 : ℝ)) 0 (J 0) = .ok ((List.replicate nBrak 0).set 0 (J 0)) :=
    wr_of_lt (by rw [List.length_replicate]; unfold nBrak; omega)
  rcases first_bracket J b with h | ⟨i, h1, h2, h3, h4⟩
  · left
    refine ⟨h, ?_⟩
    have := bracket_lost nBrak (brakInv_start J b) (by unfold nBrak; omega) h
    rw [pts_one] at this
    unfold brent
    rw [hs]
    simp only [hwr, ok_bind, this, error_bind]
  · right
    have hi2 : 2 ≤ i := by
      by_contra hc
      obtain rfl : i = 1 := by omega
      rw [pts_one] at h3
      exact absurd hJ (not_le.2 h3)
    have hinv : Inv J (tripleAt J b i) := by
      refine tripleAt_inv hb hi2 h3 ?_
      have := h4 (i - 1) (by omega) (by omega)
      rwa [show i - 1 - 1 = i - 2 by omega] at this
    refine ⟨i, hi2, h2, h3, h4, hinv, ?_⟩
    have := bracket_found nBrak (brakInv_start J b) h1 h2 (by omega) hi2 h3 h4
    rw [pts_one] at this
    unfold brent
    rw [hs]
    have hreq : (decide ((tripleAt J b i).a ≥ 0) && decide ((tripleAt J b i).b > (tripleAt J b i).a) &&
        decide ((tripleAt J b i).c > (tripleAt J b i).b)) = true := by
      simp only [Bool.and_eq_true, decide_eq_true_eq]
      exact ⟨⟨hinv.nonneg, hinv.ab⟩, tripleAt_lt hb hi2⟩
    simp only [hwr, ok_bind, this, hreq, require_true]

theorem brent_some {J : ℝ → ℝ} {tol : ℝ} {fuel : Nat} {b0 : ℝ} {r : ℝ × Nat} (hb0 : 0 < b0)
    (h : brent J tol fuel b0 = .ok (some r)) :
    ∃ (b1 : ℝ) (j i : Nat), b1 = b0 / golden ^ j ∧ 0 < b1 ∧ J b1 ≤ J 0 ∧ shrink J (J 0) fuel b0 = some b1 ∧
      2 ≤ i ∧ i < nBrak ∧ (∀ l, 1 ≤ l → l < i → ¬ J (pts b1 l) > J (pts b1 (l - 1))) ∧
      Inv J (tripleAt J b1 i) ∧
      ∃ t : Triple, para J tol nPara (tripleAt J b1 i) = .ok (t, r.2) ∧ t.b = r.1 := by
  cases hs : shrink J (J 0) fuel b0 with
  | none => unfold brent at h; rw [hs] at h; cases h
  | some b1 =>
    obtain ⟨j, e, hJ, _⟩ := shrink_some hs
    have hb1 : 0 < b1 := by rw [e]; have := golden_pos; positivity
    rcases brent_eq (tol := tol) hb1 hs hJ with ⟨_, e'⟩ | ⟨i, h2, hi, _, h4, hinv, e'⟩
    · rw [e'] at h; cases h
    · rw [e'] at h
      obtain ⟨p, hp, hr⟩ := bind_eq_ok.1 h
      cases hr
      exact ⟨b1, j, i, e, hb1, hJ, rfl, h2, hi, h4, hinv, p.1, hp, rfl⟩

theorem brent_descends_aux {J : ℝ → ℝ} {tol : ℝ} {fuel : Nat} {b0 : ℝ} {r : ℝ × Nat} (hb0 : 0 < b0)
    (h : brent J tol fuel b0 = .ok (some r)) : J r.1 ≤ J 0 := by
  obtain ⟨b1, j, i, _, hb1, hJ, _, h2, _, h4, hinv, t, ht, et⟩ := brent_some hb0 h
  obtain ⟨hinv', hle, -⟩ := para_inv nPara hinv ht
  rw [← et, ← hinv'.eb]
  refine hle.trans ?_
  show J (pts b1 (i - 1)) ≤ J 0
  have key : ∀ l, l < i → J (pts b1 l) ≤ J 0 := by
    intro l
    induction l with
    | zero => intro _; exact le_refl _
    | succ l ih =>
      intro hl
      exact (not_lt.1 (h4 (l + 1) (by omega) hl)).trans (ih (by omega))
  exact key (i - 1) (by omega)

end Verif.Optimizer
