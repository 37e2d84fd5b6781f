import Verif.Proofs.LaxFGrad
import Mathlib.Analysis.SpecialFunctions.Sqrt
import Mathlib.Analysis.Calculus.FDeriv.Mul
import Mathlib.Analysis.Calculus.FDeriv.Add

namespace Verif.LaxF

open Verif Verif.LinAlg Verif.LinAlg.Spec Verif.LaxF.Spec Finset

section
variable {R : Type} [Field R] [LinearOrder R]

omit [LinearOrder R] in
theorem sum_delta {dim d : Nat} (hd : d < dim) (c : R) (t : Nat → R) :
    ∑ e ∈ range dim, c * (if d = e then 1 else 0) * t e = c * t d := by
  rw [sum_eq_single_of_mem d (mem_range.2 hd)]
  · simp
  · intro e _ hne; rw [if_neg (Ne.symm hne)]; ring

theorem sum_grad1 (sqrt : R → R) {dim d : Nat} (hd : d < dim) (a b n t : Nat → R) :
    ∑ e ∈ range dim, grad1 sqrt dim a b n d e * t e =
      (inner dim n a * t d + a d * inner dim n t) / 2 +
      sqrt (inner dim n n) * max (sqrt (inner dim a a)) (sqrt (inner dim b b)) * t d +
      if sqrt (inner dim b b) ≤ sqrt (inner dim a a) then
        sqrt (inner dim n n) / sqrt (inner dim a a) * ((a d - b d) * inner dim a t) else 0 := by
  rw [← sum_delta hd (inner dim n a) t, ← sum_delta hd (sqrt (inner dim n n) *
    max (sqrt (inner dim a a)) (sqrt (inner dim b b))) t]
  unfold grad1
  split
  · simp only [inner, mul_sum, sum_div, ← sum_add_distrib]
    exact sum_congr rfl fun e _ => by ring
  · rw [add_zero]
    simp only [inner, mul_sum, sum_div, ← sum_add_distrib]
    exact sum_congr rfl fun e _ => by ring

theorem sum_grad2 (sqrt : R → R) {dim d : Nat} (hd : d < dim) (a b n t : Nat → R) :
    ∑ e ∈ range dim, grad2 sqrt dim a b n d e * t e =
      (inner dim n b * t d + b d * inner dim n t) / 2 -
      sqrt (inner dim n n) * max (sqrt (inner dim a a)) (sqrt (inner dim b b)) * t d +
      if sqrt (inner dim b b) ≤ sqrt (inner dim a a) then 0 else
        sqrt (inner dim n n) / sqrt (inner dim b b) * ((a d - b d) * inner dim b t) := by
  rw [← sum_delta hd (inner dim n b) t, ← sum_delta hd (sqrt (inner dim n n) *
    max (sqrt (inner dim a a)) (sqrt (inner dim b b))) t]
  unfold grad2
  split
  · simp only [inner, mul_sum, sum_div, ← sum_add_distrib, ← sum_sub_distrib, add_zero]
    exact sum_congr rfl fun e _ => by ring
  · simp only [inner, mul_sum, sum_div, ← sum_add_distrib, ← sum_sub_distrib]
    exact sum_congr rfl fun e _ => by ring

end

variable {E : Type} [NormedAddCommGroup E] [NormedSpace ℝ E]

theorem hasFDerivAt_inner {dim : Nat} {a b : Nat → E → ℝ} {a' b' : Nat → E →L[ℝ] ℝ} {x : E}
    (ha : ∀ d < dim, HasFDerivAt (a d) (a' d) x) (hb : ∀ d < dim, HasFDerivAt (b d) (b' d) x) :
    HasFDerivAt (fun y => inner dim (fun d => a d y) (fun d => b d y))
      (∑ d ∈ range dim, (a d x • b' d + b d x • a' d)) x := by
  unfold inner
  exact HasFDerivAt.fun_sum fun d hd => (ha d (mem_range.1 hd)).mul (hb d (mem_range.1 hd))

/-- A continuous function times one that vanishes. -/
theorem hasFDerivAt_mul_zero {g j : E → ℝ} {j' : E →L[ℝ] ℝ} {x : E} (hg : ContinuousAt g x)
    (hj : HasFDerivAt j j' x) (h0 : j x = 0) : HasFDerivAt (fun y => g y * j y) (g x • j') x := by
  have h1 : HasFDerivAt (fun y => g x * j y) (g x • j') x := hj.const_mul (g x)
  have h2 : HasFDerivAt (fun y => (g y - g x) * j y) (0 : E →L[ℝ] ℝ) x := by
    rw [hasFDerivAt_iff_isLittleO]
    have hs : (fun y => g y - g x) =o[nhds x] (fun _ => (1 : ℝ)) := by
      rw [Asymptotics.isLittleO_one_iff]
      have := hg.sub_const (g x)
      simpa [ContinuousAt] using this
    have hO : j =O[nhds x] fun y => y - x := by
      have := hj.isBigO_sub
      simpa [h0] using this
    have := hs.mul_isBigO hO.norm_right
    rw [← Asymptotics.isLittleO_norm_right]
    simpa [h0] using this
  have := h1.add h2
  rw [add_zero] at this
  refine this.congr_of_eventuallyEq (Filter.Eventually.of_forall fun y => ?_)
  show g y * j y = g x * j y + (g y - g x) * j y
  ring

theorem sq_nonneg' (dim : Nat) (a : Nat → ℝ) : 0 ≤ inner dim a a :=
  sum_nonneg fun d _ => mul_self_nonneg (a d)

/-- The numerical flux is differentiable with derivative `grad1`, `grad2`. -/
theorem laxF_hasFDeriv {dim : Nat} {a b : Nat → E → ℝ} {a' b' : Nat → E →L[ℝ] ℝ} {x : E}
    (ha : ∀ d < dim, HasFDerivAt (a d) (a' d) x) (hb : ∀ d < dim, HasFDerivAt (b d) (b' d) x)
    {n : Nat → ℝ} (hs : Smooth dim (fun d => a d x) (fun d => b d x)) {d : Nat} (hd : d < dim) :
    HasFDerivAt (fun y => laxF Real.sqrt dim (fun d => a d y) (fun d => b d y) n d)
      (∑ e ∈ range dim, grad1 Real.sqrt dim (fun d => a d x) (fun d => b d x) n d e • a' e +
       ∑ e ∈ range dim, grad2 Real.sqrt dim (fun d => a d x) (fun d => b d x) n d e • b' e) x := by
  have hn : ∀ d < dim, HasFDerivAt (fun _ : E => n d) (0 : E →L[ℝ] ℝ) x :=
    fun d _ => hasFDerivAt_const (n d) x
  have hna := hasFDerivAt_inner hn ha
  have hnb := hasFDerivAt_inner hn hb
  have haa := hasFDerivAt_inner ha ha
  have hbb := hasFDerivAt_inner hb hb
  have hj := (ha d hd).sub (hb d hd)
  have hq := ((hna.mul (ha d hd)).add (hnb.mul (hb d hd))).mul_const (2⁻¹ : ℝ)
  have hA0 := sq_nonneg' dim (fun d => a d x)
  have hB0 := sq_nonneg' dim (fun d => b d x)
  set c := Real.sqrt (inner dim n n) with hc
  -- the speed times the jump
  have key : ∃ L : E →L[ℝ] ℝ, HasFDerivAt (fun y =>
      max (Real.sqrt (inner dim (fun d => a d y) (fun d => a d y)))
        (Real.sqrt (inner dim (fun d => b d y) (fun d => b d y))) * (a d y - b d y)) L x ∧
      ∀ v, L v = max (Real.sqrt (inner dim (fun d => a d x) (fun d => a d x)))
        (Real.sqrt (inner dim (fun d => b d x) (fun d => b d x))) * (a' d v - b' d v) +
        (if Real.sqrt (inner dim (fun d => b d x) (fun d => b d x)) ≤
            Real.sqrt (inner dim (fun d => a d x) (fun d => a d x)) then
          1 / Real.sqrt (inner dim (fun d => a d x) (fun d => a d x)) *
            ((a d x - b d x) * inner dim (fun d => a d x) (fun e => a' e v))
        else
          1 / Real.sqrt (inner dim (fun d => b d x) (fun d => b d x)) *
            ((a d x - b d x) * inner dim (fun d => b d x) (fun e => b' e v))) := by
    rcases hs with hs | ⟨heq, hnz⟩
    · rcases lt_or_gt_of_ne hs with hlt | hgt
      · -- the second speed is larger
        have hBne : inner dim (fun d => b d x) (fun d => b d x) ≠ 0 := by linarith [hA0] |> ne_of_gt
        have hnle : ¬ Real.sqrt (inner dim (fun d => b d x) (fun d => b d x)) ≤
            Real.sqrt (inner dim (fun d => a d x) (fun d => a d x)) := by
          rw [not_le]; exact Real.sqrt_lt_sqrt hA0 hlt
        have hev : ∀ᶠ y in nhds x, inner dim (fun d => a d y) (fun d => a d y) <
            inner dim (fun d => b d y) (fun d => b d y) :=
          haa.continuousAt.eventually_lt hbb.continuousAt hlt
        refine ⟨_, ((hbb.sqrt hBne).mul hj).congr_of_eventuallyEq (hev.mono fun y hy => ?_), fun v => ?_⟩
        · dsimp only [Pi.mul_apply]
          rw [max_eq_right (Real.sqrt_le_sqrt hy.le)]; rfl
        · rw [if_neg hnle, max_eq_right (le_of_not_ge hnle)]
          simp only [add_apply, smul_apply,
            sub_apply, _root_.sum_apply, smul_eq_mul, Pi.sub_apply]
          have : ∑ e ∈ range dim, (b e x * b' e v + b e x * b' e v) =
              2 * inner dim (fun d => b d x) (fun e => b' e v) := by
            unfold inner; rw [mul_sum]; exact sum_congr rfl fun e _ => by ring
          rw [this]
          have hsq : Real.sqrt (inner dim (fun d => b d x) (fun d => b d x)) ≠ 0 := by
            rw [Real.sqrt_ne_zero hB0]; exact hBne
          field_simp
      · have hAne : inner dim (fun d => a d x) (fun d => a d x) ≠ 0 := by linarith [hB0] |> ne_of_gt
        have hle : Real.sqrt (inner dim (fun d => b d x) (fun d => b d x)) ≤
            Real.sqrt (inner dim (fun d => a d x) (fun d => a d x)) := Real.sqrt_le_sqrt hgt.le
        have hev : ∀ᶠ y in nhds x, inner dim (fun d => b d y) (fun d => b d y) <
            inner dim (fun d => a d y) (fun d => a d y) :=
          hbb.continuousAt.eventually_lt haa.continuousAt hgt
        refine ⟨_, ((haa.sqrt hAne).mul hj).congr_of_eventuallyEq (hev.mono fun y hy => ?_), fun v => ?_⟩
        · dsimp only [Pi.mul_apply]
          rw [max_eq_left (Real.sqrt_le_sqrt hy.le)]; rfl
        · rw [if_pos hle, max_eq_left hle]
          simp only [add_apply, smul_apply,
            sub_apply, _root_.sum_apply, smul_eq_mul, Pi.sub_apply]
          have : ∑ e ∈ range dim, (a e x * a' e v + a e x * a' e v) =
              2 * inner dim (fun d => a d x) (fun e => a' e v) := by
            unfold inner; rw [mul_sum]; exact sum_congr rfl fun e _ => by ring
          rw [this]
          have hsq : Real.sqrt (inner dim (fun d => a d x) (fun d => a d x)) ≠ 0 := by
            rw [Real.sqrt_ne_zero hA0]; exact hAne
          field_simp
    · -- equal velocities
      have hz : a d x - b d x = 0 := sub_eq_zero.2 (heq d hd)
      refine ⟨_, hasFDerivAt_mul_zero ?_ hj hz, fun v => ?_⟩
      · exact (haa.continuousAt.sqrt).max (hbb.continuousAt.sqrt)
      · simp only [hz, zero_mul, mul_zero, ite_self, add_zero, smul_apply,
          sub_apply, smul_eq_mul]
  obtain ⟨L, hL, hLv⟩ := key
  have hall := hq.add (hL.const_mul c)
  refine (hall.congr_of_eventuallyEq (Filter.Eventually.of_forall fun y => ?_)).congr_fderiv ?_
  · show laxF Real.sqrt dim (fun d => a d y) (fun d => b d y) n d = _
    simp only [laxF, Pi.add_apply, Pi.mul_apply, ← hc]
    ring
  · ext v
    simp only [add_apply, smul_apply,
      _root_.sum_apply, smul_eq_mul, zero_apply, mul_zero, add_zero]
    rw [sum_grad1 Real.sqrt hd, sum_grad2 Real.sqrt hd, hLv v, ← hc]
    have e1 : ∀ w : Nat → ℝ, ∑ e ∈ range dim, n e * w e = inner dim n w := fun _ => rfl
    rw [e1, e1]
    split <;> ring

theorem outflow_hasFDeriv {dim : Nat} {a : Nat → E → ℝ} {a' : Nat → E →L[ℝ] ℝ} {x : E}
    (ha : ∀ d < dim, HasFDerivAt (a d) (a' d) x) {n : Nat → ℝ} {d : Nat} (hd : d < dim) :
    HasFDerivAt (fun y => outflow dim (fun d => a d y) n d)
      (∑ e ∈ range dim, (inner dim n (fun d => a d x) * (if d = e then 1 else 0) + a d x * n e) • a' e) x := by
  have hn : ∀ d < dim, HasFDerivAt (fun _ : E => n d) (0 : E →L[ℝ] ℝ) x :=
    fun d _ => hasFDerivAt_const (n d) x
  refine ((hasFDerivAt_inner hn ha).mul (ha d hd)).congr_fderiv ?_
  ext v
  simp only [add_apply, smul_apply,
    _root_.sum_apply, smul_eq_mul, zero_apply, mul_zero, add_zero]
  simp only [add_mul, sum_add_distrib]
  rw [sum_delta hd, mul_sum]
  congr 1
  exact sum_congr rfl fun e _ => by ring

theorem grad1_congr {dim : Nat} {a a2 b b2 n : Nat → ℝ} (ha : ∀ d < dim, a d = a2 d)
    (hb : ∀ d < dim, b d = b2 d) {d e : Nat} (hd : d < dim) (he : e < dim) :
    grad1 Real.sqrt dim a b n d e = grad1 Real.sqrt dim a2 b2 n d e := by
  unfold grad1
  rw [inner_congr (fun _ _ => rfl) ha, inner_congr ha ha, inner_congr hb hb, ha d hd, hb d hd, ha e he]

theorem grad2_congr {dim : Nat} {a a2 b b2 n : Nat → ℝ} (ha : ∀ d < dim, a d = a2 d)
    (hb : ∀ d < dim, b d = b2 d) {d e : Nat} (hd : d < dim) (he : e < dim) :
    grad2 Real.sqrt dim a b n d e = grad2 Real.sqrt dim a2 b2 n d e := by
  unfold grad2
  rw [inner_congr (fun _ _ => rfl) hb, inner_congr ha ha, inner_congr hb hb, ha d hd, hb d hd, hb e he]

theorem smooth_divOk {dim : Nat} {a b : Nat → ℝ} (h : Smooth dim a b) : DivOk Real.sqrt dim a b := by
  have hA := sq_nonneg' dim a
  have hB := sq_nonneg' dim b
  unfold DivOk
  split
  · next hle =>
    intro h0
    have hz : inner dim a a = 0 := (Real.sqrt_eq_zero hA).1 h0
    rw [h0] at hle
    have hb : inner dim b b = 0 :=
      (Real.sqrt_eq_zero hB).1 (le_antisymm hle (Real.sqrt_nonneg _))
    rcases h with h | ⟨-, h⟩
    · exact h (hz.trans hb.symm)
    · exact h hz
  · next hle =>
    intro h0
    exact hle (h0 ▸ Real.sqrt_nonneg _)

/-- What the integrator finds as gradients at a smooth point. -/
theorem quadGrad_at {f : Face} {p : FPt ℝ} (hp : FPtOk f p) {u1 u2 : List ℝ}
    (hs : PointSmooth p (valueAt f.nd1 p.shape1 u1) (valueAt f.n2 p.shape2 u2)) :
    ∃ g, quadGradBase Real.sqrt p f.n2 ⟨f.nd1, f.dim, u1⟩ ⟨f.n2, f.dim, u2⟩ = .ok g ∧
      (∀ d e, d < f.dim → e < f.dim → ent g.1 d e =
        if p.el2 then grad1 Real.sqrt f.dim (valueAt f.nd1 p.shape1 u1) (valueAt f.n2 p.shape2 u2)
          (ve p.nor) d e
        else match p.ud with
          | some v => grad1 Real.sqrt f.dim (valueAt f.nd1 p.shape1 u1) (ve v) (ve p.nor) d e
          | none => inner f.dim (ve p.nor) (valueAt f.nd1 p.shape1 u1) * (if d = e then 1 else 0) +
              valueAt f.nd1 p.shape1 u1 d * ve p.nor e) ∧
      (p.el2 = true → ∀ d e, d < f.dim → e < f.dim → ent g.2 d e =
        grad2 Real.sqrt f.dim (valueAt f.nd1 p.shape1 u1) (valueAt f.n2 p.shape2 u2) (ve p.nor) d e) := by
  have hdim := hp.dim
  have l1 : ((⟨f.nd1, f.dim, u1⟩ : Mat ℝ).mulTV p.shape1).length = f.dim := by rw [length_mulTV]
  have v1 : ∀ d < f.dim, ve ((⟨f.nd1, f.dim, u1⟩ : Mat ℝ).mulTV p.shape1) d =
      valueAt f.nd1 p.shape1 u1 d := fun d hd => ve_side hd
  unfold quadGradBase FPt.other
  unfold PointSmooth at hs
  rw [hdim] at hs
  by_cases h : p.el2
  · have h2 := (n2_ne hp).2 h
    have l2 : ((⟨f.n2, f.dim, u2⟩ : Mat ℝ).mulTV p.shape2).length = f.dim := by rw [length_mulTV]
    have v2 : ∀ d < f.dim, ve ((⟨f.n2, f.dim, u2⟩ : Mat ℝ).mulTV p.shape2) d =
        valueAt f.n2 p.shape2 u2 d := fun d hd => ve_side hd
    rw [if_pos h] at hs
    have hdiv : DivOk Real.sqrt f.dim (ve ((⟨f.nd1, f.dim, u1⟩ : Mat ℝ).mulTV p.shape1))
        (ve ((⟨f.n2, f.dim, u2⟩ : Mat ℝ).mulTV p.shape2)) := by
      have := smooth_divOk hs
      unfold DivOk at this ⊢
      rw [inner_congr v1 v1, inner_congr v2 v2]; exact this
    obtain ⟨g, e, -, -, -, -, -, -, g1, g2⟩ := gradFlux_ok l1 l2 hp.nor true hdiv
    refine ⟨g, ?_, ?_, ?_⟩
    · simp only [h2, ne_eq, not_false_eq_true, if_true, decide_true, Bool.true_or, hdim]
      exact e
    · intro d e hd he
      rw [if_pos h, g1 d e hd he, grad1_congr v1 v2 hd he]
    · intro _ d e hd he
      rw [g2 rfl d e hd he, grad2_congr v1 v2 hd he]
  · have h2 : f.n2 = 0 := by
      by_contra hc; exact h ((n2_ne hp).1 hc)
    rw [if_neg h] at hs
    cases hu : p.ud with
    | some v =>
      rw [hu] at hs
      have hdiv : DivOk Real.sqrt f.dim (ve ((⟨f.nd1, f.dim, u1⟩ : Mat ℝ).mulTV p.shape1)) (ve v) := by
        have := smooth_divOk hs
        unfold DivOk at this ⊢
        rw [inner_congr v1 v1]; exact this
      obtain ⟨g, e, -, -, -, -, -, -, g1, -⟩ := gradFlux_ok l1 (hp.ud v hu) hp.nor false hdiv
      refine ⟨g, ?_, ?_, fun hc => absurd hc h⟩
      · simp only [h2, ne_eq, not_true_eq_false, if_false, decide_false, Option.isSome_some,
          Bool.or_true, hdim]
        exact e
      · intro d e hd he
        rw [if_neg h, g1 d e hd he]
        exact grad1_congr v1 (fun _ _ => rfl) hd he
    | none =>
      obtain ⟨g, e, -, -, -, -, -, -, g1⟩ :=
        gradFlux_neumann (sqrt := Real.sqrt) (u2 := []) l1 hp.nor false
      refine ⟨g, ?_, ?_, fun hc => absurd hc h⟩
      · simp only [h2, ne_eq, not_true_eq_false, if_false, decide_false, Option.isSome_none,
          Bool.or_false, hdim]
        exact e
      · intro d e hd he
        rw [if_neg h, g1 d e hd he]
        dsimp only
        rw [inner_congr (fun _ _ => rfl) v1, v1 d hd]

theorem value_hasFDeriv {nd dim : Nat} {shape : List ℝ} {u : E → List ℝ} {C : Nat → Nat → E →L[ℝ] ℝ}
    {x : E} (hC : ∀ k d, k < nd → d < dim →
      HasFDerivAt (fun z => Convection.Spec.coef nd (u z) k d) (C k d) x) :
    ∀ d < dim, HasFDerivAt (fun z => valueAt nd shape (u z) d)
      (∑ k ∈ range nd, ve shape k • C k d) x := by
  intro d hd
  unfold valueAt
  refine HasFDerivAt.fun_sum fun k hk => ?_
  exact (hC k d (mem_range.1 hk) hd).mul_const (ve shape k)

theorem point_hasFDeriv {f : Face} {p : FPt ℝ} (hp : FPtOk f p) {u1 u2 : E → List ℝ}
    {C1 C2 : Nat → Nat → E →L[ℝ] ℝ} {x : E}
    (h1 : ∀ k d, k < f.nd1 → d < f.dim →
      HasFDerivAt (fun z => Convection.Spec.coef f.nd1 (u1 z) k d) (C1 k d) x)
    (h2 : ∀ k d, k < f.n2 → d < f.dim →
      HasFDerivAt (fun z => Convection.Spec.coef f.n2 (u2 z) k d) (C2 k d) x)
    (hs : PointSmooth p (valueAt f.nd1 p.shape1 (u1 x)) (valueAt f.n2 p.shape2 (u2 x)))
    {g : Mat ℝ × Mat ℝ}
    (hg : quadGradBase Real.sqrt p f.n2 ⟨f.nd1, f.dim, u1 x⟩ ⟨f.n2, f.dim, u2 x⟩ = .ok g)
    {d : Nat} (hd : d < f.dim) :
    HasFDerivAt (fun z => pointFlux Real.sqrt p (valueAt f.nd1 p.shape1 (u1 z))
        (valueAt f.n2 p.shape2 (u2 z)) d)
      (∑ e ∈ range f.dim, ent g.1 d e • (∑ k ∈ range f.nd1, ve p.shape1 k • C1 k e) +
       ∑ e ∈ range f.dim, ent g.2 d e • (∑ k ∈ range f.n2, ve p.shape2 k • C2 k e)) x := by
  obtain ⟨g', e, g1, g2⟩ := quadGrad_at hp hs
  rw [hg] at e; cases e
  have a1 := value_hasFDeriv (shape := p.shape1) h1
  have a2 := value_hasFDeriv (shape := p.shape2) h2
  have hdim := hp.dim
  unfold PointSmooth at hs
  rw [hdim] at hs
  by_cases h : p.el2
  · rw [if_pos h] at hs
    have := laxF_hasFDeriv (n := ve p.nor) a1 a2 hs hd
    unfold pointFlux
    simp only [h, if_true, hdim]
    refine this.congr_fderiv ?_
    congr 1
    · exact sum_congr rfl fun e he => by rw [g1 d e hd (mem_range.1 he), if_pos h]
    · exact sum_congr rfl fun e he => by rw [g2 h d e hd (mem_range.1 he)]
  · have hn2 : f.n2 = 0 := by
      by_contra hc; exact h ((n2_ne hp).1 hc)
    rw [if_neg h] at hs
    have hz : ∑ e ∈ range f.dim, ent g.2 d e • (∑ k ∈ range f.n2, ve p.shape2 k • C2 k e) = 0 := by
      simp [hn2]
    rw [hz, add_zero]
    unfold pointFlux
    cases hu : p.ud with
    | some v =>
      rw [hu] at hs
      have hv : ∀ d < f.dim, HasFDerivAt (fun _ : E => ve v d) (0 : E →L[ℝ] ℝ) x :=
        fun d _ => hasFDerivAt_const _ x
      have := laxF_hasFDeriv (n := ve p.nor) a1 hv hs hd
      simp only [h, hdim]
      refine this.congr_fderiv ?_
      simp only [smul_zero, sum_const_zero, add_zero]
      exact sum_congr rfl fun e he => by rw [g1 d e hd (mem_range.1 he), if_neg h, hu]
    | none =>
      have := outflow_hasFDeriv (n := ve p.nor) a1 hd
      simp only [h, hdim]
      refine this.congr_fderiv ?_
      exact sum_congr rfl fun e he => by rw [g1 d e hd (mem_range.1 he), if_neg h, hu]

theorem list_sum_hasFDeriv {α : Type} (l : List α) {F : α → E → ℝ} {F' : α → E →L[ℝ] ℝ} {x : E}
    (h : ∀ q ∈ l, HasFDerivAt (F q) (F' q) x) :
    HasFDerivAt (fun z => (l.map (fun q => F q z)).sum) (l.map F').sum x := by
  induction l with
  | nil => simpa using hasFDerivAt_const (0 : ℝ) x
  | cons q l ih =>
    simp only [List.map_cons, List.sum_cons]
    exact (h q (by simp)).add (ih fun r hr => h r (by simp [hr]))

theorem list_sum_apply {α : Type} (l : List α) (F' : α → E →L[ℝ] ℝ) (v : E) :
    (l.map F').sum v = (l.map (fun q => F' q v)).sum := by
  induction l with
  | nil => simp
  | cons q l ih => simp [ih]

theorem sum_map_swap {α : Type} (l : List α) (n : Nat) (F : α → Nat → ℝ) :
    (l.map (fun q => ∑ k ∈ range n, F q k)).sum = ∑ k ∈ range n, (l.map (fun q => F q k)).sum := by
  induction l with
  | nil => simp
  | cons q l ih => simp [ih, sum_add_distrib]

theorem sum_map_mul' {α : Type} (l : List α) (F : α → ℝ) (c : ℝ) :
    (l.map F).sum * c = (l.map (fun q => F q * c)).sum := by
  induction l with
  | nil => simp
  | cons q l ih => simp [add_mul, ih]

/-- The assembled quadrature sum of a side is differentiable; its derivative is the assembled matrix. -/
theorem sideSum_hasFDeriv {f : Face} {pts : List (FPt ℝ × ℝ)} (hp : ∀ pw ∈ pts, FPtOk f pw.1)
    {u1 u2 : E → List ℝ} {C1 C2 : Nat → Nat → E →L[ℝ] ℝ} {x : E}
    (h1 : ∀ k d, k < f.nd1 → d < f.dim →
      HasFDerivAt (fun z => Convection.Spec.coef f.nd1 (u1 z) k d) (C1 k d) x)
    (h2 : ∀ k d, k < f.n2 → d < f.dim →
      HasFDerivAt (fun z => Convection.Spec.coef f.n2 (u2 z) k d) (C2 k d) x)
    (hs : ∀ pw ∈ pts, PointSmooth pw.1 (valueAt f.nd1 pw.1.shape1 (u1 x))
      (valueAt f.n2 pw.1.shape2 (u2 x)))
    {G : FPt ℝ → Mat ℝ × Mat ℝ}
    (hG : ∀ pw ∈ pts, quadGradBase Real.sqrt pw.1 f.n2 ⟨f.nd1, f.dim, u1 x⟩ ⟨f.n2, f.dim, u2 x⟩ =
      .ok (G pw.1))
    {i k d : Nat} (hd : d < f.dim) :
    HasFDerivAt (fun z => sideSign i * sideSum Real.sqrt f pts (u1 z) (u2 z) (fun p => sideShape p i) k d)
      (∑ l ∈ range f.nd1, ∑ e ∈ range f.dim,
        (pts.map (fun pw => gterm pw.1 (wq pw.1 pw.2) (G pw.1) i 0 k d l e)).sum • C1 l e +
       ∑ l ∈ range f.n2, ∑ e ∈ range f.dim,
        (pts.map (fun pw => gterm pw.1 (wq pw.1 pw.2) (G pw.1) i 1 k d l e)).sum • C2 l e) x := by
  have hpt : ∀ pw ∈ pts, HasFDerivAt (fun z => wq pw.1 pw.2 * ve (sideShape pw.1 i) k *
      pointFlux Real.sqrt pw.1 (valueAt f.nd1 pw.1.shape1 (u1 z)) (valueAt f.n2 pw.1.shape2 (u2 z)) d) _ x :=
    fun pw hpw => (point_hasFDeriv (hp pw hpw) h1 h2 (hs pw hpw) (hG pw hpw) hd).const_mul _
  have := (list_sum_hasFDeriv pts hpt).const_mul (sideSign i)
  refine this.congr_fderiv ?_
  ext v
  simp only [smul_apply, list_sum_apply, add_apply,
    _root_.sum_apply, smul_eq_mul]
  rw [mul_comm, sum_map_mul']
  simp only [sum_map_mul', ← sum_map_swap]
  rw [← List.sum_map_add]
  congr 1
  refine List.map_congr_left fun pw _ => ?_
  have e1 : ∀ (n : Nat) (s : List ℝ) (g : Mat ℝ) (C : Nat → Nat → E →L[ℝ] ℝ),
      ∑ e ∈ range f.dim, ent g d e * ∑ l ∈ range n, ve s l * C l e v =
      ∑ l ∈ range n, ∑ e ∈ range f.dim, ent g d e * ve s l * C l e v := by
    intro n s g C
    rw [sum_comm]
    exact sum_congr rfl fun e _ => by rw [mul_sum]; exact sum_congr rfl fun l _ => by ring
  rw [e1, e1, mul_add, add_mul]
  congr 1
  · rw [mul_sum, sum_mul]
    refine sum_congr rfl fun l _ => ?_
    rw [mul_sum, sum_mul]
    refine sum_congr rfl fun e _ => ?_
    simp only [gterm, sideShape, sideGrad, if_true]
    ring
  · rw [mul_sum, sum_mul]
    refine sum_congr rfl fun l _ => ?_
    rw [mul_sum, sum_mul]
    refine sum_congr rfl fun e _ => ?_
    simp only [gterm, sideShape, sideGrad, Nat.one_ne_zero, if_false]
    ring

end Verif.LaxF
