import Verif.Proofs.OptimizerCG

/-!
# The conjugate-gradient loop for an affine operator
-/

namespace Verif.Optimizer

open Verif Matrix

variable {n m : Nat}

/-- `x ↦ A x + c`. -/
def affine (A : Matrix (Fin m) (Fin n) ℝ) (c : Fin m → ℝ) (x : Fin n → ℝ) : Fin m → ℝ := A *ᵥ x + c

variable {A : Matrix (Fin m) (Fin n) ℝ} {c rhs : Fin m → ℝ}

theorem dot_gradient (x ξ : Fin n → ℝ) :
    gradient (affine A c) (fun _ => A) rhs x ⬝ᵥ ξ = 2 * ((affine A c x - rhs) ⬝ᵥ (A *ᵥ ξ)) := by
  unfold gradient
  rw [dotProduct_comm, dotProduct_mulVec, vecMul_transpose, dotProduct_smul, smul_eq_mul, dotProduct_comm]

theorem affine_line (x ξ : Fin n → ℝ) (b : ℝ) :
    affine A c (x + b • ξ) - rhs = (affine A c x - rhs) + b • (A *ᵥ ξ) := by
  unfold affine
  rw [mulVec_add, mulVec_smul]
  abel

theorem objective_line (x ξ : Fin n → ℝ) (b : ℝ) :
    objective (affine A c) rhs (x + b • ξ) = objective (affine A c) rhs x +
      b * (gradient (affine A c) (fun _ => A) rhs x ⬝ᵥ ξ) + b ^ 2 * form A ξ ξ := by
  unfold objective
  rw [dot_gradient, affine_line]
  unfold form
  simp only [dotProduct_add, add_dotProduct, dotProduct_smul, smul_dotProduct, smul_eq_mul]
  rw [dotProduct_comm (A *ᵥ ξ) (affine A c x - rhs)]
  ring

theorem gradient_line (x ξ : Fin n → ℝ) (b : ℝ) :
    gradient (affine A c) (fun _ => A) rhs (x + b • ξ) =
      gradient (affine A c) (fun _ => A) rhs x + (2 * b) • (Aᵀ *ᵥ (A *ᵥ ξ)) := by
  unfold gradient
  rw [affine_line, smul_add, mulVec_add, smul_smul, mulVec_smul _ (2 * b)]

theorem self_nonneg {k : Nat} (v : Fin k → ℝ) : 0 ≤ v ⬝ᵥ v :=
  Finset.sum_nonneg (fun _ _ => mul_self_nonneg _)

theorem form_pos_of {ξ g : Fin n → ℝ} {x : Fin n → ℝ}
    (hg : g = -gradient (affine A c) (fun _ => A) rhs x) (h : g ⬝ᵥ ξ ≠ 0) : 0 < form A ξ ξ := by
  have h0 : 0 ≤ form A ξ ξ := self_nonneg _
  refine lt_of_le_of_ne h0 (fun e => h ?_)
  have : A *ᵥ ξ = 0 := dotProduct_self_eq_zero.1 e.symm
  rw [hg, neg_dotProduct, dot_gradient, this, dotProduct_zero, mul_zero, neg_zero]

/-- The objective along a direction of the loop is a quadratic function. -/
theorem quad_line {x ξ g : Fin n → ℝ} (hg : g = -gradient (affine A c) (fun _ => A) rhs x)
    (ha : g ⬝ᵥ ξ = g ⬝ᵥ g) (hα : 0 < form A ξ ξ) :
    Quad (fun b => objective (affine A c) rhs (x + b • ξ)) (form A ξ ξ) (g ⬝ᵥ g / (2 * form A ξ ξ)) := by
  refine ⟨hα, fun b => ?_⟩
  have e : gradient (affine A c) (fun _ => A) rhs x ⬝ᵥ ξ = -(g ⬝ᵥ g) := by
    rw [← ha, hg, neg_dotProduct, neg_neg]
  simp only [objective_line, e]
  field_simp
  ring

theorem Hist.form_le {g ξ : Fin n → ℝ} {hist : List ((Fin n → ℝ) × (Fin n → ℝ))} (h : Hist A g ξ hist) :
    form A ξ ξ ≤ form A g g := by
  have h0 : 0 ≤ form A (g - ξ) (g - ξ) := self_nonneg _
  have e : form A (g - ξ) (g - ξ) = form A g g - 2 * form A ξ g + form A ξ ξ := by
    unfold form
    rw [mulVec_sub]
    simp only [dotProduct_sub, sub_dotProduct]
    rw [dotProduct_comm (A *ᵥ g) (A *ᵥ ξ)]
    ring
  rw [e, h.form_g] at h0
  linarith

theorem Hist.g_le {g ξ : Fin n → ℝ} {hist : List ((Fin n → ℝ) × (Fin n → ℝ))} (h : Hist A g ξ hist) :
    g ⬝ᵥ g ≤ ξ ⬝ᵥ ξ := by
  have h0 := self_nonneg (ξ - g)
  simp only [dotProduct_sub, sub_dotProduct] at h0
  rw [dotProduct_comm ξ g, h.a] at h0
  linarith

theorem factor_same (j : Nat) {x : ℝ} (hx : 0 ≤ x) : factor j x x = x := by
  unfold factor
  split
  · rw [if_neg (by linarith), if_neg (lt_irrefl _)]
  · rfl

/-- What holds of the state before every turn. -/
structure LinInv (A : Matrix (Fin m) (Fin n) ℝ) (c rhs : Fin m → ℝ) (s : State n)
    (hist : List ((Fin n → ℝ) × (Fin n → ℝ))) : Prop where
  g : s.g = -gradient (affine A c) (fun _ => A) rhs s.sol
  h : s.h = s.xi
  hist : Hist A s.g s.xi hist
  nz : s.g ⬝ᵥ s.g ≠ 0
  b0 : 0 < s.b0

/-- The minimum along the direction of a state. -/
noncomputable def best (A : Matrix (Fin m) (Fin n) ℝ) (s : State n) : ℝ :=
  s.g ⬝ᵥ s.g / (2 * form A s.xi s.xi)

theorem LinInv.form_pos {s : State n} {hist : List ((Fin n → ℝ) × (Fin n → ℝ))}
    (h : LinInv A c rhs s hist) : 0 < form A s.xi s.xi :=
  form_pos_of h.g (by rw [h.hist.a]; exact h.nz)

theorem LinInv.gg_pos {s : State n} {hist : List ((Fin n → ℝ) × (Fin n → ℝ))}
    (h : LinInv A c rhs s hist) : 0 < s.g ⬝ᵥ s.g := lt_of_le_of_ne (self_nonneg _) h.nz.symm

theorem LinInv.quad {s : State n} {hist : List ((Fin n → ℝ) × (Fin n → ℝ))} (h : LinInv A c rhs s hist) :
    Quad (fun b => objective (affine A c) rhs (s.sol + b • s.xi)) (form A s.xi s.xi) (best A s) :=
  quad_line h.g h.hist.a h.form_pos

theorem LinInv.best_ge {s : State n} {hist : List ((Fin n → ℝ) × (Fin n → ℝ))} (h : LinInv A c rhs s hist)
    (hK : ∀ v, form A v v ≤ 10 ^ 13 * (v ⬝ᵥ v)) : 5 / 10 ^ 14 ≤ best A s := by
  have h1 := h.hist.form_le
  have h2 := hK s.g
  have h3 := h.form_pos
  unfold best
  rw [le_div_iff₀ (by linarith)]
  linarith

/-- The next state, if the loop goes on. -/
theorem LinInv.next {s s' : State n} {hist : List ((Fin n → ℝ) × (Fin n → ℝ))} (h : LinInv A c rhs s hist)
    (j : Nat) (hsol : s'.sol = s.sol + best A s • s.xi) (hb0 : s'.b0 = best A s)
    (hg : s'.g = -gradient (affine A c) (fun _ => A) rhs s'.sol) (hh : s'.h = s'.xi)
    (hxi : s'.xi = -gradient (affine A c) (fun _ => A) rhs s'.sol +
      factor j (((gradient (affine A c) (fun _ => A) rhs s'.sol + s.g) ⬝ᵥ
          gradient (affine A c) (fun _ => A) rhs s'.sol) / (s.g ⬝ᵥ s.g))
        ((gradient (affine A c) (fun _ => A) rhs s'.sol ⬝ᵥ
          gradient (affine A c) (fun _ => A) rhs s'.sol) / (s.g ⬝ᵥ s.g)) • s.h)
    (hnz : s'.g ⬝ᵥ s'.g ≠ 0) : LinInv A c rhs s' ((s.g, s.xi) :: hist) := by
  have hf := h.form_pos
  have hgg := h.gg_pos
  have hbest : 0 < best A s := by unfold best; positivity
  have h2b : 2 * best A s * form A s.xi s.xi = s.g ⬝ᵥ s.g := by unfold best; field_simp
  have hg' : s'.g = s.g - (2 * best A s) • (Aᵀ *ᵥ (A *ᵥ s.xi)) := by
    rw [hg, hsol, gradient_line, h.g]; abel
  obtain ⟨hst, horth⟩ := h.hist.step A (γ := (s'.g ⬝ᵥ s'.g) / (s.g ⬝ᵥ s.g)) h.nz hf.ne' h2b hg'
    (by field_simp)
  have hgr : gradient (affine A c) (fun _ => A) rhs s'.sol = -s'.g := by rw [hg, neg_neg]
  have e1 : (-s'.g + s.g) ⬝ᵥ -s'.g = s'.g ⬝ᵥ s'.g := by
    rw [add_dotProduct, neg_dotProduct_neg, dotProduct_neg, dotProduct_comm s.g, horth, neg_zero, add_zero]
  have hxi' : s'.xi = s'.g + ((s'.g ⬝ᵥ s'.g) / (s.g ⬝ᵥ s.g)) • s.xi := by
    rw [hxi, hgr, neg_neg, e1, neg_dotProduct_neg, factor_same j (div_nonneg (self_nonneg _) hgg.le), h.h]
  refine ⟨hg, hh, ?_, hnz, by rw [hb0]; exact hbest⟩
  rw [hxi']
  exact hst

/-- If the system has a solution, a zero gradient means a zero residual. -/
theorem residual_zero {x : Fin n → ℝ} (hx : ∃ y, affine A c y = rhs)
    (h : gradient (affine A c) (fun _ => A) rhs x = 0) : objective (affine A c) rhs x = 0 := by
  obtain ⟨y, hy⟩ := hx
  have e : affine A c x - rhs = A *ᵥ (x - y) := by
    rw [← hy]; unfold affine; rw [mulVec_sub]; abel
  have := dot_gradient (A := A) (c := c) (rhs := rhs) x (x - y)
  rw [h, zero_dotProduct, ← e] at this
  unfold objective
  linarith

theorem cgLoop_linear {atol rtol res0 : ℝ} {fuel : Nat} (hx : ∃ y, affine A c y = rhs) (hat : 0 < atol)
    (hK : ∀ v, form A v v ≤ 10 ^ 13 * (v ⬝ᵥ v)) (k : Nat) :
    ∀ {j : Nat} {s s' : State n} {f : Bool} {hist : List ((Fin n → ℝ) × (Fin n → ℝ))},
      LinInv A c rhs s hist → n ≤ hist.length + k →
      cgLoop (affine A c) (fun _ => A) rhs atol rtol res0 fuel k j s = .ok (some (f, s')) → f = true := by
  induction k with
  | zero =>
    intro j s s' f hist h hn _
    have := h.hist.length_lt A h.nz
    omega
  | succ k ih =>
    intro j s s' f hist h hn hr
    rw [cgLoop] at hr
    obtain ⟨o, ho, hr⟩ := bind_eq_ok.1 hr
    cases o with
    | none => cases hr
    | some p =>
      obtain ⟨f1, s1⟩ := p
      obtain ⟨r, hb, e1, e2, hf, hrest⟩ := cgStep_some ho
      have hbest : r.1 = best A s := brent_quad h.quad (by linarith [h.best_ge hK]) h.b0 hb
      cases f1 with
      | true => cases hr; rfl
      | false =>
        obtain ⟨hg, hh, hxi⟩ := hrest rfl
        have hnz : s1.g ⬝ᵥ s1.g ≠ 0 := by
          intro hz
          have hz' : s1.g = 0 := dotProduct_self_eq_zero.1 hz
          have : gradient (affine A c) (fun _ => A) rhs s1.sol = 0 := by
            rw [hz'] at hg; exact neg_eq_zero.1 hg.symm
          have := residual_zero hx this
          exact absurd (hf.2 (.inl (by rw [this, Real.sqrt_zero]; exact hat))) (by simp)
        rw [hbest] at e1 e2
        exact ih (h.next j e1 e2 hg hh hxi hnz) (by simp; omega) hr

/-- A state is the last one, or it has a successor that does not depend on how long the loops may run. -/
theorem cgStep_total {atol rtol res0 : ℝ} {s : State n} {hist : List ((Fin n → ℝ) × (Fin n → ℝ))}
    (h : LinInv A c rhs s hist) (hK : ∀ v, form A v v ≤ 10 ^ 13 * (v ⬝ᵥ v))
    (hr : best A s ≤ s.b0 * golden ^ (nBrak - 3)) (j : Nat) :
    ∃ K f s', ∀ fuel, K ≤ fuel →
      cgStep (affine A c) (fun _ => A) rhs atol rtol res0 fuel j s = .ok (some (f, s')) := by
  obtain ⟨K, hKf⟩ := brent_quad_total h.quad (by linarith [h.best_ge hK]) h.b0 hr
  have key : ∀ fuel, K ≤ fuel → cgStep (affine A c) (fun _ => A) rhs atol rtol res0 fuel j s =
      cgStep (affine A c) (fun _ => A) rhs atol rtol res0 K j s := by
    intro fuel hf
    obtain ⟨k1, e1⟩ := hKf fuel hf
    obtain ⟨k2, e2⟩ := hKf K (le_refl _)
    unfold cgStep
    rw [e1, e2]
    rfl
  obtain ⟨k, ek⟩ := hKf K (le_refl _)
  obtain ⟨f, s', e⟩ := cgStep_of (DF := fun _ => A) (atol := atol) (rtol := rtol) (res0 := res0) j ek
  exact ⟨K, f, s', fun fuel hf => by rw [key fuel hf, e]⟩

theorem LinInv.best_le {s : State n} {hist : List ((Fin n → ℝ) × (Fin n → ℝ))} (h : LinInv A c rhs s hist)
    {σ : ℝ} (hσ : 0 < σ) (hs : ∀ v, σ * (v ⬝ᵥ v) ≤ form A v v) : best A s ≤ 1 / (2 * σ) := by
  have h1 := h.hist.g_le
  have h2 := hs s.xi
  have h3 := h.form_pos
  unfold best
  rw [div_le_div_iff₀ (by linarith) (by linarith)]
  nlinarith

theorem cgLoop_total {atol rtol res0 σ : ℝ} (hx : ∃ y, affine A c y = rhs) (hat : 0 < atol)
    (hK : ∀ v, form A v v ≤ 10 ^ 13 * (v ⬝ᵥ v)) (hσ : 0 < σ) (hs : ∀ v, σ * (v ⬝ᵥ v) ≤ form A v v)
    (hg : 1 / (2 * σ) ≤ 5 / 10 ^ 14 * golden ^ (nBrak - 3)) (k : Nat) :
    ∀ {j : Nat} {s : State n} {hist : List ((Fin n → ℝ) × (Fin n → ℝ))},
      LinInv A c rhs s hist → n ≤ hist.length + k → 1 / (2 * σ) ≤ s.b0 * golden ^ (nBrak - 3) →
      ∃ K s', ∀ fuel, K ≤ fuel →
        cgLoop (affine A c) (fun _ => A) rhs atol rtol res0 fuel k j s = .ok (some (true, s')) := by
  induction k with
  | zero =>
    intro j s hist h hn _
    have := h.hist.length_lt A h.nz
    omega
  | succ k ih =>
    intro j s hist h hn hr
    obtain ⟨K, f, s', he⟩ := cgStep_total (atol := atol) (rtol := rtol) (res0 := res0) h hK
      ((h.best_le hσ hs).trans hr) j
    cases f with
    | true =>
      refine ⟨K, s', fun fuel hf => ?_⟩
      rw [cgLoop, he fuel hf]; rfl
    | false =>
      obtain ⟨r, hb, e1, e2, hf, hrest⟩ := cgStep_some (he K (le_refl _))
      have hbest : r.1 = best A s := brent_quad h.quad (by linarith [h.best_ge hK]) h.b0 hb
      obtain ⟨hg1, hh, hxi⟩ := hrest rfl
      have hnz : s'.g ⬝ᵥ s'.g ≠ 0 := by
        intro hz
        have hz' : s'.g = 0 := dotProduct_self_eq_zero.1 hz
        have : gradient (affine A c) (fun _ => A) rhs s'.sol = 0 := by
          rw [hz'] at hg1; exact neg_eq_zero.1 hg1.symm
        have := residual_zero hx this
        exact absurd (hf.2 (.inl (by rw [this, Real.sqrt_zero]; exact hat))) (by simp)
      rw [hbest] at e1 e2
      have hp : (0 : ℝ) < golden ^ (nBrak - 3) := pow_pos golden_pos _
      obtain ⟨K2, s2, h2⟩ := ih (j := j + 1) (h.next j e1 e2 hg1 hh hxi hnz) (by simp; omega) (by
        rw [e2]
        exact hg.trans (mul_le_mul_of_nonneg_right (h.best_ge hK) hp.le))
      refine ⟨max K K2, s2, fun fuel hf => ?_⟩
      rw [cgLoop, he fuel (le_trans (le_max_left _ _) hf)]
      exact h2 fuel (le_trans (le_max_right _ _) hf)

theorem golden_pow_ge : (10 : ℝ) ^ 1999 ≤ golden ^ (nBrak - 3) := by
  have h5 : (10 : ℝ) ≤ golden ^ 5 := by
    have : (1.6 : ℝ) ^ 5 ≤ golden ^ 5 := pow_le_pow_left₀ (by norm_num) golden_gt.le 5
    refine le_trans (by norm_num) this
  have h1 : (10 : ℝ) ^ 1999 ≤ (golden ^ 5) ^ 1999 := pow_le_pow_left₀ (by norm_num) h5 _
  rw [← pow_mul] at h1
  exact h1.trans (pow_le_pow_right₀ (by linarith [golden_gt]) (by decide))

end Verif.Optimizer
