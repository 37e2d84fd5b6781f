import Verif.Proofs.OptimizerQuad
import Mathlib.LinearAlgebra.Matrix.DotProduct
import Mathlib.LinearAlgebra.FiniteDimensional.Lemmas
import Mathlib.Tactic.Module

/-!
# Lemmas on the conjugate-gradient loop
-/

namespace Verif.Optimizer

open Verif Matrix

variable {n m : Nat}

theorem objective_nonneg (F : (Fin n → ℝ) → Fin m → ℝ) (rhs : Fin m → ℝ) (x : Fin n → ℝ) :
    0 ≤ objective F rhs x := by
  unfold objective
  exact Finset.sum_nonneg (fun i _ => mul_self_nonneg _)

theorem brent_const {J : ℝ → ℝ} (h : ∀ b, J b = J 0) (tol : ℝ) (fuel : Nat) (b0 : ℝ) :
    brent J tol fuel b0 = .error .ub := by
  have hs : shrink J (J 0) fuel b0 = some b0 := by
    cases fuel <;> simp [shrink, h b0]
  have hwr : wr (List.replicate nBrak (0 : ℝ)) 0 (J 0) = .ok ((List.replicate nBrak 0).set 0 (J 0)) :=
    wr_of_lt (by rw [List.length_replicate]; unfold nBrak; omega)
  have := bracket_lost nBrak (brakInv_start J b0) (by unfold nBrak; omega) (fun l _ _ hc => by
    rw [h, h (pts b0 (l - 1))] at hc; exact lt_irrefl _ hc)
  rw [pts_one] at this
  unfold brent
  rw [hs]
  simp only [hwr, ok_bind, this, error_bind]

/-- A finished turn of the loop. -/
theorem cgStep_some {F : (Fin n → ℝ) → Fin m → ℝ} {DF : (Fin n → ℝ) → Matrix (Fin m) (Fin n) ℝ}
    {rhs : Fin m → ℝ} {atol rtol res0 : ℝ} {fuel j : Nat} {s s' : State n} {f : Bool}
    (h : cgStep F DF rhs atol rtol res0 fuel j s = .ok (some (f, s'))) :
    ∃ r, brent (fun b => objective F rhs (s.sol + b • s.xi)) linTol fuel s.b0 = .ok (some r) ∧
      s'.sol = s.sol + r.1 • s.xi ∧ s'.b0 = r.1 ∧
      (f = true ↔ √(objective F rhs s'.sol) < atol ∨ √(objective F rhs s'.sol) / res0 < rtol) ∧
      (f = false → s'.g = -gradient F DF rhs s'.sol ∧ s'.h = s'.xi ∧
        s'.xi = -gradient F DF rhs s'.sol +
          factor j (((gradient F DF rhs s'.sol + s.g) ⬝ᵥ gradient F DF rhs s'.sol) / (s.g ⬝ᵥ s.g))
            ((gradient F DF rhs s'.sol ⬝ᵥ gradient F DF rhs s'.sol) / (s.g ⬝ᵥ s.g)) • s.h) := by
  unfold cgStep at h
  obtain ⟨o, ho, h⟩ := bind_eq_ok.1 h
  cases o with
  | none => cases h
  | some r =>
    obtain ⟨b, k⟩ := r
    refine ⟨(b, k), ho, ?_⟩
    by_cases hc : (decide (√(objective F rhs (s.sol + b • s.xi)) < atol) ||
      decide (√(objective F rhs (s.sol + b • s.xi)) / res0 < rtol)) = true
    · simp only [hc, if_true] at h
      cases h
      simp only [Bool.or_eq_true, decide_eq_true_eq] at hc
      refine ⟨rfl, rfl, ⟨fun _ => hc, fun _ => rfl⟩, nofun⟩
    · simp only [hc, Bool.false_eq_true, if_false] at h
      cases h
      simp only [Bool.or_eq_true, decide_eq_true_eq] at hc
      refine ⟨rfl, rfl, ⟨(nofun), fun h => absurd h hc⟩, fun _ => ⟨rfl, rfl, rfl⟩⟩

theorem cgStep_of {F : (Fin n → ℝ) → Fin m → ℝ} {DF : (Fin n → ℝ) → Matrix (Fin m) (Fin n) ℝ}
    {rhs : Fin m → ℝ} {atol rtol res0 : ℝ} {fuel : Nat} (j : Nat) {s : State n} {r : ℝ × Nat}
    (h : brent (fun b => objective F rhs (s.sol + b • s.xi)) linTol fuel s.b0 = .ok (some r)) :
    ∃ f s', cgStep F DF rhs atol rtol res0 fuel j s = .ok (some (f, s')) := by
  unfold cgStep
  rw [h, ok_bind]
  obtain ⟨b, k⟩ := r
  by_cases hc : (decide (√(objective F rhs (s.sol + b • s.xi)) < atol) ||
      decide (√(objective F rhs (s.sol + b • s.xi)) / res0 < rtol)) = true
  · simp only [hc, if_true]; exact ⟨_, _, rfl⟩
  · simp only [hc, Bool.false_eq_true, if_false]; exact ⟨_, _, rfl⟩

theorem cgLoop_descends {F : (Fin n → ℝ) → Fin m → ℝ} {DF : (Fin n → ℝ) → Matrix (Fin m) (Fin n) ℝ}
    {rhs : Fin m → ℝ} {atol rtol res0 : ℝ} {fuel : Nat} (k : Nat) : ∀ {j : Nat} {s s' : State n} {f : Bool},
    0 < s.b0 → cgLoop F DF rhs atol rtol res0 fuel k j s = .ok (some (f, s')) →
    objective F rhs s'.sol ≤ objective F rhs s.sol ∧
      (f = true → √(objective F rhs s'.sol) < atol ∨ √(objective F rhs s'.sol) / res0 < rtol) ∧
      (f = false → k = 0 ∨
        ¬ (√(objective F rhs s'.sol) < atol ∨ √(objective F rhs s'.sol) / res0 < rtol)) := by
  induction k with
  | zero =>
    intro j s s' f _ h
    cases h
    exact ⟨le_refl _, nofun, fun _ => .inl rfl⟩
  | succ k ih =>
    intro j s s' f hb h
    rw [cgLoop] at h
    obtain ⟨o, ho, h⟩ := bind_eq_ok.1 h
    cases o with
    | none => cases h
    | some p =>
      obtain ⟨f1, s1⟩ := p
      obtain ⟨r, hr, e1, e2, hf, _⟩ := cgStep_some ho
      obtain ⟨b1, j1, i1, _, hb1, hJ1, _, _, _, _, hinv, t, ht, et⟩ := brent_some hb hr
      obtain ⟨hinv', hle, ha, -⟩ := para_inv nPara hinv ht
      have hpos : 0 < r.1 := by
        rw [← et]; have := hinv'.ab; have := hinv'.nonneg; linarith
      have hdesc : objective F rhs s1.sol ≤ objective F rhs s.sol := by
        have hd := brent_descends_aux hb hr
        simpa [e1] using hd
      cases f1 with
      | true =>
        cases h
        exact ⟨hdesc, fun _ => hf.1 rfl, nofun⟩
      | false =>
        have h' : cgLoop F DF rhs atol rtol res0 fuel k (j + 1) s1 = .ok (some (f, s')) := h
        obtain ⟨i1, i2, i3⟩ := ih (by rw [e2]; exact hpos) h'
        refine ⟨i1.trans hdesc, i2, fun hff => ?_⟩
        rcases i3 hff with i3 | i3
        · subst i3
          cases h'
          right; intro hc
          exact absurd (hf.2 hc) (by simp)
        · exact .inr i3

/-! ## Affine operators -/

variable (A : Matrix (Fin m) (Fin n) ℝ)

/-- The bilinear form of the normal equations. -/
def form (u w : Fin n → ℝ) : ℝ := (A *ᵥ u) ⬝ᵥ (A *ᵥ w)

theorem form_comm (u w : Fin n → ℝ) : form A u w = form A w u := by
  unfold form; rw [dotProduct_comm]

theorem dot_normal (u w : Fin n → ℝ) : u ⬝ᵥ (Aᵀ *ᵥ (A *ᵥ w)) = form A u w := by
  unfold form
  rw [dotProduct_mulVec, vecMul_transpose]

/-- What the directions and gradients of the turns made so far have to do with the present ones. -/
structure Hist (g ξ : Fin n → ℝ) (hist : List ((Fin n → ℝ) × (Fin n → ℝ))) : Prop where
  a : g ⬝ᵥ ξ = g ⬝ᵥ g
  b : ∀ p ∈ hist, g ⬝ᵥ p.1 = 0
  c : ∀ p ∈ hist, g ⬝ᵥ p.2 = 0
  d : ∀ p ∈ hist, form A ξ p.2 = 0
  e : ∀ p ∈ hist, ∀ w, w ⬝ᵥ g = 0 → (∀ q ∈ hist, w ⬝ᵥ q.1 = 0) → form A w p.2 = 0
  f : hist.Pairwise (fun p q => p.1 ⬝ᵥ q.1 = 0)
  nz : ∀ p ∈ hist, p.1 ⬝ᵥ p.1 ≠ 0
  g1 : ∀ u, (∀ q ∈ hist, u ⬝ᵥ q.2 = 0) → u ⬝ᵥ g = u ⬝ᵥ ξ
  g2 : ∀ p ∈ hist, ∀ u, (∀ q ∈ hist, u ⬝ᵥ q.2 = 0) → u ⬝ᵥ p.1 = 0

theorem Hist.start (g : Fin n → ℝ) : Hist A g g [] where
  a := rfl
  b := by simp
  c := by simp
  d := by simp
  e := by simp
  f := List.Pairwise.nil
  nz := by simp
  g1 := by simp
  g2 := by simp

/-- The gradient is as far along the direction as the direction along itself, in the form. -/
theorem Hist.form_g {g ξ : Fin n → ℝ} {hist : List ((Fin n → ℝ) × (Fin n → ℝ))} (h : Hist A g ξ hist) :
    form A ξ g = form A ξ ξ := by
  have := h.g1 (Aᵀ *ᵥ (A *ᵥ ξ)) (fun q hq => by
    rw [dotProduct_comm, dot_normal, form_comm]; exact h.d q hq)
  rw [dotProduct_comm, dot_normal, dotProduct_comm, dot_normal, form_comm] at this
  exact this

theorem Hist.step {g ξ : Fin n → ℝ} {hist : List ((Fin n → ℝ) × (Fin n → ℝ))} (h : Hist A g ξ hist)
    (hg : g ⬝ᵥ g ≠ 0) (hA : form A ξ ξ ≠ 0) {b γ : ℝ} (hb : 2 * b * form A ξ ξ = g ⬝ᵥ g)
    {g' : Fin n → ℝ} (hg' : g' = g - (2 * b) • (Aᵀ *ᵥ (A *ᵥ ξ))) (hγ : γ * (g ⬝ᵥ g) = g' ⬝ᵥ g') :
    Hist A g' (g' + γ • ξ) ((g, ξ) :: hist) ∧ g' ⬝ᵥ g = 0 := by
  have hb0 : b ≠ 0 := by
    rintro rfl; apply hg; rw [← hb]; ring
  have dot' : ∀ u, g' ⬝ᵥ u = g ⬝ᵥ u - 2 * b * form A u ξ := by
    intro u
    rw [hg', sub_dotProduct, smul_dotProduct, smul_eq_mul, dotProduct_comm (Aᵀ *ᵥ _), dot_normal]
  have hHu : ∀ p ∈ hist, form A p.1 ξ = 0 := by
    intro p hp
    have := h.g2 p hp (Aᵀ *ᵥ (A *ᵥ ξ)) (fun q hq => by
      rw [dotProduct_comm, dot_normal, form_comm]; exact h.d q hq)
    rwa [dotProduct_comm, dot_normal] at this
  have hgg : g' ⬝ᵥ g = 0 := by
    rw [dot', form_comm, h.form_g, hb]; ring
  have hgξ : g' ⬝ᵥ ξ = 0 := by
    rw [dot', hb, h.a]; ring
  have hb1 : ∀ p ∈ hist, g' ⬝ᵥ p.1 = 0 := fun p hp => by
    rw [dot', h.b p hp, hHu p hp]; ring
  have hc1 : ∀ p ∈ hist, g' ⬝ᵥ p.2 = 0 := fun p hp => by
    rw [dot', h.c p hp, form_comm, h.d p hp]; ring
  have he1 : ∀ w, w ⬝ᵥ g' = 0 → w ⬝ᵥ g = 0 → form A w ξ = 0 := by
    intro w h1 h2
    have := dot' w
    rw [dotProduct_comm, h1, dotProduct_comm g, h2] at this
    have h3 : 2 * b * form A w ξ = 0 := by linarith
    exact (mul_eq_zero.1 h3).resolve_left (mul_ne_zero two_ne_zero hb0)
  refine ⟨⟨?_, ?_, ?_, ?_, ?_, ?_, ?_, ?_, ?_⟩, hgg⟩
  · rw [dotProduct_add, dotProduct_smul, hgξ, smul_zero, add_zero]
  · intro p hp
    rcases List.mem_cons.1 hp with rfl | hp
    · exact hgg
    · exact hb1 p hp
  · intro p hp
    rcases List.mem_cons.1 hp with rfl | hp
    · exact hgξ
    · exact hc1 p hp
  · intro p hp
    have hexp : ∀ u, form A (g' + γ • ξ) u = form A g' u + γ * form A ξ u := by
      intro u
      unfold form
      rw [mulVec_add, mulVec_smul, add_dotProduct, smul_dotProduct, smul_eq_mul]
    rw [hexp]
    rcases List.mem_cons.1 hp with rfl | hp
    · show form A g' ξ + γ * form A ξ ξ = 0
      have h1 := dot' g'
      rw [dotProduct_comm g g', hgg] at h1
      have h2 : form A g' ξ * (2 * b) = -(g' ⬝ᵥ g') := by linarith
      have h3 : (form A g' ξ + γ * form A ξ ξ) * (2 * b) = 0 := by
        rw [add_mul, h2, ← hγ, ← hb]; ring
      exact (mul_eq_zero.1 h3).resolve_right (mul_ne_zero two_ne_zero hb0)
    · rw [h.d p hp, mul_zero, add_zero]
      exact h.e p hp g' hgg hb1
  · intro p hp w h1 h2
    rcases List.mem_cons.1 hp with rfl | hp
    · exact he1 w h1 (h2 (g, ξ) (by simp))
    · exact h.e p hp w (h2 (g, ξ) (by simp)) (fun q hq => h2 q (by simp [hq]))
  · exact List.Pairwise.cons (fun p hp => h.b p hp) h.f
  · intro p hp
    rcases List.mem_cons.1 hp with rfl | hp
    · exact hg
    · exact h.nz p hp
  · intro u hu
    rw [dotProduct_add, dotProduct_smul, hu (g, ξ) (by simp), smul_zero, add_zero]
  · intro p hp u hu
    have hu' : ∀ q ∈ hist, u ⬝ᵥ q.2 = 0 := fun q hq => hu q (by simp [hq])
    rcases List.mem_cons.1 hp with rfl | hp
    · show u ⬝ᵥ g = 0
      rw [h.g1 u hu']
      exact hu (g, ξ) (by simp)
    · exact h.g2 p hp u hu'

/-- There are at most `n` nonzero vectors orthogonal to one another. -/
theorem orthogonal_length {l : List (Fin n → ℝ)} (hp : l.Pairwise (fun u w => u ⬝ᵥ w = 0))
    (hn : ∀ u ∈ l, u ⬝ᵥ u ≠ 0) : l.length ≤ n := by
  have hij : ∀ i j : Fin l.length, i ≠ j → l.get i ⬝ᵥ l.get j = 0 := by
    intro i j hne
    rcases lt_or_gt_of_ne hne with h | h
    · exact List.pairwise_iff_get.1 hp i j h
    · rw [dotProduct_comm]; exact List.pairwise_iff_get.1 hp j i h
  have li : LinearIndependent ℝ l.get := by
    rw [Fintype.linearIndependent_iff]
    intro c hc i
    have h1 : (∑ j, c j • l.get j) ⬝ᵥ l.get i = 0 := by rw [hc, zero_dotProduct]
    rw [sum_dotProduct] at h1
    rw [Finset.sum_eq_single i] at h1
    · rw [smul_dotProduct, smul_eq_mul] at h1
      exact (mul_eq_zero.1 h1).resolve_right (hn _ (List.get_mem l i))
    · intro j _ hne
      rw [smul_dotProduct, hij j i hne, smul_zero]
    · intro h; exact absurd (Finset.mem_univ i) h
  have := li.fintype_card_le_finrank
  simpa using this

theorem Hist.length_lt {g ξ : Fin n → ℝ} {hist : List ((Fin n → ℝ) × (Fin n → ℝ))} (h : Hist A g ξ hist)
    (hg : g ⬝ᵥ g ≠ 0) : hist.length < n := by
  have := orthogonal_length (l := g :: hist.map Prod.fst)
    (List.Pairwise.cons (by
      intro u hu
      obtain ⟨p, hp, rfl⟩ := List.mem_map.1 hu
      exact h.b p hp) (List.pairwise_map.2 h.f))
    (by
      intro u hu
      rcases List.mem_cons.1 hu with rfl | hu
      · exact hg
      · obtain ⟨p, hp, rfl⟩ := List.mem_map.1 hu
        exact h.nz p hp)
  simp only [List.length_cons, List.length_map] at this
  omega

end Verif.Optimizer
