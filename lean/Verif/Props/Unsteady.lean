import Verif.Proofs.Unsteady
import Verif.Proofs.Mumps
import Mathlib.Algebra.Order.Field.Basic

/-!
# C72, C73, C74: time steps of the unsteady Navier-Stokes solver
-/

namespace Verif.Unsteady

open Verif Verif.LinAlg Verif.LinAlg.Spec Verif.Unsteady.Spec Finset
open Verif.Blocks (BlockVector)
open Verif.Blocks.Spec (IsOffsets HasSizes)

variable {R : Type}

section
variable [Field R]

theorem subtractMean_ok {x : List R} {o n : Nat} (h : x.length = o + n) :
    ∃ x', subtractMean o n x = .ok x' ∧ x'.length = o + n ∧ (∀ t, t < o → ve x' t = ve x t) ∧
      ∀ t, t < n → ve x' (o + t) = ve x (o + t) - (∑ r ∈ range n, ve x (o + r)) / n := by
  unfold subtractMean
  rw [getSeg_eq (by omega), ok_bind, sum_tab]
  obtain ⟨x', e, l, hv⟩ := setSeg_eq (y := x) (off := o)
    (l := (tab n fun k => ve x (o + k)).map fun a => a - (∑ r ∈ range n, ve x (o + r)) / n)
    (by simp; omega)
  refine ⟨x', e, by omega, fun t ht => ?_, fun t ht => ?_⟩
  · rw [hv, if_neg (by omega)]
  · rw [hv, List.length_map, length_tab, if_pos (by omega), Nat.add_sub_cancel_left]
    have : ∀ g : R → R, (tab n fun k => ve x (o + k)).map g = tab n fun k => g (ve x (o + k)) := by
      intro g; unfold tab; rw [List.map_map]; rfl
    rw [this, ve_tab ht]

variable [LinearOrder R]

omit [LinearOrder R] in
theorem split_row {P : Problem R} {i : Init R} (h : InitOk P i) {m k : Nat} (hm : m < P.n) (hk : k < P.nu m)
    (x : Nat → R) :
    ∑ c ∈ range (P.NU + P.NP), (mono i.sys).val (first P.nu m + k) c * x c =
      ∑ l ∈ range (P.nu m), P.mass m k l * (x (first P.nu m + l) / P.dt) +
      ∑ c ∈ range P.NU, P.K (first P.nu m + k) c * x c +
      ∑ c ∈ range P.NP, P.Bt (first P.nu m + k) c * x (P.NU + c) := by
  have hb : first P.nu m + k < P.NU := by have := first_bound P.nu hm; unfold Problem.NU; omega
  rw [sum_range_add, ← h.mass.row hm hk (fun c => x c / P.dt), show first P.nu P.n = P.NU from rfl,
    ← sum_add_distrib]
  refine congrArg₂ _ (sum_congr rfl fun c hc => ?_) (sum_congr rfl fun c hc => ?_)
  · rw [h.uu _ _ hb (mem_range.1 hc)]; ring
  · rw [h.ub _ _ hb (mem_range.1 hc)]

omit [LinearOrder R] in
theorem split_row' {P : Problem R} {i : Init R} (h : InitOk P i) {m k : Nat} (hm : m < P.n) (hk : k < P.np m)
    (x : Nat → R) :
    ∑ c ∈ range (P.NU + P.NP), (mono i.sys).val (P.NU + (first P.np m + k)) c * x c =
      ∑ c ∈ range P.NU, P.B (first P.np m + k) c * x c := by
  have hb : first P.np m + k < P.NP := by have := first_bound P.np hm; unfold Problem.NP; omega
  rw [sum_range_add, sum_congr rfl fun c hc => by rw [h.bu _ _ hb (mem_range.1 hc)],
    sum_eq_zero (s := range P.NP) fun c hc => by rw [h.bb _ _ hb (mem_range.1 hc), zero_mul], add_zero]

omit [LinearOrder R] in
theorem mass_split (P : Problem R) (m k : Nat) (u' u : Nat → R) : ∑ l ∈ range (P.nu m), P.mass m k l *
      ((u' (first P.nu m + l) - u (first P.nu m + l)) / P.dt) =
    ∑ l ∈ range (P.nu m), P.mass m k l * (u' (first P.nu m + l) / P.dt) -
      1 / P.dt * ∑ l ∈ range (P.nu m), P.mass m k l * u (first P.nu m + l) := by
  rw [mul_sum, ← sum_sub_distrib]
  exact sum_congr rfl fun l _ => by ring

omit [LinearOrder R] in
/-- The rows of the assembled system are the equations of the step. -/
theorem rows_iff {P : Problem R} {i : Init R} (h : InitOk P i) {t : R} {u : Nat → R} {y : List R}
    (hY : ∀ m k, m < P.n → k < P.nu m → ve y (first P.nu m + k) = P.f m k - P.conv t u m k +
      1 / P.dt * ∑ l ∈ range (P.nu m), P.mass m k l * u (first P.nu m + l))
    (hY' : ∀ m k, m < P.n → k < P.np m → ve y (P.NU + (first P.np m + k)) = P.g m k) (z : Nat → R) :
    (∀ r, r < P.NU + P.NP → ∑ c ∈ range (P.NU + P.NP), (mono i.sys).val r c * z c = ve y r) ↔
      P.Momentum t u z (fun c => z (P.NU + c)) ∧ P.Continuity z := by
  constructor
  · intro H
    refine ⟨fun m k hm hk => ?_, fun m k hm hk => ?_⟩
    · have hb := first_bound P.nu hm
      have := H (first P.nu m + k) (by unfold Problem.NU; omega)
      rw [split_row h hm hk, hY m k hm hk] at this
      rw [mass_split]
      linear_combination this
    · have hb := first_bound P.np hm
      have := H (P.NU + (first P.np m + k)) (by unfold Problem.NP; omega)
      rw [split_row' h hm hk, hY' m k hm hk] at this
      exact this
  · rintro ⟨H1, H2⟩ r hr
    by_cases hlt : r < P.NU
    · obtain ⟨m, k, hm, hk, rfl⟩ := locate P.n P.nu hlt
      have := H1 m k hm hk
      rw [mass_split] at this
      rw [split_row h hm hk, hY m k hm hk]
      linear_combination this
    · obtain ⟨m, k, hm, hk, e⟩ := locate P.n P.np (show r - P.NU < P.NP by omega)
      obtain rfl : r = P.NU + (first P.np m + k) := by omega
      rw [split_row' h hm hk, hY' m k hm hk]
      exact H2 m k hm hk

omit [LinearOrder R] in
theorem momentum_congr {P : Problem R} {t : R} {u u' v' q r : Nat → R} (h : P.Momentum t u u' q)
    (hu : ∀ c, c < P.NU → v' c = u' c) (hq : ∀ c, c < P.NP → r c = q c) : P.Momentum t u v' r := by
  intro m k hm hk
  rw [← h m k hm hk]
  refine congrArg₂ _ (congrArg₂ _ (sum_congr rfl fun l hl => ?_) (sum_congr rfl fun c hc => ?_))
    (sum_congr rfl fun c hc => ?_)
  · have := mem_range.1 hl
    have := first_bound P.nu hm
    rw [hu _ (by unfold Problem.NU; omega)]
  · rw [hu _ (mem_range.1 hc)]
  · rw [hq _ (mem_range.1 hc)]

omit [LinearOrder R] in
theorem continuity_congr {P : Problem R} {u' v' : Nat → R} (h : P.Continuity u')
    (hu : ∀ c, c < P.NU → v' c = u' c) : P.Continuity v' := by
  intro m k hm hk
  rw [← h m k hm hk]
  exact sum_congr rfl fun c hc => by rw [hu _ (mem_range.1 hc)]

omit [LinearOrder R] in
theorem sys_symm {P : Problem R} {i : Init R} (h : InitOk P i) (hs : P.Symmetric) (r c : Nat)
    (hr : r < P.NU + P.NP) (hc : c < P.NU + P.NP) : (mono i.sys).val r c = (mono i.sys).val c r := by
  have hm : ∀ r c, r < P.NU → c < P.NU → (mono i.mass).val r c = (mono i.mass).val c r := by
    intro r c hr hc
    obtain ⟨m, k, hm, hk, rfl⟩ := locate P.n P.nu hr
    obtain ⟨m', l, hm', hl, rfl⟩ := locate P.n P.nu hc
    have ent : ∀ m m' k l, m < P.n → m' < P.n → k < P.nu m → l < P.nu m' →
        (mono i.mass).val (first P.nu m + k) (first P.nu m' + l) = if m = m' then P.mass m k l else 0 := by
      intro m m' k l hm hm' hk hl
      have := mono_entry h.mass.roffs h.mass.coffs h.mass.shapes (i := m) (j := m') (s := P.nu m) (s' := P.nu m')
        (by rw [getElem?_tab, if_pos hm]) (by rw [getElem?_tab, if_pos hm']) hk hl
      rw [EqpRom.tab_take_sum _ _ (by omega), EqpRom.tab_take_sum _ _ (by omega), h.mass.val m m' k l hm hm' hk hl]
        at this
      exact this
    rw [ent _ _ _ _ hm hm' hk hl, ent _ _ _ _ hm' hm hl hk]
    by_cases e : m = m'
    · subst e; rw [if_pos rfl, if_pos rfl, hs.1 m k l hm hk hl]
    · rw [if_neg e, if_neg (Ne.symm e)]
  by_cases h1 : r < P.NU <;> by_cases h2 : c < P.NU
  · rw [h.uu r c h1 h2, h.uu c r h2 h1, hm r c h1 h2, hs.2.1 r c h1 h2]
  · obtain ⟨c, rfl⟩ := Nat.exists_eq_add_of_le (not_lt.1 h2)
    rw [h.ub r c h1 (by omega), h.bu c r (by omega) h1, hs.2.2 r c h1 (by omega)]
  · obtain ⟨r, rfl⟩ := Nat.exists_eq_add_of_le (not_lt.1 h1)
    rw [h.bu r c (by omega) h2, h.ub c r h2 (by omega), hs.2.2 c r h2 (by omega)]
  · obtain ⟨c, rfl⟩ := Nat.exists_eq_add_of_le (not_lt.1 h2)
    obtain ⟨r, rfl⟩ := Nat.exists_eq_add_of_le (not_lt.1 h1)
    rw [h.bb r c (by omega) (by omega), h.bb c r (by omega) (by omega)]

/-- **C72.** One full-order time step of a symmetric discretisation (for others see `FomSolve.stokes_direct_wrong`).  If the equations of the step have a solution, it succeeds and the new
velocity satisfies the momentum and mass balance of the scheme with some pressure `q`: backward Euler with
the convection of the previous step at the previous time.  The stored pressure is `q` if a pressure is
prescribed, and `q` without its mean otherwise. -/
theorem step_spec {P : Problem R} {s : Fom R} (h : P.Ok s) (hs : P.Solvable) (hsym : P.Symmetric) {i : Init R} (lower : Bool)
    (hi : initTime s = .ok i) {solver : Blk R → List R → Outcome (List R)} (hd : Direct solver)
    {rhs : BlockVector R} (hr : P.RhsOk rhs) {old x : List R} (ho : old.length = P.NU + P.NP)
    (hx : x.length = P.NU + P.NP) (t : R) :
    ∃ x', step s i lower solver rhs old t x = .ok x' ∧ x'.length = P.NU + P.NP ∧
      ∃ q : Nat → R, P.Momentum t (ve x) (ve x') q ∧ P.Continuity (ve x') ∧
        ∀ r, r < P.NP → ve x' (P.NU + r) =
          if s.presDbc then q r else q r - (∑ c ∈ range P.NP, q c) / P.NP := by
  obtain ⟨i', e, hk⟩ := initTime_ok h
  obtain rfl : i = i' := Except.ok.inj (hi.symm.trans e)
  unfold step
  rw [hk.vblock, show rd [0, P.NU, P.NU + P.NP] 1 = .ok P.NU from rfl, ok_bind,
    show rd [0, P.NU, P.NU + P.NP] 2 = .ok (P.NU + P.NP) from rfl, ok_bind, getSeg_eq (by omega), ok_bind]
  set u1 := tab P.NU fun k => ve x (0 + k) with hu1
  have lu1 : u1.length = first P.nu P.n := length_tab _ _
  have vu1 : ∀ k, k < P.NU → ve u1 k = ve x k := fun k hk => by rw [hu1, ve_tab hk, Nat.zero_add]
  obtain ⟨cu, e1, l1, h1⟩ := convect_ok h.conv h.u t lu1
  rw [h.n, e1, ok_bind]
  obtain ⟨r, e2, l2, h2, h2'⟩ := sort_ok hr.1 hk.byVar (old := old) ho
  rw [e2, ok_bind]
  obtain ⟨y, e3, l3, h3⟩ := addScaled_ok (y := r.data) (o := 0) (n := P.NU) (-ab1) (v := cu)
    (by rw [l2]; unfold Problem.NU; omega) (by rw [l1]; exact le_rfl)
  rw [e3, ok_bind]
  obtain ⟨y', e4, l4, h4, h4'⟩ := addMass_ok hk.mass (u := u1) (y := y) lu1 (N := P.NP)
    (by rw [l3, l2]; rfl) (-bd1 / s.dt)
  rw [show first P.nu P.n = P.NU from rfl] at e4
  rw [e4, ok_bind]
  have l4' : y'.length = P.NU + P.NP := l4
  have hvec : u1 = vecOf P.NU (ve x) := List.map_congr_left fun l _ => by rw [Nat.zero_add]
  have hY : ∀ m k, m < P.n → k < P.nu m → ve y' (first P.nu m + k) = P.f m k - P.conv t (ve x) m k +
      1 / P.dt * ∑ l ∈ range (P.nu m), P.mass m k l * ve x (first P.nu m + l) := by
    intro m k hm hk'
    have hb := first_bound P.nu hm
    have hpart : part P.nu (ve u1) m = part P.nu (ve x) m := by
      refine List.map_congr_left fun l hl => ?_
      have hl := List.mem_range.1 hl
      exact vu1 _ (by unfold Problem.NU; omega)
    have hmass : ∑ l ∈ range (P.nu m), P.mass m k l * ve u1 (first P.nu m + l) =
        ∑ l ∈ range (P.nu m), P.mass m k l * ve x (first P.nu m + l) := by
      refine sum_congr rfl fun l hl => ?_
      have := mem_range.1 hl
      rw [vu1 _ (by unfold Problem.NU; omega)]
    rw [h4 m k hm hk', h3, if_pos (by unfold Problem.NU; omega), Nat.sub_zero, h2 m k hm hk', h1 m k hm hk',
      hr.2.1 m k hm hk', hpart, hmass, hvec, h.dt]
    unfold Problem.conv ab1 bd1
    rw [neg_neg]
    ring
  have hY' : ∀ m k, m < P.n → k < P.np m → ve y' (P.NU + (first P.np m + k)) = P.g m k := by
    intro m k hm hk'
    rw [show P.NU = first P.nu P.n from rfl, h4', h3, if_neg (by unfold Problem.NU; omega), add_zero,
      h2' m k hm hk', hr.2.2 m k hm hk']
  obtain ⟨s1, s2, s3⟩ := Mumps.seen_eq lower Mumps.stokesType (mono i.sys) (P.NU + P.NP) (.inr (sys_symm hk hsym))
  have hsn : ∀ z : Nat → R, (∀ r, r < P.NU + P.NP → ∑ c ∈ range (P.NU + P.NP),
        (Mumps.seen lower Mumps.stokesType (mono i.sys)).val r c * z c = ve y' r) ↔
      ∀ r, r < P.NU + P.NP → ∑ c ∈ range (P.NU + P.NP), (mono i.sys).val r c * z c = ve y' r := fun z =>
    forall₂_congr fun r hr => by rw [sum_congr rfl fun c hc => by rw [s3 r c hr (mem_range.1 hc)]]
  obtain ⟨z, e5, l5, h5⟩ := hd (Mumps.seen lower Mumps.stokesType (mono i.sys)) y' (by rw [s1, hk.h, l4'])
    (by rw [s2, hk.w, l4']) (by
    obtain ⟨u', q, H1, H2⟩ := hs t (ve x)
    refine ⟨fun c => if c < P.NU then u' c else q (c - P.NU), ?_⟩
    rw [l4', hsn, rows_iff hk hY hY']
    exact ⟨momentum_congr H1 (fun c hc => if_pos hc) fun c _ => by
      rw [if_neg (by omega), Nat.add_sub_cancel_left], continuity_congr H2 fun c hc => if_pos hc⟩)
  rw [l4', hsn] at h5
  rw [l4'] at l5
  rw [e5, ok_bind]
  obtain ⟨hmom, hcont⟩ := (rows_iff hk hY hY' _).1 h5
  cases hp : s.presDbc with
  | true =>
    rw [if_pos rfl]
    exact ⟨z, rfl, l5, _, hmom, hcont, fun r _ => by rw [if_pos rfl]⟩
  | false =>
    rw [if_neg (by simp), Nat.add_sub_cancel_left]
    obtain ⟨x', e6, l6, h6, h6'⟩ := subtractMean_ok l5
    refine ⟨x', e6, l6, fun c => ve z (P.NU + c), ?_, ?_, ?_⟩
    · exact momentum_congr hmom h6 fun _ _ => rfl
    · exact continuity_congr hcont h6
    · intro r hr'
      rw [h6' r hr', if_neg (by simp)]

/-- **C72.** Without a prescribed pressure, the pressure dofs of every step sum to zero. -/
theorem step_pressure_mean [IsStrictOrderedRing R] {P : Problem R} {s : Fom R} (h : P.Ok s) (hs : P.Solvable) (hsym : P.Symmetric)
    {i : Init R} (lower : Bool) (hi : initTime s = .ok i) {solver : Blk R → List R → Outcome (List R)} (hd : Direct solver)
    {rhs : BlockVector R} (hr : P.RhsOk rhs) {old x x' : List R} (ho : old.length = P.NU + P.NP)
    (hx : x.length = P.NU + P.NP) (t : R) (e : step s i lower solver rhs old t x = .ok x')
    (hp : s.presDbc = false) : ∑ r ∈ range P.NP, ve x' (P.NU + r) = 0 := by
  obtain ⟨x'', e', _, q, _, _, h3⟩ := step_spec h hs hsym lower hi hd hr ho hx t
  obtain rfl := Except.ok.inj (e.symm.trans e')
  rw [sum_congr rfl fun r hr => h3 r (mem_range.1 hr)]
  simp only [hp, Bool.false_eq_true, if_false]
  rw [sum_sub_distrib, sum_const, card_range, nsmul_eq_mul]
  rcases Nat.eq_zero_or_pos P.NP with h0 | h0
  · simp [h0]
  · have : (P.NP : R) ≠ 0 := by exact_mod_cast h0.ne'
    rw [mul_div_cancel₀ _ this, sub_self]

/-- **C72.** If constant pressures exert no force (`Bt 1 = 0`, as when the velocity is prescribed on the
whole boundary), or a pressure is prescribed, the stored pressure itself satisfies the momentum balance. -/
theorem step_stored_pressure {P : Problem R} {s : Fom R} (h : P.Ok s) (hs : P.Solvable) (hsym : P.Symmetric)
    {i : Init R} (lower : Bool) (hi : initTime s = .ok i) {solver : Blk R → List R → Outcome (List R)} (hd : Direct solver)
    {rhs : BlockVector R} (hr : P.RhsOk rhs) {old x x' : List R} (ho : old.length = P.NU + P.NP)
    (hx : x.length = P.NU + P.NP) (t : R) (e : step s i lower solver rhs old t x = .ok x')
    (hp : s.presDbc = true ∨ ∀ r, r < P.NU → ∑ c ∈ range P.NP, P.Bt r c = 0) :
    P.Momentum t (ve x) (ve x') fun c => ve x' (P.NU + c) := by
  obtain ⟨x'', e', _, q, h1, _, h3⟩ := step_spec h hs hsym lower hi hd hr ho hx t
  obtain rfl := Except.ok.inj (e.symm.trans e')
  intro m k hm hk
  rw [← h1 m k hm hk]
  congr 1
  rw [sum_congr rfl fun c hc => congrArg (P.Bt (first P.nu m + k) c * ·) (h3 c (mem_range.1 hc))]
  cases hb : s.presDbc with
  | true => simp
  | false =>
    rw [hb] at hp
    have hz := (hp.resolve_left (by simp)) (first P.nu m + k)
      (by have := first_bound P.nu hm; unfold Problem.NU; omega)
    simp only [Bool.false_eq_true, if_false, mul_sub]
    rw [sum_sub_distrib, ← sum_mul, hz, zero_mul, sub_zero]

/-- **C72.** A state whose velocity a step leaves unchanged is a steady solution of the discretised
Navier-Stokes equations, whatever the step size. -/
theorem step_fixed {P : Problem R} {s : Fom R} (h : P.Ok s) (hs : P.Solvable) (hsym : P.Symmetric)
    {i : Init R} (lower : Bool) (hi : initTime s = .ok i) {solver : Blk R → List R → Outcome (List R)} (hd : Direct solver)
    {rhs : BlockVector R} (hr : P.RhsOk rhs) {old x x' : List R} (ho : old.length = P.NU + P.NP)
    (hx : x.length = P.NU + P.NP) (t : R) (e : step s i lower solver rhs old t x = .ok x')
    (hfix : ∀ c, c < P.NU → ve x' c = ve x c) : ∃ q, P.Steady t (ve x) q := by
  obtain ⟨x'', e', _, q, h1, h2, _⟩ := step_spec h hs hsym lower hi hd hr ho hx t
  obtain rfl := Except.ok.inj (e.symm.trans e')
  refine ⟨q, fun m k hm hk => ?_, fun m k hm hk => ?_⟩
  · have := h1 m k hm hk
    rw [sum_eq_zero (s := range (P.nu m)) fun l hl => by
        have := mem_range.1 hl
        have := first_bound P.nu hm
        rw [hfix _ (by unfold Problem.NU; omega), sub_self, zero_div, mul_zero],
      zero_add, sum_congr (s₁ := range P.NU) rfl fun c hc => by rw [hfix c (mem_range.1 hc)]] at this
    rw [this, sub_add_cancel]
  · rw [← h2 m k hm hk]
    exact sum_congr rfl fun c hc => by rw [hfix c (mem_range.1 hc)]

end

/-! ### The hypotheses can be met -/

open Classical in
/-- A solver that meets the contract, by choice. -/
noncomputable def exact [CommRing R] (A : Blk R) (b : List R) : Outcome (List R) :=
  if h : ∃ x : Nat → R, ∀ r, r < b.length → ∑ c ∈ range b.length, A.val r c * x c = ve b r then
    .ok (vecOf b.length h.choose) else .error .abort

theorem exact_direct [CommRing R] : Direct (exact (R := R)) := by
  intro A b _ _ h
  refine ⟨vecOf b.length h.choose, by unfold exact; rw [dif_pos h], by simp [vecOf], fun r hr => ?_⟩
  rw [← h.choose_spec r hr]
  exact sum_congr rfl fun c hc => by rw [ve_vecOf _ _ (mem_range.1 hc)]

/-- Two subdomains with one velocity and one pressure dof each; constant pressures exert no force. -/
def exProblem : Problem ℚ :=
  ⟨2, fun _ => 1, fun _ => 1, fun _ _ _ => 1, fun r c => if r = c then 2 else 0,
    fun _ c => if c = 0 then 1 else -1, fun r _ => if r = 0 then 1 else -1, fun _ _ x k => ve x k * ve x k,
    fun t x m _ => t * ve x (1 - m), fun m _ => m + 1, fun m _ => if m = 0 then 3 else -3, 1 / 2⟩

/-- The solver for it. -/
def exFom : Fom ℚ :=
  ⟨2, [0, 1, 2], [0, 1, 2], [⟨1, 1, fun _ _ => 1⟩, ⟨1, 1, fun _ _ => 1⟩], ⟨2, 2, exProblem.K⟩,
    ⟨2, 2, exProblem.B⟩, ⟨2, 2, exProblem.Bt⟩,
    ⟨fun _ _ x _ => .ok (x.map fun a => a * a),
      fun t x y => .ok [ve y 0 + t * ve x 1, ve y 1 + t * ve x 0]⟩, false, 1 / 2⟩

theorem exConv (n : Nat) (hn : n = 2) : ConvOk exFom.conv n (fun _ => 1) (fun _ _ x k => ve x k * ve x k)
    (fun t x m _ => t * ve x (1 - m)) := by
  subst hn
  refine ⟨fun t m x _ hx => ?_, fun t x y hx hy => ?_⟩
  · match x, hx with
    | [a], _ =>
      refine ⟨[a * a], rfl, rfl, fun k hk => ?_⟩
      obtain rfl : k = 0 := by omega
      rfl
  · refine ⟨_, rfl, rfl, fun m k hm hk => ?_⟩
    obtain rfl : k = 0 := by omega
    interval_cases m <;> rfl

theorem exFom_ok : exProblem.Ok exFom := by
  refine ⟨rfl, rfl, by norm_num [exProblem], ?_, ?_, ?_, rfl, rfl, rfl, exConv 2 rfl⟩
  · exact ⟨rfl, rfl, fun i s h => by
      match i, h with
      | 0, h => cases h; exact ⟨0, rfl, rfl⟩
      | 1, h => cases h; exact ⟨1, rfl, rfl⟩⟩
  · exact ⟨rfl, rfl, fun i s h => by
      match i, h with
      | 0, h => cases h; exact ⟨0, rfl, rfl⟩
      | 1, h => cases h; exact ⟨1, rfl, rfl⟩⟩
  · intro m hm
    match m, hm with
    | 0, _ => rfl
    | 1, _ => rfl

theorem exProblem_solvable : exProblem.Solvable := by
  intro t u
  set a0 : ℚ := 1 - exProblem.conv t u 0 0 + 2 * u 0 with h0
  set a1 : ℚ := 2 - exProblem.conv t u 1 0 + 2 * u 1 with h1
  refine ⟨fun c => if c = 0 then (3 + (a0 - a1) / 4) / 2 else (3 - (a0 - a1) / 4) / 2,
    fun c => if c = 0 then a0 - 4 * ((3 + (a0 - a1) / 4) / 2) else 0, fun m k hm hk => ?_, fun m k hm hk => ?_⟩
  · obtain rfl : k = 0 := by have : k < 1 := hk; omega
    have hm : m < 2 := hm
    interval_cases m
    · simp only [exProblem, Problem.NU, Problem.NP, first, sum_range_succ, sum_range_zero] at h0 h1 ⊢
      norm_num
      linear_combination h0
    · simp only [exProblem, Problem.NU, Problem.NP, first, sum_range_succ, sum_range_zero] at h0 h1 ⊢
      norm_num
      linear_combination h1
  · obtain rfl : k = 0 := by have : k < 1 := hk; omega
    have hm : m < 2 := hm
    interval_cases m
    · simp only [exProblem, Problem.NU, first, sum_range_succ, sum_range_zero]
      norm_num
      ring
    · simp only [exProblem, Problem.NU, first, sum_range_succ, sum_range_zero]
      norm_num
      ring

theorem exProblem_symmetric : exProblem.Symmetric := by
  refine ⟨fun _ _ _ _ _ _ => rfl, fun r c _ _ => ?_, fun r c _ _ => rfl⟩
  simp only [exProblem, eq_comm]

theorem exRhs_ok : exProblem.RhsOk ⟨[1, 3, 2, -3], [0, 1, 2, 3, 4]⟩ := by
  refine ⟨⟨⟨rfl, rfl, fun i s h => ?_⟩, rfl⟩, fun m k hm hk => ?_, fun m k hm hk => ?_⟩
  · match i, h with
    | 0, h => cases h; exact ⟨0, rfl, rfl⟩
    | 1, h => cases h; exact ⟨1, rfl, rfl⟩
    | 2, h => cases h; exact ⟨2, rfl, rfl⟩
    | 3, h => cases h; exact ⟨3, rfl, rfl⟩
  · obtain rfl : k = 0 := by have : k < 1 := hk; omega
    have hm : m < 2 := hm
    interval_cases m <;> norm_num [exProblem, first, ve]
  · obtain rfl : k = 0 := by have : k < 1 := hk; omega
    have hm : m < 2 := hm
    interval_cases m <;> simp [exProblem, first, ve]

/-- C72 applies to it, with every conclusion, although its pressure is determined up to a constant only. -/
example (lower : Bool) : ∃ i x', initTime exFom = .ok i ∧
    step exFom i lower exact ⟨[1, 3, 2, -3], [0, 1, 2, 3, 4]⟩ [0, 0, 0, 0] 5 [1, 2, 0, 0] = .ok x' ∧
    ve x' 0 + ve x' 1 = 3 ∧ ve x' 2 + ve x' 3 = 0 ∧
    exProblem.Momentum 5 (ve [1, 2, 0, 0]) (ve x') fun c => ve x' (2 + c) := by
  obtain ⟨i, hi, _⟩ := initTime_ok exFom_ok
  obtain ⟨x', e, _, q, _, h2, _⟩ := step_spec exFom_ok exProblem_solvable exProblem_symmetric lower hi exact_direct exRhs_ok
    (old := [0, 0, 0, 0]) (x := [1, 2, 0, 0]) rfl rfl 5
  refine ⟨i, x', hi, e, ?_, ?_, ?_⟩
  · have := h2 0 0 (by decide) (by decide)
    simpa [exProblem, Problem.NU, first, sum_range_succ] using this
  · have := step_pressure_mean exFom_ok exProblem_solvable exProblem_symmetric lower hi exact_direct exRhs_ok
      (old := [0, 0, 0, 0]) (x := [1, 2, 0, 0]) rfl rfl 5 e rfl
    simpa [exProblem, Problem.NU, Problem.NP, first, sum_range_succ] using this
  · exact step_stored_pressure exFom_ok exProblem_solvable exProblem_symmetric lower hi exact_direct exRhs_ok rfl rfl 5 e (.inr fun r _ => by
      simp [exProblem, Problem.NP, first, sum_range_succ])

/-- Convection is taken at the old velocity, and the system matrix has the mass term: with a one-dof solver
that divides, `(2 + 2) u' = 7 - 1 * 1 + 2 * 1`. -/
example : (do
      let f : Fom ℚ := ⟨1, [0, 1], [0, 0], [⟨1, 1, fun _ _ => 1⟩], ⟨1, 1, fun _ _ => 2⟩, ⟨0, 1, fun _ _ => 0⟩,
        ⟨1, 0, fun _ _ => 0⟩, ⟨fun _ _ x _ => .ok (x.map fun a => a * a), fun _ _ y => .ok y⟩, true, 1 / 2⟩
      let i ← initTime f
      step f i true (fun A b => .ok [ve b 0 / A.val 0 0]) ⟨[7], [0, 1, 1]⟩ [0] 0 [1]) = .ok [2] := by
  decide +kernel

end Verif.Unsteady
