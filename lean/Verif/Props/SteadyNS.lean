import Verif.Proofs.SteadyNS
import Verif.Props.Unsteady
import Mathlib.Analysis.Calculus.Deriv.Add
import Mathlib.Analysis.Calculus.Deriv.Mul
import Mathlib.Analysis.Calculus.Deriv.Pow

/-!
# C76: the full-order steady Navier-Stokes solver
-/

namespace Verif.SteadyNS

open Verif Verif.LinAlg Verif.LinAlg.Spec Verif.Unsteady Verif.SteadyNS.Spec Finset
open Verif.Unsteady.Spec
open Verif.Blocks (BlockVector)
open Verif.Blocks.Spec (IsOffsets HasSizes)

variable {R : Type}

/-- **C76.** The operator evaluates the discretised steady equations at every state. -/
theorem mult_spec [CommRing R] {P : Flow R} {o : Oper R} (h : P.Ok o) {x : List R}
    (hx : x.length = P.NU + P.NP) :
    ∃ y, o.mult x = .ok y ∧ y.length = P.NU + P.NP ∧ P.Value (ve x) (ve y) := mult_ok h hx

/-- **C76.** The gradient at `x`, asked for after any sequence of gradients at other states, is the matrix
`[dconv(x) + K, Bt; B, 0]`: nothing is left in it of the earlier calls, although the forms keep the
matrices of those calls and the interface terms were added to them. -/
theorem gradient_spec [CommRing R] {P : Flow R} {o : Oper R} (h : P.Ok o) (xs : List (List R))
    (hxs : ∀ y ∈ xs, y.length = P.NU + P.NP) {x : List R} (hx : x.length = P.NU + P.NP) :
    ∃ gs J gs', o.gradients (fun _ => none) xs = .ok gs ∧ o.gradient gs x = .ok (J, gs') ∧
      J.h = P.NU + P.NP ∧ J.w = P.NU + P.NP ∧ P.Jacobian (ve x) J.val := by
  obtain ⟨gs, e1, hg⟩ := gradients_ok h xs (gs := fun _ => none) (fun i g _ hn => by cases hn) hxs
  obtain ⟨J, gs', e2, _, h1, h2, h3⟩ := gradient_ok h hg hx
  exact ⟨gs, J, gs', e1, e2, h1, h2, h3⟩

theorem sum_blocks_eq [CommRing R] (n : Nat) (w : Nat → Nat) (x : Nat → R) :
    ∑ c ∈ range (first w n), x c = ∑ m ∈ range n, ∑ k ∈ range (w m), x (first w m + k) := by
  induction n with
  | zero => rfl
  | succ n ih => rw [first_succ, sum_range_add, ih, sum_range_succ]

theorem hasDerivAt_line (a d : ℝ) : HasDerivAt (fun t : ℝ => a + t * d) d 0 := by
  simpa using ((hasDerivAt_id (0 : ℝ)).mul_const d).const_add a

theorem hasDerivAt_row (N : Nat) (A x d : Nat → ℝ) :
    HasDerivAt (fun t : ℝ => ∑ c ∈ range N, A c * (x c + t * d c)) (∑ c ∈ range N, A c * d c) 0 :=
  HasDerivAt.fun_sum fun c _ => (hasDerivAt_line (x c) (d c)).const_mul (A c)

/-- **C76.** Where the convection terms are differentiable, the gradient is the derivative of the operator:
along every line through the state, for every equation, and after any sequence of earlier gradients. -/
theorem gradient_derivative {P : Flow ℝ} {o : Oper ℝ} (h : P.Ok o) (xs : List (List ℝ))
    (hxs : ∀ y ∈ xs, y.length = P.NU + P.NP) (x : Nat → ℝ) (hd : P.Differentiable x) :
    ∃ (Y : (Nat → ℝ) → Nat → ℝ) (gs gs' : Grads ℝ) (J : Blk ℝ),
      (∀ v, ∃ y, o.mult (vecOf (P.NU + P.NP) v) = .ok y ∧ y.length = P.NU + P.NP ∧
        ∀ r, r < P.NU + P.NP → ve y r = Y v r) ∧
      o.gradients (fun _ => none) xs = .ok gs ∧ o.gradient gs (vecOf (P.NU + P.NP) x) = .ok (J, gs') ∧
      ∀ (d : Nat → ℝ) r, r < P.NU + P.NP →
        HasDerivAt (fun t : ℝ => Y (fun c => x c + t * d c) r)
          (∑ c ∈ range (P.NU + P.NP), J.val r c * d c) 0 := by
  have lv : ∀ v : Nat → ℝ, (vecOf (P.NU + P.NP) v).length = P.NU + P.NP := fun v => length_tab _ _
  obtain ⟨gs, J, gs', e1, e2, _, _, hJ⟩ := gradient_spec h xs hxs (lv x)
  have hY : ∀ v, ∃ y, o.mult (vecOf (P.NU + P.NP) v) = .ok y ∧ y.length = P.NU + P.NP ∧
      P.Value (ve (vecOf (P.NU + P.NP) v)) (ve y) := fun v => mult_spec h (lv v)
  choose Y0 hY0 lY0 hV using hY
  refine ⟨fun v r => ve (Y0 v) r, gs, gs', J, fun v => ⟨Y0 v, hY0 v, lY0 v, fun r _ => rfl⟩, e1, e2, ?_⟩
  intro d r hr
  have hvx : ∀ (v : Nat → ℝ) t, t < P.NU + P.NP → ve (vecOf (P.NU + P.NP) v) t = v t := fun v t ht => ve_vecOf _ _ ht
  rw [sum_range_add]
  by_cases hlt : r < P.NU
  · obtain ⟨m, k, hm, hk, rfl⟩ := locate P.n P.nu hlt
    have hval : ∀ v : Nat → ℝ, ve (Y0 v) (first P.nu m + k) = P.momentum v (fun c => v (P.NU + c)) m k := by
      intro v
      rw [(hV v).1 m k hm hk]
      unfold Flow.momentum
      rw [part_congr hm (y := v) fun t ht => hvx v t (by have : t < P.NU := ht; omega),
        vecOf_congr (y := v) fun t ht => hvx v t (by omega)]
      refine congrArg₂ _ (congrArg₂ _ rfl (sum_congr rfl fun c hc => ?_)) (sum_congr rfl fun c hc => ?_)
      · rw [hvx v c (by have := mem_range.1 hc; omega)]
      · dsimp only
        rw [hvx v _ (by have := mem_range.1 hc; omega)]
    simp only [hval]
    unfold Flow.momentum
    have h1 := hd.1 d m k hm hk
    have h2 := hd.2 d m k hm hk
    have h3 := hasDerivAt_row P.NU (fun c => P.K (first P.nu m + k) c) x d
    have h4 := hasDerivAt_row P.NP (fun c => P.Bt (first P.nu m + k) c) (fun c => x (P.NU + c)) fun c => d (P.NU + c)
    refine (((h1.add h2).add h3).add h4).congr_deriv ?_
    have e4 : ∑ c ∈ range P.NP, J.val (first P.nu m + k) (P.NU + c) * d (P.NU + c) =
        ∑ c ∈ range P.NP, P.Bt (first P.nu m + k) c * d (P.NU + c) :=
      sum_congr rfl fun c hc => by rw [hJ.up _ _ hlt (mem_range.1 hc)]
    rw [e4]
    congr 1
    unfold Flow.NU
    rw [sum_blocks_eq, sum_blocks_eq]
    have e5 : ∀ j ∈ range P.n, ∑ l ∈ range (P.nu j), J.val (first P.nu m + k) (first P.nu j + l) * d (first P.nu j + l) =
        ∑ l ∈ range (P.nu j), P.K (first P.nu m + k) (first P.nu j + l) * d (first P.nu j + l) +
        (∑ l ∈ range (P.nu j), (if m = j then P.DF m (part P.nu x m) k l * d (first P.nu j + l) else 0) +
        ∑ l ∈ range (P.nu j), P.DI (vecOf P.NU x) m k j l * d (first P.nu j + l)) := by
      intro j hj
      rw [← sum_add_distrib, ← sum_add_distrib]
      refine sum_congr rfl fun l hl => ?_
      rw [hJ.uu m k j l hm (mem_range.1 hj) hk (mem_range.1 hl)]
      unfold Flow.dconv
      rw [part_congr hm (y := x) fun t ht => hvx x t (by have : t < P.NU := ht; omega),
        vecOf_congr (y := x) fun t ht => hvx x t (by omega)]
      split <;> ring
    rw [sum_congr rfl e5, sum_add_distrib, sum_add_distrib]
    have e6 : ∑ j ∈ range P.n, ∑ l ∈ range (P.nu j),
        (if m = j then P.DF m (part P.nu x m) k l * d (first P.nu j + l) else 0) =
        ∑ l ∈ range (P.nu m), P.DF m (part P.nu x m) k l * d (first P.nu m + l) := by
      rw [sum_eq_single m]
      · exact sum_congr rfl fun l _ => if_pos rfl
      · intro j _ hne
        exact sum_eq_zero fun l _ => if_neg (Ne.symm hne)
      · intro hn; exact absurd (mem_range.2 hm) hn
    rw [e6]
    show _ + ∑ j ∈ range P.n, ∑ l ∈ range (P.nu j), P.DI (vecOf P.NU x) m k j l * d (first P.nu j + l) + _ = _
    ring
  · obtain ⟨m, k, hm, hk, e⟩ := locate P.n P.np (show r - P.NU < P.NP by omega)
    obtain rfl : r = P.NU + (first P.np m + k) := by omega
    have hb : first P.np m + k < P.NP := by omega
    have hval : ∀ v : Nat → ℝ, ve (Y0 v) (P.NU + (first P.np m + k)) = P.divergence v m k := by
      intro v
      rw [(hV v).2 m k hm hk]
      exact sum_congr rfl fun c hc => by rw [hvx v c (by have := mem_range.1 hc; omega)]
    simp only [hval]
    unfold Flow.divergence
    refine (hasDerivAt_row P.NU (fun c => P.B (first P.np m + k) c) x d).congr_deriv ?_
    rw [sum_congr (s₁ := range P.NU) (g := fun c => P.B (first P.np m + k) c * d c)
        (f := fun c => J.val (P.NU + (first P.np m + k)) c * d c) rfl
        fun c hc => by rw [hJ.pu _ _ hb (mem_range.1 hc)],
      sum_eq_zero (s := range P.NP) fun c hc => by rw [hJ.pp _ _ hb (mem_range.1 hc), zero_mul], add_zero]

section
variable [Field R]

theorem solve_ok {P : Flow R} {s : Solver R} (h : P.Ok s.oper) (hp : IsOffsets s.p ((List.range P.n).map P.np))
    {rhs : BlockVector R} (hr : P.RhsOk rhs) {guess : Guess R} (hgu : P.GuessOk guess) (gen : Bool) {st : Sol R}
    (hU : HasSizes st.U P.sizes) (newton : Newton R) (gs : Grads R) :
    ∃ b x0 : List R, b.length = P.NU + P.NP ∧ x0.length = P.NU + P.NP ∧
      (∀ m k, m < P.n → k < P.nu m → ve b (first P.nu m + k) = P.f m k) ∧
      (∀ m k, m < P.n → k < P.np m → ve b (P.NU + (first P.np m + k)) = P.g m k) ∧
      (match guess with
        | .restart u => P.Holds u (ve x0) fun c => ve x0 (P.NU + c)
        | .random v => x0 = v) ∧
      (∀ e, newton s.oper gs b x0 = .error e → s.solve newton gs rhs guess gen st = .error e) ∧
      ∀ x conv, newton s.oper gs b x0 = .ok (x, conv) → x.length = P.NU + P.NP →
        ∃ U, s.solve newton gs rhs guess gen st =
            .ok (conv, ⟨U, if conv && gen then st.saved ++ [U] else st.saved⟩) ∧
          P.Holds U (ve x) (stored P s.presDbc fun c => ve x (P.NU + c)) := by
  obtain ⟨o, e1, ho⟩ := byVar_ok h.u hp
  have hl : rd o (2 * P.n) = .ok (P.NU + P.NP) := by
    rw [rd_eq_ok, ho.value (show 2 * P.n ≤ _ by simp; omega), List.take_of_length_le (by simp; omega), byVar_sum]
    rfl
  obtain ⟨b, e2, l2, h2, h2'⟩ := sort_ok hr.1 ho (old := List.replicate (P.NU + P.NP) 0) (by simp; rfl)
  have hguess : ∃ x0 : List R, x0.length = P.NU + P.NP ∧
      guess.start P.n ⟨List.replicate (P.NU + P.NP) 0, o⟩ = .ok x0 ∧ HasSizes (guess.loaded st.U) P.sizes ∧
      (match guess with
        | .restart u => P.Holds u (ve x0) fun c => ve x0 (P.NU + c)
        | .random v => x0 = v) := by
    cases guess with
    | random v => exact ⟨v, hgu, rfl, hU, rfl⟩
    | restart u =>
      have hu : HasSizes u (bySub P.n P.nu P.np) := hgu
      obtain ⟨r, e3, l3, h3, h3'⟩ := sort_ok hu ho (old := List.replicate (P.NU + P.NP) 0) (by simp; rfl)
      refine ⟨r.data, l3, ?_, hgu, hu, fun m k hm hk => (h3 m k hm hk).symm, fun m k hm hk => (h3' m k hm hk).symm⟩
      show (do let v ← Blocks.sortByVariables P.n 2 u ⟨List.replicate (P.NU + P.NP) 0, o⟩; return v.data) = _
      rw [e3]; rfl
  obtain ⟨x0, l0, e3, hU', h3⟩ := hguess
  refine ⟨b.data, x0, l2, l0, fun m k hm hk => ?_, fun m k hm hk => ?_, h3, fun e he => ?_, fun x conv hN lx => ?_⟩
  · rw [h2 m k hm hk]; exact hr.2.1 m k hm hk
  · rw [show P.NU = first P.nu P.n from rfl, h2' m k hm hk]; exact hr.2.2 m k hm hk
  · unfold Solver.solve
    dsimp only
    rw [h.n, e1, ok_bind, hl, ok_bind, e2, ok_bind, e3, ok_bind, he]
    rfl
  · have hx : ∃ x', s.orthogonalize P.NU (P.NU + P.NP) x = .ok x' ∧
        x'.length = P.NU + P.NP ∧ (∀ t, t < P.NU → ve x' t = ve x t) ∧
        ∀ t, t < P.NP → ve x' (P.NU + t) = stored P s.presDbc (fun c => ve x (P.NU + c)) t := by
      unfold stored Solver.orthogonalize
      cases s.presDbc with
      | true => exact ⟨x, rfl, lx, fun _ _ => rfl, fun t ht => by rw [if_pos rfl]⟩
      | false =>
        obtain ⟨x', e, l, h1, h2⟩ := subtractMean_ok lx
        exact ⟨x', by rw [if_neg (by simp), Nat.add_sub_cancel_left, e], l, h1, fun t ht => by
          rw [if_neg (by simp)]; exact h2 t ht⟩
    obtain ⟨x', e4, l4, h4, h4'⟩ := hx
    obtain ⟨U, e5, s5, h5, h5'⟩ := unsort_ok hU' ho l4
    refine ⟨U, ?_, s5, fun m k hm hk => ?_, fun m k hm hk => ?_⟩
    · unfold Solver.solve
      dsimp only
      rw [h.n, e1, ok_bind, hl, ok_bind, e2, ok_bind, e3, ok_bind, hN, ok_bind, offs_first h.u le_rfl, ok_bind,
        show first P.nu P.n = P.NU from rfl, e4, ok_bind, e5]
      rfl
    · have hb := first_bound P.nu hm
      unfold Flow.vel
      rw [h5 m k hm hk, h4 _ (by unfold Flow.NU; omega)]
    · have hb := first_bound P.np hm
      unfold Flow.pres
      rw [h5' m k hm hk]
      exact h4' _ (by unfold Flow.NP; omega)

/-- **C76.** Whatever the nonlinear solver does within its contract, a solve that returns has stored the last
iterate `u`, `q`: its pressure as it is, or without its mean if no pressure is prescribed.  If it reports
convergence, `u`, `q` satisfy the discretised equations up to a residual that passes the test of the nonlinear
solver.  A snapshot is saved exactly if it has converged and a sample generator is given. -/
theorem solve_spec {P : Flow R} {s : Solver R} (h : P.Ok s.oper)
    (hp : IsOffsets s.p ((List.range P.n).map P.np)) {rhs : BlockVector R} (hr : P.RhsOk rhs) {guess : Guess R}
    (hgu : P.GuessOk guess) (gen : Bool) {st st' : Sol R} (hU : HasSizes st.U P.sizes) {newton : Newton R}
    {small : (Nat → R) → Prop} (hN : Converges newton small) (gs : Grads R) {conv : Bool}
    (e : s.solve newton gs rhs guess gen st = .ok (conv, st')) :
    ∃ u q : Nat → R, P.Holds st'.U u (stored P s.presDbc q) ∧
      (conv = true → ∃ r, P.SolvesUpTo u q r ∧ small r) ∧
      st'.saved = if conv = true ∧ gen = true then st.saved ++ [st'.U] else st.saved := by
  obtain ⟨b, x0, lb, l0, hf, hg, _, herr, hok⟩ := solve_ok h hp hr hgu gen hU newton gs
  cases hn : newton s.oper gs b x0 with
  | error er => rw [herr er hn] at e; cases e
  | ok r =>
    obtain ⟨x, c⟩ := r
    obtain ⟨lx, hc⟩ := hN _ _ _ _ _ _ hn
    rw [l0] at lx
    obtain ⟨U, e', hH⟩ := hok x c hn lx
    rw [e'] at e
    cases e
    refine ⟨ve x, fun c => ve x (P.NU + c), hH, fun ht => ?_, ?_⟩
    · obtain ⟨y, hy, hs⟩ := hc ht
      obtain ⟨y', e2, _, hV⟩ := mult_spec h lx
      obtain rfl := Except.ok.inj (hy.symm.trans e2)
      refine ⟨_, ⟨fun m k hm hk => ?_, fun m k hm hk => ?_⟩, hs⟩
      · rw [← hV.1 m k hm hk, hf m k hm hk]; ring
      · rw [← hV.2 m k hm hk, hg m k hm hk]; ring
    · cases conv <;> cases gen <;> rfl

theorem holds_momentum {P : Flow R} {u q r : Nat → R} (h : P.SolvesUpTo u q r) (presDbc : Bool)
    (hp : presDbc = true ∨ ∀ r, r < P.NU → ∑ c ∈ range P.NP, P.Bt r c = 0) :
    P.SolvesUpTo u (stored P presDbc q) r := by
  refine ⟨fun m k hm hk => ?_, h.2⟩
  rw [← h.1 m k hm hk]
  unfold Flow.momentum stored
  congr 1
  cases presDbc with
  | true => simp
  | false =>
    have hz := (hp.resolve_left (by simp)) (first P.nu m + k)
      (by have := first_bound P.nu hm; unfold Flow.NU; omega)
    simp only [Bool.false_eq_true, if_false, mul_sub]
    rw [sum_sub_distrib, ← sum_mul, hz, zero_mul, sub_zero]

/-- **C76.** A converged solve has stored a solution of the discretised equations, up to an admissible
residual, if a pressure is prescribed or constant pressures exert no force; in the latter case the pressure
dofs it has stored sum to zero. -/
theorem solve_converged [CharZero R] {P : Flow R} {s : Solver R} (h : P.Ok s.oper)
    (hp : IsOffsets s.p ((List.range P.n).map P.np)) {rhs : BlockVector R} (hr : P.RhsOk rhs) {guess : Guess R}
    (hgu : P.GuessOk guess) (gen : Bool) {st st' : Sol R} (hU : HasSizes st.U P.sizes) {newton : Newton R}
    {small : (Nat → R) → Prop} (hN : Converges newton small) (gs : Grads R)
    (hforce : s.presDbc = true ∨ ∀ r, r < P.NU → ∑ c ∈ range P.NP, P.Bt r c = 0)
    (e : s.solve newton gs rhs guess gen st = .ok (true, st')) :
    ∃ u p r : Nat → R, P.Holds st'.U u p ∧ P.SolvesUpTo u p r ∧ small r ∧
      (s.presDbc = false → ∑ c ∈ range P.NP, p c = 0) := by
  obtain ⟨u, q, hH, hc, _⟩ := solve_spec h hp hr hgu gen hU hN gs e
  obtain ⟨r, hs, hr'⟩ := hc rfl
  refine ⟨u, _, r, hH, holds_momentum hs _ hforce, hr', fun hd => ?_⟩
  unfold stored
  simp only [hd, Bool.false_eq_true, if_false]
  rw [sum_sub_distrib, sum_const, card_range, nsmul_eq_mul]
  rcases Nat.eq_zero_or_pos P.NP with h0 | h0
  · simp [h0]
  · have : (P.NP : R) ≠ 0 := by exact_mod_cast h0.ne'
    rw [mul_div_cancel₀ _ this, sub_self]

/-- **C76.** From a restart file the iteration starts at the loaded solution, each dof in its place. -/
theorem solve_restart {P : Flow R} {s : Solver R} (h : P.Ok s.oper)
    (hp : IsOffsets s.p ((List.range P.n).map P.np)) {rhs : BlockVector R} (hr : P.RhsOk rhs) {u : BlockVector R}
    (hu : HasSizes u P.sizes) (gen : Bool) {st : Sol R} (hU : HasSizes st.U P.sizes) (newton : Newton R)
    (gs : Grads R) :
    ∃ b x0 : List R, (∀ m k, m < P.n → k < P.nu m → ve b (first P.nu m + k) = P.f m k) ∧
      (∀ m k, m < P.n → k < P.np m → ve b (P.NU + (first P.np m + k)) = P.g m k) ∧
      P.Holds u (ve x0) (fun c => ve x0 (P.NU + c)) ∧
      ∀ x conv, newton s.oper gs b x0 = .ok (x, conv) → x.length = x0.length →
        ∃ st', s.solve newton gs rhs (.restart u) gen st = .ok (conv, st') := by
  obtain ⟨b, x0, _, l0, hf, hg, h0, _, hok⟩ := solve_ok h hp hr (guess := .restart u) hu gen hU newton gs
  refine ⟨b, x0, hf, hg, h0, fun x conv hn hl => ?_⟩
  obtain ⟨U, e, _⟩ := hok x conv hn (by rw [hl, l0])
  exact ⟨_, e⟩

end

/-! ### The hypotheses can be met -/

/-- Two subdomains with one velocity and one pressure dof each, convection `u²` in each and `u0 u1` at the
interface; constant pressures exert no force. -/
def exFlow (R : Type) [Field R] : Flow R :=
  ⟨2, fun _ => 1, fun _ => 1, fun r c => if r = c then 2 else 0, fun _ c => if c = 0 then 1 else -1,
    fun r _ => if r = 0 then 1 else -1, fun _ x k => ve x k * ve x k, fun _ x k _ => 2 * ve x k,
    fun x _ _ => ve x 0 * ve x 1, fun x _ _ j _ => ve x (1 - j), fun m _ => if m = 0 then 6 else 11,
    fun m _ => if m = 0 then 3 else -3⟩

/-- Its forms. -/
def exForms (R : Type) [Field R] : Forms R :=
  ⟨fun _ x _ => .ok (x.map fun a => a * a), fun _ x g => .ok { g with val := fun k l => g.val k l + 2 * ve x k },
    some fun x y => .ok [ve y 0 + ve x 0 * ve x 1, ve y 1 + ve x 0 * ve x 1],
    some fun x mats => .ok fun i j =>
      { mats i j with val := fun k l => (mats i j).val k l + ve x (1 - j) }⟩

/-- Its operator. -/
def exOper (R : Type) [Field R] : Oper R :=
  ⟨2, [0, 1, 2], ⟨[0, 2, 4], [0, 2, 4], false, fun i j =>
    if i = 0 ∧ j = 0 then some ⟨2, 2, (exFlow R).K⟩ else if i = 0 ∧ j = 1 then some ⟨2, 2, (exFlow R).Bt⟩ else
      if i = 1 ∧ j = 0 then some ⟨2, 2, (exFlow R).B⟩ else none⟩, exForms R⟩

theorem ones_offsets : IsOffsets [0, 1, 2] ((List.range 2).map fun _ => 1) :=
  ⟨rfl, rfl, fun i s h => by
    match i, h with
    | 0, h => cases h; exact ⟨0, rfl, rfl⟩
    | 1, h => cases h; exact ⟨1, rfl, rfl⟩⟩

theorem exForms_ok (R : Type) [Field R] : (exFlow R).FormsOk (exForms R) := by
  refine ⟨fun m x _ hx => ?_, fun m x g _ hx h1 h2 => ?_, fun op hop x y hx hy => ?_,
    fun op hop x mats hx hm => ?_, (fun h => by cases h), (fun h => by cases h)⟩
  · match x, hx with
    | [a], _ =>
      refine ⟨[a * a], rfl, rfl, fun k hk => ?_⟩
      obtain rfl : k = 0 := by have : k < 1 := hk; omega
      rfl
  · exact ⟨_, rfl, h1, h2, fun k l _ _ => rfl⟩
  · cases hop
    refine ⟨_, rfl, rfl, fun m k hm hk => ?_⟩
    obtain rfl : k = 0 := by have : k < 1 := hk; omega
    have hm : m < 2 := hm
    interval_cases m <;> rfl
  · cases hop
    exact ⟨_, rfl, fun i j hi hj => ⟨(hm i j hi hj).1, (hm i j hi hj).2, fun k l _ _ => rfl⟩⟩

theorem exOper_ok (R : Type) [Field R] : (exFlow R).Ok (exOper R) :=
  ⟨rfl, ones_offsets, rfl, rfl, rfl, rfl, rfl, fun i j h1 h2 h3 => by
    show (if _ then _ else _) = _
    rw [if_neg h1, if_neg h2, if_neg h3], exForms_ok R⟩

/-- Its convection terms are differentiable everywhere. -/
theorem exFlow_differentiable (u : Nat → ℝ) : (exFlow ℝ).Differentiable u := by
  refine ⟨fun d m k hm hk => ?_, fun d m k hm hk => ?_⟩
  · obtain rfl : k = 0 := by have : k < 1 := hk; omega
    have h1 := hasDerivAt_line (u (first (fun _ => 1) m)) (d (first (fun _ => 1) m))
    refine ((h1.mul h1).congr_deriv ?_)
    simp only [exFlow, part, sum_range_one, ve]
    simp
    ring
  · have h0 := hasDerivAt_line (u 0) (d 0)
    have h1 := hasDerivAt_line (u 1) (d 1)
    refine ((h0.mul h1).congr_deriv ?_)
    simp only [exFlow, vecOf, Flow.NU, first, sum_range_succ, sum_range_zero, ve]
    simp
    ring

/-- C76 applies to it after two earlier gradients. -/
example (u : Nat → ℝ) : ∃ (Y : (Nat → ℝ) → Nat → ℝ) (J : Blk ℝ) (gs gs' : Grads ℝ),
    (exOper ℝ).gradients (fun _ => none) [[1, 2, 3, 4], [5, 6, 7, 8]] = .ok gs ∧
    (exOper ℝ).gradient gs (vecOf 4 u) = .ok (J, gs') ∧
    ∀ (d : Nat → ℝ) r, r < 4 → HasDerivAt (fun t : ℝ => Y (fun c => u c + t * d c) r)
      (∑ c ∈ range 4, J.val r c * d c) 0 := by
  obtain ⟨Y, gs, gs', J, _, e1, e2, h⟩ := gradient_derivative (exOper_ok ℝ) [[1, 2, 3, 4], [5, 6, 7, 8]]
    (by intro y hy; rcases List.mem_cons.1 hy with rfl | hy
        · rfl
        · rcases List.mem_cons.1 hy with rfl | hy
          · rfl
          · cases hy) u (exFlow_differentiable u)
  exact ⟨Y, J, gs, gs', e1, e2, h⟩

/-- The second gradient is not polluted by the first: the entry `2 u0 + 2 + u1` at `(0, 0)`. -/
example : (do
      let gs ← (exOper ℚ).gradients (fun _ => none) [[10, 20, 0, 0]]
      let r ← (exOper ℚ).gradient gs [1, 2, 0, 0]
      return [r.1.val 0 0, r.1.val 0 1, r.1.val 1 0, r.1.val 1 1, r.1.val 0 2, r.1.val 3 0, r.1.val 2 2]) =
    (.ok [6, 1, 2, 7, 1, -1, 0] : Outcome (List ℚ)) := by
  decide +kernel

/-- A solver that tests its initial guess and stays there. -/
def lazyNewton : Newton ℚ := fun o _ b x0 => do
  let y ← o.mult x0
  return (x0, decide (∀ t, t < b.length → ve y t = ve b t))

theorem lazyNewton_ok (N : Nat) : Converges (fun o gs b x0 => if b.length = N then lazyNewton o gs b x0
    else Except.error .abort) fun r => ∀ t, t < N → r t = 0 := by
  intro o gs b x0 x conv e
  dsimp only at e
  by_cases hb : b.length = N
  · rw [if_pos hb] at e
    obtain ⟨y, hy, e⟩ := bind_eq_ok.1 e
    cases e
    exact ⟨rfl, fun hc => ⟨y, hy, fun t ht => sub_eq_zero.2 (of_decide_eq_true hc t (by omega))⟩⟩
  · rw [if_neg hb] at e; cases e

theorem exFlow_rhs : (exFlow ℚ).RhsOk ⟨[6, 3, 11, -3], [0, 1, 2, 3, 4]⟩ := by
  refine ⟨⟨⟨rfl, rfl, fun i s h => ?_⟩, rfl⟩, fun m k hm hk => ?_, fun m k hm hk => ?_⟩
  · match i, h with
    | 0, h => cases h; exact ⟨0, rfl, rfl⟩
    | 1, h => cases h; exact ⟨1, rfl, rfl⟩
    | 2, h => cases h; exact ⟨2, rfl, rfl⟩
    | 3, h => cases h; exact ⟨3, rfl, rfl⟩
  · obtain rfl : k = 0 := by have : k < 1 := hk; omega
    have hm : m < 2 := hm
    interval_cases m <;> simp [exFlow, first, ve, Flow.vel]
  · obtain rfl : k = 0 := by have : k < 1 := hk; omega
    have hm : m < 2 := hm
    interval_cases m <;> simp [exFlow, first, ve, Flow.pres]

/-- A restart at a solution with pressures `5`, `4` converges at once; the pressure is stored without its
mean. -/
example : (Solver.solve ⟨exOper ℚ, [0, 1, 2], false⟩ lazyNewton (fun _ => none) ⟨[6, 3, 11, -3], [0, 1, 2, 3, 4]⟩
      (.restart ⟨[1, 5, 2, 4], [0, 1, 2, 3, 4]⟩) true ⟨⟨[0, 0, 0, 0], [0, 1, 2, 3, 4]⟩, []⟩).map
      (fun r => (r.1, r.2.U.data, r.2.saved.map (·.data))) =
    .ok (true, [1, 1 / 2, 2, -1 / 2], [[1, 1 / 2, 2, -1 / 2]]) := by
  decide +kernel

/-- From a guess that is no solution nothing is saved. -/
example : (Solver.solve ⟨exOper ℚ, [0, 1, 2], false⟩ lazyNewton (fun _ => none) ⟨[6, 3, 11, -3], [0, 1, 2, 3, 4]⟩
      (.random [1, 3, 5, 4]) true ⟨⟨[0, 0, 0, 0], [0, 1, 2, 3, 4]⟩, []⟩).map
      (fun r => (r.1, r.2.saved.length)) = .ok (false, 0) := by
  decide +kernel

/-- C76 applies to every solve of the example that converges. -/
example (gs : Grads ℚ) (st' : Sol ℚ) (v : List ℚ) (hv : v.length = 4)
    (e : Solver.solve ⟨exOper ℚ, [0, 1, 2], false⟩ (fun o gs b x0 => if b.length = 4 then lazyNewton o gs b x0
      else Except.error .abort) gs ⟨[6, 3, 11, -3], [0, 1, 2, 3, 4]⟩ (.random v) true
      ⟨⟨[0, 0, 0, 0], [0, 1, 2, 3, 4]⟩, []⟩ = .ok (true, st')) :
    ∃ u p r, (exFlow ℚ).Holds st'.U u p ∧ (exFlow ℚ).SolvesUpTo u p r ∧ ∀ t, t < 4 → r t = 0 := by
  obtain ⟨u, p, r, h1, h2, h3, _⟩ := solve_converged (P := exFlow ℚ) (exOper_ok ℚ) ones_offsets exFlow_rhs
    (guess := .random v) hv true (st := ⟨⟨[0, 0, 0, 0], [0, 1, 2, 3, 4]⟩, []⟩) ⟨exFlow_rhs.1.1, rfl⟩
    (lazyNewton_ok 4) gs (.inr fun r _ => by simp [exFlow, Flow.NP, first, sum_range_succ]) e
  exact ⟨u, p, r, h1, h2, h3⟩

end Verif.SteadyNS
