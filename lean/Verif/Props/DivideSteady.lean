import Verif.Proofs.DivideSteady
import Mathlib.Algebra.Order.BigOperators.Group.Finset

/-!
# C119: dividing a mesh does not change the steady Navier-Stokes equations that are solved

`Verif.Model.DivideSteady` goes from the parent mesh to the solution of `SteadyNSSolver::Solve`;
`Verif.Spec.DivideSteady` says what the equations are on the undivided mesh.
-/

namespace Verif.Divide

open Verif Verif.LinAlg Verif.LinAlg.Spec Verif.SubMesh Verif.SubMesh.Spec Finset Spec
open Verif.InterfaceForm (Space)
open Verif.InterfaceForm.Spec (sizeIn)
open Verif.Boundary (BC)
open Verif.Blocks (BlockVector)
open Verif.Blocks.Spec (HasSizes)
open Verif.Unsteady (first_bound)
open Verif.Unsteady.Spec (first)
open Verif.FomSolve.Spec (at_)
open Verif.SteadyNS (Newton Guess Sol)
open Verif.SteadyNS.Spec (Flow)

variable {R δ F : Type} [Field R] [LinearOrder R] [IsStrictOrderedRing R] {pm : Parent} {subs : List Sub}
variable {φ : Nat → Nat → Nat} {g : Int} {E : SteadyEq R F} {bc : BC F} {I : SteadyInput R δ F}
variable {uspaces pspaces : List Space}

omit [LinearOrder R] [IsStrictOrderedRing R] in
/-- C119: the operator handed to the nonlinear solver on a division computes the residuals of the undivided mesh:
for every vector that is a velocity `υ` with a pressure `π`, its value minus the right-hand side is at every degree
of freedom the residual of the momentum or mass equation on the undivided mesh. -/
theorem steady_operator (hE : E.Consistent) (D : Division pm subs φ g) (hcov : Covers pm subs)
    (hbc : Conditions pm bc) (hfun : HasFunctions bc) (H : SteadyForms E pm subs φ uspaces pspaces I)
    (presDbc : Bool) :
    ∃ s rhs, steadySetup bc pm subs uspaces pspaces I presDbc = .ok (s, rhs) ∧
      ∀ x υ π, x.length = unknowns subs uspaces pspaces →
        Represents subs uspaces E.W.nt (velocity (sizeIn uspaces) x) υ →
        Represents subs pspaces E.W'.nt (pressure subs.length (sizeIn uspaces) (sizeIn pspaces) x) π →
        ∃ y, s.oper.mult x = .ok y ∧ y.length = unknowns subs uspaces pspaces ∧
          Represents subs uspaces E.W.nt (fun k r => velocity (sizeIn uspaces) y k r -
            flowPart (sizeIn uspaces) (sizeIn pspaces) rhs.data 0 k r) (E.momentum pm bc υ π) ∧
          Represents subs pspaces E.W'.nt (fun k r => pressure subs.length (sizeIn uspaces) (sizeIn pspaces) y k r -
            flowPart (sizeIn uspaces) (sizeIn pspaces) rhs.data 1 k r) (E.mass pm bc υ) := by
  obtain ⟨s, rhs, P, p1, p2, p3, p4, p5, p6, p7, p8, p9⟩ := steady_problem hE D hcov hbc hfun H presDbc
  have hNU : P.NU = first (sizeIn uspaces) subs.length := by unfold Flow.NU; rw [p6, p7]
  have hNP : P.NP = first (sizeIn pspaces) subs.length := by unfold Flow.NP; rw [p6, p8]
  refine ⟨s, rhs, p1, fun x υ π hx hυ hπ => ?_⟩
  obtain ⟨y, y1, y2, y3, y4⟩ := SteadyNS.mult_spec p2 (x := x) (by rw [hNU, hNP]; exact hx)
  obtain ⟨r1, r2⟩ := p9 (ve x) (fun c => ve x (P.NU + c)) υ π hυ (by rw [hNU]; exact hπ)
  refine ⟨y, y1, by rw [y2, hNU, hNP]; rfl, ?_, ?_⟩
  · intro k sm sp i e a hk hs hi ha
    have hlt : k < P.n := by rw [p6]; exact (List.getElem?_eq_some_iff.1 hk).1
    have hr : pos sp i a < P.nu k := by rw [p7]; exact dof_lt H.uspace hk hs hi ha
    rw [← r1 k i e a sm sp hk hs hi ha, ← y3 k _ hlt hr, ← p4.2.1 k _ hlt hr]
    unfold Flow.vel velocity flowPart
    dsimp only
    rw [at_eq, if_pos rfl, p7, p8]
  · intro k sm sp i e a hk hs hi ha
    have hlt : k < P.n := by rw [p6]; exact (List.getElem?_eq_some_iff.1 hk).1
    have hr : pos sp i a < P.np k := by rw [p8]; exact dof_lt H.pspace hk hs hi ha
    rw [← r2 k i e a sm sp hk hs hi ha, ← y4 k _ hlt hr, ← p4.2.2 k _ hlt hr]
    unfold Flow.pres pressure flowPart
    dsimp only
    rw [at_eq, if_neg (by decide), p7, p8, hNU]

omit [IsStrictOrderedRing R] in
/-- C119: on every division, `Assemble` and `Solve` fail only if the nonlinear solver fails.  Otherwise the stored
solution is a velocity and a pressure on the undivided mesh; if the solver reports convergence, their squared
residual in the equations of the undivided mesh is at most the goal, which the solver takes from the residual of
the initial guess there; only then the solution is saved.  Unless a pressure is prescribed its mean over the whole
mesh is subtracted. -/
theorem steady_run (hE : E.Consistent) (D : Division pm subs φ g) (hcov : Covers pm subs)
    (hbc : Conditions pm bc) (hfun : HasFunctions bc) (H : SteadyForms E pm subs φ uspaces pspaces I)
    (presDbc : Bool) {newton : Newton R} {goal : R → R} (hN : ConvergesBelow newton goal) {guess : Guess R}
    {υ₀ π₀ : Nat → Nat → R} (hG : StartsAt E.W.nt E.W'.nt subs uspaces pspaces υ₀ π₀ guess) (gen : Bool)
    {st : Sol R} (hU : HasSizes st.U (flowSizes subs uspaces pspaces)) :
    (∃ o b x0 e, newton o (fun _ => none) b x0 = .error e ∧
      steadyRun newton bc pm subs uspaces pspaces I presDbc guess gen st = .error e) ∨
    ∃ conv st' υ q, steadyRun newton bc pm subs uspaces pspaces I presDbc guess gen st = .ok (conv, st') ∧
      HasSizes st'.U (flowSizes subs uspaces pspaces) ∧
      Represents subs uspaces E.W.nt (flowPart (sizeIn uspaces) (sizeIn pspaces) st'.U.data 0) υ ∧
      Represents subs pspaces E.W'.nt (flowPart (sizeIn uspaces) (sizeIn pspaces) st'.U.data 1)
        (fun e a => if presDbc then q e a else q e a - E.mean pm q) ∧
      (conv = true → E.residual pm bc υ q ≤ goal (E.residual pm bc υ₀ π₀)) ∧
      st'.saved = if conv && gen then st.saved ++ [st'.U] else st.saved := by
  obtain ⟨s, rhs, P, p1, p2, p3, p4, p5, p6, p7, p8, p9⟩ := steady_problem hE D hcov hbc hfun H presDbc
  have hNU : P.NU = first (sizeIn uspaces) subs.length := by unfold Flow.NU; rw [p6, p7]
  have hNP : P.NP = first (sizeIn pspaces) subs.length := by unfold Flow.NP; rw [p6, p8]
  have hsz : P.sizes = flowSizes subs uspaces pspaces := by unfold Flow.sizes flowSizes; rw [p6, p7, p8]
  have hgu : P.GuessOk guess := by
    cases guess with
    | restart u => show HasSizes u P.sizes; rw [hsz]; exact hG.1
    | random v => show v.length = P.NU + P.NP; rw [hNU, hNP]; exact hG.1
  obtain ⟨b, x0, s1, s2, s3, s4, s5, s6, s7⟩ := SteadyNS.solve_ok (s := { s with oper := valuesOnly s.oper })
    p2 p3 p4 hgu gen (st := st) (by rw [hsz]; exact hU) (fun _ gs b x0 => newton s.oper gs b x0) (fun _ => none)
  have hrun : steadyRun newton bc pm subs uspaces pspaces I presDbc guess gen st =
      ({ s with oper := valuesOnly s.oper } : SteadyNS.Solver R).solve
        (fun _ gs b x0 => newton s.oper gs b x0) (fun _ => none) rhs guess gen st := by
    unfold steadyRun
    rw [p1, ok_bind]
    rfl
  have vel : ∀ (U : BlockVector R) m k, P.vel U m k = flowPart (sizeIn uspaces) (sizeIn pspaces) U.data 0 m k := by
    intro U m k
    unfold Flow.vel flowPart
    rw [at_eq, if_pos rfl, p7, p8]
  have pres : ∀ (U : BlockVector R) m k, P.pres U m k = flowPart (sizeIn uspaces) (sizeIn pspaces) U.data 1 m k := by
    intro U m k
    unfold Flow.pres flowPart
    rw [at_eq, if_neg (by decide), p7, p8]
  have hlt : ∀ {k : Nat} {sm : Sub}, subs[k]? = some sm → k < P.n := fun hk => by
    rw [p6]; exact (List.getElem?_eq_some_iff.1 hk).1
  have hru : ∀ {k i e a : Nat} {sm : Sub} {sp : Space}, subs[k]? = some sm → uspaces[k]? = some sp →
      sm.elemMap[i]? = some e → a < E.W.nt e → pos sp i a < P.nu k := fun hk hs hi ha => by
    rw [p7]; exact dof_lt H.uspace hk hs hi ha
  have hrp : ∀ {k i e a : Nat} {sm : Sub} {sp : Space}, subs[k]? = some sm → pspaces[k]? = some sp →
      sm.elemMap[i]? = some e → a < E.W'.nt e → pos sp i a < P.np k := fun hk hs hi ha => by
    rw [p8]; exact dof_lt H.pspace hk hs hi ha
  -- the initial guess
  have hstart : Represents subs uspaces E.W.nt (velocity (sizeIn uspaces) x0) υ₀ ∧
      Represents subs pspaces E.W'.nt (pressure subs.length (sizeIn uspaces) (sizeIn pspaces) x0) π₀ := by
    cases guess with
    | random v =>
      have : x0 = v := s5
      subst this
      exact ⟨hG.2.1, hG.2.2⟩
    | restart u =>
      obtain ⟨-, t1, t2⟩ : P.Holds u (ve x0) fun c => ve x0 (P.NU + c) := s5
      refine ⟨?_, ?_⟩
      · intro k sm sp i e a hk hs hi ha
        rw [← hG.2.1 k sm sp i e a hk hs hi ha, ← vel, t1 k _ (hlt hk) (hru hk hs hi ha), p7]
        rfl
      · intro k sm sp i e a hk hs hi ha
        rw [← hG.2.2 k sm sp i e a hk hs hi ha, ← pres, t2 k _ (hlt hk) (hrp hk hs hi ha), p8, hNU]
        rfl
  cases hnew : newton s.oper (fun _ => none) b x0 with
  | error e => exact .inl ⟨s.oper, b, x0, e, hnew, by rw [hrun]; exact s6 e hnew⟩
  | ok r =>
    obtain ⟨x, conv⟩ := r
    obtain ⟨n1, n2⟩ := hN _ _ _ _ _ _ hnew
    have lx : x.length = P.NU + P.NP := n1.trans s2
    obtain ⟨U, u1, u2, u3, u4⟩ := s7 x conv hnew lx
    obtain ⟨υ, hυ⟩ := represents_of (n := E.W.nt) (spaces := uspaces) D (velocity (sizeIn uspaces) x)
    obtain ⟨q, hq⟩ := represents_of (n := E.W'.nt) (spaces := pspaces) D
      (pressure subs.length (sizeIn uspaces) (sizeIn pspaces) x)
    refine .inr ⟨conv, _, υ, q, hrun.trans u1, by rw [← hsz]; exact u2, ?_, ?_, ?_, rfl⟩
    · intro k sm sp i e a hk hs hi ha
      rw [← hυ k sm sp i e a hk hs hi ha, ← vel, u3 k _ (hlt hk) (hru hk hs hi ha), p7]
      rfl
    · intro k sm sp i e a hk hs hi ha
      rw [← pres, u4 k _ (hlt hk) (hrp hk hs hi ha)]
      have hb : first P.np k + pos sp i a < P.NP := by
        have := first_bound P.np (hlt hk)
        have := hrp hk hs hi ha
        unfold Flow.NP; omega
      unfold SteadyNS.Spec.stored
      dsimp only
      rw [show ({ s with oper := valuesOnly s.oper } : SteadyNS.Solver R).presDbc = presDbc from p5,
        show ve x (P.NU + (first P.np k + pos sp i a)) = q e a by
          rw [p8, hNU]; exact hq k sm sp i e a hk hs hi ha]
      have hm := steady_mean D hcov H (q := fun c => ve x (P.NU + c)) (π := q) (by rw [hNU]; exact hq)
      rw [hNP, hm]
    · intro hc
      obtain ⟨y0, y, y1, y2, y3⟩ := n2 hc
      obtain ⟨z0, z1, z2, z3⟩ := SteadyNS.mult_spec p2 s2
      obtain ⟨z, w1, w2, w3⟩ := SteadyNS.mult_spec p2 lx
      rw [mult_valuesOnly, y1] at z1; cases z1
      rw [mult_valuesOnly, y2] at w1; cases w1
      rw [distance_eq D hcov H p6 p7 p8 p9 z3 s1 s3 s4 hstart.1 hstart.2,
        distance_eq D hcov H p6 p7 p8 p9 w3 s1 s3 s4 hυ hq] at y3
      exact y3

/-- C119: if the equations of the undivided mesh have an approximate solution, with a squared residual of at most
`ε`, then it can be found on every division: a nonlinear solver that finds such vectors where they exist reports
convergence there. -/
theorem steady_converges (hE : E.Consistent) (D : Division pm subs φ g) (hcov : Covers pm subs)
    (hbc : Conditions pm bc) (hfun : HasFunctions bc) (H : SteadyForms E pm subs φ uspaces pspaces I)
    (presDbc : Bool) {newton : Newton R} {goal : R → R} (hN : ConvergesBelow newton goal) {ε : R}
    (hF : Finds newton ε) (hsol : ∃ υ π, E.residual pm bc υ π ≤ ε) {guess : Guess R}
    {υ₀ π₀ : Nat → Nat → R} (hG : StartsAt E.W.nt E.W'.nt subs uspaces pspaces υ₀ π₀ guess) (gen : Bool)
    {st : Sol R} (hU : HasSizes st.U (flowSizes subs uspaces pspaces)) :
    ∃ st', steadyRun newton bc pm subs uspaces pspaces I presDbc guess gen st = .ok (true, st') := by
  obtain ⟨s, rhs, P, p1, p2, p3, p4, p5, p6, p7, p8, p9⟩ := steady_problem hE D hcov hbc hfun H presDbc
  have hNU : P.NU = first (sizeIn uspaces) subs.length := by unfold Flow.NU; rw [p6, p7]
  have hNP : P.NP = first (sizeIn pspaces) subs.length := by unfold Flow.NP; rw [p6, p8]
  have hsz : P.sizes = flowSizes subs uspaces pspaces := by unfold Flow.sizes flowSizes; rw [p6, p7, p8]
  have hgu : P.GuessOk guess := by
    cases guess with
    | restart u => show HasSizes u P.sizes; rw [hsz]; exact hG.1
    | random v => show v.length = P.NU + P.NP; rw [hNU, hNP]; exact hG.1
  obtain ⟨b, x0, s1, s2, s3, s4, s5, s6, s7⟩ := SteadyNS.solve_ok (s := { s with oper := valuesOnly s.oper })
    p2 p3 p4 hgu gen (st := st) (by rw [hsz]; exact hU) (fun _ gs b x0 => newton s.oper gs b x0) (fun _ => none)
  obtain ⟨υ, π, hres⟩ := hsol
  obtain ⟨xu, hxu⟩ := represented H.uspace υ
  obtain ⟨xp, hxp⟩ := represented H.pspace π
  obtain ⟨u, hu⟩ := flat_vec subs.length (sizeIn uspaces) xu
  obtain ⟨q, hq⟩ := flat_vec subs.length (sizeIn pspaces) xp
  let x : List R := Unsteady.Spec.vecOf (P.NU + P.NP) fun t => if t < P.NU then u t else q (t - P.NU)
  have lx : x.length = P.NU + P.NP := length_tab _ _
  have hυ : Represents subs uspaces E.W.nt (velocity (sizeIn uspaces) x) υ := by
    intro k sm sp i e a hk hs hi ha
    have hlt := (List.getElem?_eq_some_iff.1 hk).1
    have hr := dof_lt H.uspace hk hs hi ha
    have := first_bound (sizeIn uspaces) hlt
    rw [← hxu k sm sp i e a hk hs hi ha, ← hu k _ hlt hr]
    unfold velocity
    rw [Unsteady.ve_vecOf _ _ (by rw [hNU]; omega), if_pos (by rw [hNU]; omega)]
  have hπ : Represents subs pspaces E.W'.nt (pressure subs.length (sizeIn uspaces) (sizeIn pspaces) x) π := by
    intro k sm sp i e a hk hs hi ha
    have hlt := (List.getElem?_eq_some_iff.1 hk).1
    have hr := dof_lt H.pspace hk hs hi ha
    have := first_bound (sizeIn pspaces) hlt
    rw [← hxp k sm sp i e a hk hs hi ha, ← hq k _ hlt hr]
    unfold pressure
    rw [← hNU, Unsteady.ve_vecOf _ _ (by rw [hNP]; omega), if_neg (by omega), Nat.add_sub_cancel_left]
  obtain ⟨y0, y1, -⟩ := SteadyNS.mult_spec p2 s2
  obtain ⟨y, y2, y3, y4⟩ := SteadyNS.mult_spec p2 lx
  obtain ⟨x', hx'⟩ := hF s.oper (fun _ => none) b x0 ⟨y0, y1⟩ ⟨x, y, lx.trans s2.symm, y2, by
    rw [distance_eq D hcov H p6 p7 p8 p9 y4 s1 s3 s4 hυ hπ]; exact hres⟩
  obtain ⟨U, u1, -⟩ := s7 x' true hx' ((hN _ _ _ _ _ _ hx').1.trans s2)
  have e : steadyRun newton bc pm subs uspaces pspaces I presDbc guess gen st =
      ({ s with oper := valuesOnly s.oper } : SteadyNS.Solver R).solve
        (fun _ gs b x0 => newton s.oper gs b x0) (fun _ => none) rhs guess gen st := by
    unfold steadyRun
    rw [p1, ok_bind]
    rfl
  exact ⟨_, e.trans u1⟩

/-- The residual is zero exactly where the equations hold. -/
theorem residual_zero (E : SteadyEq R F) (pm : Parent) (bc : BC F) (υ π : Nat → Nat → R) :
    E.residual pm bc υ π ≤ 0 ↔ E.Solution pm bc υ π := by
  have hsq : ∀ (n : Nat → Nat) (r : Nat → Nat → R),
      0 ≤ ∑ e ∈ range pm.elemEdges.length, ∑ a ∈ range (n e), r e a ^ 2 := fun n r =>
    sum_nonneg fun e _ => sum_nonneg fun a _ => sq_nonneg _
  have hz : ∀ (n : Nat → Nat) (r : Nat → Nat → R),
      ∑ e ∈ range pm.elemEdges.length, ∑ a ∈ range (n e), r e a ^ 2 = 0 →
      ∀ e a, e < pm.elemEdges.length → a < n e → r e a = 0 := by
    intro n r h e a he ha
    have h1 := (sum_eq_zero_iff_of_nonneg fun e _ => sum_nonneg fun a _ => sq_nonneg (r e a)).1 h e (mem_range.2 he)
    have h2 := (sum_eq_zero_iff_of_nonneg fun a _ => sq_nonneg (r e a)).1 h1 a (mem_range.2 ha)
    exact pow_eq_zero_iff two_ne_zero |>.1 h2
  unfold SteadyEq.residual
  constructor
  · intro h
    have a1 := hsq E.W.nt (E.momentum pm bc υ π)
    have a2 := hsq E.W'.nt (E.mass pm bc υ)
    exact ⟨hz _ _ (le_antisymm (by linarith) a1), hz _ _ (le_antisymm (by linarith) a2)⟩
  · rintro ⟨h1, h2⟩
    refine le_of_eq ?_
    rw [sum_eq_zero fun e he => sum_eq_zero fun a ha => by rw [h1 e a (mem_range.1 he) (mem_range.1 ha)]; ring,
      sum_eq_zero fun e he => sum_eq_zero fun a ha => by rw [h2 e a (mem_range.1 he) (mem_range.1 ha)]; ring,
      add_zero]

theorem near_zero {n : Nat → Nat} {subs₂ : List Sub} {spaces spaces₂ : List Space} {x x₂ : Nat → Nat → R} {η : R}
    (hη : η = 0) (h : Near n η subs spaces x subs₂ spaces₂ x₂) : SameFunction n subs spaces x subs₂ spaces₂ x₂ := by
  intro k i l j e b sm s sm₂ s₂ h1 h2 h3 h4 h5 h6 hb
  have := h k i l j e b sm s sm₂ s₂ h1 h2 h3 h4 h5 h6 hb
  rw [hη] at this
  exact sub_eq_zero.1 (abs_eq_zero.1 (le_antisymm this (abs_nonneg _)))

/-- The mean is within `η` of the mean of a function that is everywhere within `η`. -/
theorem mean_near {q q₂ : Nat → Nat → R} {c η : R} {e₀ a₀ : Nat} (he₀ : e₀ < pm.elemEdges.length)
    (ha₀ : a₀ < E.W'.nt e₀)
    (h : ∀ e a, e < pm.elemEdges.length → a < E.W'.nt e → |q e a - (q₂ e a + c)| ≤ η) :
    |E.mean pm q - (E.mean pm q₂ + c)| ≤ η := by
  set N : R := ((∑ e ∈ range pm.elemEdges.length, E.W'.nt e : Nat) : R) with hNdef
  have hN : 0 < N := by
    rw [hNdef, Nat.cast_pos]
    have := single_le_sum (f := E.W'.nt) (fun _ _ => Nat.zero_le _) (mem_range.2 he₀)
    omega
  have hc : ∀ z : R, z * N = ∑ e ∈ range pm.elemEdges.length, ∑ _a ∈ range (E.W'.nt e), z := by
    intro z
    rw [hNdef]
    push_cast
    rw [mul_sum]
    refine sum_congr rfl fun e _ => ?_
    rw [sum_const, card_range, nsmul_eq_mul, mul_comm]
  have hdiff : E.mean pm q - (E.mean pm q₂ + c) =
      (∑ e ∈ range pm.elemEdges.length, ∑ a ∈ range (E.W'.nt e), (q e a - (q₂ e a + c))) / N := by
    rw [eq_div_iff hN.ne']
    unfold SteadyEq.mean
    rw [← hNdef, sub_mul, add_mul, div_mul_cancel₀ _ hN.ne', div_mul_cancel₀ _ hN.ne', hc c]
    simp only [sum_sub_distrib, sum_add_distrib]
  rw [hdiff, abs_div, abs_of_pos hN, div_le_iff₀ hN, hc η]
  refine (abs_sum_le_sum_abs _ _).trans (sum_le_sum fun e he => ?_)
  exact (abs_sum_le_sum_abs _ _).trans (sum_le_sum fun a ha => h e a (mem_range.1 he) (mem_range.1 ha))

/-- C119: two runs on two divisions of the same mesh.  If both nonlinear solvers report convergence, with goals of
at most `ε`, and the equations of the undivided mesh determine velocity and pressure up to `η` from residuals of at
most `ε`, then the two stored velocities differ nowhere by more than `η`, and the two stored pressures by not more
than `η`, or `2 η` where the mean was subtracted.  The initial guesses may be different functions. -/
theorem steady_runs_near {subs₂ : List Sub} {φ₂ : Nat → Nat → Nat} {uspaces₂ pspaces₂ : List Space}
    {I₂ : SteadyInput R δ F} (hE : E.Consistent) (hbc : Conditions pm bc) (hfun : HasFunctions bc)
    {presDbc : Bool} {ε η : R} (hst : E.Stable pm bc presDbc ε η)
    (D : Division pm subs φ g) (hcov : Covers pm subs) (H : SteadyForms E pm subs φ uspaces pspaces I)
    (D₂ : Division pm subs₂ φ₂ g) (hcov₂ : Covers pm subs₂)
    (H₂ : SteadyForms E pm subs₂ φ₂ uspaces₂ pspaces₂ I₂)
    {newton newton₂ : Newton R} {goal goal₂ : R → R} (hN : ConvergesBelow newton goal)
    (hN₂ : ConvergesBelow newton₂ goal₂) {guess guess₂ : Guess R} {υ₀ π₀ υ₁ π₁ : Nat → Nat → R}
    (hG : StartsAt E.W.nt E.W'.nt subs uspaces pspaces υ₀ π₀ guess)
    (hG₂ : StartsAt E.W.nt E.W'.nt subs₂ uspaces₂ pspaces₂ υ₁ π₁ guess₂)
    (hgoal : goal (E.residual pm bc υ₀ π₀) ≤ ε) (hgoal₂ : goal₂ (E.residual pm bc υ₁ π₁) ≤ ε) (gen gen₂ : Bool)
    {st st₂ st' st₂' : Sol R} (hU : HasSizes st.U (flowSizes subs uspaces pspaces))
    (hU₂ : HasSizes st₂.U (flowSizes subs₂ uspaces₂ pspaces₂))
    (hrun : steadyRun newton bc pm subs uspaces pspaces I presDbc guess gen st = .ok (true, st'))
    (hrun₂ : steadyRun newton₂ bc pm subs₂ uspaces₂ pspaces₂ I₂ presDbc guess₂ gen₂ st₂ = .ok (true, st₂')) :
    Near E.W.nt η subs uspaces (flowPart (sizeIn uspaces) (sizeIn pspaces) st'.U.data 0) subs₂ uspaces₂
      (flowPart (sizeIn uspaces₂) (sizeIn pspaces₂) st₂'.U.data 0) ∧
    Near E.W'.nt (if presDbc then η else 2 * η) subs pspaces
      (flowPart (sizeIn uspaces) (sizeIn pspaces) st'.U.data 1) subs₂ pspaces₂
      (flowPart (sizeIn uspaces₂) (sizeIn pspaces₂) st₂'.U.data 1) := by
  rcases steady_run hE D hcov hbc hfun H presDbc hN hG gen hU with ⟨_, _, _, _, -, h⟩ | h
  · rw [hrun] at h; cases h
  rcases steady_run hE D₂ hcov₂ hbc hfun H₂ presDbc hN₂ hG₂ gen₂ hU₂ with ⟨_, _, _, _, -, h'⟩ | h'
  · rw [hrun₂] at h'; cases h'
  obtain ⟨conv, st1, υ, q, r1, -, r2, r3, r4, -⟩ := h
  obtain ⟨conv₂, st2, υ₂, q₂, s1, -, s2, s3, s4, -⟩ := h'
  rw [hrun] at r1; cases r1
  rw [hrun₂] at s1; cases s1
  obtain ⟨u1, c, u2, u3⟩ := hst υ q υ₂ q₂ ((r4 rfl).trans hgoal) ((s4 rfl).trans hgoal₂)
  have inside : ∀ {k i e : Nat} {sm : Sub}, subs[k]? = some sm → sm.elemMap[i]? = some e →
      e < pm.elemEdges.length := fun hk hi => (hcov _).1 ⟨_, (show At subs _ _ _ from ⟨_, hk, hi⟩).owns⟩
  refine ⟨?_, ?_⟩
  · intro k i l j e b sm sp sm₂ sp₂ d1 d2 d3 e1 e2 e3 hb
    rw [r2 k sm sp i e b d1 d2 d3 hb, s2 l sm₂ sp₂ j e b e1 e2 e3 hb]
    exact u1 e b (inside d1 d3) hb
  · intro k i l j e b sm sp sm₂ sp₂ d1 d2 d3 e1 e2 e3 hb
    rw [r3 k sm sp i e b d1 d2 d3 hb, s3 l sm₂ sp₂ j e b e1 e2 e3 hb]
    have he := inside d1 d3
    have h1 := u3 e b he hb
    cases presDbc with
    | true =>
      simp only [if_true]
      rw [u2 rfl, add_zero] at h1
      exact h1
    | false =>
      have h2 := mean_near he hb u3
      simp only [Bool.false_eq_true, if_false]
      rw [abs_le] at h1 h2 ⊢
      constructor <;> linarith [h1.1, h1.2, h2.1, h2.2]

/-- C119: if the nonlinear solvers converge to residual zero, and the equations of the undivided mesh have one
solution, the runs on two divisions store the same velocity and the same pressure. -/
theorem steady_runs_agree {subs₂ : List Sub} {φ₂ : Nat → Nat → Nat} {uspaces₂ pspaces₂ : List Space}
    {I₂ : SteadyInput R δ F} (hE : E.Consistent) (hbc : Conditions pm bc) (hfun : HasFunctions bc)
    {presDbc : Bool} (huni : E.Unique pm bc presDbc)
    (D : Division pm subs φ g) (hcov : Covers pm subs) (H : SteadyForms E pm subs φ uspaces pspaces I)
    (D₂ : Division pm subs₂ φ₂ g) (hcov₂ : Covers pm subs₂)
    (H₂ : SteadyForms E pm subs₂ φ₂ uspaces₂ pspaces₂ I₂)
    {newton newton₂ : Newton R} (hN : ConvergesBelow newton fun _ => 0)
    (hN₂ : ConvergesBelow newton₂ fun _ => 0) {guess guess₂ : Guess R} {υ₀ π₀ υ₁ π₁ : Nat → Nat → R}
    (hG : StartsAt E.W.nt E.W'.nt subs uspaces pspaces υ₀ π₀ guess)
    (hG₂ : StartsAt E.W.nt E.W'.nt subs₂ uspaces₂ pspaces₂ υ₁ π₁ guess₂) (gen gen₂ : Bool)
    {st st₂ st' st₂' : Sol R} (hU : HasSizes st.U (flowSizes subs uspaces pspaces))
    (hU₂ : HasSizes st₂.U (flowSizes subs₂ uspaces₂ pspaces₂))
    (hrun : steadyRun newton bc pm subs uspaces pspaces I presDbc guess gen st = .ok (true, st'))
    (hrun₂ : steadyRun newton₂ bc pm subs₂ uspaces₂ pspaces₂ I₂ presDbc guess₂ gen₂ st₂ = .ok (true, st₂')) :
    SameFunction E.W.nt subs uspaces (flowPart (sizeIn uspaces) (sizeIn pspaces) st'.U.data 0) subs₂ uspaces₂
      (flowPart (sizeIn uspaces₂) (sizeIn pspaces₂) st₂'.U.data 0) ∧
    SameFunction E.W'.nt subs pspaces (flowPart (sizeIn uspaces) (sizeIn pspaces) st'.U.data 1) subs₂ pspaces₂
      (flowPart (sizeIn uspaces₂) (sizeIn pspaces₂) st₂'.U.data 1) := by
  have hst : E.Stable pm bc presDbc 0 0 := by
    intro υ₁ π₁ υ₂ π₂ h1 h2
    obtain ⟨a1, c, a2, a3⟩ := huni υ₁ π₁ υ₂ π₂ ((residual_zero E pm bc υ₁ π₁).1 h1)
      ((residual_zero E pm bc υ₂ π₂).1 h2)
    exact ⟨fun e a he ha => by rw [a1 e a he ha]; simp, c, a2, fun e a he ha => by rw [a3 e a he ha]; simp⟩
  obtain ⟨n1, n2⟩ := steady_runs_near hE hbc hfun hst D hcov H D₂ hcov₂ H₂ hN hN₂ hG hG₂ le_rfl le_rfl gen gen₂
    hU hU₂ hrun hrun₂
  exact ⟨near_zero rfl n1, near_zero (by simp) n2⟩

/-! Non-vacuity: the strip of three cells, as in C111, with two degrees of freedom of the velocity and one of
the pressure per cell, as in C116. -/

/-- What MFEM could deliver for a division, without gradients. -/
def steadyInput (E : SteadyEq R F) (pm : Parent) (subs : List Sub) (φ : Nat → Nat → Nat)
    (flips : Nat → Nat → Bool) : SteadyInput R Geo F where
  views := realize E.W pm subs φ flips
  views' := realize E.W' pm subs φ flips
  ints := [innerInt E.W]
  ints' := [innerInt E.W']
  fnfi := [some (itfInt E.W)]
  fnfi' := [some (itfInt E.W')]
  Ls := realizeLoads E.Ld E.W.nt subs φ
  Ls' := realizeLoads E.Ld' E.W'.nt subs φ
  nviews := nrealize E.N pm subs φ flips
  nints := [innerVec E.N]
  nfnfi := [some (itfVec E.N)]
  gviews := []
  gints := []
  gfnfi := []

omit [LinearOrder R] [IsStrictOrderedRing R] in
/-- Every division and every problem is met. -/
theorem steadyInput_fits (hE : E.Consistent) (flips : Nat → Nat → Bool) (D : Division pm subs φ g) :
    SteadyForms E pm subs φ (subs.map fun sm => space sm.elemMap E.W.nt)
      (subs.map fun sm => space sm.elemMap E.W'.nt) (steadyInput E pm subs φ flips) := by
  refine ⟨realize_stokes E.W E.W' E.Ld E.Ld' hE.viscous hE.divergence flips D, nrealize_fits E.N flips D, ?_⟩
  show (nrealize E.N pm subs φ flips).map (·.space) = _
  rw [nrealize_sizes, hE.convection]

open Classical in
/-- A nonlinear solver that finds exact solutions where they exist. -/
noncomputable def exactNewton (R : Type) [Field R] [LE R] : Newton R := fun o _ b x0 =>
  if h : ∃ x : List R, x.length = x0.length ∧ ∃ y0 y, o.mult x0 = .ok y0 ∧ o.mult x = .ok y ∧ distance y b ≤ 0
  then .ok (h.choose, true) else .ok (x0, false)

omit [IsStrictOrderedRing R] in
theorem exactNewton_ok : ConvergesBelow (exactNewton R) (fun _ => 0) ∧ Finds (exactNewton R) 0 := by
  constructor
  · intro o gs b x0 x conv h
    unfold exactNewton at h
    split at h
    · rename_i hx
      cases h
      exact ⟨hx.choose_spec.1, fun _ => hx.choose_spec.2⟩
    · cases h
      exact ⟨rfl, fun hc => by cases hc⟩
  · rintro o gs b x0 ⟨y0, h0⟩ ⟨x, y, h1, h2, h3⟩
    unfold exactNewton
    rw [dif_pos ⟨x, h1, y0, y, h0, h2, h3⟩]
    exact ⟨_, rfl⟩

/-- Quadratic convection, also through the faces. -/
def demoSteady : SteadyEq ℚ Int where
  W := demoFlow.W
  W' := demoFlow.W'
  N := { n := fun _ => 2, vol := fun e l a => ve l 0 * ve l 0 + e + a,
         face := fun f I l a => (if I then -1 else 1) * (ve (l false) 0 * ve (l true) 0 + a) + f,
         bdr := fun f c l a => (match c with | some c => (c : ℚ) | none => 1) * ve l 0 + f + a }
  Ld := demoFlow.Ld
  Ld' := demoFlow.Ld'

theorem steady_consistent : demoSteady.Consistent := ⟨rfl, rfl, rfl⟩

theorem steady_conv {bc : BC Int} {υ υ₂ : Nat → Nat → ℚ} (h : ∀ e, e < 3 → υ e 0 = υ₂ e 0) {e a : Nat} (he : e < 3) :
    convAt true demoSteady.N demoParent bc υ e a = convAt true demoSteady.N demoParent bc υ₂ e a := by
  have hv : ∀ e, e < 3 → ve (valuesOn demoSteady.N.n υ e) 0 = ve (valuesOn demoSteady.N.n υ₂ e) 0 := by
    intro e he
    show ve (tab 2 (υ e)) 0 = ve (tab 2 (υ₂ e)) 0
    rw [ve_tab (show 0 < 2 by decide), ve_tab (show 0 < 2 by decide), h e he]
  have hf : ∀ f, f < 5 → faceConv demoSteady.N demoParent υ e a f = faceConv demoSteady.N demoParent υ₂ e a f := by
    intro f hf
    have v0 := hv 0 (by decide)
    have v1 := hv 1 (by decide)
    have v2 := hv 2 (by decide)
    simp only [demoSteady] at v0 v1 v2
    unfold faceConv
    interval_cases f <;> simp [demoParent, elemAt, demoSteady, v0, v1, v2]
  have hb : ∀ q, bdrConv demoSteady.N demoParent bc υ e a q = bdrConv demoSteady.N demoParent bc υ₂ e a q := by
    intro q
    unfold bdrConv
    split
    · split
      · have v := hv e he
        simp only [demoSteady] at v ⊢
        rw [v]
      · rfl
    · rfl
  unfold convAt
  rw [show bdrConv demoSteady.N demoParent bc υ e a = bdrConv demoSteady.N demoParent bc υ₂ e a from funext hb,
    sum_congr (s₁ := range demoParent.faces.length) rfl fun f hf' => hf f (mem_range.1 hf')]
  have v := hv e he
  simp only [demoSteady] at v ⊢
  rw [v]

/-- The equations of the example, solved. -/
theorem steady_demo {bc : BC Int} (υ π : Nat → Nat → ℚ) :
    demoSteady.Solution demoParent bc υ π ↔
      ∀ e, e < demoParent.elemEdges.length → υ e 0 = loadAt demoFlow.Ld' demoParent bc e 0 ∧
        υ e 1 = loadAt demoFlow.Ld demoParent bc e 1 - convAt true demoSteady.N demoParent bc υ e 1 ∧
        π e 0 = loadAt demoFlow.Ld demoParent bc e 0 - convAt true demoSteady.N demoParent bc υ e 0 -
          applied demoFlow.W demoParent bc υ e 0 := by
  unfold SteadyEq.Solution SteadyEq.momentum SteadyEq.mass
  constructor
  · rintro ⟨h1, h2⟩ e he
    have a0 := h1 e 0 he (show 0 < 2 by decide)
    have a1 := h1 e 1 he (show 1 < 2 by decide)
    have b0 := h2 e 0 he (show 0 < 1 by decide)
    simp only [show demoSteady.W = demoFlow.W from rfl, show demoSteady.W' = demoFlow.W' from rfl,
      show demoSteady.Ld = demoFlow.Ld from rfl, show demoSteady.Ld' = demoFlow.Ld' from rfl] at a0 a1 b0
    rw [demo_appliedT π he] at a0 a1
    rw [demo_applied υ he] at a1
    rw [demo_applied' υ he] at b0
    simp only [if_true, one_ne_zero, if_false] at a0 a1
    exact ⟨by linarith, by linarith, by linarith⟩
  · intro h
    simp only [show demoSteady.W = demoFlow.W from rfl, show demoSteady.W' = demoFlow.W' from rfl,
      show demoSteady.Ld = demoFlow.Ld from rfl, show demoSteady.Ld' = demoFlow.Ld' from rfl]
    refine ⟨?_, ?_⟩
    · intro e a he ha
      obtain ⟨h0, h1, h2⟩ := h e he
      have ha : a < 2 := ha
      rw [demo_appliedT π he]
      interval_cases a
      · rw [if_pos rfl, h2]; ring
      · rw [if_neg (by decide), demo_applied υ he, h1]; ring
    · intro e a he ha
      have ha : a < 1 := ha
      interval_cases a
      rw [demo_applied' υ he, (h e he).1]; ring

theorem steady_demo_solvable (bc : BC Int) : ∃ υ π, demoSteady.residual demoParent bc υ π ≤ 0 := by
  let υ₀ : Nat → Nat → ℚ := fun e _ => loadAt demoFlow.Ld' demoParent bc e 0
  let υ : Nat → Nat → ℚ := fun e a => if a = 0 then loadAt demoFlow.Ld' demoParent bc e 0 else
    loadAt demoFlow.Ld demoParent bc e 1 - convAt true demoSteady.N demoParent bc υ₀ e 1
  refine ⟨υ, fun e _ => loadAt demoFlow.Ld demoParent bc e 0 - convAt true demoSteady.N demoParent bc υ e 0 -
    applied demoFlow.W demoParent bc υ e 0, (residual_zero _ _ _ _ _).2 ((steady_demo υ _).2 fun e he => ⟨rfl, ?_, rfl⟩)⟩
  rw [steady_conv (υ := υ) (υ₂ := υ₀) (fun e _ => rfl) (show e < 3 from he)]
  rfl

theorem steady_demo_unique (bc : BC Int) (presDbc : Bool) : demoSteady.Unique demoParent bc presDbc := by
  intro υ₁ π₁ υ₂ π₂ h1 h2
  rw [steady_demo] at h1 h2
  have hc : ∀ e a, e < 3 → convAt true demoSteady.N demoParent bc υ₁ e a =
      convAt true demoSteady.N demoParent bc υ₂ e a := fun e a he =>
    steady_conv (fun e he => ((h1 e he).1).trans (h2 e he).1.symm) he
  have hυ : ∀ e a, e < demoParent.elemEdges.length → a < 2 → υ₁ e a = υ₂ e a := by
    intro e a he ha
    obtain ⟨a0, a1, _⟩ := h1 e he
    obtain ⟨b0, b1, _⟩ := h2 e he
    interval_cases a
    · rw [a0, b0]
    · rw [a1, b1, hc e 1 he]
  refine ⟨hυ, 0, fun _ => rfl, ?_⟩
  intro e a he ha
  have ha : a < 1 := ha
  interval_cases a
  obtain ⟨_, _, a2⟩ := h1 e he
  obtain ⟨_, _, b2⟩ := h2 e he
  have : applied demoFlow.W demoParent bc υ₁ e 0 = applied demoFlow.W demoParent bc υ₂ e 0 := by
    unfold applied
    refine sum_congr rfl fun e' he' => sum_congr rfl fun b hb => ?_
    rw [hυ e' b (mem_range.1 he') (mem_range.1 hb)]
  rw [a2, b2, this, hc e 0 he, add_zero]

theorem two_flow_sizes : HasSizes (⟨List.replicate 9 0, [0, 4, 6, 8, 9]⟩ : BlockVector ℚ)
    (flowSizes twoSubs (twoSubs.map fun sm => space sm.elemMap demoSteady.W.nt)
      (twoSubs.map fun sm => space sm.elemMap demoSteady.W'.nt)) := by
  rw [show flowSizes twoSubs (twoSubs.map fun sm => space sm.elemMap demoSteady.W.nt)
      (twoSubs.map fun sm => space sm.elemMap demoSteady.W'.nt) = [4, 2, 2, 1] by decide +kernel]
  exact ⟨Blocks.isOffsets_partialSum [4, 2, 2, 1], rfl⟩

theorem three_flow_sizes : HasSizes (⟨List.replicate 9 0, [0, 2, 3, 5, 6, 8, 9]⟩ : BlockVector ℚ)
    (flowSizes demoSubs (demoSubs.map fun sm => space sm.elemMap demoSteady.W.nt)
      (demoSubs.map fun sm => space sm.elemMap demoSteady.W'.nt)) := by
  rw [show flowSizes demoSubs (demoSubs.map fun sm => space sm.elemMap demoSteady.W.nt)
      (demoSubs.map fun sm => space sm.elemMap demoSteady.W'.nt) = [2, 1, 2, 1, 2, 1] by decide +kernel]
  exact ⟨Blocks.isOffsets_partialSum [2, 1, 2, 1, 2, 1], rfl⟩

/-- The theorems apply to the two and the three submeshes: one run starts from a loaded solution, the other from
given numbers, and they end with the same velocity and pressure. -/
example (presDbc gen : Bool) : ∃ st' st₂',
    steadyRun (exactNewton ℚ) demoBC demoParent twoSubs (twoSubs.map fun sm => space sm.elemMap demoSteady.W.nt)
      (twoSubs.map fun sm => space sm.elemMap demoSteady.W'.nt) (steadyInput demoSteady demoParent twoSubs twoPhi demoFlips)
      presDbc (.restart ⟨List.replicate 9 0, [0, 4, 6, 8, 9]⟩) gen ⟨⟨List.replicate 9 0, [0, 4, 6, 8, 9]⟩, []⟩ =
      .ok (true, st') ∧
    steadyRun (exactNewton ℚ) demoBC demoParent demoSubs (demoSubs.map fun sm => space sm.elemMap demoSteady.W.nt)
      (demoSubs.map fun sm => space sm.elemMap demoSteady.W'.nt)
      (steadyInput demoSteady demoParent demoSubs demoPhi demoFlips)
      presDbc (.random [1, 2, 3, 4, 5, 6, 7, 8, 9]) gen ⟨⟨List.replicate 9 0, [0, 2, 3, 5, 6, 8, 9]⟩, []⟩ =
      .ok (true, st₂') ∧
    SameFunction demoSteady.W.nt twoSubs (twoSubs.map fun sm => space sm.elemMap demoSteady.W.nt)
      (flowPart (sizeIn (twoSubs.map fun sm => space sm.elemMap demoSteady.W.nt))
        (sizeIn (twoSubs.map fun sm => space sm.elemMap demoSteady.W'.nt)) st'.U.data 0)
      demoSubs (demoSubs.map fun sm => space sm.elemMap demoSteady.W.nt)
      (flowPart (sizeIn (demoSubs.map fun sm => space sm.elemMap demoSteady.W.nt))
        (sizeIn (demoSubs.map fun sm => space sm.elemMap demoSteady.W'.nt)) st₂'.U.data 0) := by
  have H := steadyInput_fits steady_consistent demoFlips two_division
  have H₂ := steadyInput_fits steady_consistent demoFlips three_division
  obtain ⟨υ₁, hυ₁⟩ := represents_of (n := demoSteady.W.nt) three_division
    (spaces := demoSubs.map fun sm => space sm.elemMap demoSteady.W.nt)
    (velocity (sizeIn (demoSubs.map fun sm => space sm.elemMap demoSteady.W.nt)) [(1 : ℚ), 2, 3, 4, 5, 6, 7, 8, 9])
  obtain ⟨π₁, hπ₁⟩ := represents_of (n := demoSteady.W'.nt) three_division
    (spaces := demoSubs.map fun sm => space sm.elemMap demoSteady.W'.nt)
    (pressure demoSubs.length (sizeIn (demoSubs.map fun sm => space sm.elemMap demoSteady.W.nt))
      (sizeIn (demoSubs.map fun sm => space sm.elemMap demoSteady.W'.nt)) [(1 : ℚ), 2, 3, 4, 5, 6, 7, 8, 9])
  have zero : ∀ (uz pz : Nat → Nat) v k r, flowPart uz pz (List.replicate 9 (0 : ℚ)) v k r = 0 := by
    intro uz pz v k r
    unfold flowPart ve
    rw [List.getElem?_replicate]
    split <;> rfl
  have hG : StartsAt demoSteady.W.nt demoSteady.W'.nt twoSubs
      (twoSubs.map fun sm => space sm.elemMap demoSteady.W.nt)
      (twoSubs.map fun sm => space sm.elemMap demoSteady.W'.nt) (fun _ _ => 0) (fun _ _ => 0)
      (.restart ⟨List.replicate 9 (0 : ℚ), [0, 4, 6, 8, 9]⟩) :=
    ⟨two_flow_sizes, fun k sm s i e a _ _ _ _ => zero _ _ _ _ _, fun k sm s i e a _ _ _ _ => zero _ _ _ _ _⟩
  have hG₂ : StartsAt demoSteady.W.nt demoSteady.W'.nt demoSubs
      (demoSubs.map fun sm => space sm.elemMap demoSteady.W.nt)
      (demoSubs.map fun sm => space sm.elemMap demoSteady.W'.nt) υ₁ π₁ (.random [1, 2, 3, 4, 5, 6, 7, 8, 9]) :=
    ⟨by decide +kernel, hυ₁, hπ₁⟩
  obtain ⟨st', r⟩ := steady_converges steady_consistent two_division demo_covers.2.1 demo_conditions demo_functions
    H presDbc exactNewton_ok.1 exactNewton_ok.2 (steady_demo_solvable _) hG gen
    (st := ⟨⟨List.replicate 9 0, [0, 4, 6, 8, 9]⟩, []⟩) two_flow_sizes
  obtain ⟨st₂', r₂⟩ := steady_converges steady_consistent three_division demo_covers.2.2 demo_conditions
    demo_functions H₂ presDbc exactNewton_ok.1 exactNewton_ok.2 (steady_demo_solvable _) hG₂ gen
    (st := ⟨⟨List.replicate 9 0, [0, 2, 3, 5, 6, 8, 9]⟩, []⟩) three_flow_sizes
  exact ⟨st', st₂', r, r₂, (steady_runs_agree steady_consistent demo_conditions demo_functions
    (steady_demo_unique _ presDbc) two_division demo_covers.2.1 H three_division demo_covers.2.2 H₂
    exactNewton_ok.1 exactNewton_ok.1 hG hG₂ gen gen two_flow_sizes three_flow_sizes r r₂).1⟩

end Verif.Divide
