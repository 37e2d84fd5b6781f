import Verif.Proofs.DivideNewton
import Verif.Props.DivideSteady
import Verif.Props.DivideDeriv
import Mathlib.LinearAlgebra.FiniteDimensional.Basic

/-!
# C120: dividing a mesh does not change the iterates of Newton's method

`Verif.Model.DivideNewton` is the nonlinear solver that `SteadyNSSolver::Solve` uses; `Verif.Spec.DivideNewton` says
what Newton's method is on the undivided mesh.
-/

namespace Verif.Divide

open Verif Verif.LinAlg Verif.LinAlg.Spec Verif.SubMesh Verif.SubMesh.Spec Finset Spec
open Verif.InterfaceForm (Space)
open Verif.InterfaceForm.Spec (sizeIn)
open Verif.Boundary (BC)
open Verif.Blocks (BlockVector)
open Verif.Blocks.Spec (HasSizes)
open Verif.Unsteady (first_bound)
open Verif.Unsteady.Spec (first)
open Verif.SteadyNS (Guess Sol)
open Verif.SteadyNS.Spec (Flow)

variable {R δ F : Type} [Field R] {pm : Parent} {subs : List Sub}
variable {φ : Nat → Nat → Nat} {g : Int} {E : SteadyEq R F} {G : Grad R F} {bc : BC F} {I : SteadyInput R δ F}
variable {uspaces pspaces : List Space}

/-- C120: the gradient handed to the linear solver on a division is the linearisation of the equations of the
undivided mesh: at every vector that is a velocity `υ`, applied to every vector that is a velocity `ζ` with a
pressure `κ`, it gives at every degree of freedom the linearised momentum or mass equation there. -/
theorem steady_gradient (hE : E.Consistent) (D : Division pm subs φ g) (hcov : Covers pm subs)
    (hbc : Conditions pm bc) (hfun : HasFunctions bc) (H : SteadyForms E pm subs φ uspaces pspaces I)
    (HG : GradForms E G pm subs φ uspaces I) (presDbc : Bool) :
    ∃ s rhs, steadySetup bc pm subs uspaces pspaces I presDbc = .ok (s, rhs) ∧
      ∀ x υ, x.length = unknowns subs uspaces pspaces →
        Represents subs uspaces E.W.nt (velocity (sizeIn uspaces) x) υ →
        ∃ J gs, s.oper.gradient (fun _ => none) x = .ok (J, gs) ∧ J.h = unknowns subs uspaces pspaces ∧
          J.w = unknowns subs uspaces pspaces ∧
          ∀ z ζ κ, z.length = unknowns subs uspaces pspaces →
            Represents subs uspaces E.W.nt (velocity (sizeIn uspaces) z) ζ →
            Represents subs pspaces E.W'.nt (pressure subs.length (sizeIn uspaces) (sizeIn pspaces) z) κ →
            Represents subs uspaces E.W.nt
              (velocity (sizeIn uspaces) (tab J.h fun r => ∑ c ∈ range J.w, J.val r c * ve z c))
              (E.linMomentum G pm bc υ ζ κ) ∧
            Represents subs pspaces E.W'.nt
              (pressure subs.length (sizeIn uspaces) (sizeIn pspaces)
                (tab J.h fun r => ∑ c ∈ range J.w, J.val r c * ve z c)) (applied E.W' pm bc ζ) := by
  obtain ⟨s, rhs, P, p1, p2, -, -, -, p6, p7, p8, p9, p10⟩ := newton_problem hE D hcov hbc hfun H HG presDbc
  have N : OnDivision E G pm bc subs uspaces pspaces s.oper P := ⟨p2, p6, p7, p8, p9, p10⟩
  have hun : unknowns subs uspaces pspaces = P.NU + P.NP := by rw [N.NU, N.NP]; rfl
  refine ⟨s, rhs, p1, fun x υ hx hυ => ?_⟩
  rw [hun] at hx
  obtain ⟨J, gs', j1, -, j3, j4, j5⟩ := SteadyNS.gradient_ok N.ok (gs := fun _ => none)
    (fun _ _ _ h => by cases h) hx
  refine ⟨J, gs', j1, j3.trans hun.symm, j4.trans hun.symm, fun z ζ κ _ hζ hκ => ?_⟩
  obtain ⟨r1, r2⟩ := grad_rows D hcov H HG.sizes N j5 hυ (z := ve z) ⟨hζ, hκ⟩
  constructor
  · intro k sm sp i e a a1 a2 a3 a4
    have hlt : k < P.n := by rw [N.n]; exact (List.getElem?_eq_some_iff.1 a1).1
    have hr : pos sp i a < P.nu k := by rw [N.nu]; exact dof_lt H.uspace a1 a2 a3 a4
    have := first_bound P.nu hlt
    unfold velocity
    rw [ve_tab (by rw [j3, ← N.nu]; unfold Flow.NU; omega), j4, ← N.nu]
    exact r1 k i e a sm sp a1 a2 a3 a4
  · intro k sm sp i e a a1 a2 a3 a4
    have hlt : k < P.n := by rw [N.n]; exact (List.getElem?_eq_some_iff.1 a1).1
    have hr : pos sp i a < P.np k := by rw [N.np]; exact dof_lt H.pspace a1 a2 a3 a4
    have := first_bound P.np hlt
    unfold pressure
    rw [← N.NU, ve_tab (by rw [j3, ← N.np]; unfold Flow.NP; omega), j4, ← N.np]
    exact r2 k i e a sm sp a1 a2 a3 a4

variable [LinearOrder R]

/-- What the run stores after Newton's method on the undivided mesh ended with `conv`, `υ` and `q`. -/
def Stores (E : SteadyEq R F) (pm : Parent) (subs : List Sub) (uspaces pspaces : List Space) (presDbc gen : Bool)
    (st st' : Sol R) (conv : Bool) (υ q : Nat → Nat → R) : Prop :=
  HasSizes st'.U (flowSizes subs uspaces pspaces) ∧
    Represents subs uspaces E.W.nt (flowPart (sizeIn uspaces) (sizeIn pspaces) st'.U.data 0) υ ∧
    Represents subs pspaces E.W'.nt (flowPart (sizeIn uspaces) (sizeIn pspaces) st'.U.data 1)
      (fun e a => if presDbc then q e a else q e a - E.mean pm q) ∧
    st'.saved = if conv && gen then st.saved ++ [st'.U] else st.saved

/-- Newton's method on the undivided mesh ends, and the run on the division follows it. -/
theorem newton_both (hE : E.Consistent) (D : Division pm subs φ g) (hcov : Covers pm subs)
    (hbc : Conditions pm bc) (hfun : HasFunctions bc) (H : SteadyForms E pm subs φ uspaces pspaces I)
    (HG : GradForms E G pm subs φ uspaces I) (hreg : E.Regular G pm bc) (presDbc : Bool) {lin : LinSolver R}
    (hlin : SolvesRegular lin) (maxIter : Nat) (rtol atol : R) {guess : Guess R} {υ₀ π₀ : Nat → Nat → R}
    (hG : StartsAt E.W.nt E.W'.nt subs uspaces pspaces υ₀ π₀ guess) (gen : Bool)
    {st : Sol R} (hU : HasSizes st.U (flowSizes subs uspaces pspaces)) :
    (∃ conv υ q, E.NewtonRun G pm bc (max (rtol * rtol * E.residual pm bc υ₀ π₀) (atol * atol)) maxIter υ₀ π₀
      conv υ q) ∧
    ∀ conv υ q, E.NewtonRun G pm bc (max (rtol * rtol * E.residual pm bc υ₀ π₀) (atol * atol)) maxIter υ₀ π₀
      conv υ q → ∃ st', steadyRun (newtonMult lin maxIter rtol atol) bc pm subs uspaces pspaces I presDbc guess gen st =
        .ok (conv, st') ∧ Stores E pm subs uspaces pspaces presDbc gen st st' conv υ q := by
  obtain ⟨s, rhs, P, p1, p2, p3, p4, p5, p6, p7, p8, p9, p10⟩ := newton_problem hE D hcov hbc hfun H HG presDbc
  have N : OnDivision E G pm bc subs uspaces pspaces s.oper P := ⟨p2, p6, p7, p8, p9, p10⟩
  have hNU := N.NU
  have hNP := N.NP
  have hsz : P.sizes = flowSizes subs uspaces pspaces := by unfold Flow.sizes flowSizes; rw [p6, p7, p8]
  have hgu : P.GuessOk guess := by
    cases guess with
    | restart u => show HasSizes u P.sizes; rw [hsz]; exact hG.1
    | random v => show v.length = P.NU + P.NP; rw [hNU, hNP]; exact hG.1
  obtain ⟨b, x0, s1, s2, s3, s4, s5, -, s7⟩ := SteadyNS.solve_ok p2 p3 p4 hgu gen (st := st)
    (by rw [hsz]; exact hU) (newtonMult lin maxIter rtol atol) (fun _ => none)
  have hrun : steadyRun (newtonMult lin maxIter rtol atol) bc pm subs uspaces pspaces I presDbc guess gen st =
      s.solve (newtonMult lin maxIter rtol atol) (fun _ => none) rhs guess gen st := by
    unfold steadyRun
    rw [p1, ok_bind]
  have vel : ∀ (U : BlockVector R) m k, P.vel U m k = flowPart (sizeIn uspaces) (sizeIn pspaces) U.data 0 m k := by
    intro U m k
    unfold Flow.vel flowPart
    rw [at_eq, if_pos rfl, p7, p8]
  have pres : ∀ (U : BlockVector R) m k, P.pres U m k = flowPart (sizeIn uspaces) (sizeIn pspaces) U.data 1 m k := by
    intro U m k
    unfold Flow.pres flowPart
    rw [at_eq, if_neg (by decide), p7, p8]
  have hlt : ∀ {k : Nat} {sm : Sub}, subs[k]? = some sm → k < P.n := fun hk => by
    rw [p6]; exact (List.getElem?_eq_some_iff.1 hk).1
  have hru : ∀ {k i e a : Nat} {sm : Sub} {sp : Space}, subs[k]? = some sm → uspaces[k]? = some sp →
      sm.elemMap[i]? = some e → a < E.W.nt e → pos sp i a < P.nu k := fun hk hs hi ha => by
    rw [p7]; exact dof_lt H.uspace hk hs hi ha
  have hrp : ∀ {k i e a : Nat} {sm : Sub} {sp : Space}, subs[k]? = some sm → pspaces[k]? = some sp →
      sm.elemMap[i]? = some e → a < E.W'.nt e → pos sp i a < P.np k := fun hk hs hi ha => by
    rw [p8]; exact dof_lt H.pspace hk hs hi ha
  have hstart : Both E subs uspaces pspaces (ve x0) υ₀ π₀ := by
    cases guess with
    | random v =>
      have : x0 = v := s5
      subst this
      exact ⟨hG.2.1, hG.2.2⟩
    | restart u =>
      obtain ⟨-, t1, t2⟩ : P.Holds u (ve x0) fun c => ve x0 (P.NU + c) := s5
      refine ⟨?_, ?_⟩
      · intro k sm sp i e a hk hs hi ha
        rw [← hG.2.1 k sm sp i e a hk hs hi ha, ← vel, t1 k _ (hlt hk) (hru hk hs hi ha), p7]
        rfl
      · intro k sm sp i e a hk hs hi ha
        rw [← hG.2.2 k sm sp i e a hk hs hi ha, ← pres, t2 k _ (hlt hk) (hrp hk hs hi ha), p8, hNU]
        rfl
  have hb : IsRhs P b := ⟨s1, s3, s4⟩
  obtain ⟨l1, l2⟩ := loop_ok D hcov H HG.sizes hreg N hlin hb
    (max (rtol * rtol * E.residual pm bc υ₀ π₀) (atol * atol)) maxIter (fun _ => none) x0 υ₀ π₀
    (fun _ _ _ h => by cases h) s2 hstart
  refine ⟨l1, fun conv υ q hr => ?_⟩
  obtain ⟨x, x1, lx, hυ, hq⟩ := l2 conv υ q hr
  obtain ⟨r, r1, -, r3, -⟩ := residual_ok D hcov H N hb s2 hstart
  obtain ⟨U, u1, u2, u3, u4⟩ := s7 x conv (by
    unfold newtonMult
    rw [r1, ok_bind, r3, x1]) lx
  refine ⟨_, hrun.trans u1, by rw [← hsz]; exact u2, ?_, ?_, rfl⟩
  · intro k sm sp i e a hk hs hi ha
    rw [← hυ k sm sp i e a hk hs hi ha, ← vel, u3 k _ (hlt hk) (hru hk hs hi ha), p7]
    rfl
  · intro k sm sp i e a hk hs hi ha
    rw [← pres, u4 k _ (hlt hk) (hrp hk hs hi ha)]
    have hm := steady_mean D hcov H (q := fun c => ve x (P.NU + c)) (π := q) (by rw [hNU]; exact hq)
    unfold SteadyNS.Spec.stored
    dsimp only
    rw [p5, show ve x (P.NU + (first P.np k + pos sp i a)) = q e a by
        rw [p8, hNU]; exact hq k sm sp i e a hk hs hi ha, hNP, hm]

/-- C120: on every division, whatever the guess, the tolerances and the number of steps, `Assemble` and `Solve`
end without an error, and they do what Newton's method does on the undivided mesh from the same initial guess: every
iterate, the decision to stop, and the stored solution.  Unless a pressure is prescribed its mean over the whole mesh
is subtracted; the solution is saved only after convergence. -/
theorem newton_run (hE : E.Consistent) (D : Division pm subs φ g) (hcov : Covers pm subs)
    (hbc : Conditions pm bc) (hfun : HasFunctions bc) (H : SteadyForms E pm subs φ uspaces pspaces I)
    (HG : GradForms E G pm subs φ uspaces I) (hreg : E.Regular G pm bc) (presDbc : Bool) {lin : LinSolver R}
    (hlin : SolvesRegular lin) (maxIter : Nat) (rtol atol : R) {guess : Guess R} {υ₀ π₀ : Nat → Nat → R}
    (hG : StartsAt E.W.nt E.W'.nt subs uspaces pspaces υ₀ π₀ guess) (gen : Bool)
    {st : Sol R} (hU : HasSizes st.U (flowSizes subs uspaces pspaces)) :
    ∃ conv st' υ q,
      steadyRun (newtonMult lin maxIter rtol atol) bc pm subs uspaces pspaces I presDbc guess gen st =
        .ok (conv, st') ∧
      E.NewtonRun G pm bc (max (rtol * rtol * E.residual pm bc υ₀ π₀) (atol * atol)) maxIter υ₀ π₀ conv υ q ∧
      HasSizes st'.U (flowSizes subs uspaces pspaces) ∧
      Represents subs uspaces E.W.nt (flowPart (sizeIn uspaces) (sizeIn pspaces) st'.U.data 0) υ ∧
      Represents subs pspaces E.W'.nt (flowPart (sizeIn uspaces) (sizeIn pspaces) st'.U.data 1)
        (fun e a => if presDbc then q e a else q e a - E.mean pm q) ∧
      st'.saved = if conv && gen then st.saved ++ [st'.U] else st.saved := by
  obtain ⟨⟨conv, υ, q, h1⟩, h2⟩ := newton_both hE D hcov hbc hfun H HG hreg presDbc hlin maxIter rtol atol hG gen hU
  obtain ⟨st', a1, a2, a3, a4, a5⟩ := h2 conv υ q h1
  exact ⟨conv, st', υ, q, a1, h1, a2, a3, a4, a5⟩

/-- C120: two runs on two divisions of the same mesh that start from the same velocity and pressure, with the same
tolerances and number of steps: both converge or neither does, and they store the same velocity and the same
pressure, also if they stop early. -/
theorem newton_runs_agree {subs₂ : List Sub} {φ₂ : Nat → Nat → Nat} {uspaces₂ pspaces₂ : List Space}
    {I₂ : SteadyInput R δ F} (hE : E.Consistent) (hbc : Conditions pm bc) (hfun : HasFunctions bc)
    (hreg : E.Regular G pm bc) (presDbc : Bool)
    (D : Division pm subs φ g) (hcov : Covers pm subs) (H : SteadyForms E pm subs φ uspaces pspaces I)
    (HG : GradForms E G pm subs φ uspaces I)
    (D₂ : Division pm subs₂ φ₂ g) (hcov₂ : Covers pm subs₂)
    (H₂ : SteadyForms E pm subs₂ φ₂ uspaces₂ pspaces₂ I₂) (HG₂ : GradForms E G pm subs₂ φ₂ uspaces₂ I₂)
    {lin lin₂ : LinSolver R} (hlin : SolvesRegular lin) (hlin₂ : SolvesRegular lin₂) (maxIter : Nat) (rtol atol : R)
    {guess guess₂ : Guess R} {υ₀ π₀ : Nat → Nat → R}
    (hG : StartsAt E.W.nt E.W'.nt subs uspaces pspaces υ₀ π₀ guess)
    (hG₂ : StartsAt E.W.nt E.W'.nt subs₂ uspaces₂ pspaces₂ υ₀ π₀ guess₂) (gen gen₂ : Bool)
    {st st₂ : Sol R} (hU : HasSizes st.U (flowSizes subs uspaces pspaces))
    (hU₂ : HasSizes st₂.U (flowSizes subs₂ uspaces₂ pspaces₂)) :
    ∃ conv st' st₂',
      steadyRun (newtonMult lin maxIter rtol atol) bc pm subs uspaces pspaces I presDbc guess gen st =
        .ok (conv, st') ∧
      steadyRun (newtonMult lin₂ maxIter rtol atol) bc pm subs₂ uspaces₂ pspaces₂ I₂ presDbc guess₂ gen₂ st₂ =
        .ok (conv, st₂') ∧
      SameFunction E.W.nt subs uspaces (flowPart (sizeIn uspaces) (sizeIn pspaces) st'.U.data 0) subs₂ uspaces₂
        (flowPart (sizeIn uspaces₂) (sizeIn pspaces₂) st₂'.U.data 0) ∧
      SameFunction E.W'.nt subs pspaces (flowPart (sizeIn uspaces) (sizeIn pspaces) st'.U.data 1) subs₂ pspaces₂
        (flowPart (sizeIn uspaces₂) (sizeIn pspaces₂) st₂'.U.data 1) := by
  obtain ⟨⟨conv, υ, q, h1⟩, h2⟩ := newton_both hE D hcov hbc hfun H HG hreg presDbc hlin maxIter rtol atol hG gen hU
  obtain ⟨-, h3⟩ := newton_both hE D₂ hcov₂ hbc hfun H₂ HG₂ hreg presDbc hlin₂ maxIter rtol atol hG₂ gen₂ hU₂
  obtain ⟨st', a1, -, a3, a4, -⟩ := h2 conv υ q h1
  obtain ⟨st₂', b1, -, b3, b4, -⟩ := h3 conv υ q h1
  exact ⟨conv, st', st₂', a1, b1, same_of_represents a3 b3, same_of_represents a4 b4⟩

/-- C120: Newton's method reports convergence exactly if the squared residual it ends with is at most the goal. -/
theorem newton_converged {goal : R} {left : Nat} {υ π υ' π' : Nat → Nat → R} {conv : Bool}
    (h : E.NewtonRun G pm bc goal left υ π conv υ' π') : conv = true ↔ E.residual pm bc υ' π' ≤ goal := by
  induction h with
  | done h => exact iff_of_true rfl h
  | stop h => exact iff_of_false (by decide) h
  | step _ _ _ ih => exact ih

/-- C120: if the element gradients are the derivatives of the element integrals, the linearised equations of the
undivided mesh are the derivatives of its equations, in every direction. -/
theorem linearised_is_derivative {E : SteadyEq ℝ F} {G : Grad ℝ F} (hE : E.Consistent) (hD : Differentiates pm E.N G)
    (D : Division pm subs φ g) (hcov : Covers pm subs) (υ π ζ κ : Nat → Nat → ℝ) {e a : Nat}
    (he : e < pm.elemEdges.length) :
    (a < E.W.nt e → HasDerivAt (fun t => E.momentum pm bc (fun e b => υ e b + t * ζ e b)
      (fun e b => π e b + t * κ e b) e a) (E.linMomentum G pm bc υ ζ κ e a) 0) ∧
    HasDerivAt (fun t => E.mass pm bc (fun e b => υ e b + t * ζ e b) e a) (applied E.W' pm bc ζ e a) 0 := by
  have lin : ∀ a b : ℝ, HasDerivAt (fun t : ℝ => a + t * b) b 0 := by
    intro a b
    simpa using ((hasDerivAt_id (0 : ℝ)).mul_const b).const_add a
  have happ : ∀ W : Whole ℝ, HasDerivAt (fun t => applied W pm bc (fun e b => υ e b + t * ζ e b) e a)
      (applied W pm bc ζ e a) 0 := by
    intro W
    unfold applied
    exact HasDerivAt.fun_sum fun e' _ => HasDerivAt.fun_sum fun b _ => (lin _ _).const_mul _
  have happT : HasDerivAt (fun t => appliedT E.W' pm bc (fun e b => π e b + t * κ e b) e a)
      (appliedT E.W' pm bc κ e a) 0 := by
    unfold appliedT
    exact HasDerivAt.fun_sum fun e' _ => HasDerivAt.fun_sum fun b _ => (lin _ _).const_mul _
  refine ⟨fun ha => ?_, (happ E.W').sub_const _⟩
  exact ((conv_deriv (ξ := υ) (ζ := ζ) true hD (facesIn D hcov) he (by rw [hE.convection]; exact ha)).add
    ((happ E.W).add happT)).sub_const _

/-! Non-vacuity: the strip of three cells with the equations of C119. -/

open Classical in
/-- A direct solver. -/
noncomputable def exactLin (R : Type) [Field R] : LinSolver R := fun J r =>
  if h : ∃ c : List R, c.length = J.w ∧ ∀ i, i < J.h → ∑ j ∈ range J.w, J.val i j * ve c j = ve r i
  then .ok h.choose else .error .abort

omit [LinearOrder R] in
theorem exactLin_ok : SolvesRegular (exactLin R) := by
  intro J r n hh hw hr hinj
  have hex : ∃ c : List R, c.length = n ∧ ∀ i, i < n → ∑ j ∈ range n, J.val i j * ve c j = ve r i := by
    let f : (Fin n → R) →ₗ[R] (Fin n → R) :=
      { toFun := fun v i => ∑ j : Fin n, J.val i j * v j
        map_add' := by intro v w; ext i; simp [mul_add, sum_add_distrib]
        map_smul' := by intro c v; ext i; simp [mul_sum, mul_left_comm] }
    have ext_ : ∀ (v : Fin n → R) (i : Fin n),
        f v i = ∑ j ∈ range n, J.val i j * (if h : j < n then v ⟨j, h⟩ else 0) := by
      intro v i
      rw [sum_range]
      show ∑ j : Fin n, J.val i j * v j = _
      refine sum_congr rfl fun j _ => ?_
      rw [dif_pos j.2]
    have hf : Function.Injective f := by
      rw [← LinearMap.ker_eq_bot, LinearMap.ker_eq_bot']
      intro v hv
      ext j
      have := hinj (fun j => if h : j < n then v ⟨j, h⟩ else 0) (fun i hi => by
        rw [← ext_ v ⟨i, hi⟩, hv]; rfl) j j.2
      rw [dif_pos j.2] at this
      exact this
    obtain ⟨v, hv⟩ := LinearMap.injective_iff_surjective.1 hf fun i => ve r i
    refine ⟨tab n fun j => if h : j < n then v ⟨j, h⟩ else 0, length_tab _ _, fun i hi => ?_⟩
    have h1 := congrFun hv ⟨i, hi⟩
    rw [ext_] at h1
    rw [← h1]
    exact sum_congr rfl fun j hj => by rw [ve_tab (mem_range.1 hj)]
  unfold exactLin
  rw [hh, hw, dif_pos hex]
  exact ⟨_, rfl, hex.choose_spec⟩

/-- The derivatives of the convective integrals of `demoSteady`. -/
def steadyGrad : Grad ℚ Int where
  n _ := 2
  vol _ l _ b := if b = 0 then 2 * ve l 0 else 0
  face _ I J l _ b := if b = 0 then (if I then -1 else 1) * (if J then ve (l false) 0 else ve (l true) 0) else 0
  bdr _ c _ _ b := if b = 0 then (match c with | some c => (c : ℚ) | none => 1) else 0

theorem steadyGrad_zero {bc : BC Int} (υ : Nat → Nat → ℚ) (e a e' : Nat) :
    gradAt true steadyGrad demoParent bc υ e a e' 1 = 0 := by
  have h1 : ∀ f, faceGrad steadyGrad demoParent υ e a e' 1 f = 0 := by
    intro f
    unfold faceGrad
    split
    · rfl
    · split
      · rfl
      · refine sum_eq_zero fun I _ => sum_eq_zero fun J _ => ?_
        split <;> rfl
  have h2 : bdrGrad steadyGrad demoParent bc υ e a e' 1 = fun _ => 0 := by
    funext q
    unfold bdrGrad
    split
    · split <;> rfl
    · rfl
  unfold gradAt
  rw [sum_eq_zero fun f _ => h1 f, h2]
  simp [steadyGrad]

theorem steady_regular (bc : BC Int) : demoSteady.Regular steadyGrad demoParent bc := by
  intro υ ζ κ h1 h2
  have z0 : ∀ e, e < demoParent.elemEdges.length → ζ e 0 = 0 := by
    intro e he
    have := h2 e 0 he (show 0 < 1 by decide)
    rw [show demoSteady.W' = demoFlow.W' from rfl, demo_applied' ζ he] at this
    exact this
  have hg : ∀ e a, gradApplied true steadyGrad demoParent bc υ ζ e a = 0 := by
    intro e a
    unfold gradApplied
    refine sum_eq_zero fun e' he' => ?_
    rw [show steadyGrad.n e' = 2 from rfl, sum_range_succ, sum_range_one, z0 e' (mem_range.1 he'), steadyGrad_zero]
    ring
  have z1 : ∀ e, e < demoParent.elemEdges.length → ζ e 1 = 0 := by
    intro e he
    have := h1 e 1 he (show 1 < 2 by decide)
    unfold SteadyEq.linMomentum at this
    rw [hg, show demoSteady.W = demoFlow.W from rfl, show demoSteady.W' = demoFlow.W' from rfl, demo_applied ζ he,
      demo_appliedT κ he, if_neg (by decide), zero_add, add_zero] at this
    exact this
  have hz : ∀ e a, e < demoParent.elemEdges.length → a < 2 → ζ e a = 0 := by
    intro e a he ha
    interval_cases a
    · exact z0 e he
    · exact z1 e he
  refine ⟨hz, fun e a he ha => ?_⟩
  have ha : a < 1 := ha
  interval_cases a
  have := h1 e 0 he (show 0 < 2 by decide)
  unfold SteadyEq.linMomentum at this
  have happ : applied demoSteady.W demoParent bc ζ e 0 = 0 := by
    unfold applied
    exact sum_eq_zero fun e' he' => sum_eq_zero fun b hb => by
      rw [hz e' b (mem_range.1 he') (mem_range.1 hb), mul_zero]
  rw [hg, happ, show demoSteady.W' = demoFlow.W' from rfl, demo_appliedT κ he, if_pos rfl, zero_add, zero_add] at this
  exact this

/-- What MFEM could deliver for a division, with gradients. -/
def newtonInput (E : SteadyEq R F) (G : Grad R F) (pm : Parent) (subs : List Sub) (φ : Nat → Nat → Nat)
    (flips : Nat → Nat → Bool) : SteadyInput R Geo F :=
  { steadyInput E pm subs φ flips with
    gviews := grealize G pm subs φ flips
    gints := [innerGrad G]
    gfnfi := [some (itfGrad G)] }

omit [LinearOrder R] in
/-- Every division and every problem is met. -/
theorem newtonInput_fits (hE : E.Consistent) (hn : G.n = E.W.nt) (flips : Nat → Nat → Bool)
    (D : Division pm subs φ g) :
    SteadyForms E pm subs φ (subs.map fun sm => space sm.elemMap E.W.nt)
      (subs.map fun sm => space sm.elemMap E.W'.nt) (newtonInput E G pm subs φ flips) ∧
    GradForms E G pm subs φ (subs.map fun sm => space sm.elemMap E.W.nt) (newtonInput E G pm subs φ flips) := by
  refine ⟨⟨realize_stokes E.W E.W' E.Ld E.Ld' hE.viscous hE.divergence flips D, nrealize_fits E.N flips D, ?_⟩,
    grealize_fits G flips D, ?_, hn⟩
  · show (nrealize E.N pm subs φ flips).map (·.space) = _
    rw [nrealize_sizes, hE.convection]
  · show (grealize G pm subs φ flips).map (·.space) = _
    rw [grealize_sizes, hn]

/-- The theorems apply to the two and the three submeshes, for every number of steps and all tolerances. -/
example (presDbc gen : Bool) (maxIter : Nat) (rtol atol : ℚ) : ∃ conv st' st₂',
    steadyRun (newtonMult (exactLin ℚ) maxIter rtol atol) demoBC demoParent twoSubs
      (twoSubs.map fun sm => space sm.elemMap demoSteady.W.nt)
      (twoSubs.map fun sm => space sm.elemMap demoSteady.W'.nt)
      (newtonInput demoSteady steadyGrad demoParent twoSubs twoPhi demoFlips)
      presDbc (.restart ⟨List.replicate 9 0, [0, 4, 6, 8, 9]⟩) gen ⟨⟨List.replicate 9 0, [0, 4, 6, 8, 9]⟩, []⟩ =
      .ok (conv, st') ∧
    steadyRun (newtonMult (exactLin ℚ) maxIter rtol atol) demoBC demoParent demoSubs
      (demoSubs.map fun sm => space sm.elemMap demoSteady.W.nt)
      (demoSubs.map fun sm => space sm.elemMap demoSteady.W'.nt)
      (newtonInput demoSteady steadyGrad demoParent demoSubs demoPhi demoFlips)
      presDbc (.random (List.replicate 9 0)) gen ⟨⟨List.replicate 9 0, [0, 2, 3, 5, 6, 8, 9]⟩, []⟩ =
      .ok (conv, st₂') ∧
    SameFunction demoSteady.W.nt twoSubs (twoSubs.map fun sm => space sm.elemMap demoSteady.W.nt)
      (flowPart (sizeIn (twoSubs.map fun sm => space sm.elemMap demoSteady.W.nt))
        (sizeIn (twoSubs.map fun sm => space sm.elemMap demoSteady.W'.nt)) st'.U.data 0)
      demoSubs (demoSubs.map fun sm => space sm.elemMap demoSteady.W.nt)
      (flowPart (sizeIn (demoSubs.map fun sm => space sm.elemMap demoSteady.W.nt))
        (sizeIn (demoSubs.map fun sm => space sm.elemMap demoSteady.W'.nt)) st₂'.U.data 0) := by
  have zero : ∀ t, ve (List.replicate 9 (0 : ℚ)) t = 0 := by
    intro t
    unfold ve
    rw [List.getElem?_replicate]
    split <;> rfl
  have hG : StartsAt demoSteady.W.nt demoSteady.W'.nt twoSubs
      (twoSubs.map fun sm => space sm.elemMap demoSteady.W.nt)
      (twoSubs.map fun sm => space sm.elemMap demoSteady.W'.nt) (fun _ _ => 0) (fun _ _ => 0)
      (.restart ⟨List.replicate 9 (0 : ℚ), [0, 4, 6, 8, 9]⟩) :=
    ⟨two_flow_sizes, fun k sm s i e a _ _ _ _ => zero _, fun k sm s i e a _ _ _ _ => zero _⟩
  have hG₂ : StartsAt demoSteady.W.nt demoSteady.W'.nt demoSubs
      (demoSubs.map fun sm => space sm.elemMap demoSteady.W.nt)
      (demoSubs.map fun sm => space sm.elemMap demoSteady.W'.nt) (fun _ _ => 0) (fun _ _ => 0)
      (.random (List.replicate 9 (0 : ℚ))) :=
    ⟨by decide +kernel, fun k sm s i e a _ _ _ _ => zero _, fun k sm s i e a _ _ _ _ => zero _⟩
  obtain ⟨H, HG⟩ := newtonInput_fits (G := steadyGrad) steady_consistent rfl demoFlips two_division
  obtain ⟨H₂, HG₂⟩ := newtonInput_fits (G := steadyGrad) steady_consistent rfl demoFlips three_division
  obtain ⟨conv, st', st₂', r1, r2, r3, -⟩ := newton_runs_agree steady_consistent demo_conditions demo_functions
    (steady_regular _) presDbc two_division demo_covers.2.1 H HG three_division demo_covers.2.2 H₂ HG₂
    exactLin_ok exactLin_ok maxIter rtol atol hG hG₂ gen gen
    (st := ⟨⟨List.replicate 9 0, [0, 4, 6, 8, 9]⟩, []⟩) (st₂ := ⟨⟨List.replicate 9 0, [0, 2, 3, 5, 6, 8, 9]⟩, []⟩)
    two_flow_sizes three_flow_sizes
  exact ⟨conv, st', st₂', r1, r2, r3⟩

end Verif.Divide
