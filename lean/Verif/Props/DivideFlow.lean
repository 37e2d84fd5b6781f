import Verif.Proofs.DivideFlow
import Verif.Proofs.Timer

/-!
# C116: dividing a mesh does not change the flow in time

`Verif.Model.DivideFlow` sets up the unsteady Navier-Stokes solver on the submeshes; `Verif.Spec.DivideFlow`
says what the steps are on the undivided mesh.
-/

namespace Verif.Divide

open Verif Verif.LinAlg Verif.LinAlg.Spec Verif.SubMesh Verif.SubMesh.Spec Finset Spec
open Verif.InterfaceForm (Space Integ MatArr)
open Verif.InterfaceForm.Spec (sizeIn)
open Verif.Boundary (BC)
open Verif.Blocks (BlockVector)
open Verif.Unsteady (initTime Init Fom mono initTime_ok)
open Verif.Unsteady.Spec (first Problem Direct)

variable {R δ F : Type} [Field R] [LinearOrder R] [IsStrictOrderedRing R] {pm : Parent} {subs : List Sub}
variable {φ : Nat → Nat → Nat} {g : Int} {E : FlowEq R F} {bc : BC F} {I : FlowInput R δ F}
variable {uspaces pspaces : List Space}

/-- Number of entries of a solution on the submeshes. -/
def unknowns (subs : List Sub) (uspaces pspaces : List Space) : Nat :=
  first (sizeIn uspaces) subs.length + first (sizeIn pspaces) subs.length

theorem mean_eq (D : Division pm subs φ g) (hcov : Covers pm subs)
    (H : FlowForms E pm subs φ uspaces pspaces I) {q : Nat → R} {π : Nat → Nat → R}
    (hπ : Represents subs pspaces E.W'.nt (blocksOf (sizeIn pspaces) q) π) :
    (∑ c ∈ range (first (sizeIn pspaces) subs.length), q c) / (first (sizeIn pspaces) subs.length : R) =
      E.mean pm π := by
  unfold FlowEq.mean
  have h1 : ∑ c ∈ range (first (sizeIn pspaces) subs.length), q c =
      ∑ e ∈ range pm.elemEdges.length, ∑ a ∈ range (E.W'.nt e), π e a := by
    rw [SteadyNS.sum_blocks_eq]
    exact sum_blocks D hcov H.pspace (fun k c => q (first (sizeIn pspaces) k + c)) π
      (fun k i e b sm s hk hs hi hb => hπ k sm s i e b hk hs hi hb)
  have h2 : (first (sizeIn pspaces) subs.length : R) =
      ((∑ e ∈ range pm.elemEdges.length, E.W'.nt e : Nat) : R) := by
    have := sum_blocks (R := R) D hcov H.pspace (fun _ _ => 1) (fun _ _ => 1)
      (fun k i e b sm s hk hs hi hb => rfl)
    simp only [sum_const, card_range, nsmul_eq_mul, mul_one] at this
    unfold first
    push_cast
    exact this
  rw [h1, h2]

/-- C116: the solver of unsteady flow can be set up on every division, and a time step there, with a direct
solver, is a time step of the undivided mesh: if the velocity before the step is `υ` then afterwards velocity
and pressure are functions that satisfy the equations of the step on the undivided mesh.  Unless a pressure
is prescribed, its mean over the whole mesh is subtracted. -/
theorem flow_step (hE : E.Consistent) (hdt : 0 < E.dt) (hsol : E.Solvable pm bc) (hsym : E.Symmetric pm bc)
    (D : Division pm subs φ g) (hcov : Covers pm subs) (hbc : Conditions pm bc) (hfun : HasFunctions bc)
    (H : FlowForms E pm subs φ uspaces pspaces I) (presDbc : Bool) :
    ∃ s rhs i, flowSetup true bc pm subs I presDbc E.dt = .ok (s, rhs) ∧ s.dt = E.dt ∧
      initTime s = .ok i ∧
      ∀ lower solver old x t υ, Direct solver → old.length = unknowns subs uspaces pspaces →
        x.length = unknowns subs uspaces pspaces →
        Represents subs uspaces E.W.nt (velocity (sizeIn uspaces) x) υ →
        ∃ x' υ' q, Unsteady.step s i lower solver rhs old t x = .ok x' ∧
          x'.length = unknowns subs uspaces pspaces ∧ E.Step pm bc t υ υ' q ∧
          Represents subs uspaces E.W.nt (velocity (sizeIn uspaces) x') υ' ∧
          Represents subs pspaces E.W'.nt (pressure subs.length (sizeIn uspaces) (sizeIn pspaces) x')
            fun e a => if presDbc then q e a else q e a - E.mean pm q := by
  obtain ⟨s, rhs, P, h1, h2, h3, h4, h5, h6, h7, h8, h9⟩ := flow_problem hE hdt D hcov hbc hfun H presDbc
  obtain ⟨i, hi, -⟩ := initTime_ok h2
  have hPs : P.Solvable := by
    intro t u
    obtain ⟨υ, hυ⟩ := represents_of (n := E.W.nt) (spaces := uspaces) D (blocksOf (sizeIn uspaces) u)
    obtain ⟨υ', q, hq⟩ := hsol t υ
    obtain ⟨x, hx⟩ := represented H.uspace υ'
    obtain ⟨y, hy⟩ := represented H.pspace q
    obtain ⟨u', hu'⟩ := flat_vec subs.length (sizeIn uspaces) x
    obtain ⟨p, hp⟩ := flat_vec subs.length (sizeIn pspaces) y
    refine ⟨u', p, (h8 t u u' p υ υ' q hυ ?_ ?_).2 hq⟩
    · intro k sm s i e b hk hs hi hb
      rw [← hx k sm s i e b hk hs hi hb]
      exact hu' k _ (List.getElem?_eq_some_iff.1 hk).1 (dof_lt H.uspace hk hs hi hb)
    · intro k sm s i e b hk hs hi hb
      rw [← hy k sm s i e b hk hs hi hb]
      exact hp k _ (List.getElem?_eq_some_iff.1 hk).1 (dof_lt H.pspace hk hs hi hb)
  have hNU : P.NU = first (sizeIn uspaces) subs.length := by unfold Problem.NU; rw [h5, h6]
  have hNP : P.NP = first (sizeIn pspaces) subs.length := by unfold Problem.NP; rw [h5, h7]
  refine ⟨s, rhs, i, h1, ?_, hi, ?_⟩
  · unfold flowSetup at h1
    simp only [bind_eq_ok] at h1
    obtain ⟨_, _, _, _, _, _, _, _, _, _, _, _, _, _, _, _, h⟩ := h1
    rw [← (Prod.mk.inj (Except.ok.inj h)).1]
  · intro lower solver old x t υ hd ho hx hυ
    obtain ⟨x', e1, e2, q, e3, e4, e5⟩ := Unsteady.step_spec h2 hPs (h9 hsym) lower hi hd h3
      (old := old) (x := x) (by rw [hNU, hNP]; exact ho) (by rw [hNU, hNP]; exact hx) t
    obtain ⟨υ', hυ'⟩ := represents_of (n := E.W.nt) (spaces := uspaces) D (blocksOf (sizeIn uspaces) (ve x'))
    obtain ⟨π, hπ⟩ := represents_of (n := E.W'.nt) (spaces := pspaces) D (blocksOf (sizeIn pspaces) q)
    refine ⟨x', υ', π, e1, by rw [e2, hNU, hNP]; rfl, (h8 t _ _ q υ υ' π hυ hυ' hπ).1 ⟨e3, e4⟩, hυ', ?_⟩
    intro k sm sp j e b hk hs hj hb
    have hlt := (List.getElem?_eq_some_iff.1 hk).1
    have hr := dof_lt H.pspace hk hs hj hb
    have hr' : first (sizeIn pspaces) k + pos sp j b < P.NP := by
      have := Unsteady.first_bound (sizeIn pspaces) hlt
      rw [hNP]; omega
    have := e5 _ hr'
    rw [hNU, h4, hNP, mean_eq D hcov H hπ] at this
    show ve x' (first (sizeIn uspaces) subs.length + (first (sizeIn pspaces) k + pos sp j b)) = _
    rw [this, show q (first (sizeIn pspaces) k + pos sp j b) = π e b from hπ k sm sp j e b hk hs hj hb]

theorem steps_succ (f : Fom R) (i : Init R) (lower : Bool) (solver : Blk R → List R → Outcome (List R))
    (rhs : BlockVector R) (old : Nat → List R) (n : Nat) (t : R) (x : List R) :
    steps f i lower solver rhs old (n + 1) t x = do
      let s ← steps f i lower solver rhs old n t x
      let x ← Unsteady.step f i lower solver rhs (old n) s.2 s.1
      return (x, s.2 + f.dt) := by
  unfold steps
  rw [Timer.loop_succ]

/-- C116: a run of any number of time steps on a division is a flow on the undivided mesh: the velocities
after the steps, and the pressures, are functions that satisfy the equations of every step there. -/
theorem flow_steps (hE : E.Consistent) (hdt : 0 < E.dt) (hsol : E.Solvable pm bc) (hsym : E.Symmetric pm bc)
    (D : Division pm subs φ g) (hcov : Covers pm subs) (hbc : Conditions pm bc) (hfun : HasFunctions bc)
    (H : FlowForms E pm subs φ uspaces pspaces I) (presDbc : Bool) :
    ∃ s rhs i, flowSetup true bc pm subs I presDbc E.dt = .ok (s, rhs) ∧ initTime s = .ok i ∧
      ∀ lower solver old x t υ₀, Direct solver → (∀ j, (old j).length = unknowns subs uspaces pspaces) →
        x.length = unknowns subs uspaces pspaces →
        Represents subs uspaces E.W.nt (velocity (sizeIn uspaces) x) υ₀ →
        ∃ υ π : Nat → Nat → Nat → R, υ 0 = υ₀ ∧ ∀ n, E.Flow pm bc presDbc t n υ π ∧
          ∃ x', steps s i lower solver rhs old n t x = .ok (x', t + n * E.dt) ∧
            x'.length = unknowns subs uspaces pspaces ∧
            Represents subs uspaces E.W.nt (velocity (sizeIn uspaces) x') (υ n) ∧
            (0 < n → Represents subs pspaces E.W'.nt
              (pressure subs.length (sizeIn uspaces) (sizeIn pspaces) x') (π n)) := by
  classical
  obtain ⟨s, rhs, i, h1, h2, h3, h4⟩ := flow_step hE hdt hsol hsym D hcov hbc hfun H presDbc
  refine ⟨s, rhs, i, h1, h3, ?_⟩
  intro lower solver old x t υ₀ hd ho hx hυ
  -- every step can be taken, whatever the previous one gave
  have next : ∀ (j : Nat) (y : List R × (Nat → Nat → R)), ∃ z : (List R × (Nat → Nat → R)) × (Nat → Nat → R),
      y.1.length = unknowns subs uspaces pspaces →
      Represents subs uspaces E.W.nt (velocity (sizeIn uspaces) y.1) y.2 →
        Unsteady.step s i lower solver rhs (old j) (t + j * E.dt) y.1 = .ok z.1.1 ∧
          z.1.1.length = unknowns subs uspaces pspaces ∧ E.Step pm bc (t + j * E.dt) y.2 z.1.2 z.2 ∧
          Represents subs uspaces E.W.nt (velocity (sizeIn uspaces) z.1.1) z.1.2 ∧
          Represents subs pspaces E.W'.nt (pressure subs.length (sizeIn uspaces) (sizeIn pspaces) z.1.1)
            fun e a => if presDbc then z.2 e a else z.2 e a - E.mean pm z.2 := by
    intro j y
    by_cases hy : y.1.length = unknowns subs uspaces pspaces ∧
      Represents subs uspaces E.W.nt (velocity (sizeIn uspaces) y.1) y.2
    · obtain ⟨x', υ', q, a1, a2, a3, a4, a5⟩ := h4 lower solver (old j) y.1 (t + j * E.dt) y.2 hd (ho j) hy.1 hy.2
      exact ⟨((x', υ'), q), fun _ _ => ⟨a1, a2, a3, a4, a5⟩⟩
    · exact ⟨(y, fun _ _ => 0), fun c1 c2 => absurd ⟨c1, c2⟩ hy⟩
  choose Z hZ using next
  let seq : Nat → List R × (Nat → Nat → R) := fun n => Nat.rec (x, υ₀) (fun j y => (Z j y).1) n
  have inv : ∀ n, (seq n).1.length = unknowns subs uspaces pspaces ∧
      Represents subs uspaces E.W.nt (velocity (sizeIn uspaces) (seq n).1) (seq n).2 := by
    intro n
    induction n with
    | zero => exact ⟨hx, hυ⟩
    | succ n ih =>
      obtain ⟨_, a2, _, a4, _⟩ := hZ n (seq n) ih.1 ih.2
      exact ⟨a2, a4⟩
  have run : ∀ n, steps s i lower solver rhs old n t x = .ok ((seq n).1, t + n * E.dt) := by
    intro n
    induction n with
    | zero =>
      show Except.ok (x, t) = _
      simp only [Nat.cast_zero, zero_mul, add_zero]; rfl
    | succ n ih =>
      obtain ⟨a1, _⟩ := hZ n (seq n) (inv n).1 (inv n).2
      rw [steps_succ, ih, ok_bind]
      dsimp only
      rw [a1, ok_bind, h2]
      show Except.ok ((seq (n + 1)).1, _) = _
      congr 2
      push_cast
      ring
  refine ⟨fun n => (seq n).2, fun n e a => match n with
    | 0 => 0
    | j + 1 => if presDbc then (Z j (seq j)).2 e a else (Z j (seq j)).2 e a - E.mean pm (Z j (seq j)).2,
    rfl, fun n => ⟨?_, (seq n).1, run n, (inv n).1, (inv n).2, ?_⟩⟩
  · intro j _
    obtain ⟨_, _, a3, _⟩ := hZ j (seq j) (inv j).1 (inv j).2
    exact ⟨_, a3, fun e a _ _ => rfl⟩
  · intro hn
    obtain ⟨j, rfl⟩ : ∃ j, n = j + 1 := ⟨n - 1, by omega⟩
    obtain ⟨_, _, _, _, a5⟩ := hZ j (seq j) (inv j).1 (inv j).2
    exact a5

/-- `flows_agree`, with the sizes of the solutions. -/
theorem flows_agree' {subs₂ : List Sub} {φ₂ : Nat → Nat → Nat} {uspaces₂ pspaces₂ : List Space}
    {I₂ : FlowInput R δ F} (hE : E.Consistent) (hdt : 0 < E.dt) (hsol : E.Solvable pm bc)
    (hsym : E.Symmetric pm bc) {presDbc : Bool} (huni : E.Unique pm bc presDbc) (hbc : Conditions pm bc)
    (hfun : HasFunctions bc)
    (D : Division pm subs φ g) (hcov : Covers pm subs) (H : FlowForms E pm subs φ uspaces pspaces I)
    (D₂ : Division pm subs₂ φ₂ g) (hcov₂ : Covers pm subs₂)
    (H₂ : FlowForms E pm subs₂ φ₂ uspaces₂ pspaces₂ I₂) :
    ∃ s rhs i s₂ rhs₂ i₂, flowSetup true bc pm subs I presDbc E.dt = .ok (s, rhs) ∧ initTime s = .ok i ∧
      flowSetup true bc pm subs₂ I₂ presDbc E.dt = .ok (s₂, rhs₂) ∧ initTime s₂ = .ok i₂ ∧
      ∀ lower solver old x lower₂ solver₂ old₂ x₂ t, Direct solver → Direct solver₂ →
        (∀ j, (old j).length = unknowns subs uspaces pspaces) →
        (∀ j, (old₂ j).length = unknowns subs₂ uspaces₂ pspaces₂) →
        x.length = unknowns subs uspaces pspaces → x₂.length = unknowns subs₂ uspaces₂ pspaces₂ →
        SameFunction E.W.nt subs uspaces (velocity (sizeIn uspaces) x) subs₂ uspaces₂
          (velocity (sizeIn uspaces₂) x₂) →
        ∀ n, ∃ x' x₂', steps s i lower solver rhs old n t x = .ok (x', t + n * E.dt) ∧
          steps s₂ i₂ lower₂ solver₂ rhs₂ old₂ n t x₂ = .ok (x₂', t + n * E.dt) ∧
          x'.length = unknowns subs uspaces pspaces ∧ x₂'.length = unknowns subs₂ uspaces₂ pspaces₂ ∧
          SameFunction E.W.nt subs uspaces (velocity (sizeIn uspaces) x') subs₂ uspaces₂
            (velocity (sizeIn uspaces₂) x₂') ∧
          (0 < n → SameFunction E.W'.nt subs pspaces
            (pressure subs.length (sizeIn uspaces) (sizeIn pspaces) x') subs₂ pspaces₂
            (pressure subs₂.length (sizeIn uspaces₂) (sizeIn pspaces₂) x₂')) := by
  obtain ⟨s, rhs, i, h1, h2, h3, h4⟩ := flow_step hE hdt hsol hsym D hcov hbc hfun H presDbc
  obtain ⟨s₂, rhs₂, i₂, k1, k2, k3, k4⟩ := flow_step hE hdt hsol hsym D₂ hcov₂ hbc hfun H₂ presDbc
  refine ⟨s, rhs, i, s₂, rhs₂, i₂, h1, h3, k1, k3, ?_⟩
  intro lower solver old x lower₂ solver₂ old₂ x₂ t hd hd₂ ho ho₂ hx hx₂ hsame n
  induction n with
  | zero =>
    refine ⟨x, x₂, ?_, ?_, hx, hx₂, hsame, fun h => absurd h (by omega)⟩
    · show Except.ok (x, t) = _
      simp only [Nat.cast_zero, zero_mul, add_zero]
    · show Except.ok (x₂, t) = _
      simp only [Nat.cast_zero, zero_mul, add_zero]
  | succ n ih =>
    obtain ⟨y, y₂, a1, a2, a3, a4, a5, _⟩ := ih
    obtain ⟨υ, hυ⟩ := represents_of (n := E.W.nt) (spaces := uspaces) D (velocity (sizeIn uspaces) y)
    have hυ₂ := represents_same hcov hcov₂ H.uspace.1 a5 hυ
    obtain ⟨x', υ', q, b1, b2, b3, b4, b5⟩ := h4 lower solver (old n) y (t + n * E.dt) υ hd (ho n) a3 hυ
    obtain ⟨x₂', υ₂', q₂, c1, c2, c3, c4, c5⟩ :=
      k4 lower₂ solver₂ (old₂ n) y₂ (t + n * E.dt) υ hd₂ (ho₂ n) a4 hυ₂
    obtain ⟨u1, c, u2, u3⟩ := huni _ _ _ _ _ _ b3 c3
    have inside : ∀ {k i e : Nat} {sm : Sub}, subs[k]? = some sm → sm.elemMap[i]? = some e →
        e < pm.elemEdges.length := fun hk hi => (hcov _).1 ⟨_, (show At subs _ _ _ from ⟨_, hk, hi⟩).owns⟩
    have time : t + n * E.dt + E.dt = t + (n + 1 : Nat) * E.dt := by push_cast; ring
    refine ⟨x', x₂', ?_, ?_, b2, c2, ?_, fun _ => ?_⟩
    · rw [steps_succ, a1, ok_bind]
      dsimp only
      rw [b1, ok_bind, h2, time]; rfl
    · rw [steps_succ, a2, ok_bind]
      dsimp only
      rw [c1, ok_bind, k2, time]; rfl
    · intro k i l j e b sm sp sm₂ sp₂ d1 d2 d3 e1 e2 e3 hb
      rw [b4 k sm sp i e b d1 d2 d3 hb, c4 l sm₂ sp₂ j e b e1 e2 e3 hb]
      exact u1 e b (inside d1 d3) hb
    · intro k i l j e b sm sp sm₂ sp₂ d1 d2 d3 e1 e2 e3 hb
      rw [b5 k sm sp i e b d1 d2 d3 hb, c5 l sm₂ sp₂ j e b e1 e2 e3 hb]
      have he := inside d1 d3
      dsimp only
      rw [u3 e b he hb]
      cases presDbc with
      | true => rw [if_pos rfl, if_pos rfl, u2 rfl, add_zero]
      | false =>
        have hN : ((∑ e ∈ range pm.elemEdges.length, E.W'.nt e : Nat) : R) ≠ 0 := by
          rw [Nat.cast_ne_zero]
          have := single_le_sum (f := E.W'.nt) (fun _ _ => Nat.zero_le _) (mem_range.2 he)
          omega
        have hm : E.mean pm q = E.mean pm q₂ + c := by
          unfold FlowEq.mean
          have : ∑ e ∈ range pm.elemEdges.length, ∑ a ∈ range (E.W'.nt e), q e a =
              ∑ e ∈ range pm.elemEdges.length, ∑ a ∈ range (E.W'.nt e), q₂ e a +
                c * ((∑ e ∈ range pm.elemEdges.length, E.W'.nt e : Nat) : R) := by
            push_cast
            rw [mul_sum, ← sum_add_distrib]
            refine sum_congr rfl fun e he => ?_
            rw [show c * (E.W'.nt e : R) = ∑ _a ∈ range (E.W'.nt e), c by
              rw [sum_const, card_range, nsmul_eq_mul, mul_comm], ← sum_add_distrib]
            exact sum_congr rfl fun a ha => u3 e a (mem_range.1 he) (mem_range.1 ha)
          rw [this, add_div, mul_div_assoc, div_self hN, mul_one]
        rw [if_neg (by decide), if_neg (by decide), hm]
        ring

/-- C116: the flow does not depend on the division.  Two solvers of the same flow, set up on two divisions of
the same mesh, start from the same velocity: after every number of steps they have the same velocity and the
same pressure, whatever direct solvers they use. -/
theorem flows_agree {subs₂ : List Sub} {φ₂ : Nat → Nat → Nat} {uspaces₂ pspaces₂ : List Space}
    {I₂ : FlowInput R δ F} (hE : E.Consistent) (hdt : 0 < E.dt) (hsol : E.Solvable pm bc)
    (hsym : E.Symmetric pm bc) {presDbc : Bool} (huni : E.Unique pm bc presDbc) (hbc : Conditions pm bc)
    (hfun : HasFunctions bc)
    (D : Division pm subs φ g) (hcov : Covers pm subs) (H : FlowForms E pm subs φ uspaces pspaces I)
    (D₂ : Division pm subs₂ φ₂ g) (hcov₂ : Covers pm subs₂)
    (H₂ : FlowForms E pm subs₂ φ₂ uspaces₂ pspaces₂ I₂) :
    ∃ s rhs i s₂ rhs₂ i₂, flowSetup true bc pm subs I presDbc E.dt = .ok (s, rhs) ∧ initTime s = .ok i ∧
      flowSetup true bc pm subs₂ I₂ presDbc E.dt = .ok (s₂, rhs₂) ∧ initTime s₂ = .ok i₂ ∧
      ∀ lower solver old x lower₂ solver₂ old₂ x₂ t, Direct solver → Direct solver₂ →
        (∀ j, (old j).length = unknowns subs uspaces pspaces) →
        (∀ j, (old₂ j).length = unknowns subs₂ uspaces₂ pspaces₂) →
        x.length = unknowns subs uspaces pspaces → x₂.length = unknowns subs₂ uspaces₂ pspaces₂ →
        SameFunction E.W.nt subs uspaces (velocity (sizeIn uspaces) x) subs₂ uspaces₂
          (velocity (sizeIn uspaces₂) x₂) →
        ∀ n, ∃ x' x₂', steps s i lower solver rhs old n t x = .ok (x', t + n * E.dt) ∧
          steps s₂ i₂ lower₂ solver₂ rhs₂ old₂ n t x₂ = .ok (x₂', t + n * E.dt) ∧
          SameFunction E.W.nt subs uspaces (velocity (sizeIn uspaces) x') subs₂ uspaces₂
            (velocity (sizeIn uspaces₂) x₂') ∧
          (0 < n → SameFunction E.W'.nt subs pspaces
            (pressure subs.length (sizeIn uspaces) (sizeIn pspaces) x') subs₂ pspaces₂
            (pressure subs₂.length (sizeIn uspaces₂) (sizeIn pspaces₂) x₂')) := by
  obtain ⟨s, rhs, i, s₂, rhs₂, i₂, h1, h2, h3, h4, h5⟩ :=
    flows_agree' hE hdt hsol hsym huni hbc hfun D hcov H D₂ hcov₂ H₂
  refine ⟨s, rhs, i, s₂, rhs₂, i₂, h1, h2, h3, h4, ?_⟩
  intro lower solver old x lower₂ solver₂ old₂ x₂ t hd hd₂ ho ho₂ hx hx₂ hsame n
  obtain ⟨x', x₂', a1, a2, _, _, a5, a6⟩ :=
    h5 lower solver old x lower₂ solver₂ old₂ x₂ t hd hd₂ ho ho₂ hx hx₂ hsame n
  exact ⟨x', x₂', a1, a2, a5, a6⟩

/-! Non-vacuity: the strip of three cells, as in C111, with two degrees of freedom of the velocity and one of
the pressure per cell. -/

/-- What MFEM could deliver for a division. -/
def flowInput (E : FlowEq R F) (pm : Parent) (subs : List Sub) (φ : Nat → Nat → Nat)
    (flips : Nat → Nat → Bool) : FlowInput R Geo F where
  views := realize E.W pm subs φ flips
  views' := realize E.W' pm subs φ flips
  ints := [innerInt E.W]
  ints' := [innerInt E.W']
  fnfi := [some (itfInt E.W)]
  fnfi' := [some (itfInt E.W')]
  Ls := realizeLoads E.Ld E.W.nt subs φ
  Ls' := realizeLoads E.Ld' E.W'.nt subs φ
  mvols := subs.map fun sm => sm.elemMap.map fun e => mk (E.W.nt e) (E.W.nt e) (E.mass e)
  nviews t := nrealize (E.N t) pm subs φ flips
  nints := [innerVec (E.N 0)]
  nfnfi := [some (itfVec (E.N 0))]

omit [LinearOrder R] [IsStrictOrderedRing R] in
/-- Every division and every flow whose integrals over inner faces do not depend on the time are met. -/
theorem flowInput_fits (hE : E.Consistent) (hface : ∀ t, (E.N t).face = (E.N 0).face)
    (flips : Nat → Nat → Bool) (D : Division pm subs φ g) :
    FlowForms E pm subs φ (subs.map fun sm => space sm.elemMap E.W.nt)
      (subs.map fun sm => space sm.elemMap E.W'.nt) (flowInput E pm subs φ flips) := by
  refine ⟨realize_stokes E.W E.W' E.Ld E.Ld' hE.viscous hE.divergence flips D, ⟨by simp [flowInput], ?_⟩, ?_, ?_⟩
  · intro k sm l hk hl
    unfold flowInput at hl
    dsimp only at hl
    rw [List.getElem?_map, hk] at hl
    cases hl
    refine ⟨by simp, ?_⟩
    intro i e m hi hm
    rw [List.getElem?_map, hi] at hm
    cases hm
    exact mk_is _ _ _
  · intro t
    have h1 : innerVec (E.N 0) = innerVec (E.N t) := by
      unfold innerVec
      rw [hface t, hE.convection t, hE.convection 0]
    have h2 : itfVec (E.N 0) = itfVec (E.N t) := by
      unfold itfVec
      rw [hface t, hE.convection t, hE.convection 0]
    show NFits (E.N t) pm subs φ (nrealize (E.N t) pm subs φ flips) [innerVec (E.N 0)] [some (itfVec (E.N 0))]
    rw [h1, h2]
    exact nrealize_fits (E.N t) flips D
  · intro t
    show (nrealize (E.N t) pm subs φ flips).map (·.space) = _
    rw [nrealize_sizes, hE.convection t]

/-- Cells coupled in the first degree of freedom; the pressure forces the first velocity; quadratic convection
with a boundary velocity that grows in time. -/
def demoFlow : FlowEq ℚ Int where
  mass _ a b := if a = b then 1 else 0
  W := { nt := fun _ => 2, ns := fun _ => 2, vol := fun _ a b => if a = b then 1 else 0,
         face := fun f I J a b => if a = 0 ∧ b = 0 then (if I = J then 1 else -1) * (f + 1) else 0,
         bdr := fun f a b => if a = 0 ∧ b = 0 then 7 * f else 0 }
  W' := { nt := fun _ => 1, ns := fun _ => 2, vol := fun _ _ b => if b = 0 then 1 else 0,
          face := fun _ _ _ _ _ => 0, bdr := fun _ _ _ => 0 }
  N t := { n := fun _ => 2, vol := fun e l a => ve l a * ve l 0 + e,
           face := fun f I l a => (if I then -1 else 1) * (ve (l false) a - 2 * ve (l true) a) + f,
           bdr := fun f c l a => (match c with | some c => t * c | none => 1) * ve l a + f }
  Ld := ⟨fun e a => e + a, fun f c a => f + c * a⟩
  Ld' := ⟨fun e _ => e + 1, fun f c _ => f + c⟩
  dt := 1 / 2

theorem demo_consistent : demoFlow.Consistent := ⟨rfl, rfl, fun _ => rfl⟩

theorem demo_entry {bc : BC Int} (e e' b : Nat) :
    entry demoFlow.W demoParent bc e 1 e' b = if e = e' then (if 1 = b then 1 else 0) else 0 := by
  have h1 : ∀ f, faceSum demoFlow.W demoParent e 1 e' b f = 0 := by
    intro f
    unfold faceSum
    split
    · rfl
    · simp [demoFlow]
  have h2 : ∀ q, bdrSum demoFlow.W demoParent bc e 1 e' b q = 0 := by
    intro q
    unfold bdrSum
    simp [demoFlow]
  unfold entry
  rw [show bdrSum demoFlow.W demoParent bc e 1 e' b = fun _ => 0 from funext h2]
  simp only [h1, sum_const_zero, List.map_const', List.sum_replicate, smul_zero, add_zero]
  rfl

theorem demo_entry' {bc : BC Int} (e a e' b : Nat) :
    entry demoFlow.W' demoParent bc e a e' b = if e = e' then (if b = 0 then 1 else 0) else 0 := by
  have h1 : ∀ f, faceSum demoFlow.W' demoParent e a e' b f = 0 := by
    intro f
    unfold faceSum
    split
    · rfl
    · simp [demoFlow]
  have h2 : ∀ q, bdrSum demoFlow.W' demoParent bc e a e' b q = 0 := by
    intro q
    unfold bdrSum
    simp [demoFlow]
  unfold entry
  rw [show bdrSum demoFlow.W' demoParent bc e a e' b = fun _ => 0 from funext h2]
  simp only [h1, sum_const_zero, List.map_const', List.sum_replicate, smul_zero, add_zero]
  rfl

theorem demo_applied {bc : BC Int} (υ : Nat → Nat → ℚ) {e : Nat} (he : e < demoParent.elemEdges.length) :
    applied demoFlow.W demoParent bc υ e 1 = υ e 1 := by
  unfold applied
  rw [sum_eq_single e]
  · rw [show demoFlow.W.ns e = 2 from rfl, sum_range_succ, sum_range_one, demo_entry, demo_entry]
    simp
  · intro e' _ hne
    refine sum_eq_zero fun b _ => ?_
    rw [demo_entry, if_neg (Ne.symm hne), zero_mul]
  · intro h; exact absurd (mem_range.2 he) h

theorem demo_applied' {bc : BC Int} (υ : Nat → Nat → ℚ) {e a : Nat} (he : e < demoParent.elemEdges.length) :
    applied demoFlow.W' demoParent bc υ e a = υ e 0 := by
  unfold applied
  rw [sum_eq_single e]
  · rw [show demoFlow.W'.ns e = 2 from rfl, sum_range_succ, sum_range_one, demo_entry', demo_entry']
    simp
  · intro e' _ hne
    refine sum_eq_zero fun b _ => ?_
    rw [demo_entry', if_neg (Ne.symm hne), zero_mul]
  · intro h; exact absurd (mem_range.2 he) h

theorem demo_appliedT {bc : BC Int} (q : Nat → Nat → ℚ) {e b : Nat} (he : e < demoParent.elemEdges.length) :
    appliedT demoFlow.W' demoParent bc q e b = if b = 0 then q e 0 else 0 := by
  unfold appliedT
  rw [sum_eq_single e]
  · rw [show demoFlow.W'.nt e = 1 from rfl, sum_range_one, demo_entry']
    simp
  · intro e' _ hne
    refine sum_eq_zero fun b _ => ?_
    rw [demo_entry', if_neg hne, zero_mul]
  · intro h; exact absurd (mem_range.2 he) h

theorem demo_mass (e a : Nat) (ha : a < 2) (υ υ' : Nat → Nat → ℚ) :
    ∑ b ∈ range (demoFlow.W.nt e), demoFlow.mass e a b * ((υ' e b - υ e b) / demoFlow.dt) =
      2 * (υ' e a - υ e a) := by
  rw [show demoFlow.W.nt e = 2 from rfl, sum_range_succ, sum_range_one]
  interval_cases a <;> simp [demoFlow] <;> ring

/-- The equations of a step of the example, solved. -/
theorem demo_step {bc : BC Int} (t : ℚ) (υ υ' q : Nat → Nat → ℚ) :
    demoFlow.Step demoParent bc t υ υ' q ↔ ∀ e, e < demoParent.elemEdges.length →
      υ' e 0 = loadAt demoFlow.Ld' demoParent bc e 0 ∧
      υ' e 1 = (loadAt demoFlow.Ld demoParent bc e 1 - convAt true (demoFlow.N t) demoParent bc υ e 1 +
        2 * υ e 1) / 3 ∧
      q e 0 = loadAt demoFlow.Ld demoParent bc e 0 - convAt true (demoFlow.N t) demoParent bc υ e 0 -
        2 * (υ' e 0 - υ e 0) - applied demoFlow.W demoParent bc υ' e 0 := by
  constructor
  · rintro ⟨h1, h2⟩ e he
    have a0 := h1 e 0 he (show 0 < 2 by decide)
    have a1 := h1 e 1 he (show 1 < 2 by decide)
    have b0 := h2 e 0 he (show 0 < 1 by decide)
    rw [demo_mass _ _ (by decide), demo_appliedT q he] at a0 a1
    rw [demo_applied υ' he] at a1
    rw [demo_applied' υ' he] at b0
    simp only [if_true, one_ne_zero, if_false] at a0 a1
    refine ⟨b0, ?_, ?_⟩
    · rw [eq_div_iff (by norm_num)]; linarith
    · linarith
  · intro h
    refine ⟨?_, ?_⟩
    · intro e a he ha
      obtain ⟨h0, h1, h2⟩ := h e he
      have ha : a < 2 := ha
      rw [demo_mass _ _ ha, demo_appliedT q he]
      interval_cases a
      · rw [if_pos rfl, h2]; ring
      · rw [if_neg (by decide), demo_applied υ' he, h1]; ring
    · intro e a he ha
      have ha : a < 1 := ha
      interval_cases a
      rw [demo_applied' υ' he]
      exact (h e he).1

theorem demo_solvable (bc : BC Int) : demoFlow.Solvable demoParent bc := by
  intro t υ
  let υ' : Nat → Nat → ℚ := fun e a => if a = 0 then loadAt demoFlow.Ld' demoParent bc e 0 else
    (loadAt demoFlow.Ld demoParent bc e 1 - convAt true (demoFlow.N t) demoParent bc υ e 1 + 2 * υ e 1) / 3
  exact ⟨υ', fun e _ => loadAt demoFlow.Ld demoParent bc e 0 - convAt true (demoFlow.N t) demoParent bc υ e 0 -
    2 * (υ' e 0 - υ e 0) - applied demoFlow.W demoParent bc υ' e 0,
    (demo_step t υ υ' _).2 fun e _ => ⟨rfl, rfl, rfl⟩⟩

theorem demo_unique (bc : BC Int) (presDbc : Bool) : demoFlow.Unique demoParent bc presDbc := by
  intro t υ υ₁ q₁ υ₂ q₂ h1 h2
  rw [demo_step] at h1 h2
  have hυ : ∀ e a, e < demoParent.elemEdges.length → a < 2 → υ₁ e a = υ₂ e a := by
    intro e a he ha
    obtain ⟨a0, a1, _⟩ := h1 e he
    obtain ⟨b0, b1, _⟩ := h2 e he
    interval_cases a
    · rw [a0, b0]
    · rw [a1, b1]
  refine ⟨hυ, 0, fun _ => rfl, ?_⟩
  intro e a he ha
  have ha : a < 1 := ha
  interval_cases a
  obtain ⟨a0, _, a2⟩ := h1 e he
  obtain ⟨b0, _, b2⟩ := h2 e he
  have : applied demoFlow.W demoParent bc υ₁ e 0 = applied demoFlow.W demoParent bc υ₂ e 0 := by
    unfold applied
    refine sum_congr rfl fun e' he' => sum_congr rfl fun b hb => ?_
    rw [hυ e' b (mem_range.1 he') (mem_range.1 hb)]
  rw [a2, b2, this, a0, b0, add_zero]

theorem demo_symmetric (bc : BC Int) : demoFlow.Symmetric demoParent bc := by
  refine ⟨fun e a b _ _ => ?_, fun e a e' b _ _ => ?_⟩
  · show (if a = b then (1 : ℚ) else 0) = if b = a then 1 else 0
    simp [eq_comm]
  · have h1 : ∀ f, faceSum demoFlow.W demoParent e a e' b f = faceSum demoFlow.W demoParent e' b e a f := by
      intro f
      unfold faceSum
      split
      · rfl
      · split
        · rfl
        · rw [sum_comm]
          refine sum_congr rfl fun I _ => sum_congr rfl fun J _ => ?_
          simp only [demoFlow, and_comm (a := a = 0), and_comm (a := elemAt _ J = _), eq_comm (a := J)]
    have h2 : ∀ q, bdrSum demoFlow.W demoParent bc e a e' b q = bdrSum demoFlow.W demoParent bc e' b e a q := by
      intro q
      unfold bdrSum
      by_cases h : e = e'
      · subst h
        simp only [demoFlow, and_comm (a := a = 0)]
      · rw [if_neg (fun c => h c.1), if_neg (fun c => h c.1.symm)]
    have h3 : (if e = e' then demoFlow.W.vol e a b else 0) = if e' = e then demoFlow.W.vol e' b a else 0 := by
      simp only [demoFlow, eq_comm (a := e), eq_comm (a := a)]
    unfold entry
    rw [h3, show bdrSum demoFlow.W demoParent bc e a e' b = bdrSum demoFlow.W demoParent bc e' b e a from
      funext h2]
    simp only [h1]

/-- The theorem applies to the two and the three submeshes, from velocity zero. -/
example (presDbc : Bool) (n : Nat) : ∃ s rhs i s₂ rhs₂ i₂ x x₂,
    flowSetup true demoBC demoParent twoSubs (flowInput demoFlow demoParent twoSubs twoPhi demoFlips) presDbc
      (1 / 2) = .ok (s, rhs) ∧ initTime s = .ok i ∧
    flowSetup true demoBC demoParent demoSubs (flowInput demoFlow demoParent demoSubs demoPhi demoFlips) presDbc
      (1 / 2) = .ok (s₂, rhs₂) ∧ initTime s₂ = .ok i₂ ∧
    steps s i true Unsteady.exact rhs (fun _ => List.replicate 9 0) n 0 (List.replicate 9 0) =
      .ok (x, 0 + n * (1 / 2)) ∧
    steps s₂ i₂ false Unsteady.exact rhs₂ (fun _ => List.replicate 9 0) n 0 (List.replicate 9 0) =
      .ok (x₂, 0 + n * (1 / 2)) := by
  obtain ⟨s, rhs, i, s₂, rhs₂, i₂, h1, h2, h3, h4, h5⟩ := flows_agree (presDbc := presDbc) demo_consistent
    (by decide +kernel) (demo_solvable _) (demo_symmetric _) (demo_unique _ _) demo_conditions demo_functions
    two_division demo_covers.2.1
    (flowInput_fits demo_consistent (fun _ => rfl) demoFlips two_division) three_division demo_covers.2.2
    (flowInput_fits demo_consistent (fun _ => rfl) demoFlips three_division)
  have zero : ∀ (w : Nat → Nat) k r, velocity w (List.replicate 9 (0 : ℚ)) k r = 0 := by
    intro w k r
    unfold velocity ve
    rw [List.getElem?_replicate]
    split <;> rfl
  obtain ⟨x, x₂, e1, e2, _⟩ := h5 true Unsteady.exact (fun _ => List.replicate 9 0) (List.replicate 9 0) false
    Unsteady.exact (fun _ => List.replicate 9 0) (List.replicate 9 0) 0 Unsteady.exact_direct
    Unsteady.exact_direct (fun _ => by decide +kernel) (fun _ => by decide +kernel) (by decide +kernel)
    (by decide +kernel) (fun k i l j e b sm s sm₂ s₂ _ _ _ _ _ _ _ => by rw [zero, zero]) n
  exact ⟨s, rhs, i, s₂, rhs₂, i₂, x, x₂, h1, h2, h3, h4, e1, e2⟩

end Verif.Divide
