import Verif.Props.DivideSolve
import Verif.Props.SteadyNS
import Verif.Spec.DivideSteady

/-!
# Lemmas for C119
-/

namespace Verif.Divide

open Verif Verif.LinAlg Verif.LinAlg.Spec Verif.SubMesh Verif.SubMesh.Spec Finset Spec
open Verif.InterfaceForm (Space Integ MatArr)
open Verif.InterfaceForm.Spec (sizeIn mget MatsOk)
open Verif.Boundary (BC)
open Verif.Blocks (BlockVector)
open Verif.Blocks.Spec (HasSizes IsOffsets)
open Verif.Unsteady (mono first_bound)
open Verif.Unsteady.Spec (first vecOf ConvOk)
open Verif.FomSolve (setBlocks transpose)
open Verif.FomSolve.Spec (at_)
open Verif.SteadyNS (Oper Solver Newton Guess Sol Forms)
open Verif.SteadyNS.Spec (Flow)

variable {R δ F : Type} [Field R] {pm : Parent} {subs : List Sub} {φ : Nat → Nat → Nat} {g : Int}
variable {E : SteadyEq R F} {bc : BC F} {I : SteadyInput R δ F} {uspaces pspaces : List Space}

theorem Spec.SteadyForms.uspace (H : SteadyForms E pm subs φ uspaces pspaces I) : Spaces subs E.W.nt uspaces := by
  have := spaces_test H.stokes.viscous (fun v hv => H.stokes.ucomplete _ (by
    rw [← H.stokes.utest]; exact List.mem_map.2 ⟨v, hv, rfl⟩))
  rw [H.stokes.utest] at this; exact this

theorem Spec.SteadyForms.pspace (H : SteadyForms E pm subs φ uspaces pspaces I) : Spaces subs E.W'.nt pspaces := by
  have := spaces_test H.stokes.divergence (fun v hv => H.stokes.pcomplete _ (by
    rw [← H.stokes.pdiv]; exact List.mem_map.2 ⟨v, hv, rfl⟩))
  rw [H.stokes.pdiv] at this; exact this

/-- The operator without gradients: it has the same values. -/
def valuesOnly (o : Oper R) : Oper R :=
  { o with forms := { o.forms with asm := fun _ _ g => .ok g, itfGrad := none } }

theorem mult_valuesOnly (o : Oper R) (x : List R) : (valuesOnly o).mult x = o.mult x := rfl

theorem mono_row {Q : MatArr R} {v : Nat → R} {rz cz : Nat → Nat} {val : Nat → Nat → R} {k r : Nat}
    (hv : ∀ i j k l, i < subs.length → j < subs.length → k < rz i → l < cz j →
      val (first rz i + k) (first cz j + l) = mget Q i j k l) (hk : k < subs.length) (hr : r < rz k) :
    ∑ c ∈ range (first cz subs.length), val (first rz k + r) c * v c =
      rowMult Q subs.length cz (blocksOf cz v) k r := by
  rw [SteadyNS.sum_blocks_eq]
  unfold rowMult
  refine sum_congr rfl fun k' hk' => sum_congr rfl fun c hc => ?_
  rw [hv k k' r c hk (mem_range.1 hk') hr (mem_range.1 hc)]; rfl

theorem mono_col {Q : MatArr R} {v : Nat → R} {rz cz : Nat → Nat} {val : Nat → Nat → R} {k r : Nat}
    (hv : ∀ i j k l, i < subs.length → j < subs.length → k < rz i → l < cz j →
      val (first rz i + k) (first cz j + l) = mget Q i j k l) (hk : k < subs.length) (hr : r < cz k) :
    ∑ c ∈ range (first rz subs.length), val c (first cz k + r) * v c =
      colMult Q subs.length rz (blocksOf rz v) k r := by
  rw [SteadyNS.sum_blocks_eq]
  unfold colMult
  refine sum_congr rfl fun k' hk' => sum_congr rfl fun c hc => ?_
  rw [hv k' k c r (mem_range.1 hk') hk (mem_range.1 hc) hr]; rfl

theorem vsize_sum {spaces : List Space} (h : spaces.length = subs.length) :
    (spaces.map (·.vsize)).sum = first (sizeIn spaces) subs.length := by
  rw [sizes_eq h]; exact EqpRom.tab_sum _ _

/-- The solver set up on a division is set up for a problem whose residuals are those of the undivided mesh. -/
theorem steady_problem' (hE : E.Consistent) (D : Division pm subs φ g) (hcov : Covers pm subs)
    (hbc : Conditions pm bc) (hfun : HasFunctions bc) (H : SteadyForms E pm subs φ uspaces pspaces I)
    (presDbc : Bool) :
    ∃ s rhs P, steadySetup bc pm subs uspaces pspaces I presDbc = .ok (s, rhs) ∧ Flow.Ok P (valuesOnly s.oper) ∧
      IsOffsets s.p ((List.range P.n).map P.np) ∧ P.RhsOk rhs ∧
      s.presDbc = presDbc ∧ P.n = subs.length ∧ P.nu = sizeIn uspaces ∧ P.np = sizeIn pspaces ∧
      ∀ u q υ π, Represents subs uspaces E.W.nt (blocksOf (sizeIn uspaces) u) υ →
        Represents subs pspaces E.W'.nt (blocksOf (sizeIn pspaces) q) π →
        (∀ (k i e a : Nat) sm s, subs[k]? = some sm → uspaces[k]? = some s → sm.elemMap[i]? = some e →
          a < E.W.nt e → P.momentum u q k (pos s i a) - P.f k (pos s i a) = E.momentum pm bc υ π e a ∧
            ∑ c ∈ range P.NU, P.K (first P.nu k + pos s i a) c * u c = applied E.W pm bc υ e a ∧
            ∑ c ∈ range P.NP, P.Bt (first P.nu k + pos s i a) c * q c = appliedT E.W' pm bc π e a) ∧
        ∀ (k i e a : Nat) sm s, subs[k]? = some sm → pspaces[k]? = some s → sm.elemMap[i]? = some e →
          a < E.W'.nt e → P.divergence u k (pos s i a) - P.g k (pos s i a) = E.mass pm bc υ e a ∧
            ∑ c ∈ range P.NU, P.B (first P.np k + pos s i a) c * u c = applied E.W' pm bc υ e a := by
  have hut := H.uspace
  have hpt := H.pspace
  have S := H.stokes
  obtain ⟨f, f1, f2, f3⟩ := rhs_spec D hbc S.momentum
  obtain ⟨h, h1, h2, h3⟩ := rhs_spec D hbc S.mass
  obtain ⟨M, m1, m0, -⟩ := operator_spec false D hbc S.viscous
  obtain ⟨M', m1', m2⟩ := entries_of_operator false D hbc S.viscous
  rw [m1] at m1'; cases m1'
  obtain ⟨B, b1, b0, -⟩ := operator_spec true D hbc S.divergence
  obtain ⟨B', b1', b2⟩ := entries_of_operator true D hbc S.divergence
  rw [b1] at b1'; cases b1'
  rw [S.utest, S.utrial] at m0 m2
  rw [S.pdiv, S.udiv] at b0 b2
  have hu := offsetsOf_ok (spaces := uspaces) (subs := subs) hut.1
  have hp := offsetsOf_ok (spaces := pspaces) (subs := subs) hpt.1
  obtain ⟨mm, k1, -, -, -, k2, k3, k4⟩ := FomSolve.setBlocks_ok hu hu m0
  obtain ⟨bm, l1, -, -, -, l2, l3, l4⟩ := FomSolve.setBlocks_ok hp hu b0
  obtain ⟨st, fms, mesh, mks, ts, c1, c2, c3, c4, Fd, It, c5, c6⟩ := flowConv_spec (R := R) (N := fun _ => E.N)
    (nviews := fun _ => I.nviews) (n := E.W.nt) D hbc hfun (fun _ => H.convection) (fun _ => H.space)
    (fun _ => hE.convection) hu
  let P : Flow R := ⟨subs.length, sizeIn uspaces, sizeIn pspaces, (mono mm).val, fun r c => (mono bm).val c r,
    (mono bm).val, Fd 0, fun _ _ _ _ => 0, It 0, fun _ _ _ _ _ => 0, fun m k => ve (f[m]?.getD []) k,
    fun m k => ve (h[m]?.getD []) k⟩
  have nu : (uspaces.map (·.vsize)).sum = P.NU := vsize_sum hut.1
  have np : (pspaces.map (·.vsize)).sum = P.NP := vsize_sum hpt.1
  refine ⟨⟨⟨subs.length, offsetsOf uspaces, saddleOp (uspaces.map (·.vsize)).sum (pspaces.map (·.vsize)).sum
    (mono mm) (transpose (mono bm)) (mono bm), steadyForms I (offsetsOf uspaces) subs.length st mesh ts⟩,
    offsetsOf pspaces, presDbc⟩, rhsVec f h, P, ?_,
    ⟨rfl, hu, ?_, ?_, ?_, ?_, ?_, ?_, ⟨?_, ?_, ?_, ?_, ?_, ?_⟩⟩, hp, ?_, rfl, rfl, rfl, rfl, ?_⟩
  · unfold steadySetup
    rw [c1, ok_bind]
    dsimp only
    rw [c2, ok_bind, c3, ok_bind, c4, ok_bind]
    unfold stokesEquations
    rw [f1, ok_bind, h1, ok_bind, m1, ok_bind, b1, ok_bind]
    show (setBlocks subs.length (offsetsOf uspaces) (offsetsOf uspaces) M >>= _) = _
    rw [k1, ok_bind]
    dsimp only
    rw [l1, ok_bind]
    rfl
  · show [0, _, _] = _
    rw [nu, np]
  · show [0, _, _] = _
    rw [nu, np]
  · show some (mono mm) = some ⟨first (sizeIn uspaces) subs.length, first (sizeIn uspaces) subs.length, (mono mm).val⟩
    rw [← k2]
    cases hmm : mono mm with
    | mk a b c =>
      rw [hmm] at k2 k3
      simp only at k2 k3 ⊢
      rw [k2, k3]
  · show some (transpose (mono bm)) = some ⟨first (sizeIn uspaces) subs.length, first (sizeIn pspaces) subs.length,
      fun r c => (mono bm).val c r⟩
    unfold transpose
    rw [l2, l3]
  · show some (mono bm) = some ⟨first (sizeIn pspaces) subs.length, first (sizeIn uspaces) subs.length, (mono bm).val⟩
    rw [← l2, ← l3]
  · intro i j n1 n2 n3
    show (if _ then _ else _) = none
    rw [if_neg n1, if_neg n2, if_neg n3]
  · exact fun m x hm hx => c5.dom 0 m x hm hx
  · intro m x g hm hx hg hg'
    exact ⟨g, rfl, hg, hg', fun k l _ _ => (add_zero _).symm⟩
  · intro op hop x y hx hy
    cases hop
    exact c5.itf 0 x y hx hy
  · intro op hop; cases hop
  · intro hop; cases hop
  · intro _ x i k j l; rfl
  · obtain ⟨r1, r2, r3⟩ := rhsVec_sizes f2 h2 (rhs_sizes S.uload S.momentum.count f2 f3)
      (rhs_sizes S.pload S.mass.count h2 h3)
    refine ⟨r1, ?_, ?_⟩
    · intro m k hm hk
      show ve _ _ = ve _ _
      unfold ve
      rw [r2 m k hm hk]
    · intro m k hm hk
      show ve _ _ = ve _ _
      unfold ve
      rw [r3 m k hm hk]
  · intro u q υ π hυ hπ
    refine ⟨?_, ?_⟩
    · intro k i e a sm s hk hs hi ha
      have hlt := (List.getElem?_eq_some_iff.1 hk).1
      have hr := dof_lt hut hk hs hi ha
      have e2 : ∑ c ∈ range P.NU, P.K (first P.nu k + pos s i a) c * u c = applied E.W pm bc υ e a := by
        rw [← row_eq D hcov m2 (by rw [hE.viscous]; exact hut) (by rw [hE.viscous]; exact hυ) hk hs hi ha]
        exact mono_row k4 hlt hr
      have e3 : ∑ c ∈ range P.NP, P.Bt (first P.nu k + pos s i a) c * q c = appliedT E.W' pm bc π e a := by
        rw [← col_eq D hcov b2 hpt hπ hk hs hi (by rw [hE.divergence]; exact ha)]
        exact mono_col l4 hlt hr
      have e4 : P.f k (pos s i a) = loadAt E.Ld pm bc e a := rhs_at S.uload f3 hk hs hi ha
      have e5 : P.F k (Unsteady.Spec.part P.nu u k) (pos s i a) + P.I (vecOf P.NU u) k (pos s i a) =
          convAt true E.N pm bc υ e a := c6 0 u υ hυ k i e a sm _ hk hs hi ha
      refine ⟨?_, e2, e3⟩
      unfold Flow.momentum SteadyEq.momentum
      rw [e2, e3, e4, e5]
      ring
    · intro k i e a sm s hk hs hi ha
      have hlt := (List.getElem?_eq_some_iff.1 hk).1
      have hr := dof_lt hpt hk hs hi ha
      have e2 : ∑ c ∈ range P.NU, P.B (first P.np k + pos s i a) c * u c = applied E.W' pm bc υ e a := by
        rw [← row_eq D hcov b2 (by rw [hE.divergence]; exact hut) (by rw [hE.divergence]; exact hυ) hk hs hi ha]
        exact mono_row l4 hlt hr
      have e4 : P.g k (pos s i a) = loadAt E.Ld' pm bc e a := rhs_at S.pload h3 hk hs hi ha
      refine ⟨?_, e2⟩
      unfold Flow.divergence SteadyEq.mass
      rw [e2, e4]

/-- The solver set up on a division is set up for a problem whose residuals are those of the undivided mesh. -/
theorem steady_problem (hE : E.Consistent) (D : Division pm subs φ g) (hcov : Covers pm subs)
    (hbc : Conditions pm bc) (hfun : HasFunctions bc) (H : SteadyForms E pm subs φ uspaces pspaces I)
    (presDbc : Bool) :
    ∃ s rhs P, steadySetup bc pm subs uspaces pspaces I presDbc = .ok (s, rhs) ∧ Flow.Ok P (valuesOnly s.oper) ∧
      IsOffsets s.p ((List.range P.n).map P.np) ∧ P.RhsOk rhs ∧
      s.presDbc = presDbc ∧ P.n = subs.length ∧ P.nu = sizeIn uspaces ∧ P.np = sizeIn pspaces ∧
      ∀ u q υ π, Represents subs uspaces E.W.nt (blocksOf (sizeIn uspaces) u) υ →
        Represents subs pspaces E.W'.nt (blocksOf (sizeIn pspaces) q) π →
        (∀ (k i e a : Nat) sm s, subs[k]? = some sm → uspaces[k]? = some s → sm.elemMap[i]? = some e →
          a < E.W.nt e → P.momentum u q k (pos s i a) - P.f k (pos s i a) = E.momentum pm bc υ π e a) ∧
        ∀ (k i e a : Nat) sm s, subs[k]? = some sm → pspaces[k]? = some s → sm.elemMap[i]? = some e →
          a < E.W'.nt e → P.divergence u k (pos s i a) - P.g k (pos s i a) = E.mass pm bc υ e a := by
  obtain ⟨s, rhs, P, p1, p2, p3, p4, p5, p6, p7, p8, p9⟩ := steady_problem' hE D hcov hbc hfun H presDbc
  exact ⟨s, rhs, P, p1, p2, p3, p4, p5, p6, p7, p8, fun u q υ π hυ hπ =>
    ⟨fun k i e a sm s a1 a2 a3 a4 => ((p9 u q υ π hυ hπ).1 k i e a sm s a1 a2 a3 a4).1,
      fun k i e a sm s a1 a2 a3 a4 => ((p9 u q υ π hυ hπ).2 k i e a sm s a1 a2 a3 a4).1⟩⟩

theorem steady_mean (D : Division pm subs φ g) (hcov : Covers pm subs)
    (H : SteadyForms E pm subs φ uspaces pspaces I) {q : Nat → R} {π : Nat → Nat → R}
    (hπ : Represents subs pspaces E.W'.nt (blocksOf (sizeIn pspaces) q) π) :
    (∑ c ∈ range (first (sizeIn pspaces) subs.length), q c) / (first (sizeIn pspaces) subs.length : R) =
      E.mean pm π := by
  unfold SteadyEq.mean
  have h1 : ∑ c ∈ range (first (sizeIn pspaces) subs.length), q c =
      ∑ e ∈ range pm.elemEdges.length, ∑ a ∈ range (E.W'.nt e), π e a := by
    rw [SteadyNS.sum_blocks_eq]
    exact sum_blocks D hcov H.pspace (fun k c => q (first (sizeIn pspaces) k + c)) π
      (fun k i e b sm s hk hs hi hb => hπ k sm s i e b hk hs hi hb)
  have h2 : (first (sizeIn pspaces) subs.length : R) =
      ((∑ e ∈ range pm.elemEdges.length, E.W'.nt e : Nat) : R) := by
    have := sum_blocks (R := R) D hcov H.pspace (fun _ _ => 1) (fun _ _ => 1)
      (fun k i e b sm s hk hs hi hb => rfl)
    simp only [sum_const, card_range, nsmul_eq_mul, mul_one] at this
    unfold first
    push_cast
    exact this
  rw [h1, h2]

/-- The squared norm of the residual of a vector on the division. -/
theorem distance_eq (D : Division pm subs φ g) (hcov : Covers pm subs)
    (H : SteadyForms E pm subs φ uspaces pspaces I) {P : Flow R} (hn : P.n = subs.length)
    (hu : P.nu = sizeIn uspaces) (hp : P.np = sizeIn pspaces)
    (hres : ∀ u q υ π, Represents subs uspaces E.W.nt (blocksOf (sizeIn uspaces) u) υ →
        Represents subs pspaces E.W'.nt (blocksOf (sizeIn pspaces) q) π →
        (∀ (k i e a : Nat) sm s, subs[k]? = some sm → uspaces[k]? = some s → sm.elemMap[i]? = some e →
          a < E.W.nt e → P.momentum u q k (pos s i a) - P.f k (pos s i a) = E.momentum pm bc υ π e a) ∧
        ∀ (k i e a : Nat) sm s, subs[k]? = some sm → pspaces[k]? = some s → sm.elemMap[i]? = some e →
          a < E.W'.nt e → P.divergence u k (pos s i a) - P.g k (pos s i a) = E.mass pm bc υ e a)
    {x y b : List R} (hv : P.Value (ve x) (ve y)) (lb : b.length = P.NU + P.NP)
    (hf : ∀ m k, m < P.n → k < P.nu m → ve b (first P.nu m + k) = P.f m k)
    (hg : ∀ m k, m < P.n → k < P.np m → ve b (P.NU + (first P.np m + k)) = P.g m k)
    {υ π : Nat → Nat → R} (hυ : Represents subs uspaces E.W.nt (velocity (sizeIn uspaces) x) υ)
    (hπ : Represents subs pspaces E.W'.nt (pressure subs.length (sizeIn uspaces) (sizeIn pspaces) x) π) :
    distance y b = E.residual pm bc υ π := by
  have hNU : P.NU = first (sizeIn uspaces) subs.length := by unfold Flow.NU; rw [hn, hu]
  have hNP : P.NP = first (sizeIn pspaces) subs.length := by unfold Flow.NP; rw [hn, hp]
  obtain ⟨r1, r2⟩ := hres (ve x) (fun c => ve x (P.NU + c)) υ π hυ (by rw [hNU]; exact hπ)
  unfold distance SteadyEq.residual
  rw [lb, sum_range_add]
  congr 1
  · rw [hNU, SteadyNS.sum_blocks_eq]
    refine sum_blocks D hcov H.uspace (fun k c => (ve y (first (sizeIn uspaces) k + c) -
      ve b (first (sizeIn uspaces) k + c)) ^ 2) (fun e a => E.momentum pm bc υ π e a ^ 2) ?_
    intro k i e a sm s hk hs hi ha
    have hlt : k < P.n := by rw [hn]; exact (List.getElem?_eq_some_iff.1 hk).1
    have hr : pos s i a < P.nu k := by rw [hu]; exact dof_lt H.uspace hk hs hi ha
    rw [← r1 k i e a sm s hk hs hi ha, ← hv.1 k _ hlt hr, ← hf k _ hlt hr, hu]
  · rw [hNP, SteadyNS.sum_blocks_eq]
    refine sum_blocks D hcov H.pspace (fun k c => (ve y (P.NU + (first (sizeIn pspaces) k + c)) -
      ve b (P.NU + (first (sizeIn pspaces) k + c))) ^ 2) (fun e a => E.mass pm bc υ e a ^ 2) ?_
    intro k i e a sm s hk hs hi ha
    have hlt : k < P.n := by rw [hn]; exact (List.getElem?_eq_some_iff.1 hk).1
    have hr : pos s i a < P.np k := by rw [hp]; exact dof_lt H.pspace hk hs hi ha
    rw [← r2 k i e a sm s hk hs hi ha, ← hv.2 k _ hlt hr, ← hg k _ hlt hr, hp]

/-- Positions in a vector stored one subdomain after the other. -/
theorem at_eq (uz pz : Nat → Nat) (m v k : Nat) : at_ uz pz m v k = if v = 0 then first uz m + first pz m + k else
    first uz (m + 1) + first pz m + k := by
  unfold at_
  split
  · omega
  · rw [show first uz (m + 1) = first uz m + uz m from sum_range_succ _ _]
    omega

end Verif.Divide
