import Verif.Spec.LaxF
import Verif.Proofs.ConvectionFast
import Mathlib.Algebra.BigOperators.Field

namespace Verif.LaxF

open Verif Verif.LinAlg Verif.LinAlg.Spec Verif.LaxF.Spec Verif.Convection Finset
open Verif.Convection.Spec (coef)

variable {R : Type} [Field R] [LinearOrder R]

omit [LinearOrder R] in
theorem vdot_eq (dim : Nat) (a b : List R) : vdot dim a b = inner dim (ve a) (ve b) := rfl

omit [LinearOrder R] in
theorem inner_congr {dim : Nat} {a a' b b' : Nat → R} (ha : ∀ d < dim, a d = a' d)
    (hb : ∀ d < dim, b d = b' d) : inner dim a b = inner dim a' b' :=
  sum_congr rfl fun d hd => by rw [ha d (mem_range.1 hd), hb d (mem_range.1 hd)]

theorem laxF_congr {sqrt : R → R} {dim : Nat} {a a' b b' n : Nat → R} (ha : ∀ d < dim, a d = a' d)
    (hb : ∀ d < dim, b d = b' d) {d : Nat} (hd : d < dim) :
    laxF sqrt dim a b n d = laxF sqrt dim a' b' n d := by
  unfold laxF
  rw [inner_congr (fun _ _ => rfl) ha, inner_congr (fun _ _ => rfl) hb, inner_congr ha ha,
    inner_congr hb hb, ha d hd, hb d hd]

theorem length_flux (sqrt : R → R) (dim : Nat) (u1 u2 nor : List R) (e : Bool) :
    (fluxDotN sqrt dim u1 u2 nor e).length = dim := by
  unfold fluxDotN; cases e <;> simp [vof_eq]

theorem ve_flux {sqrt : R → R} {dim : Nat} {u1 u2 nor : List R} {d : Nat} (hd : d < dim) :
    ve (fluxDotN sqrt dim u1 u2 nor true) d = laxF sqrt dim (ve u1) (ve u2) (ve nor) d := by
  unfold fluxDotN
  simp only [if_true, vof_eq, vget_eq]
  rw [ve_tab hd, ve_tab hd, ve_tab hd, ve_vscale (by simpa using hd), ve_tab hd]
  unfold laxF
  rw [vdot_eq, vdot_eq, vdot_eq, vdot_eq, vdot_eq]
  ring

theorem ve_outflow {sqrt : R → R} {dim : Nat} {u1 u2 nor : List R} {d : Nat} (hd : d < dim) :
    ve (fluxDotN sqrt dim u1 u2 nor false) d = outflow dim (ve u1) (ve nor) d := by
  unfold fluxDotN
  simp only [Bool.false_eq_true, if_false, vof_eq, vget_eq]
  rw [ve_tab hd]; rfl

omit [LinearOrder R] in
theorem withQ_eq (p : FPt R) (w : R) : p.withQ w = wq p w := by
  unfold FPt.withQ wq; cases p.q <;> simp

omit [LinearOrder R] in
theorem ve_side {nd dim : Nat} {u shape : List R} {d : Nat} (hd : d < dim) :
    ve ((⟨nd, dim, u⟩ : Mat R).mulTV shape) d = valueAt nd shape u d := by
  rw [ve_mulTV (by exact hd)]; rfl

omit [LinearOrder R] in
theorem n2_ne {f : Face} {p : FPt R} (hp : FPtOk f p) : f.n2 ≠ 0 ↔ p.el2 = true := by
  have := hp.dof2
  rw [← hp.n2]; unfold FPt.ndofs2
  cases p.el2 <;> simp; omega

/-- The flux the integrator evaluates at a point. -/
def ptFlux (sqrt : R → R) (p : FPt R) (n2 : Nat) (udof1 udof2 : Mat R) : List R :=
  fluxDotN sqrt p.dim (udof1.mulTV p.shape1) (p.other n2 udof2) p.nor (decide (n2 ≠ 0) || p.ud.isSome)

theorem ve_ptFlux {sqrt : R → R} {f : Face} {p : FPt R} (hp : FPtOk f p) {u1 u2 : List R} {d : Nat}
    (hd : d < f.dim) :
    ve (ptFlux sqrt p f.n2 ⟨f.nd1, f.dim, u1⟩ ⟨f.n2, f.dim, u2⟩) d =
      pointFlux sqrt p (valueAt f.nd1 p.shape1 u1) (valueAt f.n2 p.shape2 u2) d := by
  have hd' : d < p.dim := by rw [hp.dim]; exact hd
  unfold ptFlux pointFlux FPt.other
  by_cases h : p.el2
  · have h2 := (n2_ne hp).2 h
    rw [if_pos h2, if_pos h]
    simp only [h2, ne_eq, not_false_eq_true, decide_true, Bool.true_or]
    rw [ve_flux hd']
    exact laxF_congr (fun e he => ve_side (by rw [← hp.dim]; exact he))
      (fun e he => ve_side (by rw [← hp.dim]; exact he)) hd'
  · have h2 : f.n2 = 0 := by
      by_contra hc; exact h ((n2_ne hp).1 hc)
    rw [if_neg (by simpa using h2), if_neg h]
    cases hu : p.ud with
    | some v =>
      simp only [h2, ne_eq, not_true_eq_false, decide_false, Option.isSome_some, Bool.or_true]
      rw [ve_flux hd']
      exact laxF_congr (fun e he => ve_side (by rw [← hp.dim]; exact he)) (fun _ _ => rfl) hd'
    | none =>
      simp only [h2, ne_eq, not_true_eq_false, decide_false, Option.isSome_none, Bool.or_false]
      rw [ve_outflow hd']
      unfold outflow
      rw [ve_side hd, inner_congr (fun _ _ => rfl) (b' := valueAt f.nd1 p.shape1 u1)
        (fun e he => ve_side (by rw [← hp.dim]; exact he))]

theorem vecLoop_spec {sqrt : R → R} {f : Face} {pts : List (FPt R × R)}
    (hp : ∀ pw ∈ pts, FPtOk f pw.1) (u1 u2 : List R) :
    let r := vecLoop sqrt f pts ⟨f.nd1, f.dim, u1⟩ ⟨f.n2, f.dim, u2⟩
    (r.1.h = f.nd1 ∧ r.1.w = f.dim ∧ r.1.data.length = f.nd1 * f.dim) ∧
    (r.2.h = f.n2 ∧ r.2.w = f.dim ∧ r.2.data.length = f.n2 * f.dim) ∧
    (∀ k d, k < f.nd1 → d < f.dim → ent r.1 k d = -sideSum sqrt f pts u1 u2 FPt.shape1 k d) ∧
    (∀ k d, k < f.n2 → d < f.dim → ent r.2 k d = sideSum sqrt f pts u1 u2 FPt.shape2 k d) := by
  dsimp only
  unfold vecLoop
  suffices H : ∀ (pts : List (FPt R × R)) (e : Mat R × Mat R), (∀ pw ∈ pts, FPtOk f pw.1) →
      e.1.h = f.nd1 → e.1.w = f.dim → e.1.data.length = f.nd1 * f.dim →
      e.2.h = f.n2 → e.2.w = f.dim → e.2.data.length = f.n2 * f.dim →
      let r := pts.foldl (fun elv pw => quadVecBase sqrt pw.1 pw.2 f.n2 ⟨f.nd1, f.dim, u1⟩
        ⟨f.n2, f.dim, u2⟩ elv) e
      (r.1.h = f.nd1 ∧ r.1.w = f.dim ∧ r.1.data.length = f.nd1 * f.dim) ∧
      (r.2.h = f.n2 ∧ r.2.w = f.dim ∧ r.2.data.length = f.n2 * f.dim) ∧
      (∀ k d, k < f.nd1 → d < f.dim →
        ent r.1 k d = ent e.1 k d - sideSum sqrt f pts u1 u2 FPt.shape1 k d) ∧
      (∀ k d, k < f.n2 → d < f.dim →
        ent r.2 k d = ent e.2 k d + sideSum sqrt f pts u1 u2 FPt.shape2 k d) by
    obtain ⟨a, b, c, d⟩ := H pts (Mat.of f.nd1 f.dim (fun _ _ => 0), Mat.of f.n2 f.dim (fun _ _ => 0))
      hp rfl rfl (of_length ..) rfl rfl (of_length ..)
    refine ⟨a, b, fun k e hk he => ?_, fun k e hk he => ?_⟩
    · rw [c k e hk he, ent_of hk he, zero_sub]
    · rw [d k e hk he, ent_of hk he, zero_add]
  intro pts
  induction pts with
  | nil => intro e _ h1 h2 h3 h4 h5 h6; exact ⟨⟨h1, h2, h3⟩, ⟨h4, h5, h6⟩, by simp [sideSum], by simp [sideSum]⟩
  | cons pw pts ih =>
    intro e hp h1 h2 h3 h4 h5 h6
    have ho := hp pw (by simp)
    have e1 : (quadVecBase sqrt pw.1 pw.2 f.n2 ⟨f.nd1, f.dim, u1⟩ ⟨f.n2, f.dim, u2⟩ e).1 =
        e.1.addScaled (-wq pw.1 pw.2) (mulVWt pw.1.shape1
          (ptFlux sqrt pw.1 f.n2 ⟨f.nd1, f.dim, u1⟩ ⟨f.n2, f.dim, u2⟩)) := by
      rw [← withQ_eq]; rfl
    have e2 : (quadVecBase sqrt pw.1 pw.2 f.n2 ⟨f.nd1, f.dim, u1⟩ ⟨f.n2, f.dim, u2⟩ e).2 =
        if f.n2 ≠ 0 then e.2.addScaled (wq pw.1 pw.2) (mulVWt pw.1.shape2
          (ptFlux sqrt pw.1 f.n2 ⟨f.nd1, f.dim, u1⟩ ⟨f.n2, f.dim, u2⟩)) else e.2 := by
      rw [← withQ_eq]; rfl
    have hf' : (ptFlux sqrt pw.1 f.n2 ⟨f.nd1, f.dim, u1⟩ ⟨f.n2, f.dim, u2⟩).length = f.dim := by
      unfold ptFlux; rw [length_flux, ho.dim]
    obtain ⟨a, b, c, d⟩ := ih (quadVecBase sqrt pw.1 pw.2 f.n2 ⟨f.nd1, f.dim, u1⟩
      ⟨f.n2, f.dim, u2⟩ e) (fun q hq => hp q (by simp [hq]))
      (by rw [e1]; exact h1) (by rw [e1]; exact h2)
      (by rw [e1]; show (Mat.of _ _ _).data.length = _; rw [of_length, h1, h2])
      (by rw [e2]; split <;> exact h4) (by rw [e2]; split <;> exact h5)
      (by
        rw [e2]; split
        · show (Mat.of _ _ _).data.length = _; rw [of_length, h4, h5]
        · exact h6)
    refine ⟨a, b, fun k i hk hi => ?_, fun k i hk hi => ?_⟩
    · rw [List.foldl_cons, c k i hk hi, e1, ent_addScaled (by omega) (by omega),
        ent_mulVWt (by rw [ho.shape1]; exact hk) (by omega), ve_ptFlux ho hi]
      simp only [sideSum, List.map_cons, List.sum_cons]
      ring
    · have hn : f.n2 ≠ 0 := by omega
      rw [List.foldl_cons, d k i hk hi, e2, if_pos hn, ent_addScaled (by omega) (by omega),
        ent_mulVWt (by rw [ho.shape2 ((n2_ne ho).1 hn)]; exact hk) (by omega), ve_ptFlux ho hi]
      simp only [sideSum, List.map_cons, List.sum_cons]
      ring

/-! ### Gradients -/

/-- Derivative of component `d` of the flux in component `e` of the first velocity. -/
def grad1 (sqrt : R → R) (dim : Nat) (a b n : Nat → R) (d e : Nat) : R :=
  (inner dim n a * (if d = e then 1 else 0) + a d * n e) / 2 +
  sqrt (inner dim n n) * max (sqrt (inner dim a a)) (sqrt (inner dim b b)) * (if d = e then 1 else 0) +
  if sqrt (inner dim b b) ≤ sqrt (inner dim a a) then
    sqrt (inner dim n n) / sqrt (inner dim a a) * ((a d - b d) * a e) else 0

/-- The same for the second velocity. -/
def grad2 (sqrt : R → R) (dim : Nat) (a b n : Nat → R) (d e : Nat) : R :=
  (inner dim n b * (if d = e then 1 else 0) + b d * n e) / 2 -
  sqrt (inner dim n n) * max (sqrt (inner dim a a)) (sqrt (inner dim b b)) * (if d = e then 1 else 0) +
  if sqrt (inner dim b b) ≤ sqrt (inner dim a a) then 0 else
    sqrt (inner dim n n) / sqrt (inner dim b b) * ((a d - b d) * b e)

/-- The magnitude the gradient divides by. -/
def DivOk (sqrt : R → R) (dim : Nat) (a b : Nat → R) : Prop :=
  if sqrt (inner dim b b) ≤ sqrt (inner dim a a) then sqrt (inner dim a a) ≠ 0
  else sqrt (inner dim b b) ≠ 0

omit [LinearOrder R] in
theorem addDiag_h (m : Mat R) (a : R) : (addDiag m a).h = m.h := rfl
omit [LinearOrder R] in
theorem addDiag_w (m : Mat R) (a : R) : (addDiag m a).w = m.w := rfl

omit [LinearOrder R] in
theorem ent_addDiag {m : Mat R} {a : R} {i j : Nat} (hi : i < m.h) (hj : j < m.w) :
    ent (addDiag m a) i j = ent m i j + if i = j then a else 0 := by
  rw [addDiag, ent_of hi hj]; rfl

omit [LinearOrder R] in
theorem inner_half {dim : Nat} {n a : List R} (hn : n.length = dim) :
    inner dim (ve (vscale (1 / 2) n)) (ve a) = inner dim (ve n) (ve a) / 2 := by
  unfold inner
  rw [sum_div]
  exact sum_congr rfl fun d hd => by rw [ve_vscale (by rw [hn]; exact mem_range.1 hd)]; ring

theorem gradFlux_ok {sqrt : R → R} {dim : Nat} {u1 u2 nor : List R} (h1 : u1.length = dim)
    (h2 : u2.length = dim) (hn : nor.length = dim) (nd2 : Bool)
    (hd : DivOk sqrt dim (ve u1) (ve u2)) :
    ∃ g, gradFluxDotN sqrt dim u1 u2 nor true nd2 = .ok g ∧ g.1.h = dim ∧ g.1.w = dim ∧
      g.2.h = dim ∧ g.2.w = dim ∧ MatOk g.1 ∧ MatOk g.2 ∧
      (∀ d e, d < dim → e < dim → ent g.1 d e = grad1 sqrt dim (ve u1) (ve u2) (ve nor) d e) ∧
      (nd2 = true → ∀ d e, d < dim → e < dim →
        ent g.2 d e = grad2 sqrt dim (ve u1) (ve u2) (ve nor) d e) := by
  have hl : (vscale (1 / 2) nor).length = dim := by rw [length_vscale, hn]
  replace hd : if sqrt (vdot dim u2 u2) ≤ sqrt (vdot dim u1 u1) then sqrt (vdot dim u1 u1) ≠ 0
    else sqrt (vdot dim u2 u2) ≠ 0 := hd
  generalize hz : (Mat.of dim dim (fun _ _ => 0) : Mat R) = z
  have zh : z.h = dim := by rw [← hz]; rfl
  have zw : z.w = dim := by rw [← hz]; rfl
  have ze : ∀ d e, d < dim → e < dim → ent z d e = 0 := fun d e hd he => by
    rw [← hz]; exact ent_of hd he
  have zok : MatOk z := by rw [← hz]; exact of_ok ..
  -- the parts common to all cases
  have A : ∀ d e, d < dim → e < dim →
      ent (addDiag ((addDiag z (vdot dim (vscale (1 / 2) nor) u1)).addScaled 1
        (mulVWt u1 (vscale (1 / 2) nor))) (max (sqrt (vdot dim u1 u1)) (sqrt (vdot dim u2 u2)) *
          sqrt (vdot dim nor nor))) d e =
      (inner dim (ve nor) (ve u1) * (if d = e then 1 else 0) + ve u1 d * ve nor e) / 2 +
      sqrt (inner dim (ve nor) (ve nor)) * max (sqrt (inner dim (ve u1) (ve u1)))
        (sqrt (inner dim (ve u2) (ve u2))) * (if d = e then 1 else 0) := by
    intro d e hd he
    rw [ent_addDiag (by exact zh ▸ hd) (by exact zw ▸ he),
      ent_addScaled (by exact zh ▸ hd) (by exact zw ▸ he),
      ent_addDiag (zh ▸ hd) (zw ▸ he), ze d e hd he, ent_mulVWt (h1 ▸ hd) (hl ▸ he),
      ve_vscale (hn ▸ he), vdot_eq, inner_half hn, vdot_eq, vdot_eq, vdot_eq]
    split <;> ring
  have B : ∀ d e, d < dim → e < dim →
      ent ((addDiag z (vdot dim (vscale (1 / 2) nor) u2 - max (sqrt (vdot dim u1 u1))
        (sqrt (vdot dim u2 u2)) * sqrt (vdot dim nor nor))).addScaled 1
        (mulVWt u2 (vscale (1 / 2) nor))) d e =
      (inner dim (ve nor) (ve u2) * (if d = e then 1 else 0) + ve u2 d * ve nor e) / 2 -
      sqrt (inner dim (ve nor) (ve nor)) * max (sqrt (inner dim (ve u1) (ve u1)))
        (sqrt (inner dim (ve u2) (ve u2))) * (if d = e then 1 else 0) := by
    intro d e hd he
    rw [ent_addScaled (by exact zh ▸ hd) (by exact zw ▸ he),
      ent_addDiag (zh ▸ hd) (zw ▸ he), ze d e hd he, ent_mulVWt (h2 ▸ hd) (hl ▸ he),
      ve_vscale (hn ▸ he), vdot_eq, inner_half hn, vdot_eq, vdot_eq, vdot_eq]
    split <;> ring
  have D : ∀ (r : R) (v : List R), v.length = dim → ∀ d e, d < dim → e < dim →
      ent (mulVWt (vof dim (fun d => vget u1 d + (-1) * vget u2 d)) v) d e =
      (ve u1 d - ve u2 d) * ve v e := by
    intro r v hv d e hd he
    rw [ent_mulVWt (by rw [vof_eq, length_tab]; exact hd) (hv ▸ he), vof_eq, ve_tab hd, vget_eq, vget_eq]
    ring
  have hlen : (dim == u1.length) = true := by simp [h1]
  unfold gradFluxDotN
  simp only [hlen, require_true, ok_bind, if_true, hz]
  by_cases hle : sqrt (vdot dim u2 u2) ≤ sqrt (vdot dim u1 u1)
  · rw [if_pos hle] at hd
    simp only [hle, decide_true, Bool.not_true, Bool.and_false, Bool.false_eq_true, if_false, if_true,
      fdiv, hd, ok_bind]
    refine ⟨_, rfl, zh, zw, ?_, ?_, of_ok _ _ _, ?_, ?_, ?_⟩
    · cases nd2 <;> exact zh
    · cases nd2 <;> exact zw
    · cases nd2
      · exact zok
      · simp only [if_true]; exact of_ok _ _ _
    · intro d e hd he
      rw [ent_addScaled (by exact zh ▸ hd) (by exact zw ▸ he), A d e hd he, D 0 u1 h1 d e hd he]
      unfold grad1
      rw [← vdot_eq dim u2 u2, ← vdot_eq dim u1 u1, if_pos hle, vdot_eq dim nor nor]
    · intro hnd d e hd he
      subst hnd
      simp only [if_true]
      rw [B d e hd he]
      unfold grad2
      rw [← vdot_eq dim u2 u2, ← vdot_eq dim u1 u1, if_pos hle, add_zero]
  · rw [if_neg hle] at hd
    cases nd2 with
    | false =>
      simp only [hle, decide_false, Bool.not_false, Bool.and_true, Bool.false_eq_true, if_false, if_true]
      refine ⟨_, rfl, zh, zw, zh, zw, of_ok .., zok, ?_, by simp⟩
      intro d e hd he
      rw [A d e hd he]
      unfold grad1
      rw [← vdot_eq dim u2 u2, ← vdot_eq dim u1 u1, if_neg hle, add_zero]
    | true =>
      simp only [hle, Bool.not_true, Bool.false_and, Bool.false_eq_true, if_false, if_true, fdiv, hd,
        ok_bind]
      refine ⟨_, rfl, zh, zw, zh, zw, of_ok .., of_ok .., ?_, ?_⟩
      · intro d e hd he
        rw [A d e hd he]
        unfold grad1
        rw [← vdot_eq dim u2 u2, ← vdot_eq dim u1 u1, if_neg hle, add_zero]
      · intro _ d e hd he
        rw [ent_addScaled (by exact zh ▸ hd) (by exact zw ▸ he), B d e hd he, D 0 u2 h2 d e hd he]
        unfold grad2
        rw [← vdot_eq dim u2 u2, ← vdot_eq dim u1 u1, if_neg hle, vdot_eq dim nor nor]

/-- Without a second velocity: the derivative of the outflow. -/
theorem gradFlux_neumann {sqrt : R → R} {dim : Nat} {u1 u2 nor : List R} (h1 : u1.length = dim)
    (hn : nor.length = dim) (nd2 : Bool) :
    ∃ g, gradFluxDotN sqrt dim u1 u2 nor false nd2 = .ok g ∧ g.1.h = dim ∧ g.1.w = dim ∧
      g.2.h = dim ∧ g.2.w = dim ∧ MatOk g.1 ∧ MatOk g.2 ∧
      ∀ d e, d < dim → e < dim → ent g.1 d e =
        inner dim (ve nor) (ve u1) * (if d = e then 1 else 0) + ve u1 d * ve nor e := by
  have hlen : (dim == u1.length) = true := by simp [h1]
  unfold gradFluxDotN
  simp only [hlen, require_true, ok_bind, Bool.false_eq_true, if_false]
  refine ⟨_, rfl, rfl, rfl, rfl, rfl, of_ok .., of_ok .., ?_⟩
  intro d e hd he
  rw [ent_addScaled (by exact hd) (by exact he), ent_addDiag (by exact hd) (by exact he),
    ent_of hd he, ent_mulVWt (h1 ▸ hd) (hn ▸ he), vdot_eq]
  split <;> ring

/-- A zero magnitude faults. -/
theorem gradFlux_ub {sqrt : R → R} {dim : Nat} {u1 u2 nor : List R} (h1 : u1.length = dim) (nd2 : Bool)
    (hle : sqrt (inner dim (ve u2) (ve u2)) ≤ sqrt (inner dim (ve u1) (ve u1)))
    (h0 : sqrt (inner dim (ve u1) (ve u1)) = 0) :
    gradFluxDotN sqrt dim u1 u2 nor true nd2 = .error .ub := by
  have hlen : (dim == u1.length) = true := by simp [h1]
  unfold gradFluxDotN
  rw [← vdot_eq] at h0
  replace hle : sqrt (vdot dim u2 u2) ≤ 0 := h0 ▸ hle
  simp only [hlen, require_true, ok_bind, if_true, hle, decide_true, Bool.not_true, Bool.and_false,
    Bool.false_eq_true, if_false, fdiv, h0]
  rfl

end Verif.LaxF
