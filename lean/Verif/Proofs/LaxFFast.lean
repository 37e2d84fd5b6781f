import Verif.Props.LaxF
import Verif.Props.Convection
import Verif.Spec.EqpItf

namespace Verif.LaxF

open Verif Verif.LinAlg Verif.LinAlg.Spec Verif.LaxF.Spec Finset
open Verif.Convection (basisElement bcol ve_bcol basisElement_eq tab_succ flatten_tab)
open Verif.Convection.Spec (coef lift project project2)

variable {R : Type} [Field R]

/-- What the precomputation stores for one side. -/
structure ShapesOk (dim nd off : Nat) (shape : List R) (b : Mat R) (rows : List Int) (s : Mat R) : Prop where
  h : s.h = dim
  w : s.w = b.w
  ok : MatOk s
  ent : ∀ d c, d < dim → c < b.w → ent s d c = valueAt nd shape ((bcol b rows c).drop off) d

theorem shapesOf_ok {dim nd off : Nat} {shape : List R} {b : Mat R} (hb : MatOk b) {rows : List Int}
    (hr : RowsOk rows b.h) :
    ∃ s, shapesOf dim nd off shape b rows = .ok s ∧ ShapesOk dim nd off shape b rows s := by
  have := loop_spec (n := b.w) (body := fun i (st : List (List R)) => (do
      let v ← basisElement b i rows
      let elv : Mat R := ⟨nd, dim, v.drop off⟩
      return st ++ [elv.mulTV shape] : Outcome _))
    (fun i => tab i fun c => (⟨nd, dim, (bcol b rows c).drop off⟩ : Mat R).mulTV shape) (s := []) rfl
    (fun i hi => by
      dsimp only
      rw [basisElement_eq hb hr hi, ok_bind, tab_succ]; rfl)
  unfold shapesOf
  rw [this, ok_bind]
  refine ⟨_, rfl, rfl, rfl, ?_, ?_⟩
  · unfold MatOk
    by_cases hd : dim = 0
    · simp [hd]
    · have e := flatten_tab dim b.w (by omega) (fun c d => ∑ i ∈ range nd,
        (⟨nd, dim, (bcol b rows c).drop off⟩ : Mat R).get i d * vget shape i)
      have e' : (tab b.w fun c => (⟨nd, dim, (bcol b rows c).drop off⟩ : Mat R).mulTV shape).flatten = _ := e
      dsimp only
      rw [e', of_length]
  · intro d c hd hc
    have e := flatten_tab dim b.w (by omega) (fun c d => ∑ i ∈ range nd,
        (⟨nd, dim, (bcol b rows c).drop off⟩ : Mat R).get i d * vget shape i)
    have e' : (tab b.w fun c => (⟨nd, dim, (bcol b rows c).drop off⟩ : Mat R).mulTV shape).flatten = _ := e
    rw [e']
    exact ent_of (f := fun d c => ∑ i ∈ range nd,
      (⟨nd, dim, (bcol b rows c).drop off⟩ : Mat R).get i d * vget shape i) hd hc

theorem fast_u {dim nd off : Nat} {shape : List R} {b : Mat R} {rows : List Int} {s : Mat R}
    (hs : ShapesOk dim nd off shape b rows s) (hl : off + nd * dim ≤ rows.length) (x : List R) :
    s.mulV x = (⟨nd, dim, (lift b rows x).drop off⟩ : Mat R).mulTV shape := by
  refine list_ext_ve ?_ ?_
  · rw [length_mulV, length_mulTV, hs.h]
  · intro d hd
    rw [length_mulV, hs.h] at hd
    rw [ve_mulV (by rw [hs.h]; exact hd), ve_side hd, hs.w]
    unfold valueAt coef
    have : ∀ k ∈ range nd, ve ((lift b rows x).drop off) (k + d * nd) * ve shape k =
        ∑ c ∈ range b.w, ve ((bcol b rows c).drop off) (k + d * nd) * ve shape k * ve x c := by
      intro k hk
      have hi := idx_lt (mem_range.1 hk) hd
      rw [ve_drop, Convection.ve_lift (by omega), sum_mul]
      refine sum_congr rfl fun c _ => ?_
      rw [ve_drop, ve_bcol (by omega)]; ring
    rw [sum_congr rfl this, sum_comm]
    refine sum_congr rfl fun c hc => ?_
    rw [hs.ent d c hd (mem_range.1 hc), valueAt, sum_mul]
    rfl

theorem sum_side (nd dim off : Nat) (shape v : List R) (F : Nat → R) :
    ∑ l ∈ range nd, ∑ e ∈ range dim, ve v (off + (l + e * nd)) * (ve shape l * F e) =
      ∑ e ∈ range dim, valueAt nd shape (v.drop off) e * F e := by
  rw [sum_comm]
  refine sum_congr rfl fun e _ => ?_
  unfold valueAt coef
  rw [sum_mul]
  exact sum_congr rfl fun l _ => by rw [ve_drop]; ring

theorem sum_side2 (dim nd off nd' off' : Nat) (shape shape' v v' : List R) (c : R) (G : Nat → Nat → R) :
    ∑ k ∈ range nd, ∑ d ∈ range dim, ∑ l ∈ range nd', ∑ e ∈ range dim,
      ve v (off + (k + d * nd)) * (c * G d e * (ve shape k * ve shape' l)) *
        ve v' (off' + (l + e * nd')) =
    c * ∑ d ∈ range dim, valueAt nd shape (v.drop off) d *
      ∑ e ∈ range dim, G d e * valueAt nd' shape' (v'.drop off') e := by
  rw [← sum_side nd dim off shape v, mul_sum]
  refine sum_congr rfl fun k _ => ?_
  rw [mul_sum]
  refine sum_congr rfl fun d _ => ?_
  have := sum_side nd' dim off' shape' v' (fun e => G d e)
  rw [show ∑ e ∈ range dim, G d e * valueAt nd' shape' (v'.drop off') e =
    ∑ e ∈ range dim, valueAt nd' shape' (v'.drop off') e * G d e from
      sum_congr rfl fun e _ => mul_comm _ _, ← this]
  simp only [mul_sum]
  exact sum_congr rfl fun l _ => sum_congr rfl fun e _ => by ring

theorem project_split {f : Face} {b : Mat R} {rows : List Int}
    (hl : rows.length = f.dim * (f.nd1 + f.n2)) (q : List R) (c : Nat) :
    project b rows q c =
      ∑ l ∈ range f.nd1, ∑ e ∈ range f.dim, ve (bcol b rows c) (pos f 0 l e) * ve q (pos f 0 l e) +
      ∑ l ∈ range f.n2, ∑ e ∈ range f.dim, ve (bcol b rows c) (pos f 1 l e) * ve q (pos f 1 l e) := by
  rw [Convection.project_bcol, hl, sum_pos]

theorem ent_asOp {g : Mat R} {s : Mat R} {dim : Nat} (h1 : g.h = dim) (h2 : g.w = dim) (h3 : s.h = dim)
    {j d : Nat} (hd : d < dim) :
    ve ((asOp g).mult (tab s.h (fun c => ent s c j))) d = ∑ e ∈ range dim, ent g d e * ent s e j := by
  show ve (g.mulV _) d = _
  rw [ve_mulV (by rw [h1]; exact hd), h2]
  exact sum_congr rfl fun e he => by rw [ve_tab (by rw [h3]; exact mem_range.1 he)]

/-- One call of `AddwRtAP` with a flux gradient. -/
theorem addwRtAP_grad {r p out g : Mat R} {w : R} {dim : Nat} (hr : MatOk r) (hp : MatOk p)
    (ho : MatOk out) (g1 : g.h = dim) (g2 : g.w = dim) (h1 : r.h = dim) (h2 : p.h = dim)
    (h3 : out.h = r.w) (h4 : out.w = p.w) :
    ∃ m, addwRtAP r (asOp g) p out w = .ok m ∧ m.h = out.h ∧ m.w = out.w ∧ MatOk m ∧
      ∀ i j, i < r.w → j < p.w → ent m i j = ent out i j + w *
        ∑ d ∈ range dim, ent r d i * ∑ e ∈ range dim, ent g d e * ent p e j := by
  obtain ⟨m, e, a, b, c, hm⟩ := addwRtAP_spec r p out (asOp g) w hr hp ho
    (fun x _ => length_mulV ..) (by rw [h1]; exact g1.symm) (by rw [h2]; exact g2) h3 h4
  refine ⟨m, e, a, b, c, fun i j hi hj => ?_⟩
  rw [hm i j hi hj, h1]
  congr 2
  exact sum_congr rfl fun d hd => by rw [ent_asOp g1 g2 h2 (mem_range.1 hd)]

/-- One call of `AddwRtAP` into a sparse matrix. -/
theorem addwRtAPSparse_grad {r p g : Mat R} {out : Sp R} {w : R} {dim : Nat} (hr : MatOk r) (hp : MatOk p)
    (g1 : g.h = dim) (g2 : g.w = dim) (h1 : r.h = dim) (h2 : p.h = dim)
    (h3 : out.h = r.w) (h4 : out.w = p.w) :
    ∃ m, addwRtAPSparse r (asOp g) p out w = .ok m ∧ m.h = out.h ∧ m.w = out.w ∧
      ∀ i j, i < r.w → j < p.w → m.get i j = out.get i j + w *
        ∑ d ∈ range dim, ent r d i * ∑ e ∈ range dim, ent g d e * ent p e j := by
  obtain ⟨m, e, a, b, hm⟩ := addwRtAPSparse_spec r p out (asOp g) w hr hp
    (fun x _ => length_mulV ..) (by rw [h1]; exact g1.symm) (by rw [h2]; exact g2) h3 h4
  refine ⟨m, e, a, b, fun i j hi hj => ?_⟩
  rw [hm i j hi hj, h1]
  congr 2
  exact sum_congr rfl fun d hd => by rw [ent_asOp g1 g2 h2 (mem_range.1 hd)]

variable [LinearOrder R]

theorem gradFlux_sizes {sqrt : R → R} {dim : Nat} {u1 u2 nor : List R} {e2 nd2 : Bool} {g : Mat R × Mat R}
    (h : gradFluxDotN sqrt dim u1 u2 nor e2 nd2 = .ok g) :
    g.1.h = dim ∧ g.1.w = dim ∧ g.2.h = dim ∧ g.2.w = dim := by
  unfold gradFluxDotN at h
  obtain ⟨_, _, h⟩ := bind_eq_ok.1 h
  dsimp only at h
  split at h
  · split at h
    · cases h
      cases nd2 <;> exact ⟨rfl, rfl, rfl, rfl⟩
    · split at h
      · obtain ⟨r, _, h⟩ := bind_eq_ok.1 h
        cases h
        cases nd2 <;> exact ⟨rfl, rfl, rfl, rfl⟩
      · obtain ⟨r, _, h⟩ := bind_eq_ok.1 h
        cases h
        cases nd2 <;> exact ⟨rfl, rfl, rfl, rfl⟩
  · cases h; exact ⟨rfl, rfl, rfl, rfl⟩

/-- The first gradient does not depend on the flag. -/
theorem gradFlux_flag {sqrt : R → R} (hsq : ∀ x, 0 ≤ sqrt x) {dim : Nat} {u1 u2 nor : List R} {e2 : Bool} :
    (gradFluxDotN sqrt dim u1 u2 nor e2 true).map Prod.fst =
      (gradFluxDotN sqrt dim u1 u2 nor e2 false).map Prod.fst := by
  unfold gradFluxDotN
  cases h : (dim == u1.length)
  · rfl
  · simp only [require_true, ok_bind]
    cases e2
    · rfl
    · simp only [if_true, Bool.not_true, Bool.false_and, Bool.false_eq_true, if_false, Bool.not_false,
        Bool.true_and]
      by_cases hle : sqrt (Convection.vdot dim u2 u2) ≤ sqrt (Convection.vdot dim u1 u1)
      · simp only [hle, if_true, decide_true, Bool.not_true, Bool.false_eq_true, if_false]
        cases fdiv (sqrt (Convection.vdot dim nor nor)) (sqrt (Convection.vdot dim u1 u1)) <;> rfl
      · simp only [hle, if_false, decide_false, Bool.not_false, if_true]
        have h0 : sqrt (Convection.vdot dim u2 u2) ≠ 0 := fun h => hle (h ▸ hsq _)
        rw [fdiv, if_neg h0]; rfl

end Verif.LaxF
