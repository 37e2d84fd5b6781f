import Verif.Spec.Loads
import Verif.Proofs.Temam

/-!
# Proofs about the boundary loads
-/

namespace Verif.Loads

open Verif Verif.LinAlg Verif.Penalty Verif.Temam Verif.Spec.Temam Verif.Spec.Penalty Verif.Spec.Loads
open Finset hiding val

variable {R : Type} [Field R]

theorem flux_visc (d : Dims) (p : Pt R) (w : Nat → R) :
    flux d visc p false w = ∑ j ∈ range d.n1, w j *
      (p.s1.mu * mulVec d.dim (mulMat d.dim p.s1.dshape p.s1.adj) p.nor j / p.s1.det) := by
  simp only [flux, visc, side, apply, grad, nd, Penalty.mulVec_eq, mulMat_eq, mul_sum]
  rw [sum_comm]
  refine sum_congr rfl fun j _ => ?_
  rw [sum_div, mul_sum]
  refine sum_congr rfl fun a _ => ?_
  rw [sum_mul, mul_sum, sum_div, mul_sum]
  exact sum_congr rfl fun b _ => by ring

theorem invh_eq (d : Dims) (p : Pt R) :
    invh d p = p.s1.mu * dot d.dim p.nor p.nor / p.s1.det := by
  rw [invh, Penalty.dot_eq, mul_sum, sum_div]
  exact sum_congr rfl fun a _ => by ring

theorem over_lin {α : Type} {pts : List α} {body : α → Blk R → Outcome (Blk R)} {n : Nat}
    (T : α → (Nat → R) → R)
    (hs : ∀ p ∈ pts, ∀ m' : Blk R, m'.h = n → m'.w = 1 → ∃ m'', body p m' = .ok m'' ∧ BAdd m' m'' (fun v h => T p v * h 0)) :
    ∃ x, over pts body (zeros n 1) = .ok x ∧ x.h = n ∧ x.w = 1 ∧ ∀ v, lin n x v = (pts.map fun p => T p v).sum := by
  obtain ⟨x, e, h1, h2, h3⟩ := over_bil (pts := pts) (m := zeros n 1) (body := body) (fun p v h => T p v * h 0) hs
  refine ⟨x, e, h1, h2, fun v => ?_⟩
  have := h3 v (fun _ => 1)
  simp only [mul_one] at this
  rw [← bil_one]
  exact this.trans (by rw [bil_zeros, zero_add])

section
variable [DecidableEq R]

theorem dirichletPt_ok {d : Dims} {alpha kappa : R} {q : DPt R} (hq : q.p.s1.det ≠ 0) {x : Blk R}
    (hr : x.h = d.dim * d.n1) (hc : x.w = 1) :
    ∃ x', dirichletPt d.dim d.n1 alpha kappa q x = .ok x' ∧ BAdd x x' (fun v h => (∑ c ∈ range d.dim, q.p.wt *
    (alpha * (q.g c * flux d visc q.p false (part d.n1 c v)) +
      kappa * invh d q.p * q.g c * value d.n1 q.p.s1.shape (part d.n1 c v))) * h 0) := by
  unfold dirichletPt
  have hw : fdiv q.p.wt q.p.s1.det = .ok (q.p.wt / q.p.s1.det) := by rw [fdiv, if_neg hq]
  dsimp only
  rw [hw, ok_bind]
  obtain ⟨x', e, b⟩ := loop_bil (m := x) (n := d.dim) (body := fun im x => loop d.n1 (fun id x =>
      addAt x (im * d.n1 + id) 0 (q.p.wt / q.p.s1.det * q.p.s1.mu * alpha * q.g im *
        mulVec d.dim (mulMat d.dim q.p.s1.dshape q.p.s1.adj) q.p.nor id +
        kappa * (q.p.wt / q.p.s1.det * q.p.s1.mu) * dot d.dim q.p.nor q.p.nor * q.g im * q.p.s1.shape id)) x)
    (fun c v h => ∑ j ∈ range d.n1, v (c * d.n1 + j) * (q.p.wt / q.p.s1.det * q.p.s1.mu * alpha * q.g c *
        mulVec d.dim (mulMat d.dim q.p.s1.dshape q.p.s1.adj) q.p.nor j +
        kappa * (q.p.wt / q.p.s1.det * q.p.s1.mu) * dot d.dim q.p.nor q.p.nor * q.g c * q.p.s1.shape j) * h 0)
    (fun c x1 hc' h1 h2 => loop_bil _ fun j x2 hj h3 h4 => by
      have := flat_lt hc' hj
      exact addAt_bil _ (by omega) (by omega))
  refine ⟨x', e, b.congr fun v h => ?_⟩
  rw [sum_mul]
  refine sum_congr rfl fun c _ => ?_
  rw [← sum_mul]
  congr 1
  rw [flux_visc, invh_eq, value]
  simp only [part, mul_sum, ← sum_add_distrib]
  exact sum_congr rfl fun j _ => by ring

theorem dirichlet_ok {d : Dims} {alpha kappa : R} {pts : List (DPt R)} (hp : ∀ q ∈ pts, q.p.s1.det ≠ 0) :
    ∃ x, dirichlet d.dim d.n1 alpha kappa pts = .ok x ∧ x.h = d.dim * d.n1 ∧ x.w = 1 ∧
      ∀ v, lin (d.dim * d.n1) x v = dirichletForm d alpha kappa pts v := by
  obtain ⟨x, e, h1, h2, h3⟩ := over_lin (n := d.dim * d.n1) (pts := pts) _
    (fun q hq x hr hc => dirichletPt_ok (alpha := alpha) (kappa := kappa) (hp q hq) hr hc)
  refine ⟨x, e, h1, h2, fun v => (h3 v).trans ?_⟩
  unfold dirichletForm
  simp only [← sum_getElem]
  rw [sum_comm]
  refine sum_congr rfl fun k hk => ?_
  rw [List.getElem?_eq_getElem (mem_range.1 hk)]
  rfl

end

theorem normal_ok (dim nd : Nat) (pts : List (NPt R)) :
    ∃ x, normal dim nd pts = .ok x ∧ x.h = nd ∧ x.w = 1 ∧ ∀ v, lin nd x v = normalForm dim nd pts v := by
  refine over_lin (n := nd) (pts := pts) (body := normalPt dim nd)
    (fun p v => p.wt * ((∑ a ∈ range dim, p.g a * p.nor a) * value nd p.shape v)) fun p _ x hr hc => ?_
  unfold normalPt
  dsimp only
  obtain ⟨x', e, b⟩ := loop_bil (m := x) (n := nd)
    (body := fun j x => addAt x j 0 (p.wt * dot dim p.g p.nor * p.shape j))
    (fun j v h => v j * (p.wt * dot dim p.g p.nor * p.shape j) * h 0)
    (fun j x1 hj h1 h2 => addAt_bil _ (by omega) (by omega))
  refine ⟨x', e, b.congr fun v h => ?_⟩
  rw [← sum_mul, Penalty.dot_eq, value]
  congr 1
  generalize ∑ a ∈ range dim, p.g a * p.nor a = D
  rw [mul_sum, mul_sum]
  exact sum_congr rfl fun j _ => by ring

theorem stress_ok (dim nd : Nat) (pts : List (NPt R)) :
    ∃ x, stress dim nd pts = .ok x ∧ x.h = dim * nd ∧ x.w = 1 ∧ ∀ v, lin (dim * nd) x v = stressForm dim nd pts v := by
  refine over_lin (n := dim * nd) (pts := pts) (body := stressPt dim nd)
    (fun p v => p.wt * ∑ k ∈ range dim,
      (∑ l ∈ range dim, p.g (k + dim * l) * p.nor l) * value nd p.shape (part nd k v)) fun p _ x hr hc => ?_
  unfold stressPt
  dsimp only
  obtain ⟨x', e, b⟩ := loop_bil (m := x) (n := dim)
    (body := fun k x => loop nd (fun j x =>
      addAt x (k * nd + j) 0 (mulVec dim (fun k l => p.g (k + dim * l)) p.nor k * p.wt * p.shape j)) x)
    (fun k v h => ∑ j ∈ range nd, v (k * nd + j) *
      (mulVec dim (fun k l => p.g (k + dim * l)) p.nor k * p.wt * p.shape j) * h 0)
    (fun k x1 hk h1 h2 => loop_bil _ fun j x2 hj h3 h4 => by
      have := flat_lt hk hj
      exact addAt_bil _ (by omega) (by omega))
  refine ⟨x', e, b.congr fun v h => ?_⟩
  rw [mul_sum, sum_mul]
  refine sum_congr rfl fun k _ => ?_
  rw [← sum_mul, Penalty.mulVec_eq, value]
  congr 1
  simp only [part, mul_sum]
  exact sum_congr rfl fun j _ => by ring

end Verif.Loads
