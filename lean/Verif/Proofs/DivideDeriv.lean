import Mathlib.Analysis.Calculus.Deriv.Add
import Mathlib.Analysis.Calculus.Deriv.Mul
import Verif.Props.DivideJac

/-!
# Helper lemmas: derivatives of the convective terms on the undivided mesh
-/

namespace Verif.Divide

open Verif Verif.LinAlg Verif.LinAlg.Spec Verif.SubMesh Verif.SubMesh.Spec Finset Spec
open Verif.Boundary (BC)

variable {F : Type} {pm : Parent} {N : Conv ℝ F} {G : Grad ℝ F} {bc : BC F} {ξ ζ : Nat → Nat → ℝ}

/-- The function at parameter `t` of a line. -/
def line (ξ ζ : Nat → Nat → ℝ) (t : ℝ) (e b : Nat) : ℝ := ξ e b + t * ζ e b

theorem pick_elem {m e : Nat} {n : Nat → Nat} (he : e < m) (P : Nat → Nat → ℝ) :
    ∑ e' ∈ range m, ∑ b ∈ range (n e'), (if e = e' then P e' b else 0) = ∑ b ∈ range (n e), P e b := by
  rw [sum_eq_single e]
  · exact sum_congr rfl fun b _ => if_pos rfl
  · intro e' _ hne
    exact sum_eq_zero fun b _ => if_neg fun h => hne h.symm
  · intro h
    exact absurd (mem_range.2 he) h

theorem vol_deriv (hD : Differentiates pm N G) {e a : Nat} (he : e < pm.elemEdges.length) (ha : a < N.n e) :
    HasDerivAt (fun t => N.vol e (valuesOn N.n (line ξ ζ t) e) a)
      (∑ e' ∈ range pm.elemEdges.length, ∑ b ∈ range (G.n e'),
        (if e = e' then G.vol e (valuesOn G.n ξ e) a b else 0) * ζ e' b) 0 := by
  have h := hD.vol e a (ξ e) (ζ e) ha
  have : ∑ e' ∈ range pm.elemEdges.length, ∑ b ∈ range (G.n e'),
        (if e = e' then G.vol e (valuesOn G.n ξ e) a b else 0) * ζ e' b =
      ∑ b ∈ range (N.n e), G.vol e (tab (N.n e) (ξ e)) a b * ζ e b := by
    rw [hD.sizes, ← pick_elem (n := N.n) he fun e' b => G.vol e (tab (N.n e) (ξ e)) a b * ζ e' b]
    refine sum_congr rfl fun e' _ => sum_congr rfl fun b _ => ?_
    unfold valuesOn
    split <;> simp
  rw [this]
  exact h

/-- The elements of every face are elements of the mesh. -/
def FacesIn (pm : Parent) : Prop :=
  ∀ (f : Nat) fc, pm.faces[f]? = some fc → (0 ≤ fc.e0 ∧ fc.e0.toNat < pm.elemEdges.length) ∧
    (0 ≤ fc.e1 → fc.e1.toNat < pm.elemEdges.length)

theorem face_deriv (hD : Differentiates pm N G) (hin : FacesIn pm) {e a : Nat} (ha : a < N.n e) (f : Nat) :
    HasDerivAt (fun t => faceConv N pm (line ξ ζ t) e a f)
      (∑ e' ∈ range pm.elemEdges.length, ∑ b ∈ range (G.n e'), faceGrad G pm ξ e a e' b f * ζ e' b) 0 := by
  unfold faceConv faceGrad
  cases hf : pm.faces[f]? with
  | none => simpa using hasDerivAt_const (0 : ℝ) (0 : ℝ)
  | some fc =>
    dsimp only
    by_cases h1 : fc.e1 < 0
    · simp only [if_pos h1]
      simpa using hasDerivAt_const (0 : ℝ) (0 : ℝ)
    · simp only [if_neg h1]
      have hel : ∀ J : Bool, (elemAt fc J).toNat < pm.elemEdges.length ∧
          ((elemAt fc J).toNat : Int) = elemAt fc J := by
        intro J
        obtain ⟨⟨a1, a2⟩, a3⟩ := hin f fc hf
        have a4 : 0 ≤ fc.e1 := by omega
        cases J
        · exact ⟨a2, Int.toNat_of_nonneg a1⟩
        · exact ⟨a3 a4, Int.toNat_of_nonneg a4⟩
      have key : ∀ I : Bool, HasDerivAt (fun t => if elemAt fc I = e then
          N.face f I (fun J => valuesOn N.n (line ξ ζ t) (elemAt fc J).toNat) a else 0)
          (∑ e' ∈ range pm.elemEdges.length, ∑ b ∈ range (G.n e'),
            (∑ J : Bool, if elemAt fc I = e ∧ elemAt fc J = e' then
              G.face f I J (fun K => valuesOn G.n ξ (elemAt fc K).toNat) a b else 0) * ζ e' b) 0 := by
        intro I
        by_cases hI : elemAt fc I = e
        · have ha' : a < N.n (elemAt fc I).toNat := by rw [hI]; exact ha
          have h := hD.face f fc I a (fun J => ξ (elemAt fc J).toNat) (fun J => ζ (elemAt fc J).toNat) hf ha'
          simp only [if_pos hI, hI, true_and]
          have : ∑ e' ∈ range pm.elemEdges.length, ∑ b ∈ range (G.n e'),
              (∑ J : Bool, if elemAt fc J = e' then
                G.face f I J (fun K => valuesOn G.n ξ (elemAt fc K).toNat) a b else 0) * ζ e' b =
              ∑ J : Bool, ∑ b ∈ range (N.n (elemAt fc J).toNat),
                G.face f I J (fun K => tab (N.n (elemAt fc K).toNat) (ξ (elemAt fc K).toNat)) a b *
                  ζ (elemAt fc J).toNat b := by
            rw [hD.sizes]
            simp only [Finset.sum_mul]
            rw [sum_congr rfl fun e' _ => sum_comm, sum_comm]
            refine sum_congr rfl fun J _ => ?_
            rw [← pick_elem (n := N.n) (hel J).1 fun e' b => G.face f I J
              (fun K => tab (N.n (elemAt fc K).toNat) (ξ (elemAt fc K).toNat)) a b * ζ e' b]
            refine sum_congr rfl fun e' _ => sum_congr rfl fun b _ => ?_
            have : elemAt fc J = (e' : Int) ↔ (elemAt fc J).toNat = e' := by
              rw [← (hel J).2]
              constructor
              · intro h; exact_mod_cast h
              · intro h; exact_mod_cast h
            unfold valuesOn
            by_cases hJ : (elemAt fc J).toNat = e'
            · rw [if_pos (this.2 hJ), if_pos hJ]
            · rw [if_neg fun h => hJ (this.1 h), if_neg hJ, zero_mul]
          rw [this]
          exact h
        · simp only [if_neg hI, hI, false_and, if_false, sum_const_zero, zero_mul]
          exact hasDerivAt_const 0 0
      have h := (key true).add (key false)
      simp only [Fintype.sum_bool]
      refine HasDerivAt.congr_deriv h ?_
      rw [← sum_add_distrib]
      refine sum_congr rfl fun e' _ => ?_
      rw [← sum_add_distrib]
      refine sum_congr rfl fun b _ => ?_
      simp only [Fintype.sum_bool]
      ring

theorem bdr_deriv (hD : Differentiates pm N G) {e a : Nat} (he : e < pm.elemEdges.length) (ha : a < N.n e)
    (q : Nat × Int) :
    HasDerivAt (fun t => bdrConv N pm bc (line ξ ζ t) e a q)
      (∑ e' ∈ range pm.elemEdges.length, ∑ b ∈ range (G.n e'), bdrGrad G pm bc ξ e a e' b q * ζ e' b) 0 := by
  unfold bdrConv bdrGrad
  by_cases hq : (pm.faces[q.1]?).map (·.e0) = some (e : Int)
  · simp only [if_pos hq, hq, and_true]
    cases hc : condN bc q.2 with
    | none =>
      simp only [ite_self, zero_mul, sum_const_zero]
      exact hasDerivAt_const 0 0
    | some c =>
      dsimp only
      have h := hD.bdr q.1 e c a (ξ e) (ζ e) ha hq
      refine HasDerivAt.congr_deriv h ?_
      rw [hD.sizes, ← pick_elem (n := N.n) he fun e' b => G.bdr q.1 c (tab (N.n e) (ξ e)) a b * ζ e' b]
      refine sum_congr rfl fun e' _ => sum_congr rfl fun b _ => ?_
      unfold valuesOn
      split <;> simp
  · simp only [if_neg hq, hq, and_false, if_false, zero_mul, sum_const_zero]
    exact hasDerivAt_const 0 0

theorem list_deriv {α : Type} (l : List α) (f : α → ℝ → ℝ) (f' : α → ℝ) (h : ∀ q ∈ l, HasDerivAt (f q) (f' q) 0) :
    HasDerivAt (fun t => (l.map fun q => f q t).sum) (l.map f').sum 0 := by
  induction l with
  | nil => exact hasDerivAt_const 0 0
  | cons q l ih =>
    simp only [List.map_cons, List.sum_cons]
    exact (h q List.mem_cons_self).add (ih fun r hr => h r (List.mem_cons_of_mem _ hr))

/-- The gradient on the undivided mesh is the derivative of the convective terms. -/
theorem conv_deriv (lf : Bool) (hD : Differentiates pm N G) (hin : FacesIn pm) {e a : Nat}
    (he : e < pm.elemEdges.length) (ha : a < N.n e) :
    HasDerivAt (fun t => convAt lf N pm bc (line ξ ζ t) e a) (gradApplied lf G pm bc ξ ζ e a) 0 := by
  have hv := vol_deriv (ξ := ξ) (ζ := ζ) hD he ha
  unfold convAt gradApplied gradAt
  cases lf with
  | false =>
    simp only [Bool.false_eq_true, if_false, add_zero]
    exact hv
  | true =>
    simp only [if_true]
    have hf := HasDerivAt.fun_sum (u := range pm.faces.length)
      fun f _ => face_deriv (ξ := ξ) (ζ := ζ) (e := e) hD hin ha f
    have hb := list_deriv pm.bdr (fun q t => bdrConv N pm bc (line ξ ζ t) e a q) _
      fun q _ => bdr_deriv (bc := bc) (ξ := ξ) (ζ := ζ) hD he ha q
    refine HasDerivAt.congr_deriv (hv.add (hf.add hb)) ?_
    have hlist : (pm.bdr.map fun q => ∑ e' ∈ range pm.elemEdges.length, ∑ b ∈ range (G.n e'),
        bdrGrad G pm bc ξ e a e' b q * ζ e' b).sum =
        ∑ e' ∈ range pm.elemEdges.length, ∑ b ∈ range (G.n e'),
          (pm.bdr.map (bdrGrad G pm bc ξ e a e' b)).sum * ζ e' b := by
      induction pm.bdr with
      | nil => simp
      | cons q l ih =>
        simp only [List.map_cons, List.sum_cons, ih, add_mul, sum_add_distrib]
    rw [hlist]
    simp only [add_mul, sum_add_distrib]
    rw [sum_comm]
    congr 2
    refine sum_congr rfl fun e' _ => ?_
    rw [sum_comm]
    refine sum_congr rfl fun b _ => ?_
    rw [Finset.sum_mul]

end Verif.Divide
