import Verif.Proofs.DivideDeriv
import Verif.Proofs.DivideJacReal

/-!
# C115: the Newton matrix on a divided mesh is the derivative of the convective terms
-/

namespace Verif.Divide

open Verif Verif.LinAlg Verif.LinAlg.Spec Verif.SubMesh Verif.SubMesh.Spec Finset Spec
open Verif.InterfaceForm (Space Integ MatArr)
open Verif.InterfaceForm.Spec (sizeIn mget)
open Verif.Boundary (BC)
open Verif.Blocks (BlockVector)
open Verif.Blocks.Spec (HasSizes)
open Verif.RomHandler.Spec (bent)

variable {δ F : Type} {pm : Parent} {subs : List Sub} {φ : Nat → Nat → Nat} {g : Int}
variable {N : Conv ℝ F} {ints : List (ITr δ → List ℝ → List ℝ)} {views : List (NView ℝ δ F)}
variable {G : Grad ℝ F} {gints : List (ITr δ → List ℝ → Mat ℝ)} {gviews : List (GView ℝ δ F)}
variable {fnfi gfnfi : List (Option (Integ ℝ δ))} {bc : BC F} {x z : BlockVector ℝ}

theorem along_sizes {l : List Nat} (hx : HasSizes x l) (hz : HasSizes z l) (t : ℝ) :
    HasSizes (along x z t) l :=
  ⟨hx.1, by unfold along; rw [List.length_zipWith, hx.2, hz.2, Nat.min_self]⟩

theorem bent_along {l : List Nat} (hx : HasSizes x l) (hz : HasSizes z l) (t : ℝ) {k r s : Nat}
    (hk : l[k]? = some s) (hr : r < s) : bent (along x z t) k r = bent x k r + t * bent z k r := by
  rw [RomHandler.bent_eq (along_sizes hx hz t) hk hr, RomHandler.bent_eq hx hk hr,
    RomHandler.bent_eq hz hk hr]
  have hb := LinAlg.block_bound l hk
  have h1 : (l.take k).sum + r < x.data.length := by rw [hx.2]; omega
  have h2 : (l.take k).sum + r < z.data.length := by rw [hz.2]; omega
  unfold along ve
  dsimp only
  rw [List.getElem?_zipWith, List.getElem?_eq_getElem h1, List.getElem?_eq_getElem h2]
  rfl

theorem facesIn (D : Division pm subs φ g) (hcov : Covers pm subs) : FacesIn pm := by
  have key : ∀ (e : Int), (∃ k, Owns subs k e) → 0 ≤ e ∧ e.toNat < pm.elemEdges.length := by
    rintro e ⟨k, hk⟩
    obtain ⟨i, x, _, h3⟩ := owns_at hk
    have : (0 : Int) ≤ e := by omega
    refine ⟨this, (hcov e.toNat).1 ⟨k, ?_⟩⟩
    rw [Int.toNat_of_nonneg this]; exact hk
  intro f fc hf
  obtain ⟨h1, h2⟩ := D.owned f fc hf
  exact ⟨key _ h1, fun h => (key _ (h2 h)).2⟩

/-- C115: if the element gradients are the derivatives of the element integrals, then on every division
the assembled matrix is the derivative of the assembled convective terms, in every direction. -/
theorem gradient_is_derivative (lf fullDg : Bool) {uspaces : List Space} (hD : Differentiates pm N G)
    (D : Division pm subs φ g) (hcov : Covers pm subs) (hbc : Conditions pm bc)
    (hfun : lf = true → HasFunctions bc) (hdg : lf = true → fullDg = true)
    (hN : NFits N pm subs φ views ints fnfi) (hsp : views.map (·.space) = uspaces)
    (hG : GFits G pm subs φ gviews gints gfnfi) (hgsp : gviews.map (·.space) = uspaces)
    (hcomp : ∀ s ∈ uspaces, Complete s) (hx : HasSizes x (uspaces.map (·.vsize)))
    (hz : HasSizes z (uspaces.map (·.vsize))) :
    ∃ J, ∃ Y : ℝ → BlockVector ℝ, convGrad lf fullDg bc pm subs gviews gints gfnfi x = .ok J ∧
      (∀ t, convection lf fullDg bc pm subs views ints fnfi (along x z t) = .ok (Y t)) ∧
      ∀ k r, k < subs.length → r < sizeIn uspaces k →
        HasDerivAt (fun t => bent (Y t) k r)
          (rowMult J subs.length (sizeIn uspaces) (bent z) k r) 0 := by
  have hlen : uspaces.length = subs.length := by rw [← hsp, List.length_map, hN.count]
  have hst : Spaces subs G.n uspaces := by
    refine ⟨hlen, ?_⟩
    intro k sm s hk hs
    have hs' := hs
    rw [← hgsp, List.getElem?_map] at hs'
    cases hv : gviews[k]? with
    | none => rw [hv] at hs'; cases hs'
    | some v =>
      rw [hv] at hs'; cases hs'
      exact ⟨(hG.view k sm v hk hv).space, hcomp _ (List.mem_of_getElem? hs)⟩
  obtain ⟨ξ, hξ⟩ := represents_of (n := N.n) (spaces := uspaces) D (bent x)
  obtain ⟨ζ, hζ⟩ := represents_of (n := N.n) (spaces := uspaces) D (bent z)
  have hline : ∀ t, Represents subs uspaces N.n (bent (along x z t)) (line ξ ζ t) := by
    intro t k sm s i e b hk hs hi hb
    obtain ⟨f1, _⟩ := hst.2 k sm s hk hs
    rw [hD.sizes] at f1
    obtain ⟨_, b2, b3⟩ := sized_dofs f1 hi
    have hr : pos s i b < s.vsize := by
      refine b3 _ ?_
      unfold InterfaceForm.Spec.dofAt
      rw [List.getElem?_eq_getElem (by rw [b2]; exact hb)]
      exact List.getElem_mem _
    rw [bent_along hx hz t (s := s.vsize) (by rw [List.getElem?_map, hs]; rfl) hr,
      hξ k sm s i e b hk hs hi hb, hζ k sm s i e b hk hs hi hb]
    rfl
  obtain ⟨J, j1, _, j3⟩ := gradient_spec lf fullDg D hbc hfun hdg hG (x := x) (ξ := ξ)
    (by rw [← hgsp, List.map_map] at hx; exact hx) (by rw [hgsp, hD.sizes]; exact hξ)
  have hY := fun t => convection_spec lf fullDg D hbc hfun hdg hN (x := along x z t) (ξ := line ξ ζ t)
    (by
      have := along_sizes hx hz t
      rw [← hsp, List.map_map] at this; exact this) (by rw [hsp]; exact hline t)
  choose Y y1 _ y3 using hY
  refine ⟨J, Y, j1, y1, ?_⟩
  refine (all_entries hcov hst (P := fun k r => HasDerivAt (fun t => bent (Y t) k r)
    (rowMult J subs.length (sizeIn uspaces) (bent z) k r) 0)
    (Q := fun e a => HasDerivAt (fun t => convAt lf N pm bc (line ξ ζ t) e a)
      (gradApplied lf G pm bc ξ ζ e a) 0) ?_).2 ?_
  · intro k i e a sm s hk hs hi ha
    rw [grad_row D hcov hst hgsp j3 (by rw [hD.sizes]; exact hζ) hk hs hi ha]
    have : (fun t => bent (Y t) k (pos s i a)) = fun t => convAt lf N pm bc (line ξ ζ t) e a := by
      funext t
      rw [← hsp, List.getElem?_map] at hs
      cases hv : views[k]? with
      | none => rw [hv] at hs; cases hs
      | some v =>
        rw [hv] at hs; cases hs
        exact y3 t k i e a sm v hk hv hi (by rw [← hD.sizes]; exact ha)
    rw [this]
  · intro e a he ha
    exact conv_deriv lf hD (facesIn D hcov) he (by rw [← hD.sizes]; exact ha)

/-! Non-vacuity: the strip of three cells, as in C111 and C114. -/

/-- Convective integrals with one degree of freedom per cell, quadratic in the values. -/
noncomputable def realConv : Conv ℝ Int where
  n _ := 1
  vol e l _ := l.headD 0 * l.headD 0 + e
  face f I l _ := (if I then -1 else 1) * ((l false).headD 0 - 2 * (l true).headD 0) * (l false).headD 0 + f
  bdr f c l _ := (match c with | some c => c * l.headD 0 | none => l.headD 0 * l.headD 0) + 10 * f

/-- Their derivatives. -/
noncomputable def realGrad : Grad ℝ Int where
  n _ := 1
  vol _ l _ _ := 2 * l.headD 0
  face _ I J l _ _ := (if I then -1 else 1) *
    (if J then -2 * (l false).headD 0 else 2 * (l false).headD 0 - 2 * (l true).headD 0)
  bdr _ c l _ _ := match c with | some c => c | none => 2 * l.headD 0

theorem real_derivatives : Differentiates demoParent realConv realGrad := by
  have lin : ∀ a b : ℝ, HasDerivAt (fun t : ℝ => a + t * b) b 0 := by
    intro a b
    simpa using ((hasDerivAt_id (0 : ℝ)).mul_const b).const_add a
  have head : ∀ h : Nat → ℝ, (tab 1 h).headD 0 = h 0 := fun _ => rfl
  refine ⟨rfl, ?_, ?_, ?_⟩
  · intro e a ξ ζ _
    simp only [realConv, realGrad, head, sum_range_one]
    refine HasDerivAt.congr_deriv (((lin (ξ 0) (ζ 0)).mul (lin (ξ 0) (ζ 0))).add_const _) ?_
    ring
  · intro f fc I a ξ ζ _ _
    simp only [realConv, realGrad, head, sum_range_one, Fintype.sum_bool]
    refine HasDerivAt.congr_deriv (((((lin (ξ false 0) (ζ false 0)).sub
      ((lin (ξ true 0) (ζ true 0)).const_mul 2)).const_mul (if I then -1 else 1)).mul
      (lin (ξ false 0) (ζ false 0))).add_const _) ?_
    cases I <;> simp <;> ring
  · intro f e c a ξ ζ _ _
    simp only [realConv, realGrad, head, sum_range_one]
    cases c with
    | none =>
      refine HasDerivAt.congr_deriv (((lin (ξ 0) (ζ 0)).mul (lin (ξ 0) (ζ 0))).add_const _) ?_
      ring
    | some c => exact ((lin (ξ 0) (ζ 0)).const_mul (c : ℝ)).add_const _

/-- The theorem applies to the three submeshes. -/
example (x z : BlockVector ℝ)
    (hx : HasSizes x ((demoSubs.map fun sm => space sm.elemMap realConv.n).map (·.vsize)))
    (hz : HasSizes z ((demoSubs.map fun sm => space sm.elemMap realConv.n).map (·.vsize))) :
    ∃ J, convGrad true true demoBC demoParent demoSubs
      (grealize realGrad demoParent demoSubs demoPhi demoFlips) [innerGrad realGrad]
      [some (itfGrad realGrad)] x = .ok J := by
  obtain ⟨J, _, h, _⟩ := gradient_is_derivative true true real_derivatives three_division demo_covers.2.2
    demo_conditions (fun _ => demo_functions) (fun _ => rfl)
    (nrealize_fits realConv demoFlips three_division) (nrealize_sizes _ _ _ _ _)
    (grealize_fits realGrad demoFlips three_division) (grealize_sizes _ _ _ _ _)
    (by
      intro s hs
      obtain ⟨sm, _, rfl⟩ := List.mem_map.1 hs
      exact space_complete _ _) hx hz
  exact ⟨J, h⟩

end Verif.Divide
