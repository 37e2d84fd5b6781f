import Verif.Props.PreItf
import Verif.Props.LaxF
import Verif.Props.LaxFFast
import Verif.Model.PreItfLax

/-! # Properties of the coefficients of the Lax-Friedrichs flux at interface samples: C125 -/

namespace Verif.PreItf

open Verif Verif.LinAlg Verif.LinAlg.Spec Verif.PreItf.Spec Verif.LaxF Verif.LaxF.Spec
open Verif.InterfaceForm (Tr)
open Verif.Convection.Spec (lift project)
open Verif.Eqp (Sample)
open Verif.EqpItf (Integ Form)
open Verif.EqpItf.Spec (offOf project2 FormOk)
open Verif.TrainItf (RefForm)
open Verif.TrainItf.Spec (asForm)

variable {R δ : Type} [Field R] [LinearOrder R]

/-- Faces that look the same from inside the elements: same dimension and shape functions at every point.
Normals and coefficients may differ. -/
structure SameShapes (p q : FPt R) : Prop where
  dim : q.dim = p.dim
  nd1 : q.nd1 = p.nd1
  dof2 : q.dof2 = p.dof2
  shape1 : q.shape1 = p.shape1
  shape2 : q.shape2 = p.shape2

omit [LinearOrder R] in
theorem ve_zeros (n k : Nat) : ve (List.replicate n (0 : R)) k = 0 := by
  unfold ve
  rw [List.getElem?_replicate]
  split <;> rfl

/-- **C125.** The contract of the coefficients holds for the Lax-Friedrichs flux. -/
theorem lax_pre_ok {sqrt : R → R} {nq : Nat} {pt : Tr δ → Tr δ → Nat → FPt R} {like : Tr δ → Tr δ → Prop}
    (hpt : ∀ t1 t2 q, ∃ f, FPtOk f (pt t1 t2 q)) (he : ∀ t1 t2 q, (pt t1 t2 q).el2 = true)
    (hlike : ∀ u1 u2 t1 t2, like u1 t1 → like u2 t2 → ∀ q, SameShapes (pt u1 u2 q) (pt t1 t2 q)) :
    PreOk like (laxPre pt) (laxInteg sqrt nq pt) := by
  intro b1 d1 b2 d2 u1 u2 qp m1 m2 r1 r2 hw
  obtain ⟨f, hf⟩ := hpt u1 u2 qp
  obtain ⟨w1, w2⟩ := hw 0 [] []
  have l1 : d1.length = f.nd1 * f.dim := by
    rw [← w1]
    show (itfQuadVec sqrt (pt u1 u2 qp) 0 [] []).1.length = _
    unfold itfQuadVec
    rw [ok_face hf]
    exact (itfVec_flux sqrt f [(pt u1 u2 qp, 0)] [] [] (by simpa using hf)).1
  have l2 : d2.length = f.n2 * f.dim := by
    rw [← w2]
    show (itfQuadVec sqrt (pt u1 u2 qp) 0 [] []).2.length = _
    unfold itfQuadVec
    rw [ok_face hf]
    exact (itfVec_flux sqrt f [(pt u1 u2 qp, 0)] [] [] (by simpa using hf)).2.1
  obtain ⟨c, hc, -⟩ := itfFastVec_projects sqrt f _ hf (he u1 u2 qp) b1 b2 m1 m2 d1 d2 r1 r2 l1 l2
  refine ⟨c, hc, fun t1 t2 k1 k2 qw x1 x2 h1 h2 => ⟨fun i y hi hy => ?_, fun i j m _ _ _ _ =>
    ⟨m, rfl, rfl, rfl, fun r s _ _ => ?_⟩⟩⟩
  · have hs := hlike u1 u2 t1 t2 k1 k2 qp
    obtain ⟨f', hf'⟩ := hpt t1 t2 qp
    have ef : f' = f := by
      rw [← ok_face hf, ← ok_face hf']
      unfold FPt.face FPt.ndofs2
      rw [hs.dim, hs.nd1, hs.dof2, he, he]
    subst ef
    obtain ⟨c', hc', hv⟩ := itfFastVec_projects sqrt f' _ hf' (he t1 t2 qp) b1 b2 m1 m2 d1 d2 r1 r2 l1 l2
    have hcc : c' = c := by
      have e : precomputeItf (pt t1 t2 qp) b1 b2 d1 d2 = precomputeItf (pt u1 u2 qp) b1 b2 d1 d2 := by
        unfold precomputeItf
        rw [hs.dim, hs.nd1, hs.dof2, hs.shape1, hs.shape2]
      rw [e, hc] at hc'
      cases hc'
      rfl
    subst hcc
    have : i = 0 ∨ i = 1 := by omega
    rcases this with rfl | rfl
    · obtain ⟨z1, z2, e, g1, -, g3, -⟩ := hv qw x1 x2 y (List.replicate x2.length 0) h1 h2 hy
        (by rw [List.length_replicate, h2])
      refine ⟨z1, ?_, g1.trans hy.symm, g3⟩
      show (itfFastVec sqrt (pt t1 t2 qp) c' qw x1 x2 y (List.replicate x2.length 0) >>=
        fun z => .ok z.1) = _
      rw [e]; rfl
    · obtain ⟨z1, z2, e, -, g2, -, g4⟩ := hv qw x1 x2 (List.replicate x1.length 0) y h1 h2
        (by rw [List.length_replicate, h1]) hy
      refine ⟨z2, ?_, g2.trans hy.symm, g4⟩
      show (itfFastVec sqrt (pt t1 t2 qp) c' qw x1 x2 (List.replicate x1.length 0) y >>=
        fun z => .ok z.2) = _
      rw [e]; rfl
  · unfold project2
    have : ∀ k l, ent ((laxInteg sqrt nq pt).grad t1 t2 t1 t2 qp qw (lift b1 d1 x1) (lift b2 d2 x2) i j)
        k l = 0 := fun k l => ve_zeros _ _
    simp only [this, mul_zero, zero_mul, Finset.sum_const_zero, add_zero]

/-- **C125** for the Lax-Friedrichs flux, the part that holds: on components whose bases start with the
rows of the form's variable, the coefficients are computed, and with them the fast evaluation of every
form put together from the components gives the same vector as the slow one. -/
theorem lax_fast_partial {sqrt : R → R} {nq : Nat} {pt : Tr δ → Tr δ → Nat → FPt R}
    {like : Tr δ → Tr δ → Prop} (hpt : ∀ t1 t2 q, ∃ f, FPtOk f (pt t1 t2 q))
    (he : ∀ t1 t2 q, (pt t1 t2 q).el2 = true)
    (hlike : ∀ u1 u2 t1 t2, like u1 t1 → like u2 t2 → ∀ q, SameShapes (pt u1 u2 q) (pt t1 t2 q))
    {f : RefForm (Pre2 R) R δ} (hf : RefOk f) (hfn : f.fnfi = [some (laxInteg sqrt nq pt)])
    (h0 : ∀ c, offOf (asForm f) c = 0) :
    ∃ refs, precompute (laxPre pt) f = .ok refs ∧
      ∀ (F : Form (Pre2 R) R δ) (z : List Nat), Built like F f refs → FormOk F z → F.precompute = true →
        ∀ (x y : List R) (junk junk' : Nat → R), x.length = z.sum → y.length = z.sum →
          F.addMult x y junk = ({ F with precompute := false } : Form (Pre2 R) R δ).addMult x y junk' := by
  have hp : ∀ g, some g ∈ f.fnfi → PreOk like (laxPre pt) g := by
    intro g hg
    rw [hfn, List.mem_singleton, Option.some.injEq] at hg
    subst hg
    exact lax_pre_ok hpt he hlike
  obtain ⟨refs, h, -⟩ := precompute_fills hf hp
  exact ⟨refs, h, fun F z hF hok hpre x y junk junk' hx hy =>
    precompute_fast_partial hf hp h0 h hF hok hpre hx hy junk junk'⟩

/-! ## A concrete case -/

/-- Two-dimensional elements with one shape function. -/
def laxPt : Tr Unit → Tr Unit → Nat → FPt ℚ := fun _ _ q => ⟨2, 1, 1, [1], [1], [1, q], true, none, none⟩

theorem laxPt_ok (t1 t2 : Tr Unit) (q : Nat) : FPtOk ⟨2, 1, 1⟩ (laxPt t1 t2 q) :=
  ⟨rfl, rfl, rfl, Nat.one_pos, rfl, fun _ => rfl, rfl, fun _ h => nomatch h⟩

/-- Two components with two elements each, a reference port with two interfaces, two samples. -/
def laxRef : RefForm (Pre2 ℚ) ℚ Unit where
  meshes := [EqpItf.exMesh, EqpItf.exMesh]
  fes := [some ⟨4, [[0, 1], [2, 3]]⟩, some ⟨4, [[0, 1], [2, 3]]⟩]
  basis := [some (⟨4, 1, [1, 2, 3, 4]⟩, 0), some (⟨4, 2, [1, 0, 2, 0, 0, 5, 0, 7]⟩, 0)]
  fnfi := [some (laxInteg id 2 laxPt)]
  ports := [⟨0, 1, 0, 0, [⟨0, 1, 0, 0⟩, ⟨1, 0, 0, 0⟩]⟩]
  types := [0]
  refs := [some [⟨1, 0, 3, none⟩, ⟨0, 1, 5, none⟩]]
  views := [some [⟨1, 0, 3, none⟩, ⟨0, 1, 5, none⟩]]

theorem lax_lengths (t1 t2 : Tr Unit) (q : Nat) (w : ℚ) (v1 v2 : List ℚ) :
    ((laxInteg id 2 laxPt).vec t1 t2 q w v1 v2 0).length = 2 ∧
      ((laxInteg id 2 laxPt).vec t1 t2 q w v1 v2 1).length = 2 := by
  obtain ⟨h1, h2, -⟩ := itfVec_flux id ⟨2, 1, 1⟩ [(laxPt t1 t2 q, w)] v1 v2 (by simpa using laxPt_ok t1 t2 q)
  exact ⟨h1, h2⟩

theorem laxRef_ok : RefOk laxRef where
  bases := rfl
  comps := by
    intro c hc
    have hc : c < 2 := hc
    have : c = 0 ∨ c = 1 := by omega
    rcases this with rfl | rfl
    · exact ⟨by show (0 : Nat) < 2; decide, ⟨_, rfl⟩, ⟨_, _, rfl, le_refl _, by
        show 4 * 1 ≤ [1, 2, 3, (4 : ℚ)].length; simp, by
        show (0 : Int) + ((4 : Nat) : Int) ≤ ((4 : Nat) : Int); omega⟩, by
        show ∀ rows ∈ [[0, 1], [2, 3]], RowsOk rows 4
        unfold RowsOk; decide⟩
    · exact ⟨by show (1 : Nat) < 2; decide, ⟨_, rfl⟩, ⟨_, _, rfl, le_refl _, by
        show 4 * 2 ≤ [1, 0, 2, 0, 0, 5, 0, (7 : ℚ)].length; simp, by
        show (0 : Int) + ((4 : Nat) : Int) ≤ ((4 : Nat) : Int); omega⟩, by
        show ∀ rows ∈ [[0, 1], [2, 3]], RowsOk rows 4
        unfold RowsOk; decide⟩
  ports := by
    intro rp h
    simp only [laxRef, List.mem_singleton] at h
    subst h
    exact ⟨by show (0 : Nat) < 2; decide, by show (1 : Nat) < 2; decide⟩
  fnfi := by
    intro g hg
    simp only [laxRef, List.mem_singleton] at hg
    exact ⟨_, 2, hg, rfl⟩
  slots := rfl
  set := by
    intro l hl
    simp only [laxRef, List.mem_singleton] at hl
    subst hl
    exact fun h => nomatch h
  samples := by
    intro k p g nq rp hg hnq hp s hs
    match k, p with
    | 0, 0 =>
      cases hg
      cases hnq
      cases hp
      have hs' : s ∈ ([⟨1, 0, 3, none⟩, ⟨0, 1, 5, none⟩] : List (Sample (Pre2 ℚ) ℚ)) := hs
      simp only [List.mem_cons, List.not_mem_nil, or_false] at hs'
      rcases hs' with rfl | rfl
      · exact ⟨by decide, by decide, by decide, ⟨1, ()⟩, ⟨0, ()⟩, rfl, by show (1 : Nat) < 2; decide,
          by show (0 : Nat) < 2; decide, fun w v1 v2 => lax_lengths _ _ _ w v1 v2⟩
      · exact ⟨by decide, by decide, by decide, ⟨0, ()⟩, ⟨1, ()⟩, rfl, by show (0 : Nat) < 2; decide,
          by show (1 : Nat) < 2; decide, fun w v1 v2 => lax_lengths _ _ _ w v1 v2⟩
    | k + 1, _ => simp [laxRef] at hg
    | 0, p + 1 => simp [laxRef] at hp

/-- The hypotheses hold for the Lax-Friedrichs flux at the interfaces of two components. -/
example : ∃ refs, precompute (laxPre laxPt) laxRef = .ok refs ∧
    ∀ (F : Form (Pre2 ℚ) ℚ Unit) (z : List Nat), Built (fun _ _ => True) F laxRef refs → FormOk F z →
      F.precompute = true → ∀ (x y : List ℚ) (junk junk' : Nat → ℚ), x.length = z.sum → y.length = z.sum →
        F.addMult x y junk = ({ F with precompute := false } : Form (Pre2 ℚ) ℚ Unit).addMult x y junk' :=
  lax_fast_partial (sqrt := id) (nq := 2) (pt := laxPt) (fun t1 t2 q => ⟨_, laxPt_ok t1 t2 q⟩)
    (fun _ _ _ => rfl) (fun _ _ _ _ _ _ _ => ⟨rfl, rfl, rfl, rfl, rfl⟩) laxRef_ok rfl
    (fun c => match c with
      | 0 => rfl
      | 1 => rfl
      | _ + 2 => rfl)

end Verif.PreItf
