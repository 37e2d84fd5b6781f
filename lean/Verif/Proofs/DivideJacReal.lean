import Verif.Proofs.DivideJac
import Verif.Proofs.DivideNSReal

/-!
# Every division has gradients: a realisation of `GFits`
-/

namespace Verif.Divide

open Verif Verif.LinAlg Verif.LinAlg.Spec Verif.SubMesh Verif.SubMesh.Spec Finset Spec
open Verif.InterfaceForm (Space FMesh Integ Tr)
open Verif.InterfaceForm.Spec (dofsOf dofAt dofPos trOf)

variable {R F : Type} [CommRing R]

/-- The gradient of the integrator on faces inside a submesh. -/
def innerGrad (G : Grad R F) (t : ITr Geo) (l : List R) : Mat R :=
  mk (G.n t.data.x1 + G.n t.data.x2) (G.n t.data.x1 + G.n t.data.x2) fun a b =>
    G.face t.data.face (t.data.flip ^^ decide (G.n t.data.x1 ≤ a)) (t.data.flip ^^ decide (G.n t.data.x1 ≤ b))
      (fun K => if K = t.data.flip then l.take (G.n t.data.x1) else l.drop (G.n t.data.x1))
      (if G.n t.data.x1 ≤ a then a - G.n t.data.x1 else a)
      (if G.n t.data.x1 ≤ b then b - G.n t.data.x1 else b)

/-- The integrator on interfaces. -/
def itfGrad (G : Grad R F) : Integ R Geo where
  mat _ _ _ _ := ⟨0, 0, []⟩
  vec _ _ _ _ _ := []
  grad t1 t2 l1 l2 k l := mk (G.n (if k = 0 then t1.data.x1 else t2.data.x1))
    (G.n (if l = 0 then t1.data.x1 else t2.data.x1)) fun a b =>
    G.face t1.data.face (t1.data.flip ^^ decide (k = 1)) (t1.data.flip ^^ decide (l = 1))
      (fun J => if J = t1.data.flip then l1 else l2) a b

/-- Submesh `k`; `flips` says on which faces the two elements are met in the opposite order. -/
def gradView (G : Grad R F) (pm : Parent) (φ : Nat → Nat) (flips : Nat → Bool) (sm : Sub) :
    GView R Geo F where
  space := space sm.elemMap G.n
  dom i l := mk (G.n (sm.elemMap[i]?.getD 0)) (G.n (sm.elemMap[i]?.getD 0)) (G.vol (sm.elemMap[i]?.getD 0) l)
  faces := tab sm.numFaces fun s =>
    match pm.faces[φ s]? with
    | none => none
    | some fc =>
      if 0 ≤ fc.e0 ∧ 0 ≤ fc.e1 ∧ fc.e0.toNat ∈ sm.elemMap ∧ fc.e1.toNat ∈ sm.elemMap then
        some ⟨sm.elemMap.idxOf (elemAt fc (flips s)).toNat, sm.elemMap.idxOf (elemAt fc (!flips s)).toNat,
          φ s, flips s, (elemAt fc (flips s)).toNat, (elemAt fc (!flips s)).toNat⟩
      else none
  bel := sm.bes.map fun be => some ⟨dofsOf (space sm.elemMap G.n) be.elem, fun c l =>
    mk (G.n (sm.elemMap[be.elem]?.getD 0)) (G.n (sm.elemMap[be.elem]?.getD 0)) (G.bdr (φ be.face) c l)⟩
  fmesh := {
    face := fun b => (sm.bes[b]?).bind fun be => (pm.faces[φ be.face]?).map fun fc =>
      ⟨be.elem, φ be.face, decide (fc.e0 ≠ ((sm.elemMap[be.elem]?.getD 0 : Nat) : Int)),
        sm.elemMap[be.elem]?.getD 0, 0⟩
    inf := fun _ => 0
    fix := fun t _ => t }

/-- All submeshes. -/
def grealize (G : Grad R F) (pm : Parent) (subs : List Sub) (φ : Nat → Nat → Nat)
    (flips : Nat → Nat → Bool) : List (GView R Geo F) :=
  subs.mapIdx fun k sm => gradView G pm (φ k) (flips k) sm

/-- Every division and every choice of gradients over the parent mesh are met by what MFEM could
deliver. -/
theorem grealize_fits (G : Grad R F) {pm : Parent} {subs : List Sub} {φ : Nat → Nat → Nat} {g : Int}
    (flips : Nat → Nat → Bool) (D : Division pm subs φ g) :
    GFits G pm subs φ (grealize G pm subs φ flips) [innerGrad G] [some (itfGrad G)] := by
  have at_ : ∀ (k : Nat) sm v, subs[k]? = some sm → (grealize G pm subs φ flips)[k]? = some v →
      v = gradView G pm (φ k) (flips k) sm := by
    intro k sm v h1 h2
    unfold grealize at h2
    rw [List.getElem?_mapIdx, h1] at h2
    exact (Option.some.inj h2).symm
  refine ⟨by unfold grealize; simp, ?_, by simp, ?_⟩
  · intro k sm v hk hv
    rw [at_ k sm v hk hv]
    have hface : ∀ s fc, s < sm.numFaces → pm.faces[φ k s]? = some fc →
        (gradView G pm (φ k) (flips k) sm).faces[s]? = some (if 0 ≤ fc.e0 ∧ 0 ≤ fc.e1 ∧
          fc.e0.toNat ∈ sm.elemMap ∧ fc.e1.toNat ∈ sm.elemMap then
          some ⟨sm.elemMap.idxOf (elemAt fc (flips k s)).toNat,
            sm.elemMap.idxOf (elemAt fc (!flips k s)).toNat,
            φ k s, flips k s, (elemAt fc (flips k s)).toNat, (elemAt fc (!flips k s)).toNat⟩
          else none) := by
      intro s fc hs hf
      unfold gradView
      dsimp only
      rw [getElem?_tab, if_pos hs, hf]
    have hins : ∀ fc : Face, Inside subs k fc ↔ 0 ≤ fc.e0 ∧ 0 ≤ fc.e1 ∧
          fc.e0.toNat ∈ sm.elemMap ∧ fc.e1.toNat ∈ sm.elemMap := by
      intro fc
      unfold Inside
      rw [owns_iff hk, owns_iff hk]
      constructor
      · rintro ⟨_, ⟨a, b⟩, c, d⟩; exact ⟨a, c, b, d⟩
      · rintro ⟨a, c, b, d⟩; exact ⟨c, ⟨a, b⟩, c, d⟩
    have hbe : ∀ (b : Nat) be, sm.bes[b]? = some be → ∃ x, sm.elemMap[be.elem]? = some x := by
      intro b be hb
      obtain ⟨_, x, _, _, h, _⟩ := D.wf.onFace _ _ _ _ hk hb
      exact ⟨x, h⟩
    refine ⟨space_fits _ _, ?_, by unfold gradView; simp, ?_, ?_, by unfold gradView; simp, ?_, ?_⟩
    · intro i e l hi hl
      unfold gradView
      dsimp only
      rw [hi, Option.getD_some]
      exact mk_is _ _ _
    · intro s fc hs hf hin
      rw [hface s fc hs hf, if_neg fun h => hin ((hins fc).2 h)]
    · intro s fc hs hf hin
      have hm := (hins fc).1 hin
      refine ⟨_, flips k s, (elemAt fc (flips k s)).toNat, (elemAt fc (!flips k s)).toNat,
        (hface s fc hs hf).trans (by rw [if_pos hm]), ?_, ?_, ?_, ?_, ?_, ?_⟩
      · refine List.getElem?_idxOf ?_
        cases flips k s
        · exact hm.2.2.1
        · exact hm.2.2.2
      · refine List.getElem?_idxOf ?_
        cases flips k s
        · exact hm.2.2.2
        · exact hm.2.2.1
      · cases flips k s
        · exact Int.toNat_of_nonneg hm.1
        · exact Int.toNat_of_nonneg hm.2.1
      · cases flips k s
        · exact Int.toNat_of_nonneg hm.2.1
        · exact Int.toNat_of_nonneg hm.1
      · intro g' hg l1 l2 _ _
        rw [List.mem_singleton] at hg
        subst hg
        exact ⟨rfl, rfl, mk_ok _ _ _⟩
      · intro I J l1 l2 a b h1 h2 ha hb
        rw [List.map_singleton, List.sum_singleton]
        have hI : (if I then G.n (elemAt fc (flips k s)).toNat + a else a) <
            G.n (elemAt fc (flips k s)).toNat + G.n (elemAt fc (!flips k s)).toNat := by
          cases I <;> simp at ha ⊢ <;> omega
        have hJ : (if J then G.n (elemAt fc (flips k s)).toNat + b else b) <
            G.n (elemAt fc (flips k s)).toNat + G.n (elemAt fc (!flips k s)).toNat := by
          cases J <;> simp at hb ⊢ <;> omega
        unfold innerGrad
        rw [(mk_is _ _ _).2.2.2 _ _ hI hJ]
        dsimp only
        rw [← h1, List.take_left, List.drop_left, h1]
        cases I <;> cases J <;> simp only [Bool.false_eq_true, if_false, if_true] at ha hb ⊢
        · rw [if_neg (by omega), decide_eq_false (by omega), if_neg (by omega), decide_eq_false (by omega)]
        · rw [if_neg (by omega), decide_eq_false (by omega), if_pos (by omega), decide_eq_true (by omega),
            Nat.add_sub_cancel_left]
        · rw [if_pos (by omega), decide_eq_true (by omega), if_neg (by omega), decide_eq_false (by omega),
            Nat.add_sub_cancel_left]
        · rw [if_pos (by omega), decide_eq_true (by omega), if_pos (by omega), decide_eq_true (by omega),
            Nat.add_sub_cancel_left, Nat.add_sub_cancel_left]
    · intro b be x hb hx
      unfold gradView at hx
      dsimp only at hx
      rw [List.getElem?_map, hb] at hx
      cases hx
      obtain ⟨y, hy⟩ := hbe b be hb
      refine ⟨rfl, fun c l _ => ⟨mk_ok _ _ _, ?_, ?_⟩⟩
      · show G.n _ = (dofsOf _ _).length
        rw [(space_fits sm.elemMap G.n).size _ _ hy, hy, Option.getD_some]
      · show G.n _ = (dofsOf _ _).length
        rw [(space_fits sm.elemMap G.n).size _ _ hy, hy, Option.getD_some]
    · intro b be x q hb hq hqf hx
      refine ⟨⟨dofsOf (space sm.elemMap G.n) be.elem, fun c l => mk (G.n x) (G.n x) (G.bdr q.1 c l)⟩, ?_, ?_⟩
      · unfold gradView
        dsimp only
        rw [List.getElem?_map, hb, hqf]
        dsimp only [Option.map]
        rw [hx, Option.getD_some]
      · intro c l _
        exact mk_is _ _ _
  · intro i j si sj vi vj b b' bei bej f fc o x1 x2 hi hj hvi hvj hij hb hb' hf hf' hfc h1 h2 e1 e2
    rw [at_ i si vi hi hvi, at_ j sj vj hj hvj]
    have hdiff : elemAt fc o ≠ elemAt fc (!o) := by
      intro h
      have o1 : Owns subs i (elemAt fc o) := ⟨si, hi, x1, List.mem_of_getElem? h1, e1⟩
      have o2 : Owns subs j (elemAt fc (!o)) := ⟨sj, hj, x2, List.mem_of_getElem? h2, e2⟩
      rw [← h] at o2
      exact hij (D.wf.disjoint _ _ _ o1 o2)
    have ho : decide (fc.e0 ≠ (x1 : Int)) = o := by
      cases o
      · exact decide_eq_false (by intro h; exact h e1.symm)
      · exact decide_eq_true (by rw [e1]; exact fun h => hdiff h.symm)
    have tr : ∀ (φ' : Nat → Nat) fl (sm : Sub) (b : Nat) be x inf, sm.bes[b]? = some be →
        sm.elemMap[be.elem]? = some x → pm.faces[φ' be.face]? = some fc →
        trOf (gradView G pm φ' fl sm).fmesh b inf =
          some ⟨be.elem, φ' be.face, decide (fc.e0 ≠ (x : Int)), x, 0⟩ := by
      intro φ' fl sm b be x inf hb hx hf
      unfold trOf gradView
      dsimp only
      rw [hb]
      dsimp only [Option.bind]
      rw [hf, hx]
      dsimp only [Option.map, Option.getD]
      simp only [ite_self]
    have t1 := tr (φ i) (flips i) si b bei x1 (infAt fc o) hb h1 (by rw [hf]; exact hfc)
    have t2 := tr (φ j) (flips j) sj b' bej x2 (infAt fc (!o)) hb' h2 (by rw [hf']; exact hfc)
    refine ⟨_, _, t1, rfl, t2, rfl, ?_, ?_⟩
    · intro g' hg l1 l2 _ _ k l hk hl
      rw [List.mem_singleton] at hg
      cases hg
      exact ⟨rfl, rfl, mk_ok _ _ _⟩
    · intro l1 l2 _ _ k l a b hk hl ha hb
      rw [List.map_singleton, List.sum_singleton]
      show ent (mk _ _ _) a b = _
      rw [(mk_is _ _ _).2.2.2 a b ha hb]
      dsimp only
      rw [ho, hf]

theorem grealize_sizes (G : Grad R F) (pm : Parent) (subs : List Sub) (φ : Nat → Nat → Nat)
    (flips : Nat → Nat → Bool) : (grealize G pm subs φ flips).map (·.space) =
      subs.map fun sm => space sm.elemMap G.n := by
  unfold grealize
  apply List.ext_getElem?
  intro k
  rw [List.getElem?_map, List.getElem?_mapIdx, List.getElem?_map]
  cases subs[k]? <;> rfl

end Verif.Divide
