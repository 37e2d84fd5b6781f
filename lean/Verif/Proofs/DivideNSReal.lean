import Verif.Proofs.DivideNS
import Verif.Proofs.DivideReal

/-!
# Every division has convective integrals: a realisation of `NFits`
-/

namespace Verif.Divide

open Verif Verif.LinAlg Verif.LinAlg.Spec Verif.SubMesh Verif.SubMesh.Spec Finset Spec
open Verif.InterfaceForm (Space FMesh Integ Tr)
open Verif.InterfaceForm.Spec (dofsOf dofAt dofPos trOf)

variable {R F : Type} [CommRing R]

/-- The integrator on faces inside a submesh. -/
def innerVec (N : Conv R F) (t : ITr Geo) (l : List R) : List R :=
  tab (N.n t.data.x1 + N.n t.data.x2) fun a =>
    N.face t.data.face (t.data.flip ^^ decide (N.n t.data.x1 ≤ a))
      (fun J => if J = t.data.flip then l.take (N.n t.data.x1) else l.drop (N.n t.data.x1))
      (if N.n t.data.x1 ≤ a then a - N.n t.data.x1 else a)

/-- The integrator on interfaces. -/
def itfVec (N : Conv R F) : Integ R Geo where
  mat _ _ _ _ := ⟨0, 0, []⟩
  vec t1 t2 l1 l2 k := tab (N.n (if k = 0 then t1.data.x1 else t2.data.x1)) fun a =>
    N.face t1.data.face (t1.data.flip ^^ decide (k = 1)) (fun J => if J = t1.data.flip then l1 else l2) a
  grad _ _ _ _ _ _ := ⟨0, 0, []⟩

/-- Submesh `k`; `flips` says on which faces the two elements are met in the opposite order. -/
def nview (N : Conv R F) (pm : Parent) (φ : Nat → Nat) (flips : Nat → Bool) (sm : Sub) :
    NView R Geo F where
  space := space sm.elemMap N.n
  dom := [fun i l => tab (N.n (sm.elemMap[i]?.getD 0)) (N.vol (sm.elemMap[i]?.getD 0) l)]
  faces := tab sm.numFaces fun s =>
    match pm.faces[φ s]? with
    | none => none
    | some fc =>
      if 0 ≤ fc.e0 ∧ 0 ≤ fc.e1 ∧ fc.e0.toNat ∈ sm.elemMap ∧ fc.e1.toNat ∈ sm.elemMap then
        some ⟨sm.elemMap.idxOf (elemAt fc (flips s)).toNat, sm.elemMap.idxOf (elemAt fc (!flips s)).toNat,
          φ s, flips s, (elemAt fc (flips s)).toNat, (elemAt fc (!flips s)).toNat⟩
      else none
  bel := sm.bes.map fun be => some ⟨dofsOf (space sm.elemMap N.n) be.elem, fun c l =>
    tab (N.n (sm.elemMap[be.elem]?.getD 0)) (N.bdr (φ be.face) c l)⟩
  fmesh := {
    face := fun b => (sm.bes[b]?).bind fun be => (pm.faces[φ be.face]?).map fun fc =>
      ⟨be.elem, φ be.face, decide (fc.e0 ≠ ((sm.elemMap[be.elem]?.getD 0 : Nat) : Int)),
        sm.elemMap[be.elem]?.getD 0, 0⟩
    inf := fun _ => 0
    fix := fun t _ => t }

/-- All submeshes. -/
def nrealize (N : Conv R F) (pm : Parent) (subs : List Sub) (φ : Nat → Nat → Nat)
    (flips : Nat → Nat → Bool) : List (NView R Geo F) :=
  subs.mapIdx fun k sm => nview N pm (φ k) (flips k) sm

/-- Every division and every choice of convective integrals over the parent mesh are met by what MFEM
could deliver. -/
theorem nrealize_fits (N : Conv R F) {pm : Parent} {subs : List Sub} {φ : Nat → Nat → Nat} {g : Int}
    (flips : Nat → Nat → Bool) (D : Division pm subs φ g) :
    NFits N pm subs φ (nrealize N pm subs φ flips) [innerVec N] [some (itfVec N)] := by
  have at_ : ∀ (k : Nat) sm v, subs[k]? = some sm → (nrealize N pm subs φ flips)[k]? = some v →
      v = nview N pm (φ k) (flips k) sm := by
    intro k sm v h1 h2
    unfold nrealize at h2
    rw [List.getElem?_mapIdx, h1] at h2
    exact (Option.some.inj h2).symm
  refine ⟨by unfold nrealize; simp, ?_, by simp, ?_⟩
  · intro k sm v hk hv
    rw [at_ k sm v hk hv]
    have hface : ∀ s fc, s < sm.numFaces → pm.faces[φ k s]? = some fc →
        (nview N pm (φ k) (flips k) sm).faces[s]? = some (if 0 ≤ fc.e0 ∧ 0 ≤ fc.e1 ∧
          fc.e0.toNat ∈ sm.elemMap ∧ fc.e1.toNat ∈ sm.elemMap then
          some ⟨sm.elemMap.idxOf (elemAt fc (flips k s)).toNat,
            sm.elemMap.idxOf (elemAt fc (!flips k s)).toNat,
            φ k s, flips k s, (elemAt fc (flips k s)).toNat, (elemAt fc (!flips k s)).toNat⟩
          else none) := by
      intro s fc hs hf
      unfold nview
      dsimp only
      rw [getElem?_tab, if_pos hs, hf]
    have hins : ∀ fc : Face, Inside subs k fc ↔ 0 ≤ fc.e0 ∧ 0 ≤ fc.e1 ∧
          fc.e0.toNat ∈ sm.elemMap ∧ fc.e1.toNat ∈ sm.elemMap := by
      intro fc
      unfold Inside
      rw [owns_iff hk, owns_iff hk]
      constructor
      · rintro ⟨_, ⟨a, b⟩, c, d⟩; exact ⟨a, c, b, d⟩
      · rintro ⟨a, c, b, d⟩; exact ⟨c, ⟨a, b⟩, c, d⟩
    have hbe : ∀ (b : Nat) be, sm.bes[b]? = some be → ∃ x, sm.elemMap[be.elem]? = some x := by
      intro b be hb
      obtain ⟨_, x, _, _, h, _⟩ := D.wf.onFace _ _ _ _ hk hb
      exact ⟨x, h⟩
    refine ⟨space_fits _ _, ?_, ?_, by unfold nview; simp, ?_, ?_, by unfold nview; simp, ?_, ?_⟩
    · intro i e hi g' hg l
      unfold nview at hg
      rw [List.mem_singleton] at hg
      subst hg
      dsimp only
      rw [length_tab, hi]; exact Nat.le_refl _
    · intro i e a l hi hl ha
      show (List.map _ [_]).sum = _
      rw [List.map_singleton, List.sum_singleton]
      dsimp only
      rw [hi, Option.getD_some, ve_tab ha]
    · intro s fc hs hf hin
      rw [hface s fc hs hf, if_neg fun h => hin ((hins fc).2 h)]
    · intro s fc hs hf hin
      have hm := (hins fc).1 hin
      refine ⟨_, flips k s, (elemAt fc (flips k s)).toNat, (elemAt fc (!flips k s)).toNat,
        (hface s fc hs hf).trans (by rw [if_pos hm]), ?_, ?_, ?_, ?_, ?_, ?_⟩
      · refine List.getElem?_idxOf ?_
        cases flips k s
        · exact hm.2.2.1
        · exact hm.2.2.2
      · refine List.getElem?_idxOf ?_
        cases flips k s
        · exact hm.2.2.2
        · exact hm.2.2.1
      · cases flips k s
        · exact Int.toNat_of_nonneg hm.1
        · exact Int.toNat_of_nonneg hm.2.1
      · cases flips k s
        · exact Int.toNat_of_nonneg hm.2.1
        · exact Int.toNat_of_nonneg hm.1
      · intro g' hg l
        rw [List.mem_singleton] at hg
        subst hg
        unfold innerVec
        rw [length_tab]
      · intro I l1 l2 a h1 h2 ha
        rw [List.map_singleton, List.sum_singleton]
        have hI : (if I then N.n (elemAt fc (flips k s)).toNat + a else a) <
            N.n (elemAt fc (flips k s)).toNat + N.n (elemAt fc (!flips k s)).toNat := by
          cases I <;> simp at ha ⊢ <;> omega
        unfold innerVec
        rw [ve_tab hI]
        dsimp only
        rw [← h1, List.take_left, List.drop_left, h1]
        cases I <;> simp only [Bool.false_eq_true, if_false, if_true] at ha ⊢
        · rw [if_neg (by omega), decide_eq_false (by omega)]
        · rw [if_pos (by omega), decide_eq_true (by omega), Nat.add_sub_cancel_left]
    · intro b be x hb hx
      unfold nview at hx
      dsimp only at hx
      rw [List.getElem?_map, hb] at hx
      cases hx
      obtain ⟨y, hy⟩ := hbe b be hb
      refine ⟨rfl, fun c l => ?_⟩
      show (dofsOf _ _).length ≤ (tab _ _).length
      rw [(space_fits sm.elemMap N.n).size _ _ hy, hy, length_tab]; exact Nat.le_refl _
    · intro b be x q hb hq hqf hx
      refine ⟨⟨dofsOf (space sm.elemMap N.n) be.elem, fun c l => tab (N.n x) (N.bdr q.1 c l)⟩, ?_, ?_⟩
      · unfold nview
        dsimp only
        rw [List.getElem?_map, hb, hqf]
        dsimp only [Option.map]
        rw [hx, Option.getD_some]
      · intro c l a _ ha
        dsimp only
        rw [ve_tab ha]
  · intro i j si sj vi vj b b' bei bej f fc o x1 x2 hi hj hvi hvj hij hb hb' hf hf' hfc h1 h2 e1 e2
    rw [at_ i si vi hi hvi, at_ j sj vj hj hvj]
    have hdiff : elemAt fc o ≠ elemAt fc (!o) := by
      intro h
      have o1 : Owns subs i (elemAt fc o) := ⟨si, hi, x1, List.mem_of_getElem? h1, e1⟩
      have o2 : Owns subs j (elemAt fc (!o)) := ⟨sj, hj, x2, List.mem_of_getElem? h2, e2⟩
      rw [← h] at o2
      exact hij (D.wf.disjoint _ _ _ o1 o2)
    have ho : decide (fc.e0 ≠ (x1 : Int)) = o := by
      cases o
      · exact decide_eq_false (by intro h; exact h e1.symm)
      · exact decide_eq_true (by rw [e1]; exact fun h => hdiff h.symm)
    have tr : ∀ (φ' : Nat → Nat) fl (sm : Sub) (b : Nat) be x inf, sm.bes[b]? = some be →
        sm.elemMap[be.elem]? = some x → pm.faces[φ' be.face]? = some fc →
        trOf (nview N pm φ' fl sm).fmesh b inf =
          some ⟨be.elem, φ' be.face, decide (fc.e0 ≠ (x : Int)), x, 0⟩ := by
      intro φ' fl sm b be x inf hb hx hf
      unfold trOf nview
      dsimp only
      rw [hb]
      dsimp only [Option.bind]
      rw [hf, hx]
      dsimp only [Option.map, Option.getD]
      simp only [ite_self]
    have t1 := tr (φ i) (flips i) si b bei x1 (infAt fc o) hb h1 (by rw [hf]; exact hfc)
    have t2 := tr (φ j) (flips j) sj b' bej x2 (infAt fc (!o)) hb' h2 (by rw [hf']; exact hfc)
    refine ⟨_, _, t1, rfl, t2, rfl, ?_, ?_⟩
    · intro g' hg l1 l2 k hk
      rw [List.mem_singleton] at hg
      cases hg
      show _ ≤ (tab _ _).length
      rw [length_tab]
    · intro I l1 l2 a _ _ ha
      rw [List.map_singleton, List.sum_singleton]
      show ve (tab _ _) a = _
      have p1 : (if I.toNat = 0 then x1 else x2) = if I then x2 else x1 := by cases I <;> rfl
      have b1 : decide (I.toNat = 1) = I := by cases I <;> rfl
      dsimp only
      rw [ve_tab (by rw [p1]; exact ha), ho, hf, b1]

theorem nrealize_sizes (N : Conv R F) (pm : Parent) (subs : List Sub) (φ : Nat → Nat → Nat)
    (flips : Nat → Nat → Bool) : (nrealize N pm subs φ flips).map (·.space) =
      subs.map fun sm => space sm.elemMap N.n := by
  unfold nrealize
  apply List.ext_getElem?
  intro k
  rw [List.getElem?_map, List.getElem?_mapIdx, List.getElem?_map]
  cases subs[k]? <;> rfl

end Verif.Divide
