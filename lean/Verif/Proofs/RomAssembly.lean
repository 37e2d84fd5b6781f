import Verif.Spec.RomAssembly
import Verif.Proofs.InterfaceForm
import Verif.Proofs.CompSetup
import Verif.Props.LinAlg
import Verif.Props.BlockMat
import Verif.Props.RomHandler
import Verif.Props.Boundary

/-! # Lemmas about ROM assembly -/

namespace Verif.RomAssembly

open Verif Verif.LinAlg Verif.LinAlg.Spec Finset Spec
open Verif.Blocks (Order getBlockIndex)
open Verif.RomHandler (Handler)
open Verif.RomHandler.Spec (vars romBlock basisOf)
open Verif.InterfaceForm (side)

variable {R δ F : Type} [CommRing R]

omit [CommRing R] in
theorem nvars_eq (h : Handler R) : nvars h = vars h := rfl

/-! ## Projection -/

theorem galerkin_congr {V W : Mat R} {A B : Nat → Nat → R} {p q : Nat}
    (h : ∀ k l, k < V.h → l < W.h → A k l = B k l) : galerkin V W A p q = galerkin V W B p q := by
  unfold galerkin
  refine sum_congr rfl fun k hk => sum_congr rfl fun l hl => ?_
  rw [h k l (mem_range.1 hk) (mem_range.1 hl)]

theorem galerkin_zero (V W : Mat R) (p q : Nat) : galerkin V W (fun _ _ => 0) p q = 0 := by
  unfold galerkin; simp

theorem galerkin_add (V W : Mat R) (A B : Nat → Nat → R) (p q : Nat) :
    galerkin V W (fun k l => A k l + B k l) p q = galerkin V W A p q + galerkin V W B p q := by
  unfold galerkin
  rw [← sum_add_distrib]
  refine sum_congr rfl fun k _ => ?_
  rw [← sum_add_distrib]
  refine sum_congr rfl fun l _ => ?_
  ring

theorem galerkin_list {α : Type} (V W : Mat R) (L : List α) (A : α → Nat → Nat → R) (p q : Nat) :
    galerkin V W (fun k l => (L.map fun x => A x k l).sum) p q =
      (L.map fun x => galerkin V W (A x) p q).sum := by
  induction L with
  | nil => exact galerkin_zero V W p q
  | cons x L ih => simp only [List.map_cons, List.sum_cons]; rw [galerkin_add, ih]

theorem galerkin_sum {α : Type} (V W : Mat R) (L : Finset α) (A : α → Nat → Nat → R) (p q : Nat) :
    galerkin V W (fun k l => ∑ x ∈ L, A x k l) p q = ∑ x ∈ L, galerkin V W (A x) p q := by
  classical
  induction L using Finset.induction_on with
  | empty => simpa using galerkin_zero V W p q
  | insert x L hx ih => simp only [sum_insert hx]; rw [galerkin_add, ih]

theorem galerkin_ite (V W : Mat R) (P : Prop) [Decidable P] (A : Nat → Nat → R) (p q : Nat) :
    galerkin V W (fun k l => if P then A k l else 0) p q = if P then galerkin V W A p q else 0 := by
  by_cases h : P
  · simp [h]
  · simpa [h] using galerkin_zero V W p q

theorem projectMat_spec {bi bj : Mat R} {a : Op R} (hi : MatOk bi) (hj : MatOk bj) (ha : IsLinear a)
    (h1 : a.h = bi.h) (h2 : a.w = bj.h) :
    ∃ s, RomHandler.projectMat bi bj a = .ok s ∧ s.h = bi.w ∧ s.w = bj.w ∧
      ∀ p q, p < bi.w → q < bj.w → s.get p q = galerkin bi bj (opEnt a) p q := by
  obtain ⟨s, e, e1, e2, e3⟩ := sparseRtAP_spec bi bj a hi hj ha.size h1.symm h2
  refine ⟨s, ?_, e1, e2, ?_⟩
  · unfold RomHandler.projectMat
    rw [h1, beq_self_eq_true, require_true, ok_bind, h2, beq_self_eq_true, require_true, ok_bind, e]
  · intro p q hp hq
    rw [e3 p q hp hq]
    unfold galerkin
    refine sum_congr rfl fun k _ => ?_
    rw [ha.lin _ _ (by rw [length_tab, h2]), mul_sum, h2]
    refine sum_congr rfl fun l hl => ?_
    try rw [ve_tab (mem_range.1 hl)]
    ring

omit [CommRing R] in
theorem refB_get {h : Handler R} {nc : Nat} (hb : BasesOk h nc) {c v : Nat} (hc : c < nc)
    (hv : v < vars h) : c * vars h + v < h.refBasis.length ∧
      h.refBasis[c * vars h + v]? = some (refB h c v) ∧ MatOk (refB h c v) := by
  have hlt : c * vars h + v < h.refBasis.length := by
    rw [hb.count]
    calc c * vars h + v < c * vars h + vars h := by omega
      _ = (c + 1) * vars h := by ring
      _ ≤ nc * vars h := Nat.mul_le_mul_right _ hc
  unfold refB
  rw [List.getElem?_eq_getElem hlt, Option.getD_some]
  exact ⟨hlt, rfl, hb.mats _ (List.getElem_mem _)⟩

omit [CommRing R] in
theorem refIndex_nat (h : Handler R) (c : Nat) {v : Nat} (hv : v < vars h) :
    h.refIndex c v = ((c * vars h + v : Nat) : Int) := by
  unfold Handler.refIndex vars at *
  cases hs : h.separate with
  | true => simp
  | false => rw [hs] at hv; simp at hv ⊢; exact hv

theorem projectRef_spec {h : Handler R} {nc : Nat} (hb : BasesOk h nc) {c1 c2 v w : Nat}
    (hc1 : c1 < nc) (hc2 : c2 < nc) (hv : v < vars h) (hw : w < vars h) {a : Op R} (ha : IsLinear a)
    (h1 : a.h = (refB h c1 v).h) (h2 : a.w = (refB h c2 w).h) :
    ∃ s, h.projectRefMat (h.refIndex c1 v) (h.refIndex c2 w) (some a) = .ok s ∧
      s.h = (refB h c1 v).w ∧ s.w = (refB h c2 w).w ∧
      ∀ p q, p < (refB h c1 v).w → q < (refB h c2 w).w →
        s.get p q = galerkin (refB h c1 v) (refB h c2 w) (opEnt a) p q := by
  obtain ⟨l1, g1, m1⟩ := refB_get hb hc1 hv
  obtain ⟨l2, g2, m2⟩ := refB_get hb hc2 hw
  obtain ⟨s, e, e'⟩ := projectMat_spec m1 m2 ha h1 h2
  refine ⟨s, ?_, e'⟩
  unfold Handler.projectRefMat
  rw [refIndex_nat h c1 hv, refIndex_nat h c2 hw]
  rw [show (decide ((0 : Int) ≤ ((c1 * vars h + v : Nat) : Int)) &&
    decide (((c1 * vars h + v : Nat) : Int) < h.refBasis.length)) = true by simp; omega]
  rw [show (decide ((0 : Int) ≤ ((c2 * vars h + w : Nat) : Int)) &&
    decide (((c2 * vars h + w : Nat) : Int) < h.refBasis.length)) = true by simp; omega]
  rw [require_true, ok_bind, ok_bind, hb.loaded, require_true, ok_bind, Int.toNat_natCast,
    Int.toNat_natCast, rd_eq_ok.2 g1, ok_bind, rd_eq_ok.2 g2, ok_bind]
  exact e

/-! ## ROM elements -/

/-- A block holds the projection of an operator; it is null when the operator is. -/
def BlkIs (V W : Mat R) (x : Option (Blk R)) : Option (Op R) → Prop
  | none => x = none
  | some a => ∃ b, x = some b ∧ b.h = V.w ∧ b.w = W.w ∧
      ∀ p q, p < V.w → q < W.w → b.val p q = galerkin V W (opEnt a) p q

theorem putBlock_spec {h : Handler R} {nc : Nat} (hb : BasesOk h nc) {c1 c2 v w : Nat}
    (hc1 : c1 < nc) (hc2 : c2 < nc) (hv : v < vars h) (hw : w < vars h) {a : Option (Op R)}
    (ha : ∀ x, a = some x → IsLinear x ∧ x.h = (refB h c1 v).h ∧ x.w = (refB h c2 w).h)
    (i j : Nat) (b : MatBlocks R) (hn : b.mats i j = none) :
    ∃ b', putBlock h (h.refIndex c1 v) (h.refIndex c2 w) i j a b = .ok b' ∧ b'.nrows = b.nrows ∧
      b'.ncols = b.ncols ∧ BlkIs (refB h c1 v) (refB h c2 w) (b'.mats i j) a ∧
      ∀ i' j', ¬ (i' = i ∧ j' = j) → b'.mats i' j' = b.mats i' j' := by
  cases a with
  | none => exact ⟨b, rfl, rfl, rfl, hn, fun _ _ _ => rfl⟩
  | some a =>
    obtain ⟨l, e1, e2⟩ := ha a rfl
    obtain ⟨s, e, s1, s2, s3⟩ := projectRef_spec hb hc1 hc2 hv hw l e1 e2
    refine ⟨⟨b.nrows, b.ncols, fun i' j' =>
      if i' = i ∧ j' = j then some ⟨s.h, s.w, s.get⟩ else b.mats i' j'⟩, ?_, rfl, rfl, ?_, ?_⟩
    · unfold putBlock; dsimp only; rw [e]; rfl
    · exact ⟨⟨s.h, s.w, s.get⟩, if_pos ⟨rfl, rfl⟩, s1, s2, s3⟩
    · intro i' j' hne; exact if_neg hne

theorem putLocal_spec {h : Handler R} {nc : Nat} (hb : BasesOk h nc) {c1 c2 : Nat}
    (hc1 : c1 < nc) (hc2 : c2 < nc) {l : Local R} (hl : LocalOk h c1 c2 l) (i0 j0 : Nat)
    (b : MatBlocks R) (hn : ∀ v w, v < vars h → w < vars h → b.mats (i0 + v) (j0 + w) = none) :
    ∃ b', putLocal h c1 c2 i0 j0 l b = .ok b' ∧ b'.nrows = b.nrows ∧ b'.ncols = b.ncols ∧
      (∀ v w, v < vars h → w < vars h →
        BlkIs (refB h c1 v) (refB h c2 w) (b'.mats (i0 + v) (j0 + w)) (l v w)) ∧
      ∀ i j, ¬ (i0 ≤ i ∧ i < i0 + vars h ∧ j0 ≤ j ∧ j < j0 + vars h) → b'.mats i j = b.mats i j := by
  unfold putLocal
  rw [nvars_eq]
  obtain ⟨b', e, h1, h2, h3, h4⟩ := loop_total (n := vars h) (s := b)
    (body := fun v b => loop (vars h) (fun w b =>
      putBlock h (h.refIndex c1 v) (h.refIndex c2 w) (i0 + v) (j0 + w) (l v w) b) b)
    (fun k s => s.nrows = b.nrows ∧ s.ncols = b.ncols ∧
      (∀ v w, v < k → w < vars h →
        BlkIs (refB h c1 v) (refB h c2 w) (s.mats (i0 + v) (j0 + w)) (l v w)) ∧
      ∀ i j, ¬ (i0 ≤ i ∧ i < i0 + k ∧ j0 ≤ j ∧ j < j0 + vars h) → s.mats i j = b.mats i j)
    ⟨rfl, rfl, fun v w hv => absurd hv (by omega), fun _ _ _ => rfl⟩ (by
      rintro v s hv ⟨g1, g2, g3, g4⟩
      obtain ⟨s', e, f1, f2, f3, f4⟩ := loop_total (n := vars h) (s := s)
        (body := fun w b =>
          putBlock h (h.refIndex c1 v) (h.refIndex c2 w) (i0 + v) (j0 + w) (l v w) b)
        (fun k t => t.nrows = b.nrows ∧ t.ncols = b.ncols ∧
          (∀ w, w < k → BlkIs (refB h c1 v) (refB h c2 w) (t.mats (i0 + v) (j0 + w)) (l v w)) ∧
          ∀ i j, ¬ (i = i0 + v ∧ j0 ≤ j ∧ j < j0 + k) → t.mats i j = s.mats i j)
        ⟨g1, g2, fun w hw => absurd hw (by omega), fun _ _ _ => rfl⟩ (by
          rintro w t hw ⟨f1, f2, f3, f4⟩
          obtain ⟨t', e, d1, d2, d3, d4⟩ := putBlock_spec hb hc1 hc2 hv hw (a := l v w)
            (fun x hx => hl v w x hv hw hx) (i0 + v) (j0 + w) t (by
              rw [f4 _ _ (by omega), g4 _ _ (by omega)]; exact hn v w hv hw)
          refine ⟨t', e, d1.trans f1, d2.trans f2, ?_, ?_⟩
          · intro w' hw'
            by_cases hww : w' = w
            · subst hww; exact d3
            · rw [d4 _ _ (by omega)]; exact f3 w' (by omega)
          · intro i j hij
            rw [d4 _ _ (by omega)]; exact f4 i j (by omega))
      refine ⟨s', e, f1, f2, ?_, ?_⟩
      · intro v' w hv' hw
        by_cases hvv : v' = v
        · subst hvv; exact f3 w hw
        · rw [f4 _ _ (by omega)]; exact g3 v' w (by omega) hw
      · intro i j hij
        rw [f4 _ _ (by omega)]; exact g4 i j (by omega))
  exact ⟨b', e, h1, h2, h3, h4⟩

theorem compElem_spec {h : Handler R} {nc : Nat} (hb : BasesOk h nc) {c : Nat} (hc : c < nc)
    {l : Local R} (hl : LocalOk h c c l) :
    ∃ b, compElem h c l = .ok b ∧ b.nrows = vars h ∧ b.ncols = vars h ∧
      ∀ v w, v < vars h → w < vars h →
        BlkIs (refB h c v) (refB h c w) (b.mats v w) (l v w) := by
  obtain ⟨b, e, h1, h2, h3, -⟩ := putLocal_spec hb hc hc hl 0 0
    ⟨nvars h, nvars h, fun _ _ => none⟩ (fun _ _ _ _ => rfl)
  exact ⟨b, e, h1, h2, fun v w hv hw => by simpa using h3 v w hv hw⟩

theorem portElem_spec {h : Handler R} {nc : Nat} (hb : BasesOk h nc) {c1 c2 : Nat} (hc1 : c1 < nc)
    (hc2 : c2 < nc) {l : Nat → Nat → Local R}
    (hl : ∀ i j, i < 2 → j < 2 → LocalOk h (side c1 c2 i) (side c1 c2 j) (l i j)) :
    ∃ b, portElem h c1 c2 l = .ok b ∧ b.nrows = 2 * vars h ∧ b.ncols = 2 * vars h ∧
      ∀ i j v w, i < 2 → j < 2 → v < vars h → w < vars h →
        BlkIs (refB h (side c1 c2 i) v) (refB h (side c1 c2 j) w)
          (b.mats (i * vars h + v) (j * vars h + w)) (l i j v w) := by
  have hs : ∀ i, side c1 c2 i < nc := by intro i; unfold side; split <;> assumption
  have sep : ∀ {i j v : Nat}, v < vars h → i ≠ j →
      ¬ (j * vars h ≤ i * vars h + v ∧ i * vars h + v < j * vars h + vars h) := by
    rintro i j v hv hij ⟨g1, g2⟩
    rcases Nat.lt_or_gt_of_ne hij with h' | h'
    · have := Nat.mul_le_mul_right (vars h) h'
      rw [Nat.succ_mul] at this; omega
    · have := Nat.mul_le_mul_right (vars h) h'
      rw [Nat.succ_mul] at this; omega
  unfold portElem
  rw [nvars_eq]
  obtain ⟨b', e, h1, h2, h3, -⟩ := loop_total (n := 2)
    (s := (⟨2 * vars h, 2 * vars h, fun _ _ => none⟩ : MatBlocks R))
    (body := fun i b => loop 2 (fun j b =>
      putLocal h (side c1 c2 i) (side c1 c2 j) (i * vars h) (j * vars h) (l i j) b) b)
    (fun k s => s.nrows = 2 * vars h ∧ s.ncols = 2 * vars h ∧
      (∀ i j v w, i < k → j < 2 → v < vars h → w < vars h →
        BlkIs (refB h (side c1 c2 i) v) (refB h (side c1 c2 j) w)
          (s.mats (i * vars h + v) (j * vars h + w)) (l i j v w)) ∧
      ∀ i j, k * vars h ≤ i → s.mats i j = none)
    ⟨rfl, rfl, fun i _ _ _ hi => absurd hi (by omega), fun _ _ _ => rfl⟩ (by
      rintro i s hi ⟨g1, g2, g3, g4⟩
      obtain ⟨s', e, f1, f2, f3, f4, f5⟩ := loop_total (n := 2) (s := s)
        (body := fun j b =>
          putLocal h (side c1 c2 i) (side c1 c2 j) (i * vars h) (j * vars h) (l i j) b)
        (fun k t => t.nrows = 2 * vars h ∧ t.ncols = 2 * vars h ∧
          (∀ j v w, j < k → v < vars h → w < vars h →
            BlkIs (refB h (side c1 c2 i) v) (refB h (side c1 c2 j) w)
              (t.mats (i * vars h + v) (j * vars h + w)) (l i j v w)) ∧
          (∀ r c, ¬ (i * vars h ≤ r ∧ r < i * vars h + vars h) → t.mats r c = s.mats r c) ∧
          ∀ r c, k * vars h ≤ c → i * vars h ≤ r → t.mats r c = none)
        ⟨g1, g2, fun j _ _ hj => absurd hj (by omega), fun _ _ _ => rfl,
          fun r c _ hr => g4 r c hr⟩ (by
          rintro j t hj ⟨f1, f2, f3, f4, f5⟩
          obtain ⟨t', e, d1, d2, d3, d4⟩ := putLocal_spec hb (hs i) (hs j) (hl i j hi hj)
            (i * vars h) (j * vars h) t (fun v w _ _ => f5 _ _ (by omega) (by omega))
          refine ⟨t', e, d1.trans f1, d2.trans f2, ?_, ?_, ?_⟩
          · intro j' v w hj' hv hw
            by_cases hjj : j' = j
            · subst hjj; exact d3 v w hv hw
            · rw [d4 _ _ (fun hh => sep hw hjj ⟨hh.2.2.1, hh.2.2.2⟩)]
              exact f3 j' v w (by omega) hv hw
          · intro r c hr
            rw [d4 _ _ (by omega)]; exact f4 r c hr
          · intro r c hc hr
            rw [Nat.succ_mul] at hc
            rw [d4 _ _ (by omega)]; exact f5 r c (by omega) hr)
      refine ⟨s', e, f1, f2, ?_, ?_⟩
      · intro i' j v w hi' hj hv hw
        by_cases hii : i' = i
        · subst hii; exact f3 j v w hj hv hw
        · rw [f4 _ _ (sep hv hii)]; exact g3 i' j v w (by omega) hj hv hw
      · intro r c hr
        rw [Nat.succ_mul] at hr
        rw [f4 _ _ (by omega)]; exact g4 r c (by omega))
  exact ⟨b', e, h1, h2, h3⟩

theorem mval_of_blkIs {V W : Mat R} {b : MatBlocks R} {i j : Nat} {l : Local R} {v w : Nat}
    (h : BlkIs V W (b.mats i j) (l v w)) {p q : Nat} (hp : p < V.w) (hq : q < W.w) :
    mval b i j p q = galerkin V W (lent l v w) p q := by
  unfold mval lent
  cases hl : l v w with
  | none =>
    rw [hl] at h
    rw [h]; exact (galerkin_zero V W p q).symm
  | some a =>
    rw [hl] at h
    obtain ⟨x, hx, -, -, hv⟩ := h
    rw [hx]
    exact hv p q hp hq

/-! ## Collecting elements -/

omit [CommRing R] in
theorem loop_collect {α : Type} {n : Nat} {body : Nat → List α → Outcome (List α)}
    (P : Nat → α → Prop) (h : ∀ k acc, k < n → ∃ x, body k acc = .ok (acc ++ [x]) ∧ P k x) :
    ∃ l, loop n body [] = .ok l ∧ l.length = n ∧ ∀ k, k < n → ∃ x, l[k]? = some x ∧ P k x := by
  obtain ⟨l, e, h1, h2⟩ := loop_total (n := n) (body := body) (s := [])
    (fun j l => l.length = j ∧ ∀ k, k < j → ∃ x, l[k]? = some x ∧ P k x)
    ⟨rfl, fun k hk => absurd hk (by omega)⟩ (by
      rintro j l hj ⟨h1, h2⟩
      obtain ⟨x, e, hx⟩ := h j l hj
      refine ⟨l ++ [x], e, by simp [h1], fun k hk => ?_⟩
      by_cases hkj : k = j
      · subst hkj
        exact ⟨x, by rw [List.getElem?_append_right (by omega), h1]; simp, hx⟩
      · obtain ⟨y, hy, hp⟩ := h2 k (by omega)
        exact ⟨y, by rw [List.getElem?_append_left (by omega)]; exact hy, hp⟩)
  exact ⟨l, e, h1, h2⟩

/-- The local systems a solver builds its ROM elements from. -/
structure Pieces (R : Type) where
  comp : Nat → Local R
  bdr : Nat → Nat → Local R
  port : Nat → Nat → Nat → Local R

/-- The local systems are computed without failure. -/
structure LocalOf.Gives (l : LocalOf R) (comps : List CompSetup.Comp) (np : Nat)
    (P : Pieces R) : Prop where
  comp : ∀ c, c < comps.length → l.comp c = .ok (P.comp c)
  bdr : ∀ (c : Nat) (comp : CompSetup.Comp) (b : Nat), comps[c]? = some comp →
    b < comp.bdrAttributes.length → l.bdr c b = .ok (P.bdr c b)
  port : ∀ p, p < np → ∃ x, l.port p = .ok x ∧ ∀ i j, i < 2 → j < 2 → x i j = P.port p i j

/-- The local systems fit the bases. -/
structure PiecesOk (h : Handler R) (comps : List CompSetup.Comp) (refPorts : List Ports.PortData)
    (P : Pieces R) : Prop where
  comp : ∀ c, c < comps.length → LocalOk h c c (P.comp c)
  bdr : ∀ (c : Nat) (comp : CompSetup.Comp) (b : Nat), comps[c]? = some comp →
    b < comp.bdrAttributes.length → LocalOk h c c (P.bdr c b)
  port : ∀ (p : Nat) (q : Ports.PortData), refPorts[p]? = some q → q.comp1 < comps.length ∧
    q.comp2 < comps.length ∧ ∀ i j, i < 2 → j < 2 →
      LocalOk h (side q.comp1 q.comp2 i) (side q.comp1 q.comp2 j) (P.port p i j)

/-- The element of a component or boundary holds the projection of `l`. -/
def CompElemIs (h : Handler R) (c : Nat) (l : Local R) (b : MatBlocks R) : Prop :=
  b.nrows = vars h ∧ b.ncols = vars h ∧ ∀ v w, v < vars h → w < vars h →
    BlkIs (refB h c v) (refB h c w) (b.mats v w) (l v w)

/-- The element of a port holds the projections of `l`. -/
def PortElemIs (h : Handler R) (c1 c2 : Nat) (l : Nat → Nat → Local R) (b : MatBlocks R) : Prop :=
  b.nrows = 2 * vars h ∧ b.ncols = 2 * vars h ∧
    ∀ i j v w, i < 2 → j < 2 → v < vars h → w < vars h →
      BlkIs (refB h (side c1 c2 i) v) (refB h (side c1 c2 j) w)
        (b.mats (i * vars h + v) (j * vars h + w)) (l i j v w)

/-- ROM elements hold the projections of the local systems. -/
structure ElemsAre (h : Handler R) (comps : List CompSetup.Comp) (refPorts : List Ports.PortData)
    (P : Pieces R) (el : RomElems R) : Prop where
  comp : ∀ c, c < comps.length → ∃ e, el.comp[c]? = some e ∧ CompElemIs h c (P.comp c) e
  bdr : ∀ (c : Nat) (comp : CompSetup.Comp), comps[c]? = some comp → ∃ bs, el.bdr[c]? = some bs ∧
    ∀ b, b < comp.bdrAttributes.length → ∃ e, bs[b]? = some e ∧ CompElemIs h c (P.bdr c b) e
  port : ∀ (p : Nat) (q : Ports.PortData), refPorts[p]? = some q → ∃ e, el.port[p]? = some e ∧
    PortElemIs h q.comp1 q.comp2 (P.port p) e

theorem buildElems_spec {h : Handler R} {comps : List CompSetup.Comp}
    {refPorts : List Ports.PortData} {l : LocalOf R} {P : Pieces R} (hb : BasesOk h comps.length)
    (hg : l.Gives comps refPorts.length P) (hp : PiecesOk h comps refPorts P) :
    ∃ el, buildElems h comps refPorts l = .ok el ∧ ElemsAre h comps refPorts P el := by
  obtain ⟨cs, e1, -, c2⟩ := loop_collect (n := comps.length)
    (body := fun c acc => do
      let x ← l.comp c
      let e ← compElem h c x
      return acc ++ [e]) (fun c e => CompElemIs h c (P.comp c) e) (by
      intro c acc hc
      obtain ⟨e, he, hs⟩ := compElem_spec hb hc (hp.comp c hc)
      exact ⟨e, by rw [hg.comp c hc, ok_bind, he, ok_bind]; rfl, hs⟩)
  obtain ⟨bs, e2, -, b2⟩ := loop_collect (n := comps.length)
    (body := fun c acc => do
      let comp ← rd comps c
      let es ← loop comp.bdrAttributes.length (fun b acc => do
        let x ← l.bdr c b
        let e ← compElem h c x
        return acc ++ [e]) []
      return acc ++ [es])
    (fun c bs => ∀ comp : CompSetup.Comp, comps[c]? = some comp →
      ∀ b, b < comp.bdrAttributes.length → ∃ e, bs[b]? = some e ∧ CompElemIs h c (P.bdr c b) e) (by
      intro c acc hc
      have hcc : comps[c]? = some comps[c] := List.getElem?_eq_getElem hc
      obtain ⟨es, e, -, g2⟩ := loop_collect (n := comps[c].bdrAttributes.length)
        (body := fun b acc => do
          let x ← l.bdr c b
          let e ← compElem h c x
          return acc ++ [e]) (fun b e => CompElemIs h c (P.bdr c b) e) (by
          intro b acc hbb
          obtain ⟨e, he, hs⟩ := compElem_spec hb hc (hp.bdr c comps[c] b hcc hbb)
          exact ⟨e, by rw [hg.bdr c _ b hcc hbb, ok_bind, he, ok_bind]; rfl, hs⟩)
      refine ⟨es, by rw [rd_of_lt hc, ok_bind, e, ok_bind]; rfl, fun comp hcomp => ?_⟩
      rw [hcc] at hcomp; cases hcomp
      exact g2)
  obtain ⟨ps, e3, -, p2⟩ := loop_collect (n := refPorts.length)
    (body := fun p acc => do
      let q ← rd refPorts p
      let x ← l.port p
      let e ← portElem h q.comp1 q.comp2 x
      return acc ++ [e])
    (fun p e => ∀ q : Ports.PortData, refPorts[p]? = some q →
      PortElemIs h q.comp1 q.comp2 (P.port p) e) (by
      intro p acc hpp
      have hq : refPorts[p]? = some refPorts[p] := List.getElem?_eq_getElem hpp
      obtain ⟨x, hx, hxx⟩ := hg.port p hpp
      obtain ⟨q1, q2, ql⟩ := hp.port p _ hq
      obtain ⟨e, he, d1, d2, d3⟩ := portElem_spec hb q1 q2 (l := x)
        (fun i j hi hj => by rw [hxx i j hi hj]; exact ql i j hi hj)
      refine ⟨e, by rw [rd_of_lt hpp, ok_bind, hx, ok_bind, he, ok_bind]; rfl, fun q hqq => ?_⟩
      rw [hq] at hqq; cases hqq
      exact ⟨d1, d2, fun i j v w hi hj hv hw => by rw [← hxx i j hi hj]; exact d3 i j v w hi hj hv hw⟩)
  refine ⟨⟨cs, bs, ps⟩, ?_, ?_, ?_, ?_⟩
  · unfold buildElems buildComp buildBdr buildPorts
    rw [e1, ok_bind, e2, ok_bind, e3, ok_bind]; rfl
  · intro c hc; exact c2 c hc
  · intro c comp hc
    obtain ⟨x, hx, hx2⟩ := b2 c (List.getElem?_eq_some_iff.1 hc).1
    exact ⟨x, hx, hx2 comp hc⟩
  · intro p q hq
    obtain ⟨x, hx, hx2⟩ := p2 p (List.getElem?_eq_some_iff.1 hq).1
    exact ⟨x, hx, hx2 q hq⟩

/-! ## Adding elements to the ROM operator -/

omit [CommRing R] in
theorem blockIndex_eq (h : Handler R) {m v : Nat} (hv : v < vars h) :
    getBlockIndex h.separate h.ord h.numSub h.numVar m v = .ok (romBlock h m v : Int) := by
  unfold getBlockIndex romBlock
  unfold vars at hv ⊢
  rw [if_neg (by omega)]
  cases hs : h.separate with
  | false =>
    rw [hs] at hv
    simp at hv
    subst hv
    cases h.ord <;> simp [pure, Except.pure]
  | true => cases h.ord <;> simp [pure, Except.pure, add_comm]

/-- The block indices of a subdomain. -/
def subIdxL (h : Handler R) (m : Nat) : List Int :=
  (List.range (vars h)).map fun v => (romBlock h m v : Int)

omit [CommRing R] in
theorem subIdx_eq (h : Handler R) (m : Nat) (acc : List Int) :
    subIdx h m acc = .ok (acc ++ subIdxL h m) := by
  unfold subIdx subIdxL
  rw [nvars_eq]
  obtain ⟨t, e, ht⟩ := loop_total (n := vars h) (s := acc)
    (body := fun v acc => do
      let k ← getBlockIndex h.separate h.ord h.numSub h.numVar m v
      return acc ++ [k])
    (fun k t => t = acc ++ (List.range k).map fun v => (romBlock h m v : Int)) (by simp) (by
      rintro v t hv rfl
      refine ⟨_, by rw [blockIndex_eq h hv, ok_bind]; rfl, ?_⟩
      rw [List.range_succ]; simp)
  rw [e, ht]

/-- What `AddToBlockMatrix` adds. -/
def idxTerm (idx : List Int) (e : MatBlocks R) : Nat → Nat → Nat → Nat → R := fun a d p q =>
  ∑ i ∈ range idx.length, ∑ j ∈ range idx.length,
    if a = rowAt idx i ∧ d = rowAt idx j then mval e i j p q else 0

theorem collapse (h : Handler R) {m m1 v : Nat} (hm : m < h.numSub) (hm1 : m1 < h.numSub)
    (hv : v < vars h) (f : Nat → R) :
    (∑ i ∈ range (vars h), if romBlock h m1 v = romBlock h m i then f i else 0) =
      if m1 = m then f v else 0 := by
  by_cases hmm : m1 = m
  · subst hmm
    rw [if_pos rfl, sum_eq_single v]
    · simp
    · intro i hi hne
      rw [if_neg]
      intro he
      exact hne (RomHandler.romBlock_inj h hm hm1 hv (mem_range.1 hi) he).2.symm
    · intro hn; exact absurd (mem_range.2 hv) hn
  · rw [if_neg hmm, sum_eq_zero]
    intro i hi
    rw [if_neg]
    intro he
    exact hmm (RomHandler.romBlock_inj h hm1 hm hv (mem_range.1 hi) he).1

omit [CommRing R] in
theorem rowAt_sub (h : Handler R) (m : Nat) {i : Nat} (hi : i < vars h) :
    rowAt (subIdxL h m) i = romBlock h m i := by
  unfold rowAt subIdxL
  simp [hi]

omit [CommRing R] in
theorem length_sub (h : Handler R) (m : Nat) : (subIdxL h m).length = vars h := by
  simp [subIdxL]

theorem idxTerm_sub (h : Handler R) (e : MatBlocks R) {m m1 m2 v w : Nat} (hm : m < h.numSub)
    (h1 : m1 < h.numSub) (h2 : m2 < h.numSub) (hv : v < vars h) (hw : w < vars h) (p q : Nat) :
    idxTerm (subIdxL h m) e (romBlock h m1 v) (romBlock h m2 w) p q =
      if m1 = m ∧ m2 = m then mval e v w p q else 0 := by
  unfold idxTerm
  rw [length_sub]
  have : ∀ i ∈ range (vars h), (∑ j ∈ range (vars h),
      if romBlock h m1 v = rowAt (subIdxL h m) i ∧ romBlock h m2 w = rowAt (subIdxL h m) j then
        mval e i j p q else 0) =
      if romBlock h m1 v = romBlock h m i then (if m2 = m then mval e i w p q else 0) else 0 := by
    intro i hi
    rw [rowAt_sub h m (mem_range.1 hi), ← collapse h hm h2 hw (fun j => mval e i j p q)]
    by_cases hc : romBlock h m1 v = romBlock h m i
    · rw [if_pos hc]
      refine sum_congr rfl fun j hj => ?_
      rw [rowAt_sub h m (mem_range.1 hj)]
      simp [hc]
    · simp [hc]
  rw [sum_congr rfl this, collapse h hm h1 hv (fun i => if m2 = m then mval e i w p q else 0),
    ite_and]

omit [CommRing R] in
theorem rowAt_port (h : Handler R) (m1 m2 : Nat) {i : Nat} (hi : i < vars h) (s : Nat) (hs : s < 2) :
    rowAt (subIdxL h m1 ++ subIdxL h m2) (s * vars h + i) = romBlock h (side m1 m2 s) i := by
  have h2 : s = 0 ∨ s = 1 := by omega
  rcases h2 with rfl | rfl
  · unfold rowAt side
    rw [Nat.zero_mul, Nat.zero_add, List.getElem?_append_left (by rw [length_sub]; exact hi)]
    exact rowAt_sub h m1 hi
  · unfold rowAt side
    rw [Nat.one_mul, List.getElem?_append_right (by rw [length_sub]; omega), length_sub]
    simpa [rowAt] using rowAt_sub h m2 hi

theorem sum_two (n : Nat) (f : Nat → R) :
    ∑ i ∈ range (n + n), f i = ∑ s ∈ range 2, ∑ i ∈ range n, f (s * n + i) := by
  rw [Finset.sum_range_add, sum_range_succ, sum_range_succ, sum_range_zero]
  simp

theorem idxTerm_port (h : Handler R) (e : MatBlocks R) {m1 m2 a b v w : Nat} (h1 : m1 < h.numSub)
    (h2 : m2 < h.numSub) (ha : a < h.numSub) (hb : b < h.numSub) (hv : v < vars h)
    (hw : w < vars h) (p q : Nat) :
    idxTerm (subIdxL h m1 ++ subIdxL h m2) e (romBlock h a v) (romBlock h b w) p q =
      ∑ i ∈ range 2, ∑ j ∈ range 2, if side m1 m2 i = a ∧ side m1 m2 j = b then
        mval e (i * vars h + v) (j * vars h + w) p q else 0 := by
  have hs : ∀ i, side m1 m2 i < h.numSub := by intro i; unfold side; split <;> assumption
  unfold idxTerm
  rw [List.length_append, length_sub, length_sub, sum_two]
  refine sum_congr rfl fun s hs2 => ?_
  have hs2 := mem_range.1 hs2
  have : ∀ i ∈ range (vars h), (∑ j ∈ range (vars h + vars h),
      if romBlock h a v = rowAt (subIdxL h m1 ++ subIdxL h m2) (s * vars h + i) ∧
        romBlock h b w = rowAt (subIdxL h m1 ++ subIdxL h m2) j then
        mval e (s * vars h + i) j p q else 0) =
      if romBlock h a v = romBlock h (side m1 m2 s) i then
        (∑ t ∈ range 2, if b = side m1 m2 t then mval e (s * vars h + i) (t * vars h + w) p q else 0)
      else 0 := by
    intro i hi
    rw [rowAt_port h m1 m2 (mem_range.1 hi) s hs2]
    by_cases hc : romBlock h a v = romBlock h (side m1 m2 s) i
    · rw [if_pos hc, sum_two]
      refine sum_congr rfl fun t ht => ?_
      rw [← collapse h (hs t) hb hw (fun j => mval e (s * vars h + i) (t * vars h + j) p q)]
      refine sum_congr rfl fun j hj => ?_
      rw [rowAt_port h m1 m2 (mem_range.1 hj) t (mem_range.1 ht)]
      simp [hc]
    · simp [hc]
  rw [sum_congr rfl this, collapse h (hs s) ha hv (fun i => ∑ t ∈ range 2,
    if b = side m1 m2 t then mval e (s * vars h + i) (t * vars h + w) p q else 0)]
  by_cases hc : a = side m1 m2 s
  · rw [if_pos hc]
    refine sum_congr rfl fun t _ => ?_
    rw [← hc]
    simp [eq_comm]
  · rw [if_neg hc, sum_eq_zero]
    intro t _
    rw [if_neg (fun hh => hc hh.1.symm)]

/-- The ROM operator under construction. -/
def RomInv (h : Handler R) (b : BlockMat R) : Prop :=
  b.roffs = h.romOffs ∧ b.coffs = h.romOffs ∧ b.ownsBlocks = true

omit [CommRing R] in
theorem offs_diff {h : Handler R} {zr zf : List Nat} (hr : RomHandler.Spec.Ready h zr zf)
    {m v : Nat} (hm : m < h.numSub) (hv : v < vars h) :
    (((basisOf h h.refBasis m v).w : Nat) : Int) =
      (h.romOffs[romBlock h m v + 1]?.getD 0 : Int) - (h.romOffs[romBlock h m v]?.getD 0 : Int) := by
  obtain ⟨x, h1, h2⟩ := hr.offs.2.2 _ _ (hr.szR m v hm hv)
  rw [h1, h2]
  simp

theorem addIdx {h : Handler R} {zr zf : List Nat} (hr : RomHandler.Spec.Ready h zr zf)
    {rom : BlockMat R} (hi : RomInv h rom) {idx : List Int} {e : MatBlocks R}
    (h1 : idx.length = e.nrows) (h2 : idx.length = e.ncols) (hne : idx ≠ [])
    (slot : ∀ i, i < idx.length → ∃ m v, m < h.numSub ∧ v < vars h ∧ rowAt idx i = romBlock h m v ∧
      idx[i]? = some (romBlock h m v : Int))
    (hs : ∀ i j b m v m' w, i < idx.length → j < idx.length → e.mats i j = some b →
      m < h.numSub → v < vars h → m' < h.numSub → w < vars h →
      rowAt idx i = romBlock h m v → rowAt idx j = romBlock h m' w →
      b.h = (basisOf h h.refBasis m v).w ∧ b.w = (basisOf h h.refBasis m' w).w) :
    ∃ rom', addToBlockMatrix idx idx e rom = .ok rom' ∧ RomInv h rom' ∧
      bval rom' = bval rom + idxTerm idx e := by
  have hlen : h.romOffs.length = h.numSub * vars h + 1 := by rw [hr.offs.1, hr.lenR]
  have hin : ∀ r ∈ idx, 0 ≤ r ∧ r < (h.romOffs.length - 1 : Int) := by
    intro r hrr
    obtain ⟨i, hi'⟩ := List.mem_iff_getElem?.1 hrr
    obtain ⟨m, v, hm, hv, -, hg⟩ := slot i (List.getElem?_eq_some_iff.1 hi').1
    rw [hi'] at hg
    cases hg
    have := RomHandler.romBlock_lt h hm hv
    rw [RomHandler.numBlocks_eq] at this
    rw [hlen]
    omega
  obtain ⟨rom', e1, g1, g2, g3, g4⟩ := addToBlockMatrix_spec idx idx e rom hi.2.2 h1 h2 hne hne
    (by rw [hi.1]; exact hin) (by rw [hi.2.1]; exact hin) (by
      intro i j b hil hjl hb
      obtain ⟨m, v, hm, hv, hrow, -⟩ := slot i hil
      obtain ⟨m', w, hm', hw, hrow', -⟩ := slot j hjl
      obtain ⟨s1, s2⟩ := hs i j b m v m' w hil hjl hb hm hv hm' hw hrow hrow'
      rw [hi.1, hi.2.1, hrow, hrow', s1, s2]
      exact ⟨offs_diff hr hm hv, offs_diff hr hm' hw⟩)
  exact ⟨rom', e1, ⟨g1.trans hi.1, g2.trans hi.2.1, g3⟩, by
    funext a d p q; rw [g4]; rfl⟩

omit [CommRing R] in
theorem get_sub (h : Handler R) (m : Nat) {i : Nat} (hi : i < vars h) :
    (subIdxL h m)[i]? = some (romBlock h m i : Int) := by
  unfold subIdxL; simp [hi]

omit [CommRing R] in
theorem sub_ne (h : Handler R) (hv : 0 < vars h) (m : Nat) (l : List Int) : subIdxL h m ++ l ≠ [] := by
  intro he
  have := congrArg List.length he
  rw [List.length_append, length_sub] at this
  simp at this; omega

theorem addSub {h : Handler R} {zr zf : List Nat} (hr : RomHandler.Spec.Ready h zr zf)
    (hv0 : 0 < vars h) {rom : BlockMat R} (hi : RomInv h rom) {e : MatBlocks R} {m c : Nat}
    (hm : m < h.numSub) (hc : h.meshType[m]? = some c) {l : Local R} (he : CompElemIs h c l e) :
    ∃ rom', addToBlockMatrix (subIdxL h m) (subIdxL h m) e rom = .ok rom' ∧ RomInv h rom' ∧
      bval rom' = bval rom + idxTerm (subIdxL h m) e := by
  obtain ⟨e1, e2, e3⟩ := he
  refine addIdx hr hi (by rw [length_sub, e1]) (by rw [length_sub, e2])
    (by simpa using sub_ne h hv0 m []) ?_ ?_
  · intro i hil
    rw [length_sub] at hil
    exact ⟨m, i, hm, hil, rowAt_sub h m hil, get_sub h m hil⟩
  · intro i j b m1 v m2 w hil hjl hb h1 hv h2 hw r1 r2
    rw [length_sub] at hil hjl
    rw [rowAt_sub h m hil] at r1
    rw [rowAt_sub h m hjl] at r2
    obtain ⟨rfl, rfl⟩ := RomHandler.romBlock_inj h hm h1 hil hv r1
    obtain ⟨rfl, rfl⟩ := RomHandler.romBlock_inj h hm h2 hjl hw r2
    have hb' := e3 i j hil hjl
    have hB : ∀ v, basisOf h h.refBasis m v = refB h c v := by
      intro v; unfold basisOf refB; rw [hc]; rfl
    rw [hB, hB]
    cases hl : l i j with
    | none => rw [hl] at hb'; rw [show e.mats i j = none from hb'] at hb; cases hb
    | some a =>
      rw [hl] at hb'
      obtain ⟨b', hb1, hb2, hb3, -⟩ := hb'
      rw [hb] at hb1; cases hb1
      exact ⟨hb2, hb3⟩

omit [CommRing R] in
theorem split_idx {n i : Nat} (hi : i < n + n) : ∃ s v, s < 2 ∧ v < n ∧ i = s * n + v := by
  by_cases h : i < n
  · exact ⟨0, i, by omega, h, by omega⟩
  · exact ⟨1, i - n, by omega, by omega, by omega⟩

theorem addPortIdx {h : Handler R} {zr zf : List Nat} (hr : RomHandler.Spec.Ready h zr zf)
    (hv0 : 0 < vars h) {rom : BlockMat R} (hi : RomInv h rom) {e : MatBlocks R} {m1 m2 c1 c2 : Nat}
    (h1 : m1 < h.numSub) (h2 : m2 < h.numSub) (hc1 : h.meshType[m1]? = some c1)
    (hc2 : h.meshType[m2]? = some c2) {l : Nat → Nat → Local R} (he : PortElemIs h c1 c2 l e) :
    ∃ rom', addToBlockMatrix (subIdxL h m1 ++ subIdxL h m2) (subIdxL h m1 ++ subIdxL h m2) e rom =
        .ok rom' ∧ RomInv h rom' ∧
      bval rom' = bval rom + idxTerm (subIdxL h m1 ++ subIdxL h m2) e := by
  obtain ⟨e1, e2, e3⟩ := he
  have hlen : (subIdxL h m1 ++ subIdxL h m2).length = vars h + vars h := by
    rw [List.length_append, length_sub, length_sub]
  have hs : ∀ i, side m1 m2 i < h.numSub := by intro i; unfold side; split <;> assumption
  have hB : ∀ s v, basisOf h h.refBasis (side m1 m2 s) v = refB h (side c1 c2 s) v := by
    intro s v
    unfold basisOf refB side
    split
    · rw [hc1]; rfl
    · rw [hc2]; rfl
  refine addIdx hr hi (by rw [hlen, e1]; omega) (by rw [hlen, e2]; omega) (sub_ne h hv0 m1 _) ?_ ?_
  · intro i hil
    rw [hlen] at hil
    obtain ⟨s, v, hs2, hv, rfl⟩ := split_idx hil
    have hrow := rowAt_port h m1 m2 hv s hs2
    refine ⟨side m1 m2 s, v, hs s, hv, hrow, ?_⟩
    have h2 : s = 0 ∨ s = 1 := by omega
    rcases h2 with rfl | rfl
    · rw [Nat.zero_mul, Nat.zero_add, List.getElem?_append_left (by rw [length_sub]; exact hv)]
      exact get_sub h m1 hv
    · rw [Nat.one_mul, List.getElem?_append_right (by rw [length_sub]; omega), length_sub]
      simpa [side] using get_sub h m2 hv
  · intro i j b a v a' w hil hjl hb ha hv ha' hw r1 r2
    rw [hlen] at hil hjl
    obtain ⟨s, v', hs2, hv', rfl⟩ := split_idx hil
    obtain ⟨t, w', ht2, hw', rfl⟩ := split_idx hjl
    rw [rowAt_port h m1 m2 hv' s hs2] at r1
    rw [rowAt_port h m1 m2 hw' t ht2] at r2
    obtain ⟨rfl, rfl⟩ := RomHandler.romBlock_inj h (hs s) ha hv' hv r1
    obtain ⟨rfl, rfl⟩ := RomHandler.romBlock_inj h (hs t) ha' hw' hw r2
    have hb' := e3 s t v' w' hs2 ht2 hv' hw'
    rw [hB, hB]
    cases hl : l s t v' w' with
    | none =>
      rw [hl] at hb'
      rw [show e.mats (s * vars h + v') (t * vars h + w') = none from hb'] at hb; cases hb
    | some a =>
      rw [hl] at hb'
      obtain ⟨b', hb1, hb2, hb3, -⟩ := hb'
      rw [hb] at hb1; cases hb1
      exact ⟨hb2, hb3⟩

/-- A value in range of a list sum. -/
theorem list_sum_apply4 {α : Type} (l : List α) (g : α → Nat → Nat → Nat → Nat → R) (a b r c : Nat) :
    (l.map g).sum a b r c = (l.map (fun x => g x a b r c)).sum := by
  induction l with
  | nil => rfl
  | cons x l ih => simp [ih]

/-- The row of a port in terms of subdomains and its reference port. -/
structure PortAt (h : Handler R) (refPorts : List Ports.PortData) (r : CompSetup.PortRow)
    (k m1 m2 : Nat) (q : Ports.PortData) : Prop where
  type : r.type = k
  mesh1 : r.mesh1 = m1
  mesh2 : r.mesh2 = m2
  ref : refPorts[k]? = some q
  comp1 : h.meshType[m1]? = some q.comp1
  comp2 : h.meshType[m2]? = some q.comp2

/-- Element of a list of elements, empty outside. -/
def elemAt (l : List (MatBlocks R)) (i : Nat) : MatBlocks R := l[i]?.getD ⟨0, 0, fun _ _ => none⟩

omit [CommRing R] in
theorem elemAt_of {l : List (MatBlocks R)} {i : Nat} {e : MatBlocks R} (h : l[i]? = some e) :
    elemAt l i = e := by unfold elemAt; rw [h]; rfl

/-- The elements of the boundaries of a component. -/
def bdrAt (el : RomElems R) (c : Nat) : List (MatBlocks R) := el.bdr[c]?.getD []

theorem addSubdomain_spec {h : Handler R} {zr zf : List Nat} (hr : RomHandler.Spec.Ready h zr zf)
    (hv0 : 0 < vars h) {comps : List CompSetup.Comp} {refPorts : List Ports.PortData} {P : Pieces R}
    {el : RomElems R} (he : ElemsAre h comps refPorts P el) {bc : Boundary.BC F}
    {c2g : List (List Int)} {m c : Nat} (hm : m < h.numSub) (hc : h.meshType[m]? = some c)
    {comp : CompSetup.Comp} (hcomp : comps[c]? = some comp) {row : List Int}
    (hrow : c2g[m]? = some row) {act : List Nat} (hact : Boundary.romBC bc row = .ok act)
    (hlt : ∀ b ∈ act, b < comp.bdrAttributes.length) {rom : BlockMat R} (hi : RomInv h rom) :
    ∃ rom', addSubdomain h bc c2g el m rom = .ok rom' ∧ RomInv h rom' ∧
      bval rom' = bval rom + (idxTerm (subIdxL h m) (elemAt el.comp c) +
        (act.map fun b => idxTerm (subIdxL h m) (elemAt (bdrAt el c) b)).sum) := by
  obtain ⟨e, he1, he2⟩ := he.comp c (List.getElem?_eq_some_iff.1 hcomp).1
  obtain ⟨bs, hb1, hb2⟩ := he.bdr c comp hcomp
  obtain ⟨rom1, r1, i1, v1⟩ := addSub hr hv0 hi hm hc he2
  obtain ⟨rom2, r2, i2, v2⟩ := loop_list_acc (l := act)
    (body := fun k rom => do
      let b ← rd act k
      let bs ← rd el.bdr c
      let x ← rd bs b
      addToBlockMatrix (subIdxL h m) (subIdxL h m) x rom)
    (RomInv h) bval (fun b => idxTerm (subIdxL h m) (elemAt (bdrAt el c) b)) i1 (by
      intro k b s hb hk hs
      obtain ⟨x, hx1, hx2⟩ := hb2 b (hlt b hb)
      obtain ⟨s', e', i', v'⟩ := addSub hr hv0 hs hm hc hx2
      refine ⟨s', ?_, i', ?_⟩
      · rw [hk, ok_bind, rd_eq_ok.2 hb1, ok_bind, rd_eq_ok.2 hx1, ok_bind, e']
      · rw [v']
        have : bdrAt el c = bs := by unfold bdrAt; rw [hb1]; rfl
        rw [this, elemAt_of hx1])
  refine ⟨rom2, ?_, i2, ?_⟩
  · unfold addSubdomain
    rw [rd_eq_ok.2 hc, ok_bind, subIdx_eq, ok_bind, List.nil_append, rd_eq_ok.2 he1, ok_bind, r1,
      ok_bind, rd_eq_ok.2 hrow, ok_bind, hact, ok_bind, r2]
  · rw [v2, v1, elemAt_of he1, add_assoc]

theorem addPort_spec {h : Handler R} {zr zf : List Nat} (hr : RomHandler.Spec.Ready h zr zf)
    (hv0 : 0 < vars h) {comps : List CompSetup.Comp} {refPorts : List Ports.PortData} {P : Pieces R}
    {el : RomElems R} (he : ElemsAre h comps refPorts P el) {ports : List CompSetup.PortRow}
    {p : Nat} {r : CompSetup.PortRow} (hp : rd ports p = .ok r) {k m1 m2 : Nat} {q : Ports.PortData}
    (ha : PortAt h refPorts r k m1 m2 q) {rom : BlockMat R} (hi : RomInv h rom) :
    ∃ rom', addPort h ports el p rom = .ok rom' ∧ RomInv h rom' ∧
      bval rom' = bval rom + idxTerm (subIdxL h r.mesh1.toNat ++ subIdxL h r.mesh2.toNat)
        (elemAt el.port r.type.toNat) := by
  obtain ⟨e, he1, he2⟩ := he.port k q ha.ref
  have l1 := (List.getElem?_eq_some_iff.1 ha.comp1).1
  have l2 := (List.getElem?_eq_some_iff.1 ha.comp2).1
  obtain ⟨rom1, r1, i1, v1⟩ := addPortIdx hr hv0 hi l1 l2 ha.comp1 ha.comp2 he2
  refine ⟨rom1, ?_, i1, ?_⟩
  · unfold addPort
    rw [hp, ok_bind, ha.type, CompSetup.rdI_ok.2 ⟨k, rfl, he1⟩, ok_bind, subIdx_eq, ok_bind, subIdx_eq,
      ok_bind, List.nil_append, ha.mesh1, ha.mesh2, Int.toNat_natCast, Int.toNat_natCast, r1]
  · rw [v1, ha.mesh1, ha.mesh2, ha.type, Int.toNat_natCast, Int.toNat_natCast, Int.toNat_natCast,
      elemAt_of he1]

/-- What the assembly needs of the topology: subdomain `m` is a copy of component `comp m`, its
boundaries `act m` carry a weakly imposed condition, and every port joins two subdomains whose
components are those of its reference port. -/
structure TopoOk (h : Handler R) (comps : List CompSetup.Comp) (refPorts : List Ports.PortData)
    (bc : Boundary.BC F) (c2g : List (List Int)) (ports : List CompSetup.PortRow)
    (act : Nat → List Nat) : Prop where
  sub : ∀ m, m < h.numSub → ∃ c comp row, h.meshType[m]? = some c ∧ comps[c]? = some comp ∧
    c2g[m]? = some row ∧ Boundary.romBC bc row = .ok (act m) ∧
    ∀ b ∈ act m, b < comp.bdrAttributes.length
  port : ∀ r ∈ ports, ∃ k m1 m2 q, PortAt h refPorts r k m1 m2 q

/-- Component of a subdomain. -/
def typeOf (h : Handler R) (m : Nat) : Nat := h.meshType[m]?.getD 0

theorem assembleROM_terms {h : Handler R} {zr zf : List Nat} (hr : RomHandler.Spec.Ready h zr zf)
    (hv0 : 0 < vars h) {comps : List CompSetup.Comp} {refPorts : List Ports.PortData} {P : Pieces R}
    {el : RomElems R} (he : ElemsAre h comps refPorts P el) {bc : Boundary.BC F}
    {c2g : List (List Int)} {ports : List CompSetup.PortRow} {act : Nat → List Nat}
    (ht : TopoOk h comps refPorts bc c2g ports act) :
    ∃ rom, assembleROM h bc c2g ports el = .ok rom ∧ RomInv h rom ∧
      bval rom = ∑ m ∈ range h.numSub, (idxTerm (subIdxL h m) (elemAt el.comp (typeOf h m)) +
        ((act m).map fun b => idxTerm (subIdxL h m) (elemAt (bdrAt el (typeOf h m)) b)).sum) +
      (ports.map fun r => idxTerm (subIdxL h r.mesh1.toNat ++ subIdxL h r.mesh2.toNat)
        (elemAt el.port r.type.toNat)).sum := by
  obtain ⟨rom1, r1, i1, v1⟩ := loop_acc (n := h.numSub) (body := addSubdomain h bc c2g el)
    (s := (⟨h.romOffs, h.romOffs, true, fun _ _ => none⟩ : BlockMat R)) (RomInv h) bval
    (fun m => idxTerm (subIdxL h m) (elemAt el.comp (typeOf h m)) +
        ((act m).map fun b => idxTerm (subIdxL h m) (elemAt (bdrAt el (typeOf h m)) b)).sum)
    ⟨rfl, rfl, rfl⟩ (by
      intro m s hm hs
      obtain ⟨c, comp, row, h1, h2, h3, h4, h5⟩ := ht.sub m hm
      have : typeOf h m = c := by unfold typeOf; rw [h1]; rfl
      rw [this]
      exact addSubdomain_spec hr hv0 he hm h1 h2 h3 h4 h5 hs)
  obtain ⟨rom2, r2, i2, v2⟩ := loop_list_acc (l := ports) (body := addPort h ports el)
    (RomInv h) bval (fun r => idxTerm (subIdxL h r.mesh1.toNat ++ subIdxL h r.mesh2.toNat)
        (elemAt el.port r.type.toNat)) i1 (by
      intro k r s hrr hk hs
      obtain ⟨k', m1, m2, q, ha⟩ := ht.port r hrr
      exact addPort_spec hr hv0 he hk ha hs)
  refine ⟨rom2, ?_, i2, ?_⟩
  · unfold assembleROM; rw [r1, ok_bind, r2]
  · rw [v2, v1]
    congr 1
    have : bval (⟨h.romOffs, h.romOffs, true, fun _ _ => none⟩ : BlockMat R) = 0 := by
      funext a d p q; rfl
    rw [this, zero_add]

/-- Entries of the assembled ROM operator in terms of the local systems. -/
theorem assembleROM_entries {h : Handler R} {zr zf : List Nat} (hr : RomHandler.Spec.Ready h zr zf)
    (hv0 : 0 < vars h) {comps : List CompSetup.Comp} {refPorts : List Ports.PortData} {P : Pieces R}
    {el : RomElems R} (he : ElemsAre h comps refPorts P el) {bc : Boundary.BC F}
    {c2g : List (List Int)} {ports : List CompSetup.PortRow} {act : Nat → List Nat}
    (ht : TopoOk h comps refPorts bc c2g ports act) :
    ∃ rom, assembleROM h bc c2g ports el = .ok rom ∧ RomInv h rom ∧
      ∀ m m' v w p q, m < h.numSub → m' < h.numSub → v < vars h → w < vars h →
        p < (basisOf h h.refBasis m v).w → q < (basisOf h h.refBasis m' w).w →
        bval rom (romBlock h m v) (romBlock h m' w) p q =
          galerkin (basisOf h h.refBasis m v) (basisOf h h.refBasis m' w) (fun k l =>
            (if m = m' then lent (P.comp (typeOf h m)) v w k l +
              ((act m).map fun b => lent (P.bdr (typeOf h m) b) v w k l).sum else 0) +
            (ports.map fun r => ∑ i ∈ range 2, ∑ j ∈ range 2,
              if side r.mesh1.toNat r.mesh2.toNat i = m ∧ side r.mesh1.toNat r.mesh2.toNat j = m' then
                lent (P.port r.type.toNat i j) v w k l else 0).sum) p q := by
  obtain ⟨rom, e, hi, hval⟩ := assembleROM_terms hr hv0 he ht
  refine ⟨rom, e, hi, ?_⟩
  intro m m' v w p q hm hm' hv hw hp hq
  have hB : ∀ m v, basisOf h h.refBasis m v = refB h (typeOf h m) v := fun _ _ => rfl
  rw [hB] at hp hq ⊢
  rw [hB m' w]
  rw [galerkin_add, galerkin_ite, galerkin_add, galerkin_list, galerkin_list, hval]
  rw [Pi.add_apply, Pi.add_apply, Pi.add_apply, Pi.add_apply, Finset.sum_apply, Finset.sum_apply,
    Finset.sum_apply, Finset.sum_apply, list_sum_apply4]
  congr 1
  · by_cases hmm : m = m'
    · subst hmm
      rw [if_pos rfl, sum_eq_single m]
      · rw [Pi.add_apply, Pi.add_apply, Pi.add_apply, Pi.add_apply, list_sum_apply4,
          idxTerm_sub h _ hm hm hm hv hw, if_pos ⟨rfl, rfl⟩]
        obtain ⟨c, comp, row, h1, h2, h3, h4, h5⟩ := ht.sub m hm
        have hty : typeOf h m = c := by unfold typeOf; rw [h1]; rfl
        rw [hty] at hp hq ⊢
        obtain ⟨e, he1, he2⟩ := he.comp c (List.getElem?_eq_some_iff.1 h2).1
        obtain ⟨bs, hb1, hb2⟩ := he.bdr c comp h2
        congr 1
        · rw [elemAt_of he1]
          exact mval_of_blkIs (he2.2.2 v w hv hw) hp hq
        · congr 1
          refine List.map_congr_left fun b hb => ?_
          obtain ⟨x, hx1, hx2⟩ := hb2 b (h5 b hb)
          have : bdrAt el c = bs := by unfold bdrAt; rw [hb1]; rfl
          rw [idxTerm_sub h _ hm hm hm hv hw, if_pos ⟨rfl, rfl⟩, this, elemAt_of hx1]
          exact mval_of_blkIs (hx2.2.2 v w hv hw) hp hq
      · intro n hn hne
        rw [Pi.add_apply, Pi.add_apply, Pi.add_apply, Pi.add_apply, list_sum_apply4,
          idxTerm_sub h _ (mem_range.1 hn) hm hm hv hw, if_neg (fun hh => hne hh.1.symm), zero_add]
        apply List.sum_eq_zero
        intro x hx
        obtain ⟨b, -, rfl⟩ := List.mem_map.1 hx
        rw [idxTerm_sub h _ (mem_range.1 hn) hm hm hv hw, if_neg (fun hh => hne hh.1.symm)]
      · intro hn; exact absurd (mem_range.2 hm) hn
    · rw [if_neg hmm, sum_eq_zero]
      intro n hn
      have hne : ¬ (m = n ∧ m' = n) := fun hh => hmm (hh.1.trans hh.2.symm)
      rw [Pi.add_apply, Pi.add_apply, Pi.add_apply, Pi.add_apply, list_sum_apply4,
        idxTerm_sub h _ (mem_range.1 hn) hm hm' hv hw, if_neg hne, zero_add]
      apply List.sum_eq_zero
      intro x hx
      obtain ⟨b, -, rfl⟩ := List.mem_map.1 hx
      rw [idxTerm_sub h _ (mem_range.1 hn) hm hm' hv hw, if_neg hne]
  · congr 1
    refine List.map_congr_left fun r hrr => ?_
    obtain ⟨k, m1, m2, q', ha⟩ := ht.port r hrr
    have l1 := (List.getElem?_eq_some_iff.1 ha.comp1).1
    have l2 := (List.getElem?_eq_some_iff.1 ha.comp2).1
    obtain ⟨e, he1, he2⟩ := he.port k q' ha.ref
    rw [ha.mesh1, ha.mesh2, ha.type, Int.toNat_natCast, Int.toNat_natCast, Int.toNat_natCast,
      elemAt_of he1, idxTerm_port h _ l1 l2 hm hm' hv hw, galerkin_sum]
    refine sum_congr rfl fun i hi2 => ?_
    rw [galerkin_sum]
    refine sum_congr rfl fun j hj2 => ?_
    rw [galerkin_ite]
    by_cases hc : side m1 m2 i = m ∧ side m1 m2 j = m'
    · rw [if_pos hc, if_pos hc]
      have hT : ∀ s, typeOf h (side m1 m2 s) = side q'.comp1 q'.comp2 s := by
        intro s
        unfold typeOf side
        split
        · rw [ha.comp1]; rfl
        · rw [ha.comp2]; rfl
      have := he2.2.2 i j v w (mem_range.1 hi2) (mem_range.1 hj2) hv hw
      rw [← hT, ← hT, hc.1, hc.2] at this
      exact mval_of_blkIs this hp hq
    · rw [if_neg hc, if_neg hc]

/-! ## Projecting the full-order operator -/

theorem putOps_spec (h : Handler R) {i j : Nat} (hi : i < h.numSub) (hj : j < h.numSub) (l : Local R)
    (tmp : Nat → Nat → Option (Op R)) :
    ∃ t, putOps h i j l tmp = .ok t ∧ ∀ m v m' w, m < h.numSub → v < vars h → m' < h.numSub →
      w < vars h → t (romBlock h m v) (romBlock h m' w) =
        if m = i ∧ m' = j then l v w else tmp (romBlock h m v) (romBlock h m' w) := by
  unfold putOps
  rw [nvars_eq]
  obtain ⟨t, e, ht⟩ := loop_total (n := vars h) (s := tmp)
    (body := fun v tmp => loop (vars h) (fun w tmp => do
      let r ← getBlockIndex h.separate h.ord h.numSub h.numVar i v
      let c ← getBlockIndex h.separate h.ord h.numSub h.numVar j w
      return fun (a b : Nat) => if (a : Int) = r ∧ (b : Int) = c then l v w else tmp a b) tmp)
    (fun k t => ∀ m v m' w, m < h.numSub → v < vars h → m' < h.numSub →
      w < vars h → t (romBlock h m v) (romBlock h m' w) =
        if m = i ∧ m' = j ∧ v < k then l v w else tmp (romBlock h m v) (romBlock h m' w))
    (by intros; simp) (by
      intro v0 t hv0 ht
      obtain ⟨t', e, ht'⟩ := loop_total (n := vars h) (s := t)
        (body := fun w tmp => do
          let r ← getBlockIndex h.separate h.ord h.numSub h.numVar i v0
          let c ← getBlockIndex h.separate h.ord h.numSub h.numVar j w
          return fun (a b : Nat) => if (a : Int) = r ∧ (b : Int) = c then l v0 w else tmp a b)
        (fun k u => ∀ m v m' w, m < h.numSub → v < vars h → m' < h.numSub →
          w < vars h → u (romBlock h m v) (romBlock h m' w) =
            if m = i ∧ m' = j ∧ v = v0 ∧ w < k then l v w else
              t (romBlock h m v) (romBlock h m' w))
        (by intros; simp) (by
          intro w0 u hw0 hu
          refine ⟨_, by rw [blockIndex_eq h hv0, ok_bind, blockIndex_eq h hw0, ok_bind]; rfl, ?_⟩
          intro m v m' w hm hv hm' hw
          by_cases hc : m = i ∧ v = v0 ∧ m' = j ∧ w = w0
          · obtain ⟨rfl, rfl, rfl, rfl⟩ := hc
            simp
          · rw [if_neg, hu m v m' w hm hv hm' hw]
            · by_cases hx : m = i ∧ m' = j ∧ v = v0 ∧ w < w0
              · rw [if_pos hx, if_pos ⟨hx.1, hx.2.1, hx.2.2.1, by omega⟩]
              · rw [if_neg hx, if_neg]
                rintro ⟨a, b, c, d⟩
                exact hx ⟨a, b, c, by
                  rcases Nat.lt_or_ge w w0 with g | g
                  · exact g
                  · exact absurd ⟨a, c, b, by omega⟩ hc⟩
            · rintro ⟨a, b⟩
              obtain ⟨a1, a2⟩ := RomHandler.romBlock_inj h hm hi hv hv0 (by exact_mod_cast a)
              obtain ⟨b1, b2⟩ := RomHandler.romBlock_inj h hm' hj hw hw0 (by exact_mod_cast b)
              exact hc ⟨a1, a2, b1, b2⟩)
      refine ⟨t', e, ?_⟩
      intro m v m' w hm hv hm' hw
      rw [ht' m v m' w hm hv hm' hw, ht m v m' w hm hv hm' hw]
      by_cases hx : m = i ∧ m' = j ∧ v = v0
      · rw [if_pos ⟨hx.1, hx.2.1, hx.2.2, hw⟩, if_pos ⟨hx.1, hx.2.1, by omega⟩]
      · rw [if_neg (fun hh => hx ⟨hh.1, hh.2.1, hh.2.2.1⟩)]
        by_cases hy : m = i ∧ m' = j ∧ v < v0
        · rw [if_pos hy, if_pos ⟨hy.1, hy.2.1, by omega⟩]
        · rw [if_neg hy, if_neg]
          rintro ⟨a, b, c⟩
          rcases Nat.lt_or_ge v v0 with g | g
          · exact hy ⟨a, b, g⟩
          · exact hx ⟨a, b, by omega⟩)
  refine ⟨t, e, ?_⟩
  intro m v m' w hm hv hm' hw
  rw [ht m v m' w hm hv hm' hw]
  simp [hv]

theorem opArray_spec (h : Handler R) {l : Nat → Nat → Outcome (Local R)} {G : Nat → Nat → Local R}
    (hl : ∀ i j, i < h.numSub → j < h.numSub → l i j = .ok (G i j)) :
    ∃ t, opArray h l = .ok t ∧ ∀ m v m' w, m < h.numSub → v < vars h → m' < h.numSub →
      w < vars h → t (romBlock h m v) (romBlock h m' w) = G m m' v w := by
  unfold opArray
  obtain ⟨t, e, ht⟩ := loop_total (n := h.numSub) (s := (fun _ _ => none : Nat → Nat → Option (Op R)))
    (body := fun i tmp => loop h.numSub (fun j tmp => do
      let x ← l i j
      putOps h i j x tmp) tmp)
    (fun k t => ∀ m v m' w, m < k → m < h.numSub → v < vars h → m' < h.numSub →
      w < vars h → t (romBlock h m v) (romBlock h m' w) = G m m' v w)
    (fun m v m' w hk => absurd hk (by omega)) (by
      intro i t hi ht
      obtain ⟨t', e, h1, h2⟩ := loop_total (n := h.numSub) (s := t)
        (body := fun j tmp => do
          let x ← l i j
          putOps h i j x tmp)
        (fun k u => (∀ v m' w, m' < k → v < vars h → m' < h.numSub → w < vars h →
          u (romBlock h i v) (romBlock h m' w) = G i m' v w) ∧
          ∀ m v m' w, m ≠ i → m < h.numSub → v < vars h → m' < h.numSub → w < vars h →
            u (romBlock h m v) (romBlock h m' w) = t (romBlock h m v) (romBlock h m' w))
        ⟨fun v m' w hk => absurd hk (by omega), fun _ _ _ _ _ _ _ _ _ => rfl⟩ (by
          rintro j u hj ⟨g1, g2⟩
          obtain ⟨u', e, hu⟩ := putOps_spec h hi hj (G i j) u
          refine ⟨u', by rw [hl i j hi hj, ok_bind, e], ?_, ?_⟩
          · intro v m' w hk hv hm' hw
            rw [hu i v m' w hi hv hm' hw]
            by_cases hmj : m' = j
            · subst hmj; rw [if_pos ⟨rfl, rfl⟩]
            · rw [if_neg (fun hh => hmj hh.2)]
              exact g1 v m' w (by omega) hv hm' hw
          · intro m v m' w hne hm hv hm' hw
            rw [hu m v m' w hm hv hm' hw, if_neg (fun hh => hne hh.1)]
            exact g2 m v m' w hne hm hv hm' hw)
      refine ⟨t', e, ?_⟩
      intro m v m' w hk hm hv hm' hw
      by_cases hmi : m = i
      · subst hmi; exact h1 v m' w hm' hv hm' hw
      · rw [h2 m v m' w hmi hm hv hm' hw]
        exact ht m v m' w (by omega) hm hv hm' hw)
  exact ⟨t, e, fun m v m' w hm hv hm' hw => ht m v m' w hm hm hv hm' hw⟩

theorem projectDomain_spec {h : Handler R} {zr zf : List Nat} (hr : RomHandler.Spec.Ready h zr zf)
    {nc : Nat} (hb : BasesOk h nc) {m v m' w : Nat} (hm : m < h.numSub) (hv : v < vars h)
    (hm' : m' < h.numSub) (hw : w < vars h) {l : Local R}
    (hl : LocalOk h (typeOf h m) (typeOf h m') l) :
    ∃ s, h.projectDomainMat (romBlock h m v : Nat) (romBlock h m' w : Nat) (l v w) = .ok s ∧
      s.h = (basisOf h h.refBasis m v).w ∧ s.w = (basisOf h h.refBasis m' w).w ∧
      ∀ p q, p < (basisOf h h.refBasis m v).w → q < (basisOf h h.refBasis m' w).w →
        s.get p q = galerkin (basisOf h h.refBasis m v) (basisOf h h.refBasis m' w)
          (lent l v w) p q := by
  have hT : ∀ m, m < h.numSub → typeOf h m < nc := by
    intro m hm
    unfold typeOf
    have : h.meshType[m]? = some h.meshType[m] := List.getElem?_eq_getElem hm
    rw [this]
    exact hb.types _ (List.getElem_mem _)
  have hB : ∀ m v, basisOf h h.refBasis m v = refB h (typeOf h m) v := fun _ _ => rfl
  obtain ⟨-, -, m1⟩ := refB_get hb (hT m hm) hv
  obtain ⟨-, -, m2⟩ := refB_get hb (hT m' hm') hw
  have l1 := RomHandler.romBlock_lt h hm hv
  have l2 := RomHandler.romBlock_lt h hm' hw
  have hgoal : ∃ s, RomHandler.projectMatOr (basisOf h h.refBasis m v) (basisOf h h.refBasis m' w)
      (l v w) = .ok s ∧ s.h = (basisOf h h.refBasis m v).w ∧ s.w = (basisOf h h.refBasis m' w).w ∧
      ∀ p q, p < (basisOf h h.refBasis m v).w → q < (basisOf h h.refBasis m' w).w →
        s.get p q = galerkin (basisOf h h.refBasis m v) (basisOf h h.refBasis m' w)
          (lent l v w) p q := by
    cases hlo : l v w with
    | none =>
      refine ⟨_, rfl, rfl, rfl, fun p q _ _ => ?_⟩
      have : lent l v w = fun _ _ => 0 := by funext k l'; unfold lent; rw [hlo]
      rw [this, galerkin_zero]
      rfl
    | some a =>
      obtain ⟨a1, a2, a3⟩ := hl v w a hv hw hlo
      have : lent l v w = opEnt a := by funext k l'; unfold lent; rw [hlo]
      rw [this, hB, hB]
      exact projectMat_spec m1 m2 a1 a2 a3
  obtain ⟨s, e, hs⟩ := hgoal
  refine ⟨s, ?_, hs⟩
  unfold Handler.projectDomainMat
  rw [show (decide ((0 : Int) ≤ (romBlock h m v : Int)) && decide ((romBlock h m v : Int) <
    h.numBlocks)) = true by simp; exact l1]
  rw [show (decide ((0 : Int) ≤ (romBlock h m' w : Int)) && decide ((romBlock h m' w : Int) <
    h.numBlocks)) = true by simp; exact l2]
  rw [require_true, ok_bind, ok_bind, hb.loaded, require_true, ok_bind, Int.toNat_natCast,
    Int.toNat_natCast, RomHandler.domainBasis_eq hr hm hv, ok_bind,
    RomHandler.domainBasis_eq hr hm' hw, ok_bind, e]

theorem projectArray_spec (h : Handler R) (tmp : Nat → Nat → Option (Op R)) (S : Nat → Nat → Sp R)
    (hS : ∀ a b, a < h.numBlocks → b < h.numBlocks →
      h.projectDomainMat (a : Nat) (b : Nat) (tmp a b) = .ok (S a b)) :
    ∃ rom, projectArray h tmp = .ok rom ∧ RomInv h rom ∧
      ∀ a b, a < h.numBlocks → b < h.numBlocks →
        rom.blk a b = some ⟨(S a b).h, (S a b).w, (S a b).get⟩ := by
  unfold projectArray
  obtain ⟨t, e, h1, h2⟩ := loop_total (n := h.numBlocks)
    (s := (⟨h.romOffs, h.romOffs, true, fun _ _ => none⟩ : BlockMat R))
    (body := fun a rom => loop h.numBlocks (fun b rom => do
      let s ← h.projectDomainMat a b (tmp a b)
      return { rom with blk := fun a' b' => if a' = a ∧ b' = b then some ⟨s.h, s.w, s.get⟩ else rom.blk a' b' })
      rom)
    (fun k t => RomInv h t ∧ ∀ a b, a < k → b < h.numBlocks →
      t.blk a b = some ⟨(S a b).h, (S a b).w, (S a b).get⟩)
    ⟨⟨rfl, rfl, rfl⟩, fun a b hk => absurd hk (by omega)⟩ (by
      rintro a t ha ⟨g1, g2⟩
      obtain ⟨t', e, f1, f2, f3⟩ := loop_total (n := h.numBlocks) (s := t)
        (body := fun b rom => do
          let s ← h.projectDomainMat a b (tmp a b)
          return { rom with blk := fun a' b' => if a' = a ∧ b' = b then some ⟨s.h, s.w, s.get⟩ else rom.blk a' b' })
        (fun k u => RomInv h u ∧ (∀ b, b < k → u.blk a b = some ⟨(S a b).h, (S a b).w, (S a b).get⟩) ∧
          ∀ a' b, a' ≠ a → u.blk a' b = t.blk a' b)
        ⟨g1, fun b hk => absurd hk (by omega), fun _ _ _ => rfl⟩ (by
          rintro b u hb ⟨f1, f2, f3⟩
          refine ⟨⟨u.roffs, u.coffs, u.ownsBlocks, fun a' b' => if a' = a ∧ b' = b then
            some ⟨(S a b).h, (S a b).w, (S a b).get⟩ else u.blk a' b'⟩,
            by rw [hS a b ha hb, ok_bind]; rfl, f1, ?_, ?_⟩
          · intro b' hb'
            dsimp only
            by_cases hbb : b' = b
            · subst hbb; rw [if_pos ⟨rfl, rfl⟩]
            · rw [if_neg (fun hh => hbb hh.2)]; exact f2 b' (by omega)
          · intro a' b' hne
            dsimp only
            rw [if_neg (fun hh => hne hh.1)]; exact f3 a' b' hne)
      refine ⟨t', e, f1, ?_⟩
      intro a' b ha' hb
      by_cases haa : a' = a
      · subst haa; exact f2 b hb
      · rw [f3 a' b haa]; exact g2 a' b (by omega) hb)
  exact ⟨t, e, h1, h2⟩

/-- Entries of the projected full-order operator. -/
theorem projectFom_entries {h : Handler R} {zr zf : List Nat} (hr : RomHandler.Spec.Ready h zr zf)
    {nc : Nat} (hb : BasesOk h nc) {l : Nat → Nat → Outcome (Local R)} {G : Nat → Nat → Local R}
    (hl : ∀ i j, i < h.numSub → j < h.numSub → l i j = .ok (G i j))
    (hG : ∀ i j, i < h.numSub → j < h.numSub → LocalOk h (typeOf h i) (typeOf h j) (G i j)) :
    ∃ rom, projectFom h l = .ok rom ∧ RomInv h rom ∧
      ∀ m m' v w p q, m < h.numSub → m' < h.numSub → v < vars h → w < vars h →
        p < (basisOf h h.refBasis m v).w → q < (basisOf h h.refBasis m' w).w →
        bval rom (romBlock h m v) (romBlock h m' w) p q =
          galerkin (basisOf h h.refBasis m v) (basisOf h h.refBasis m' w)
            (lent (G m m') v w) p q := by
  obtain ⟨tmp, e1, ht⟩ := opArray_spec h hl
  have hex : ∀ a b, ∃ s, (a < h.numBlocks → b < h.numBlocks →
      h.projectDomainMat (a : Nat) (b : Nat) (tmp a b) = .ok s) := by
    intro a b
    by_cases hab : a < h.numBlocks ∧ b < h.numBlocks
    · obtain ⟨m, v, hm, hv, rfl⟩ := RomHandler.romBlock_surj h hab.1
      obtain ⟨m', w, hm', hw, rfl⟩ := RomHandler.romBlock_surj h hab.2
      obtain ⟨s, es, -⟩ := projectDomain_spec hr hb hm hv hm' hw (hG m m' hm hm')
      exact ⟨s, fun _ _ => by rw [ht m v m' w hm hv hm' hw]; exact es⟩
    · exact ⟨⟨0, 0, []⟩, fun ha hb => absurd ⟨ha, hb⟩ hab⟩
  choose S hS using hex
  obtain ⟨rom, e2, hi, hblk⟩ := projectArray_spec h tmp S hS
  refine ⟨rom, by unfold projectFom; rw [e1, ok_bind, e2], hi, ?_⟩
  intro m m' v w p q hm hm' hv hw hp hq
  have l1 := RomHandler.romBlock_lt h hm hv
  have l2 := RomHandler.romBlock_lt h hm' hw
  obtain ⟨s, es, -, -, hs⟩ := projectDomain_spec hr hb hm hv hm' hw (hG m m' hm hm')
  have := hS _ _ l1 l2
  rw [ht m v m' w hm hv hm' hw, es] at this
  have hse := Except.ok.inj this
  unfold bval
  rw [hblk _ _ l1 l2, ← hse]
  exact hs p q hp hq

end Verif.RomAssembly
