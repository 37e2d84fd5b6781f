import Verif.Spec.BlockProj
import Verif.Props.RomHandler
import Verif.Proofs.RomAssembly
import Mathlib.Tactic.IntervalCases

/-!
# Projections of arrays of blocks: the properties

C106 (projections of arrays of blocks use the bases of the subdomains and variables of the blocks).
-/

namespace Verif.BlockProj

open Verif Verif.LinAlg Verif.LinAlg.Spec Verif.RomHandler Verif.RomHandler.Spec Verif.RomAssembly.Spec
open Verif.BlockProj.Spec
open Verif.Hdf5 (Arr2)
open Verif.Blocks (Order)

variable {R : Type} [CommRing R]

theorem arr_get {α : Type} {a : Arr2 α} {n : Nat} (hc : a.cols = n) (hd : a.data.length = n * n)
    {i j : Nat} (hi : i < n) (hj : j < n) : ∃ x, a.get i j = .ok x := by
  have hlt : i * a.cols + j < a.data.length := by
    rw [hc, hd]
    calc i * n + j < i * n + n := by omega
      _ = (i + 1) * n := by ring
      _ ≤ n * n := Nat.mul_le_mul_right n (by omega)
  exact ⟨_, rd_of_lt hlt⟩

/-- The loops over the array: if every block has a projection, so has the array. -/
theorem projectMats_eq {h : Handler R} {n : Nat}
    {proj : Int → Int → Option (Op R) → Outcome (Sp R)} {k : Nat} {I J : Nat → Int}
    {idxI idxJ : List Int} (hI : idxI = (List.range k).map I) (hJ : idxJ = (List.range k).map J)
    {V W : Nat → Mat R} {mats : Arr2 (Option (Op R))} (hl : h.loaded = true) (hk : 0 < k)
    (hIr : ∀ i < k, 0 ≤ I i ∧ I i < n) (hJr : ∀ i < k, 0 ≤ J i ∧ J i < n)
    (hf : Fits k V W mats)
    (hp : ∀ i j a, i < k → j < k → mats.get i j = .ok a → ∃ s, proj (I i) (J j) a = .ok s ∧
      IsProjection (V i) (W j) a s) :
    ∃ r, projectMats h n proj idxI idxJ mats = .ok r ∧ Projected k V W mats r := by
  have rng : ∀ f : Nat → Int, (∀ i < k, 0 ≤ f i ∧ f i < n) →
      inRange ((List.range k).map f) n = .ok () := by
    intro f hf
    unfold inRange
    rw [rd_of_lt (by simpa using hk), ok_bind]
    have : (((List.range k).map f).all fun i => decide (0 ≤ i) && decide (i < n)) = true := by
      rw [List.all_eq_true]
      intro x hx
      obtain ⟨i, hi, rfl⟩ := List.mem_map.1 hx
      have := hf i (List.mem_range.1 hi)
      simp [this.1, this.2]
    rw [this]
    rfl
  have rdx : ∀ (f : Nat → Int) (i : Nat), i < k → rd ((List.range k).map f) i = .ok (f i) := by
    intro f i hi
    exact rd_eq_ok.2 (by rw [List.getElem?_map, List.getElem?_range hi]; rfl)
  obtain ⟨d, e, hlen, hd⟩ := loop_total (n := k) (s := ([] : List (Sp R)))
    (body := fun i d => loop k (fun j d => do
      let x ← rd ((List.range k).map I) i
      let y ← rd ((List.range k).map J) j
      let a ← mats.get i j
      let s ← proj x y a
      .ok (d ++ [s])) d)
    (fun i d => d.length = i * k ∧ ∀ a b, a < i → b < k → ∃ x s, mats.get a b = .ok x ∧
      d[a * k + b]? = some s ∧ IsProjection (V a) (W b) x s)
    ⟨by simp, fun a b ha => absurd ha (by omega)⟩ (by
      rintro i d hi ⟨h1, h2⟩
      obtain ⟨d', e', h1', h2'⟩ := loop_total (n := k) (s := d)
        (body := fun j d => do
          let x ← rd ((List.range k).map I) i
          let y ← rd ((List.range k).map J) j
          let a ← mats.get i j
          let s ← proj x y a
          .ok (d ++ [s]))
        (fun j d => d.length = i * k + j ∧ ∀ a b, (a < i ∧ b < k ∨ a = i ∧ b < j) →
          ∃ x s, mats.get a b = .ok x ∧ d[a * k + b]? = some s ∧ IsProjection (V a) (W b) x s)
        ⟨by omega, by
          rintro a b (⟨ha, hb⟩ | ⟨-, hb⟩)
          · exact h2 a b ha hb
          · omega⟩ (by
          rintro j d hj ⟨h3, h4⟩
          obtain ⟨x, hx⟩ := arr_get hf.cols hf.data hi hj
          obtain ⟨s, hs, hs'⟩ := hp i j x hi hj hx
          refine ⟨d ++ [s], ?_, by simp [h3]; omega, ?_⟩
          · rw [rdx I i hi, ok_bind, rdx J j hj, ok_bind, hx, ok_bind, hs, ok_bind]
          · intro a b hab
            by_cases hlast : a = i ∧ b = j
            · obtain ⟨rfl, rfl⟩ := hlast
              exact ⟨x, s, hx, by rw [← h3]; simp, hs'⟩
            · have hab' : a < i ∧ b < k ∨ a = i ∧ b < j := by omega
              obtain ⟨x', s', g1, g2, g3⟩ := h4 a b hab'
              refine ⟨x', s', g1, ?_, g3⟩
              rw [List.getElem?_append_left]
              · exact g2
              · exact (List.getElem?_eq_some_iff.1 g2).1)
      refine ⟨d', e', by rw [h1']; ring, ?_⟩
      intro a b ha hb
      exact h2' a b (by omega))
  refine ⟨⟨k, k, d⟩, ?_, rfl, rfl, ?_⟩
  · unfold projectMats
    rw [hl, require_true, ok_bind, hI, hJ, rng I hIr, ok_bind, rng J hJr, ok_bind, hf.rows, hf.cols,
      List.length_map, List.length_map, List.length_range, beq_self_eq_true, require_true, ok_bind,
      ok_bind, e, ok_bind]
  · intro i j hi hj
    obtain ⟨x, s, g1, g2, g3⟩ := hd i j hi hj
    exact ⟨x, s, g1, rd_eq_ok.2 g2, g3⟩

/-- One block on the bases of two components. -/
theorem refMat_eq {h : Handler R} {nc : Nat} (hb : BasesOk h nc) {c c' v w : Nat} (hc : c < nc)
    (hc' : c' < nc) (hv : v < vars h) (hw : w < vars h) {a : Op R} (ha : IsLinear a)
    (h1 : a.h = (refB h c v).h) (h2 : a.w = (refB h c' w).h) :
    ∃ s, h.projectRefMat ((c * vars h + v : Nat) : Int) ((c' * vars h + w : Nat) : Int) (some a) = .ok s ∧
      IsProjection (refB h c v) (refB h c' w) (some a) s := by
  obtain ⟨l1, g1, m1⟩ := RomAssembly.refB_get hb hc hv
  obtain ⟨l2, g2, m2⟩ := RomAssembly.refB_get hb hc' hw
  obtain ⟨s, e, s1, s2, s3⟩ := RomAssembly.projectMat_spec m1 m2 ha h1 h2
  refine ⟨s, ?_, s1, s2, s3⟩
  unfold Handler.projectRefMat
  rw [show (decide ((0 : Int) ≤ ((c * vars h + v : Nat) : Int)) &&
      decide (((c * vars h + v : Nat) : Int) < h.refBasis.length)) = true by
    simp only [Bool.and_eq_true, decide_eq_true_eq]; omega]
  rw [show (decide ((0 : Int) ≤ ((c' * vars h + w : Nat) : Int)) &&
      decide (((c' * vars h + w : Nat) : Int) < h.refBasis.length)) = true by
    simp only [Bool.and_eq_true, decide_eq_true_eq]; omega]
  rw [require_true, ok_bind, ok_bind, hb.loaded, require_true, ok_bind, Int.toNat_natCast,
    Int.toNat_natCast, rd_eq_ok.2 g1, ok_bind, rd_eq_ok.2 g2, ok_bind]
  exact e

/-- One block on the bases of two subdomains. -/
theorem domainMat_eq {h : Handler R} {zr zf : List Nat} (hr : Ready h zr zf) {nc : Nat}
    (hb : BasesOk h nc) {m m' v w : Nat} (hm : m < h.numSub) (hm' : m' < h.numSub) (hv : v < vars h)
    (hw : w < vars h) {a : Option (Op R)} (ha : ∀ x, a = some x → IsLinear x ∧
      x.h = (basisOf h h.refBasis m v).h ∧ x.w = (basisOf h h.refBasis m' w).h) :
    ∃ s, h.projectDomainMat (romBlock h m v : Nat) (romBlock h m' w : Nat) a = .ok s ∧
      IsProjection (basisOf h h.refBasis m v) (basisOf h h.refBasis m' w) a s := by
  let l : RomAssembly.Local R := fun v' w' => if v' = v ∧ w' = w then a else none
  have hlvw : l v w = a := if_pos ⟨rfl, rfl⟩
  have hl : LocalOk h (RomAssembly.typeOf h m) (RomAssembly.typeOf h m') l := by
    intro v' w' x _ _ hx
    by_cases hc : v' = v ∧ w' = w
    · obtain ⟨rfl, rfl⟩ := hc
      rw [hlvw] at hx
      exact ha x hx
    · have : l v' w' = none := if_neg hc
      rw [this] at hx
      cases hx
  obtain ⟨s, e, s1, s2, s3⟩ := RomAssembly.projectDomain_spec hr hb hm hv hm' hw hl
  rw [hlvw] at e
  refine ⟨s, e, s1, s2, fun p q hp hq => ?_⟩
  rw [s3 p q hp hq]
  cases a with
  | none =>
    have : lent l v w = fun _ _ => 0 := by funext k l'; unfold lent; rw [hlvw]
    rw [this, RomAssembly.galerkin_zero]
  | some a =>
    have : lent l v w = opEnt a := by funext k l'; unfold lent; rw [hlvw]
    rw [this]
    rfl

theorem vars_pos_range {h : Handler R} (c : Nat) :
    componentIdx h (c : Int) = (List.range (vars h)).map fun v => ((c * vars h + v : Nat) : Int) := by
  unfold componentIdx vars
  by_cases hs : h.separate = true
  · rw [if_pos hs, if_pos hs]
    simp
  · rw [if_neg hs, if_neg hs]
    simp

theorem sideIdx {h : Handler R} (c1 c2 : Nat) :
    interfaceIdx h (c1 : Int) (c2 : Int) = (List.range (2 * vars h)).map fun i =>
      (((if i < vars h then c1 * vars h + i else c2 * vars h + (i - vars h)) : Nat) : Int) := by
  have key : interfaceIdx h (c1 : Int) (c2 : Int) =
      ((List.range (vars h)).map fun v => ((c1 * vars h + v : Nat) : Int)) ++
        (List.range (vars h)).map fun v => ((c2 * vars h + v : Nat) : Int) := by
    unfold interfaceIdx vars
    by_cases hs : h.separate = true
    · rw [if_pos hs, if_pos hs]
      simp
    · rw [if_neg hs, if_neg hs]
      simp
  rw [key]
  refine List.ext_getElem (by simp; omega) fun i h1 h2 => ?_
  have hi : i < 2 * vars h := by simpa using h2
  by_cases hlt : i < vars h
  · rw [List.getElem_append_left (by simpa using hlt)]
    simp [hlt]
  · rw [List.getElem_append_right (by simpa using hlt)]
    simp [hlt]

theorem vars_eq (h : Handler R) : (if h.separate then h.numVar else 1) = vars h := rfl

theorem vars_two (h : Handler R) : (if h.separate then 2 * h.numVar else 2) = 2 * vars h := by
  unfold vars
  split <;> rfl

theorem square_ok {mats : Arr2 (Option (Op R))} {n : Nat} (h1 : mats.rows = n) (h2 : mats.cols = n) :
    isSquare mats n = .ok () := by
  unfold isSquare
  rw [h1, h2, beq_self_eq_true]
  rfl

theorem ref_lt {h : Handler R} {nc : Nat} (hb : BasesOk h nc) {c v : Nat} (hc : c < nc)
    (hv : v < vars h) : (0 : Int) ≤ ((c * vars h + v : Nat) : Int) ∧
      ((c * vars h + v : Nat) : Int) < (h.refBasis.length : Nat) := by
  have := (RomAssembly.refB_get hb hc hv).1
  constructor <;> omega

/-- **C106** (components): every block of a component is projected on the bases of its two variables. -/
theorem component_reference {h : Handler R} {nc : Nat} (hb : BasesOk h nc) (hv : 0 < vars h) {c : Nat}
    (hc : c < nc) {mats : Arr2 (Option (Op R))} (hf : Fits (vars h) (refB h c) (refB h c) mats)
    (hn : ∀ i j, i < vars h → j < vars h → mats.get i j ≠ .ok none) :
    ∃ r, componentRef h c mats = .ok r ∧ Projected (vars h) (refB h c) (refB h c) mats r := by
  unfold componentRef projectRefMats
  rw [vars_eq, square_ok hf.rows hf.cols, ok_bind]
  refine projectMats_eq (vars_pos_range c) (vars_pos_range c) hb.loaded hv
    (fun i hi => ref_lt hb hc hi) (fun i hi => ref_lt hb hc hi) hf ?_
  intro i j a hi hj ha
  cases a with
  | none => exact absurd ha (hn i j hi hj)
  | some a =>
    obtain ⟨l, h1, h2⟩ := hf.ops i j a hi hj ha
    exact refMat_eq hb hc hc hi hj l h1 h2

/-- **C106** (reference ports): the blocks of an interface are projected on the bases of the variables of
the component on their side. -/
theorem interface_reference {h : Handler R} {nc : Nat} (hb : BasesOk h nc) (hv : 0 < vars h) {c1 c2 : Nat}
    (hc1 : c1 < nc) (hc2 : c2 < nc) {mats : Arr2 (Option (Op R))}
    (hf : Fits (2 * vars h) (sides (vars h) (refB h c1) (refB h c2))
      (sides (vars h) (refB h c1) (refB h c2)) mats)
    (hn : ∀ i j, i < 2 * vars h → j < 2 * vars h → mats.get i j ≠ .ok none) :
    ∃ r, interfaceRef h c1 c2 mats = .ok r ∧ Projected (2 * vars h)
      (sides (vars h) (refB h c1) (refB h c2)) (sides (vars h) (refB h c1) (refB h c2)) mats r := by
  unfold interfaceRef projectRefMats
  rw [vars_two, square_ok hf.rows hf.cols, ok_bind]
  have hlt : ∀ i < 2 * vars h, (0 : Int) ≤ (((if i < vars h then c1 * vars h + i
      else c2 * vars h + (i - vars h)) : Nat) : Int) ∧ (((if i < vars h then c1 * vars h + i
      else c2 * vars h + (i - vars h)) : Nat) : Int) < (h.refBasis.length : Nat) := by
    intro i hi
    split
    · exact ref_lt hb hc1 (by assumption)
    · exact ref_lt hb hc2 (by omega)
  refine projectMats_eq (sideIdx c1 c2) (sideIdx c1 c2) hb.loaded (by omega) hlt hlt hf ?_
  intro i j a hi hj ha
  cases a with
  | none => exact absurd ha (hn i j hi hj)
  | some a =>
    obtain ⟨l, h1, h2⟩ := hf.ops i j a hi hj ha
    unfold sides at h1 h2 ⊢
    by_cases ei : i < vars h
    · by_cases ej : j < vars h
      · simp only [if_pos ei, if_pos ej] at h1 h2 ⊢
        exact refMat_eq hb hc1 hc1 ei ej l h1 h2
      · simp only [if_pos ei, if_neg ej] at h1 h2 ⊢
        exact refMat_eq hb hc1 hc2 ei (by omega) l h1 h2
    · by_cases ej : j < vars h
      · simp only [if_neg ei, if_pos ej] at h1 h2 ⊢
        exact refMat_eq hb hc2 hc1 (by omega) ej l h1 h2
      · simp only [if_neg ei, if_neg ej] at h1 h2 ⊢
        exact refMat_eq hb hc2 hc2 (by omega) (by omega) l h1 h2

/-- The blocks of a reduced vector go subdomain by subdomain. -/
def BySubdomain (h : Handler R) : Prop := h.separate = false ∨ h.ord = .domain

theorem romBlock_domain {h : Handler R} (ho : BySubdomain h) (m v : Nat) (hv : v < vars h) :
    romBlock h m v = m * vars h + v := by
  unfold romBlock
  rcases ho with ho | ho
  · unfold vars at hv ⊢
    rw [ho] at hv ⊢
    cases h.ord <;> simp at hv ⊢ <;> omega
  · rw [ho]

theorem rom_lt {h : Handler R} {m v : Nat} (hm : m < h.numSub) (hv : v < vars h) :
    (0 : Int) ≤ ((romBlock h m v : Nat) : Int) ∧ ((romBlock h m v : Nat) : Int) < (h.numBlocks : Nat) := by
  have := RomHandler.romBlock_lt h hm hv
  constructor <;> omega

/-- **C106** (subdomains): if reduced blocks go subdomain by subdomain, every block of a subdomain is
projected on the bases of its two variables; missing blocks give zero matrices. -/
theorem component_domain_partial {h : Handler R} {zr zf : List Nat} (hr : Ready h zr zf) {nc : Nat}
    (hb : BasesOk h nc) (ho : BySubdomain h) (hv : 0 < vars h) {m : Nat} (hm : m < h.numSub)
    {mats : Arr2 (Option (Op R))}
    (hf : Fits (vars h) (basisOf h h.refBasis m) (basisOf h h.refBasis m) mats) :
    ∃ r, componentDomain h m mats = .ok r ∧
      Projected (vars h) (basisOf h h.refBasis m) (basisOf h h.refBasis m) mats r := by
  unfold componentDomain projectDomainMats
  rw [vars_eq, square_ok hf.rows hf.cols, ok_bind]
  have hidx : componentIdx h (m : Int) = (List.range (vars h)).map fun v => ((romBlock h m v : Nat) : Int) := by
    rw [vars_pos_range]
    refine List.map_congr_left fun v hv => ?_
    rw [romBlock_domain ho m v (List.mem_range.1 hv)]
  refine projectMats_eq hidx hidx hb.loaded hv (fun i hi => rom_lt hm hi) (fun i hi => rom_lt hm hi) hf ?_
  intro i j a hi hj ha
  exact domainMat_eq hr hb hm hm hi hj fun x hx => hf.ops i j x hi hj (hx ▸ ha)

/-- **C106** (interfaces): the same for the blocks of two subdomains. -/
theorem interface_domain_partial {h : Handler R} {zr zf : List Nat} (hr : Ready h zr zf) {nc : Nat}
    (hb : BasesOk h nc) (ho : BySubdomain h) (hv : 0 < vars h) {m1 m2 : Nat} (hm1 : m1 < h.numSub)
    (hm2 : m2 < h.numSub) {mats : Arr2 (Option (Op R))}
    (hf : Fits (2 * vars h) (sides (vars h) (basisOf h h.refBasis m1) (basisOf h h.refBasis m2))
      (sides (vars h) (basisOf h h.refBasis m1) (basisOf h h.refBasis m2)) mats) :
    ∃ r, interfaceDomain h m1 m2 mats = .ok r ∧ Projected (2 * vars h)
      (sides (vars h) (basisOf h h.refBasis m1) (basisOf h h.refBasis m2))
      (sides (vars h) (basisOf h h.refBasis m1) (basisOf h h.refBasis m2)) mats r := by
  unfold interfaceDomain projectDomainMats
  rw [vars_two, square_ok hf.rows hf.cols, ok_bind]
  have hidx : interfaceIdx h (m1 : Int) (m2 : Int) = (List.range (2 * vars h)).map fun i =>
      (((if i < vars h then romBlock h m1 i else romBlock h m2 (i - vars h)) : Nat) : Int) := by
    rw [sideIdx]
    refine List.map_congr_left fun i hi => ?_
    have hi := List.mem_range.1 hi
    split
    · rw [romBlock_domain ho _ _ (by assumption)]
    · rw [romBlock_domain ho _ _ (by omega)]
  have hlt : ∀ i < 2 * vars h, (0 : Int) ≤ (((if i < vars h then romBlock h m1 i
      else romBlock h m2 (i - vars h)) : Nat) : Int) ∧ (((if i < vars h then romBlock h m1 i
      else romBlock h m2 (i - vars h)) : Nat) : Int) < (h.numBlocks : Nat) := by
    intro i hi
    split
    · exact rom_lt hm1 (by assumption)
    · exact rom_lt hm2 (by omega)
  refine projectMats_eq hidx hidx hb.loaded (by omega) hlt hlt hf ?_
  intro i j a hi hj ha
  have hops := fun x (hx : a = some x) => hf.ops i j x hi hj (hx ▸ ha)
  unfold sides at hops ⊢
  by_cases ei : i < vars h
  · by_cases ej : j < vars h
    · simp only [if_pos ei, if_pos ej] at hops ⊢
      exact domainMat_eq hr hb hm1 hm1 ei ej hops
    · simp only [if_pos ei, if_neg ej] at hops ⊢
      exact domainMat_eq hr hb hm1 hm2 ei (by omega) hops
  · by_cases ej : j < vars h
    · simp only [if_neg ei, if_pos ej] at hops ⊢
      exact domainMat_eq hr hb hm2 hm1 (by omega) ej hops
    · simp only [if_neg ei, if_neg ej] at hops ⊢
      exact domainMat_eq hr hb hm2 hm2 (by omega) (by omega) hops

/-- **C106** (variables): the blocks of two variables on all subdomains. -/
theorem variable_domain_partial {h : Handler R} {zr zf : List Nat} (hr : Ready h zr zf) {nc : Nat}
    (hb : BasesOk h nc) (hs : h.separate = true) (ho : h.ord = .domain) (hn : 0 < h.numSub) {v w : Nat}
    (hv : v < h.numVar) (hw : w < h.numVar) {mats : Arr2 (Option (Op R))}
    (hf : Fits h.numSub (fun m => basisOf h h.refBasis m v) (fun m => basisOf h h.refBasis m w) mats) :
    ∃ r, variableDomain h v w mats = .ok r ∧ Projected h.numSub (fun m => basisOf h h.refBasis m v)
      (fun m => basisOf h h.refBasis m w) mats r := by
  have hvars : vars h = h.numVar := by unfold vars; rw [if_pos hs]
  unfold variableDomain projectDomainMats
  rw [hs, require_true, ok_bind, square_ok hf.rows hf.cols, ok_bind]
  have hidx : ∀ u < h.numVar, ((List.range h.numSub).map fun (m : Nat) => (m : Int) * h.numVar + (u : Int)) =
      (List.range h.numSub).map fun m => ((romBlock h m u : Nat) : Int) := by
    intro u hu
    refine List.map_congr_left fun m _ => ?_
    rw [romBlock_domain (.inr ho) m u (by omega), hvars]
    push_cast
    rfl
  refine projectMats_eq (hidx v hv) (hidx w hw) hb.loaded hn (fun m hm => rom_lt hm (by omega))
    (fun m hm => rom_lt hm (by omega)) hf ?_
  intro i j a hi hj ha
  exact domainMat_eq hr hb hi hj (by omega) (by omega) fun x hx => hf.ops i j x hi hj (hx ▸ ha)

/-- **C106** (whole problem): in either order of the blocks, an array whose place `(romBlock m v,
romBlock m' w)` belongs to variable `v` on subdomain `m` and `w` on `m'` is projected on their bases. -/
theorem global_domain {h : Handler R} {zr zf : List Nat} (hr : Ready h zr zf) {nc : Nat}
    (hb : BasesOk h nc) (hv : 0 < vars h) (hn : 0 < h.numSub) {mats : Arr2 (Option (Op R))}
    {V : Nat → Mat R} (hV : ∀ m v, m < h.numSub → v < vars h → V (romBlock h m v) = basisOf h h.refBasis m v)
    (hf : Fits h.numBlocks V V mats) :
    ∃ r, globalDomain h mats = .ok r ∧ Projected h.numBlocks V V mats r := by
  have hB : ∀ i < h.numBlocks, ∃ m v, m < h.numSub ∧ v < vars h ∧ romBlock h m v = i ∧
      V i = basisOf h h.refBasis m v := by
    intro i hi
    obtain ⟨m, v, hm, hv, e⟩ := RomHandler.romBlock_surj h hi
    exact ⟨m, v, hm, hv, e, by rw [← e, hV m v hm hv]⟩
  have hpos : 0 < h.numBlocks := lt_of_le_of_lt (Nat.zero_le _) (RomHandler.romBlock_lt h hn hv)
  unfold globalDomain projectDomainMats
  rw [square_ok hf.rows hf.cols, ok_bind]
  refine projectMats_eq rfl rfl hb.loaded hpos (fun i hi => by constructor <;> omega)
    (fun i hi => by constructor <;> omega) hf ?_
  intro i j a hi hj ha
  obtain ⟨m, v, hm, hv, rfl, e1⟩ := hB i hi
  obtain ⟨m', w, hm', hw, rfl, e2⟩ := hB j hj
  have hops := fun x (hx : a = some x) => hf.ops _ _ x hi hj (hx ▸ ha)
  rw [e1, e2] at hops ⊢
  exact domainMat_eq hr hb hm hm' hv hw hops

/-- **C106** (vectors): projection to the basis of a variable of a component and back. -/
theorem reference_vectors {h : Handler R} {nc : Nat} (hb : BasesOk h nc) {c v : Nat} (hc : c < nc)
    (hv : v < vars h) :
    (∀ x : List R, x.length = (refB h c v).h →
      ∃ y, projectRef h ((c * vars h + v : Nat) : Int) x (refB h c v).w = .ok y ∧
        y.length = (refB h c v).w ∧ ∀ q < (refB h c v).w,
          ve y q = ∑ r ∈ Finset.range (refB h c v).h, ent (refB h c v) r q * ve x r) ∧
    (∀ y : List R, y.length = (refB h c v).w →
      ∃ x, liftRef h ((c * vars h + v : Nat) : Int) y (refB h c v).h = .ok x ∧
        x.length = (refB h c v).h ∧ ∀ r < (refB h c v).h,
          ve x r = ∑ q ∈ Finset.range (refB h c v).w, ent (refB h c v) r q * ve y q) ∧
    ∀ (x : List R) (n : Nat), x.length ≠ (refB h c v).h ∨ n ≠ (refB h c v).w →
      projectRef h ((c * vars h + v : Nat) : Int) x n = .error .abort ∧
      liftRef h ((c * vars h + v : Nat) : Int) (List.replicate n 0) x.length = .error .abort := by
  obtain ⟨l1, g1, m1⟩ := RomAssembly.refB_get hb hc hv
  have hin : (decide ((0 : Int) ≤ ((c * vars h + v : Nat) : Int)) &&
      decide (((c * vars h + v : Nat) : Int) < h.refBasis.length)) = true := by
    simp only [Bool.and_eq_true, decide_eq_true_eq]; omega
  refine ⟨fun x hx => ?_, fun y hy => ?_, fun x n hn => ?_⟩
  · refine ⟨(List.range (refB h c v).w).map fun q => ∑ r ∈ Finset.range (refB h c v).h,
      ent (refB h c v) r q * ve x r, ?_, by simp, ?_⟩
    · unfold projectRef
      rw [hb.loaded, require_true, ok_bind, hin, require_true, ok_bind, Int.toNat_natCast,
        rd_eq_ok.2 g1, ok_bind, hx, beq_self_eq_true, require_true, ok_bind, beq_self_eq_true,
        require_true, ok_bind]
      unfold multTranspose
      rw [if_pos hx]
      rfl
    · intro q hq
      simp [ve, hq]
  · refine ⟨(List.range (refB h c v).h).map fun r => ∑ q ∈ Finset.range (refB h c v).w,
      ent (refB h c v) r q * ve y q, ?_, by simp, ?_⟩
    · unfold liftRef
      rw [hb.loaded, require_true, ok_bind, hin, require_true, ok_bind, Int.toNat_natCast,
        rd_eq_ok.2 g1, ok_bind, beq_self_eq_true, require_true, ok_bind, hy, beq_self_eq_true,
        require_true, ok_bind]
      unfold Mat.mult
      rw [if_pos hy]
      rfl
    · intro r hr
      simp [ve, hr]
  · unfold projectRef liftRef
    rw [hb.loaded, require_true, ok_bind, ok_bind, hin, require_true, ok_bind, ok_bind, Int.toNat_natCast,
      rd_eq_ok.2 g1, ok_bind, ok_bind, List.length_replicate]
    by_cases e1 : x.length = (refB h c v).h
    · have e2 : (n == (refB h c v).w) = false := by
        rcases hn with hn | hn
        · exact absurd e1 hn
        · simp [hn]
      rw [e1, beq_self_eq_true, e2]
      exact ⟨rfl, rfl⟩
    · have e2 : (x.length == (refB h c v).h) = false := by simp [e1]
      rw [e2]
      exact ⟨rfl, rfl⟩

/-- Two subdomains of two variables with bases of one vector each, in the order of variables. -/
def byVariable : Handler Int :=
  ⟨true, .variable, 2, [0, 1], [0, 1, 2, 3, 4], [⟨1, 1, [2]⟩, ⟨1, 1, [3]⟩, ⟨1, 1, [5]⟩, ⟨1, 1, [7]⟩],
    [⟨1, 1, [2]⟩, ⟨1, 1, [5]⟩, ⟨1, 1, [3]⟩, ⟨1, 1, [7]⟩], true⟩

/-- The identity on one unknown. -/
def one : Op Int := ⟨1, 1, id⟩

/-- **C106, negation**: in the order of variables the blocks of subdomain 1 are projected on the bases of the
second variable of both subdomains, and the blocks of variable 1 on those of subdomain 1. -/
theorem order_violation :
    (basisOf byVariable byVariable.refBasis 1 0).data = [5] ∧
    (componentDomain byVariable 1 ⟨2, 2, [some one, none, none, some one]⟩ >>= fun r => do
      let a ← r.get 0 0
      let b ← r.get 1 1
      .ok (a.get 0 0, b.get 0 0)) = .ok (9, 49) ∧
    (basisOf byVariable byVariable.refBasis 0 1).data = [3] ∧
    (variableDomain byVariable 1 1 ⟨2, 2, [some one, none, none, some one]⟩ >>= fun r => do
      let a ← r.get 0 0
      let b ← r.get 1 1
      .ok (a.get 0 0, b.get 0 0)) = .ok (25, 49) := by
  refine ⟨rfl, ?_, rfl, ?_⟩ <;> decide +kernel

/-- **C106, negation**: a missing block of a component is dereferenced, although the code means to give an
empty matrix. -/
theorem missing_violation :
    (componentRef byVariable 0 ⟨2, 2, [some one, none, none, some one]⟩ >>= fun r => .ok r.rows) =
      .error .ub := by
  decide +kernel

/-- **C106**: arrays of other sizes are refused. -/
theorem sizes_refused (h : Handler R) (c c' : Int) (mats : Arr2 (Option (Op R))) :
    (mats.rows ≠ vars h ∨ mats.cols ≠ vars h →
      componentRef h c mats = .error .abort ∧ componentDomain h c mats = .error .abort) ∧
    (mats.rows ≠ 2 * vars h ∨ mats.cols ≠ 2 * vars h →
      interfaceRef h c c' mats = .error .abort ∧ interfaceDomain h c c' mats = .error .abort) ∧
    (h.separate = false ∨ mats.rows ≠ h.numSub ∨ mats.cols ≠ h.numSub →
      variableDomain h c c' mats = .error .abort) ∧
    (mats.rows ≠ h.numBlocks ∨ mats.cols ≠ h.numBlocks → globalDomain h mats = .error .abort) := by
  have hsq : ∀ n, mats.rows ≠ n ∨ mats.cols ≠ n → isSquare mats n = .error .abort := by
    intro n hn
    unfold isSquare
    have : (mats.rows == n && mats.cols == n) = false := by
      rcases hn with hn | hn <;> simp [hn]
    rw [this]
    rfl
  refine ⟨fun hn => ?_, fun hn => ?_, fun hn => ?_, fun hn => ?_⟩
  · unfold componentRef componentDomain
    rw [vars_eq, hsq _ hn]
    exact ⟨rfl, rfl⟩
  · unfold interfaceRef interfaceDomain
    rw [vars_two, hsq _ hn]
    exact ⟨rfl, rfl⟩
  · unfold variableDomain
    rcases hn with hn | hn
    · rw [hn]
      rfl
    · rw [hsq _ hn]
      cases h.separate <;> rfl
  · unfold globalDomain
    rw [hsq _ hn]
    rfl

/-! Non-vacuity. -/

/-- The same bases in the order of subdomains. -/
def bySubdomain : Handler Int :=
  ⟨true, .domain, 2, [0, 1], [0, 1, 2, 3, 4], [⟨1, 1, [2]⟩, ⟨1, 1, [3]⟩, ⟨1, 1, [5]⟩, ⟨1, 1, [7]⟩],
    [⟨1, 1, [2]⟩, ⟨1, 1, [3]⟩, ⟨1, 1, [5]⟩, ⟨1, 1, [7]⟩], true⟩

theorem bySubdomain_bases : BasesOk bySubdomain 2 :=
  ⟨rfl, rfl, by simp [bySubdomain, MatOk], by simp [bySubdomain]⟩

theorem bySubdomain_ready : Ready bySubdomain [1, 1, 1, 1] [1, 1, 1, 1] := by
  have hn : bySubdomain.numSub = 2 := rfl
  have hv : vars bySubdomain = 2 := rfl
  refine ⟨rfl, ?_, ?_, rfl, rfl, ?_, ?_⟩
  · intro m v h1 h2
    rw [hn] at h1
    rw [hv] at h2
    interval_cases m <;> interval_cases v <;> rfl
  · refine ⟨rfl, rfl, ?_⟩
    intro i s hs
    have hi : i < 4 := by
      have := (List.getElem?_eq_some_iff.1 hs).1
      simpa using this
    interval_cases i <;> simp at hs <;> subst hs <;> exact ⟨_, rfl, rfl⟩
  · intro m v h1 h2
    rw [hn] at h1
    rw [hv] at h2
    interval_cases m <;> interval_cases v <;> rfl
  · intro m v h1 h2
    rw [hn] at h1
    rw [hv] at h2
    interval_cases m <;> interval_cases v <;> rfl

theorem one_linear : IsLinear one := by
  refine ⟨fun x hx => hx, fun x r hx => ?_⟩
  match x, hx with
  | [a], _ =>
    rcases r with _ | r
    · simp [one, opEnt, ve]
    · simp [one, opEnt, ve]

/-- An array full of the identity. -/
def full (n : Nat) : Arr2 (Option (Op Int)) := ⟨n, n, List.replicate (n * n) (some one)⟩

theorem full_fits {n : Nat} {V W : Nat → Mat Int} (hV : ∀ i < n, (V i).h = 1) (hW : ∀ i < n, (W i).h = 1) :
    Fits n V W (full n) ∧ ∀ i j, i < n → j < n → (full n).get i j ≠ .ok none := by
  have hget : ∀ i j a, (full n).get i j = .ok a → a = some one := by
    intro i j a ha
    have := rd_eq_ok.1 ha
    exact List.eq_of_mem_replicate (List.mem_of_getElem? this)
  refine ⟨⟨rfl, rfl, by simp [full], fun i j a hi hj ha => ?_⟩, fun i j _ _ ha => ?_⟩
  · obtain rfl : a = one := Option.some.inj (hget i j _ ha)
    exact ⟨one_linear, (hV i hi).symm, (hW j hj).symm⟩
  · exact absurd (hget i j _ ha) (by simp)

example : ∃ r, componentRef bySubdomain 1 (full 2) = .ok r ∧
    Projected 2 (refB bySubdomain 1) (refB bySubdomain 1) (full 2) r := by
  have hV : ∀ i < 2, (refB bySubdomain 1 i).h = 1 := by
    intro i hi
    interval_cases i <;> rfl
  exact component_reference bySubdomain_bases (by decide) (by decide) (full_fits hV hV).1
    (full_fits hV hV).2

example : ∃ r, interfaceRef bySubdomain 1 0 (full 4) = .ok r ∧
    Projected 4 (sides 2 (refB bySubdomain 1) (refB bySubdomain 0))
      (sides 2 (refB bySubdomain 1) (refB bySubdomain 0)) (full 4) r := by
  have hV : ∀ i < 4, (sides 2 (refB bySubdomain 1) (refB bySubdomain 0) i).h = 1 := by
    intro i hi
    interval_cases i <;> rfl
  exact interface_reference bySubdomain_bases (by decide) (by decide) (by decide) (full_fits hV hV).1
    (full_fits hV hV).2

example : ∃ r, interfaceDomain bySubdomain 1 0 (full 4) = .ok r := by
  have hV : ∀ i < 4, (sides 2 (basisOf bySubdomain bySubdomain.refBasis 1)
      (basisOf bySubdomain bySubdomain.refBasis 0) i).h = 1 := by
    intro i hi
    interval_cases i <;> rfl
  exact (interface_domain_partial bySubdomain_ready bySubdomain_bases (.inr rfl) (by decide) (by decide)
    (by decide) (full_fits hV hV).1).imp fun _ h => h.1

example : ∃ r, variableDomain bySubdomain 1 0 (full 2) = .ok r := by
  have hV : ∀ v < 2, ∀ i < 2, (basisOf bySubdomain bySubdomain.refBasis i v).h = 1 := by
    intro v hv i hi
    interval_cases v <;> interval_cases i <;> rfl
  exact (variable_domain_partial bySubdomain_ready bySubdomain_bases rfl rfl (by decide) (by decide)
    (by decide) (full_fits (hV 1 (by decide)) (hV 0 (by decide))).1).imp fun _ h => h.1

example : ∃ r, globalDomain bySubdomain (full 4) = .ok r := by
  let V : Nat → Mat Int := fun i => basisOf bySubdomain bySubdomain.refBasis (i / 2) (i % 2)
  have hV : ∀ i < 4, (V i).h = 1 := by
    intro i hi
    interval_cases i <;> rfl
  refine (global_domain bySubdomain_ready bySubdomain_bases (by decide) (by decide) (V := V) ?_
    (full_fits hV hV).1).imp fun _ h => h.1
  intro m v hm hv
  have hm : m < 2 := hm
  have hv : v < 2 := hv
  interval_cases m <;> interval_cases v <;> rfl

example : Fits 2 (basisOf bySubdomain bySubdomain.refBasis 1) (basisOf bySubdomain bySubdomain.refBasis 1)
    ⟨2, 2, [some one, none, none, some one]⟩ ∧
    ∃ r, componentDomain bySubdomain 1 ⟨2, 2, [some one, none, none, some one]⟩ = .ok r ∧
      Projected 2 (basisOf bySubdomain bySubdomain.refBasis 1)
        (basisOf bySubdomain bySubdomain.refBasis 1) ⟨2, 2, [some one, none, none, some one]⟩ r := by
  have hf : Fits 2 (basisOf bySubdomain bySubdomain.refBasis 1)
      (basisOf bySubdomain bySubdomain.refBasis 1) ⟨2, 2, [some one, none, none, some one]⟩ := by
    refine ⟨rfl, rfl, rfl, ?_⟩
    intro i j a hi hj ha
    have : a = one := by
      interval_cases i <;> interval_cases j <;> cases ha <;> rfl
    subst this
    interval_cases i <;> interval_cases j <;> exact ⟨one_linear, rfl, rfl⟩
  exact ⟨hf, component_domain_partial bySubdomain_ready bySubdomain_bases (.inr rfl) (by decide)
    (by decide) hf⟩

end Verif.BlockProj
