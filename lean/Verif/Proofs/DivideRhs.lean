import Verif.Proofs.DivideReal
import Verif.Spec.DivideRhs
import Verif.Props.Boundary

/-!
# Helper lemmas for the equations on a divided mesh
-/

namespace Verif.Divide

open Verif Verif.LinAlg Verif.LinAlg.Spec Verif.SubMesh Verif.SubMesh.Spec Finset Spec
open Verif.InterfaceForm (Space addElementVector_spec)
open Verif.InterfaceForm.Spec (dofsOf dofAt dofPos dofSign)
open Verif.RomAssembly (bdrMarkers bdrMarkers_ok maxOr maxOr_ge mkAt pickMarkers pickMarkers_eq markers_ok
  unionMarker unionMarker_spec loop_collect)
open Verif.Boundary (BC weakOf rhsBC rhsBC_eq)

variable {R δ F : Type} [CommRing R]
variable {pm : Parent} {subs : List Sub} {φ : Nat → Nat → Nat} {g : Int}

/-! ## Vectors -/

/-- What an element vector adds. -/
def vscat (rows : List Int) (E : Nat → R) (t : Nat) : R :=
  ∑ k ∈ range rows.length, if dofPos (dofAt rows k) = t then dofSign (dofAt rows k) * E k else 0

theorem add_spec {y : List R} {rows : List Int} {el : List R} (h : ∀ d ∈ rows, dofPos d < y.length)
    (hl : rows.length ≤ el.length) :
    ∃ y', addElementVector y 0 rows el = .ok y' ∧ y'.length = y.length ∧
      ve y' = ve y + vscat rows (ve el) := by
  obtain ⟨y', e, h1, h2⟩ := addElementVector_spec (y := y) (off := 0) (dofs := rows) (el := el)
    (by simpa using h) hl
  refine ⟨y', e, h1, h2.trans ?_⟩
  congr 1
  funext t
  unfold vscat
  simp only [Nat.zero_add]

/-- A loop that adds to a vector. -/
theorem loop_vec {n : Nat} {body : Nat → List R → Outcome (List R)} (N : Nat) (term : Nat → Nat → R)
    {y : List R} (hy : y.length = N)
    (hstep : ∀ k t, k < n → t.length = N → ∃ t', body k t = .ok t' ∧ t'.length = N ∧
      ve t' = ve t + term k) :
    ∃ y', loop n body y = .ok y' ∧ y'.length = N ∧ ve y' = ve y + ∑ k ∈ range n, term k := by
  obtain ⟨y', e, h1, h2⟩ := loop_acc (n := n) (body := body) (fun t : List R => t.length = N) ve term
    (s := y) hy hstep
  exact ⟨y', e, h1, h2⟩

theorem vscat_at {em : List Nat} {n : Nat → Nat} {s : Space} (h : SpaceFits em n s) {j i a : Nat}
    (ha : a < (dofsOf s i).length) (E : Nat → R) :
    vscat (dofsOf s j) E (pos s i a) = if j = i then E a else 0 := by
  unfold vscat
  have key : ∀ k ∈ range (dofsOf s j).length,
      (if dofPos (dofAt (dofsOf s j) k) = pos s i a then dofSign (dofAt (dofsOf s j) k) * E k else 0) =
      if k = a then if j = i then E a else 0 else 0 := by
    intro k hk
    rw [mem_range] at hk
    have p1 := dof_plain h hk
    have s1 : (dofSign (dofAt (dofsOf s j) k) : R) = 1 := if_neg (by omega)
    rw [s1]
    simp only [pos_eq h hk ha]
    by_cases c1 : k = a
    · subst c1; simp
    · simp [c1]
  rw [sum_congr rfl key]
  by_cases hc : j = i
  · subst hc
    rw [sum_eq_single a]
    · simp
    · intro k _ hk; simp [hk]
    · intro hk; exact absurd (mem_range.2 ha) hk
  · simp [hc]

theorem ve_replicate (n t : Nat) : ve (List.replicate n (0 : R)) t = 0 := by
  unfold ve
  rw [List.getElem?_replicate]
  split <;> rfl

theorem sum_only {n i : Nat} (hi : i < n) (x : R) :
    (∑ j ∈ range n, if j = i then x else 0) = x := by
  rw [sum_eq_single i, if_pos rfl]
  · intro j _ hj; exact if_neg hj
  · intro h; exact absurd (mem_range.2 hi) h

/-! ## Domain part -/

variable {Ld : Loads R F} {n : Nat → Nat} {sm : Sub} {v : LView R F} {k : Nat}

theorem loadElems_spec {ψ : Nat → Nat} (hv : LoadFits Ld n pm ψ sm v) {y : List R}
    (hy : y.length = v.space.vsize) :
    ∃ y', loadElems v y = .ok y' ∧ y'.length = v.space.vsize ∧
      ve y' = ve y + ∑ i ∈ range v.space.vdofs.length,
        (v.dom.map fun g => vscat (dofsOf v.space i) (ve (g i))).sum := by
  unfold loadElems
  have key := @loop_vec R _ v.space.vdofs.length (loadElem v) v.space.vsize
    (fun i => (v.dom.map fun g => vscat (dofsOf v.space i) (ve (g i))).sum) y hy
  apply key
  intro i t hi ht
  have hlt : i < sm.elemMap.length := by rw [← hv.space.count]; exact hi
  have he := List.getElem?_eq_getElem hlt
  obtain ⟨b1, b2, b3⟩ := sized_dofs hv.space he
  obtain ⟨y', e, h1, h2⟩ := loop_list_acc (l := v.dom) (fun u : List R => u.length = v.space.vsize) ve
    (fun g => vscat (dofsOf v.space i) (ve (g i))) (s := t)
    (body := fun r y => do
      let g ← rd v.dom r
      addElementVector y 0 (dofsOf v.space i) (g i)) ht (by
      intro r g u hg hr hu
      obtain ⟨u', e, h1, h2⟩ := add_spec (y := u) (rows := dofsOf v.space i) (el := g i)
        (by rw [hu]; exact b3) (by rw [b2]; exact hv.length i _ he g hg)
      exact ⟨u', by rw [hr, ok_bind, e], h1.trans hu, h2⟩)
  refine ⟨y', ?_, h1, h2⟩
  unfold loadElem
  rw [rd_eq_ok.2 b1, ok_bind]
  exact e

theorem list_sum_fun {α : Type} (l : List α) (f : α → Nat → R) (t : Nat) :
    (l.map f).sum t = (l.map fun x => f x t).sum := by
  induction l with
  | nil => rfl
  | cons x l ih => rw [List.map_cons, List.sum_cons, Pi.add_apply, ih, List.map_cons, List.sum_cons]

theorem elems_at {ψ : Nat → Nat} (hv : LoadFits Ld n pm ψ sm v) {i e a : Nat}
    (hi : sm.elemMap[i]? = some e) (ha : a < n e) :
    (∑ i ∈ range v.space.vdofs.length,
      (v.dom.map fun g => vscat (dofsOf v.space i) (ve (g i))).sum) (pos v.space i a) = Ld.vol e a := by
  obtain ⟨b1, b2, b3⟩ := sized_dofs hv.space hi
  have hlt : i < v.space.vdofs.length := (List.getElem?_eq_some_iff.1 b1).1
  rw [Finset.sum_apply]
  have key : ∀ j ∈ range v.space.vdofs.length,
      (v.dom.map fun g => vscat (dofsOf v.space j) (ve (g j))).sum (pos v.space i a) =
        if j = i then Ld.vol e a else 0 := by
    intro j hj
    rw [list_sum_fun]
    by_cases hji : j = i
    · subst hji
      rw [if_pos rfl, ← hv.dom j e a hi ha]
      congr 1
      apply List.map_congr_left
      intro g _
      rw [vscat_at hv.space (by rw [b2]; exact ha), if_pos rfl]
    · rw [if_neg hji]
      apply List.sum_eq_zero
      intro x hx
      obtain ⟨g, _, rfl⟩ := List.mem_map.1 hx
      rw [vscat_at hv.space (by rw [b2]; exact ha), if_neg hji]
  rw [sum_congr rfl key, sum_only hlt]

/-! ## Boundary part -/

/-- The boundary vector of boundary element `i` for function `f`. -/
def belVec (bel : List (Option (BLoad R F))) (i : Nat) (f : F) : Nat → R :=
  match bel[i]? with
  | some (some x) => vscat x.rows (ve (x.vec f))
  | _ => 0

theorem loadMarked_spec {act : List (Nat × F)} {ms : List (List Int)} (hl : ms.length = act.length)
    {a : Int} (ha : 0 < a) (hm : ∀ mk ∈ ms, (a - 1).toNat < mk.length) {b : BLoad R F} {y : List R}
    (h1 : ∀ d ∈ b.rows, dofPos d < y.length) (h2 : ∀ f, b.rows.length ≤ (b.vec f).length) :
    ∃ y', loadMarked act ms a b y = .ok y' ∧ y'.length = y.length ∧
      ve y' = ve y + ∑ k ∈ range act.length, if mkAt (ms[k]?.getD []) a = 0 then 0 else
        ((act[k]?).map fun c => vscat b.rows (ve (b.vec c.2))).getD 0 := by
  unfold loadMarked
  have key := @loop_vec R _ act.length (fun k y => do
      let mk ← rd ms k
      let x ← rdI mk (a - 1)
      if x = 0 then .ok y else do
        let c ← rd act k
        addElementVector y 0 b.rows (b.vec c.2)) y.length
    (fun k => if mkAt (ms[k]?.getD []) a = 0 then 0 else
        ((act[k]?).map fun c => vscat b.rows (ve (b.vec c.2))).getD 0) y rfl
  apply key
  intro k t hk ht
  have hkm : k < ms.length := by omega
  have hlt := hm _ (List.getElem_mem hkm)
  have hrd : rdI ms[k] (a - 1) = .ok (mkAt ms[k] a) := by
    rw [CompSetup.rdI_ok]
    refine ⟨(a - 1).toNat, by omega, ?_⟩
    unfold mkAt; rw [List.getElem?_eq_getElem hlt]; rfl
  rw [List.getElem?_eq_getElem hkm, List.getElem?_eq_getElem hk]
  simp only [Option.getD_some, Option.map_some]
  by_cases hz : mkAt ms[k] a = 0
  · refine ⟨t, ?_, ht, ?_⟩
    · rw [rd_of_lt hkm, ok_bind, hrd, ok_bind, if_pos hz]
    · rw [if_pos hz, add_zero]
  · obtain ⟨t', e, d1, d2⟩ := add_spec (y := t) (rows := b.rows) (el := b.vec act[k].2)
      (by rw [ht]; exact h1) (h2 _)
    refine ⟨t', ?_, d1.trans ht, ?_⟩
    · rw [rd_of_lt hkm, ok_bind, hrd, ok_bind, if_neg hz, rd_of_lt hk, ok_bind, e]
    · rw [if_neg hz, d2]

/-- What the boundary integrators add. -/
def loadTerm (attrs : List Int) (act : List (Nat × F)) (ms : List (List Int))
    (bel : List (Option (BLoad R F))) : Nat → R :=
  ∑ i ∈ range attrs.length, ∑ k ∈ range act.length,
    if mkAt (ms[k]?.getD []) (attrs[i]?.getD 0) = 0 then 0 else
      ((act[k]?).map fun c => belVec bel i c.2).getD 0

theorem loadBdr_spec {attrList attrs : List Int} {act : List (Nat × F)} {ms : List (List Int)}
    {bel : List (Option (BLoad R F))} {y : List R} (hl : ms.length = act.length)
    (ha : ∀ a ∈ attrs, 0 < a ∧ a ≤ maxOr attrList)
    (hm : ∀ mk ∈ ms, (maxOr attrList).toNat ≤ mk.length) (hc : bel.length = attrs.length)
    (hb : ∀ b, some b ∈ bel → (∀ d ∈ b.rows, dofPos d < y.length) ∧
      ∀ f, b.rows.length ≤ (b.vec f).length) :
    ∃ y', loadBdr attrList attrs act ms bel y = .ok y' ∧ y'.length = y.length ∧
      ve y' = ve y + loadTerm attrs act ms bel := by
  unfold loadBdr
  by_cases h0 : ms.length = 0
  · rw [if_pos h0]
    refine ⟨y, rfl, rfl, ?_⟩
    unfold loadTerm
    rw [← hl, h0]
    simp
  · rw [if_neg h0]
    obtain ⟨u, e, hul, hu⟩ := unionMarker_spec _ ms hm
    rw [e, ok_bind]
    unfold loadTerm
    have key := @loop_vec R _ attrs.length (loadBdrElem act ms u attrs bel) y.length
      (fun i => ∑ k ∈ range act.length,
        if mkAt (ms[k]?.getD []) (attrs[i]?.getD 0) = 0 then 0 else
          ((act[k]?).map fun c => belVec bel i c.2).getD 0) y rfl
    apply key
    intro i t hi ht
    obtain ⟨p1, p2⟩ := ha _ (List.getElem_mem hi)
    have hbel : i < bel.length := by omega
    have hlt : (attrs[i] - 1).toNat < (maxOr attrList).toNat := by omega
    have hx := hu _ hlt
    have hrd : rdI u (attrs[i] - 1) = .ok (ms.any fun mk => mkAt mk attrs[i] != 0) :=
      CompSetup.rdI_ok.2 ⟨(attrs[i] - 1).toNat, by omega, hx⟩
    rw [show attrs[i]?.getD 0 = attrs[i] by simp [hi]]
    unfold loadBdrElem
    rw [rd_of_lt hi, ok_bind, hrd, ok_bind, rd_of_lt hbel, ok_bind]
    cases hany : ms.any (fun mk => mkAt mk attrs[i] != 0) with
    | false =>
      refine ⟨t, rfl, ht, ?_⟩
      rw [sum_eq_zero, add_zero]
      intro k hk
      rw [mem_range] at hk
      have hkm : k < ms.length := by omega
      rw [if_pos]
      have := List.any_eq_false.1 hany _ (List.getElem_mem hkm)
      rw [List.getElem?_eq_getElem hkm]
      simpa using this
    | true =>
      cases hface : bel[i] with
      | none =>
        refine ⟨t, rfl, ht, ?_⟩
        rw [sum_eq_zero, add_zero]
        intro k hk
        split
        · rfl
        · unfold belVec
          rw [List.getElem?_eq_getElem hbel, hface]
          dsimp only
          cases act[k]? <;> rfl
      | some x =>
        obtain ⟨f1, f2⟩ := hb x (hface ▸ List.getElem_mem hbel)
        obtain ⟨t', e', d1, d2⟩ := loadMarked_spec (y := t) (b := x) hl p1
          (fun mk hmk => by have := hm mk hmk; omega) (by rw [ht]; exact f1) f2
        refine ⟨t', e', d1.trans ht, d2.trans ?_⟩
        congr 1
        apply sum_congr rfl
        intro k _
        unfold belVec
        rw [List.getElem?_eq_getElem hbel, hface]

omit [CommRing R] in
theorem sum_filterMap_val {V : Type} [AddCommMonoid V] (N : Nat) (P : Nat → Bool) (w : Nat → Option F)
    (G : Nat × F → V) :
    (((List.range N).filterMap fun b => if P b then (w b).map (fun x => (b, x)) else none).map G).sum =
      ∑ b ∈ range N, if P b then ((w b).map fun f => G (b, f)).getD 0 else 0 := by
  induction N with
  | zero => simp
  | succ N ih =>
    rw [List.range_succ, List.filterMap_append, List.map_append, List.sum_append, ih, sum_range_succ]
    congr 1
    cases h : P N <;> cases hw : w N <;> simp [h, hw]

omit [CommRing R] in
theorem sum_list_range {V α : Type} [AddCommMonoid V] (l : List α) (G : α → V) :
    (l.map G).sum = ∑ k ∈ range l.length, ((l[k]?).map G).getD 0 := by
  induction l with
  | nil => simp
  | cons x l ih =>
    rw [List.map_cons, List.sum_cons, ih, List.length_cons, sum_range_succ']
    simp [add_comm]

omit [CommRing R] in
theorem condOf_at {bc : BC F} (hn : bc.attrs.Nodup) {b : Nat} {a : Int} (hb : bc.attrs[b]? = some a) :
    condOf bc a = weakOf bc b := by
  have hlt := (List.getElem?_eq_some_iff.1 hb).1
  have hidx : bc.attrs.idxOf a = b := by
    have h1 := List.getElem?_eq_some_iff.1 hb
    obtain ⟨h2, h3⟩ := h1
    rw [← h3]
    exact hn.idxOf_getElem b h2
  unfold condOf weakOf
  rw [hidx]
  cases h : bc.coeffs[b]? with
  | none => simp
  | some c =>
    cases c with
    | none => simp
    | some f => simp

omit [CommRing R] in
theorem condOf_none {bc : BC F} (hw : Boundary.Wf bc) {a : Int} (h : a ∉ bc.attrs) :
    condOf bc a = none := by
  unfold condOf
  have h1 : bc.attrs.idxOf a = bc.attrs.length := List.idxOf_eq_length h
  rw [h1]
  have h2 : bc.coeffs[bc.attrs.length]? = none := List.getElem?_eq_none (by rw [hw.1])
  rw [h2]
  simp

/-- The boundary part of the right-hand side of a subdomain: every boundary element gets the function
imposed weakly on its attribute. -/
theorem load_bdr_spec {ψ : Nat → Nat} {bc : BC F} {mx : Int} {mks : List (List Int)}
    {e : List Int × List Int} (hv : LoadFits Ld n pm ψ sm v) (hel : ∀ (b : Nat) be, sm.bes[b]? = some be →
      ∃ x, sm.elemMap[be.elem]? = some x) (hw : Boundary.Wf bc)
    (hm : Boundary.markers bc.attrs mx = .ok mks) (hx : maxOr e.2 ≤ mx) (hn : bc.attrs.Nodup)
    (he : Topology.Spec.AttributeList e.1 e.2) (hp : ∀ a ∈ e.1, 0 < a)
    (hlen : e.1.length = sm.bes.length) {y0 : List R} (l0 : y0.length = v.space.vsize) :
    ∃ act ms y, rhsBC bc e.2 = .ok act ∧ pickMarkers (act.map fun c => (c.1, ())) mks = .ok ms ∧
      loadBdr e.2 e.1 act ms v.bel y0 = .ok y ∧ y.length = v.space.vsize ∧
      ∀ (i ee a : Nat), sm.elemMap[i]? = some ee → a < n ee → ve y (pos v.space i a) =
        ve y0 (pos v.space i a) + ∑ j ∈ range e.1.length,
          ((condOf bc (e.1[j]?.getD 0)).map fun f => belVec v.bel j f (pos v.space i a)).getD 0 := by
  classical
  obtain ⟨ms, hms, hl, hmk⟩ := Boundary.markers_spec (markers_ok hm)
  rw [hm] at hms; cases hms
  have hact := rhsBC_eq hw e.2
  set act := ((List.range bc.attrs.length).filterMap fun b =>
      if (bc.attrs[b]?).any (fun a => decide (a ∈ e.2)) then (weakOf bc b).map (fun x => (b, x))
      else none) with hactdef
  have hmem : ∀ c ∈ act, c.1 < bc.attrs.length := by
    intro c hc
    rw [hactdef, List.mem_filterMap] at hc
    obtain ⟨b, hb, hb'⟩ := hc
    split at hb'
    · cases hwb : weakOf bc b with
      | none => rw [hwb] at hb'; cases hb'
      | some f => rw [hwb] at hb'; cases hb'; simpa using hb
    · cases hb'
  have hpick : pickMarkers (act.map fun c => (c.1, ())) mks =
      .ok (act.map fun c => mks[c.1]?.getD []) := by
    rw [pickMarkers_eq]
    · rw [List.map_map]; rfl
    · intro x hx
      obtain ⟨c, hc, rfl⟩ := List.mem_map.1 hx
      rw [hl]; exact hmem c hc
  have hmklen : ∀ mk ∈ mks, mk.length = mx.toNat := by
    intro mk hmem
    obtain ⟨k, hk⟩ := List.mem_iff_getElem?.1 hmem
    have hlt := (List.getElem?_eq_some_iff.1 hk).1
    obtain ⟨mk', h1, h2, _⟩ := hmk k _ (List.getElem?_eq_getElem (by omega))
    rw [hk] at h1; cases h1; exact h2
  obtain ⟨y, e1, l1, g1⟩ := loadBdr_spec (attrList := e.2) (attrs := e.1) (act := act)
    (ms := act.map fun c => mks[c.1]?.getD []) (bel := v.bel) (y := y0) (by simp)
    (fun a ha => ⟨hp a ha, maxOr_ge ((he.complete a).2 ha)⟩) (by
      intro mk hmk'
      obtain ⟨c, hc, rfl⟩ := List.mem_map.1 hmk'
      have hlt : c.1 < mks.length := by rw [hl]; exact hmem c hc
      rw [List.getElem?_eq_getElem hlt, Option.getD_some, hmklen _ (List.getElem_mem hlt)]
      omega) (by rw [hv.belCount, hlen]) (by
      intro b hb
      obtain ⟨j, hj⟩ := List.mem_iff_getElem?.1 hb
      have hjl : j < sm.bes.length := by rw [← hv.belCount]; exact (List.getElem?_eq_some_iff.1 hj).1
      have hbe := List.getElem?_eq_getElem hjl
      obtain ⟨r1, r2⟩ := hv.bel j _ b hbe hj
      obtain ⟨x, hx⟩ := hel j _ hbe
      refine ⟨?_, r2⟩
      rw [r1, l0]
      exact (sized_dofs hv.space hx).2.2)
  refine ⟨act, _, y, hact, hpick, e1, l1.trans l0, ?_⟩
  · intro i ee a hi ha
    rw [g1, Pi.add_apply]
    congr 1
    unfold loadTerm
    rw [Finset.sum_apply]
    apply sum_congr rfl
    intro j hj
    rw [mem_range] at hj
    set at_ := e.1[j]?.getD 0 with hat
    have haj : e.1[j]? = some at_ := by rw [hat, List.getElem?_eq_getElem hj]; rfl
    have hm1 : at_ ∈ e.1 := List.mem_of_getElem? haj
    have hm2 : at_ ∈ e.2 := (he.complete at_).2 hm1
    rw [Finset.sum_apply]
    set t := pos v.space i a
    have s1 : ∑ k ∈ range act.length, (if mkAt ((act.map fun c => mks[c.1]?.getD [])[k]?.getD []) at_ = 0
        then 0 else ((act[k]?).map fun c => belVec v.bel j c.2).getD 0) t =
        (act.map fun c => if mkAt (mks[c.1]?.getD []) at_ = 0 then 0 else belVec v.bel j c.2 t).sum := by
      rw [sum_list_range]
      apply sum_congr rfl
      intro k hk
      rw [mem_range] at hk
      rw [List.getElem?_map, List.getElem?_eq_getElem hk]
      simp only [Option.map_some, Option.getD_some]
      split <;> rfl
    rw [s1, hactdef, sum_filterMap_val]
    have s2 : ∀ b ∈ range bc.attrs.length,
        (if (bc.attrs[b]?).any (fun a => decide (a ∈ e.2)) = true then
          ((weakOf bc b).map fun f => if mkAt (mks[b]?.getD []) at_ = 0 then 0 else belVec v.bel j f t).getD 0
          else 0) = if bc.attrs[b]? = some at_ then
            ((condOf bc at_).map fun f => belVec v.bel j f t).getD 0 else 0 := by
      intro b hb
      rw [mem_range] at hb
      obtain ⟨mk, h1, _, h3⟩ := hmk b _ (List.getElem?_eq_getElem hb)
      have hval : mkAt (mks[b]?.getD []) at_ = if at_ = bc.attrs[b] then 1 else 0 := by
        unfold mkAt
        rw [h1, Option.getD_some, h3 at_ (hp at_ hm1) (le_trans (maxOr_ge hm2) hx)]; rfl
      rw [hval]
      by_cases hab : at_ = bc.attrs[b]
      · have hb' : bc.attrs[b]? = some at_ := by rw [hab]; exact List.getElem?_eq_getElem hb
        rw [if_pos hb', condOf_at hn hb', hb']
        rw [Option.any_some, if_pos (decide_eq_true hm2), if_pos hab]
        simp only [one_ne_zero, if_false]
      · rw [if_neg (show ¬ bc.attrs[b]? = some at_ by
          rw [List.getElem?_eq_getElem hb]; simpa using fun h => hab h.symm)]
        rw [if_neg hab]
        cases weakOf bc b <;> simp
    rw [sum_congr rfl s2]
    by_cases hin : at_ ∈ bc.attrs
    · obtain ⟨b, hb⟩ := List.mem_iff_getElem?.1 hin
      have hlt := (List.getElem?_eq_some_iff.1 hb).1
      rw [sum_eq_single b]
      · rw [if_pos hb]
      · intro b' hb' hne
        rw [if_neg]
        intro h
        apply hne
        obtain ⟨q1, q2⟩ := List.getElem?_eq_some_iff.1 h
        obtain ⟨q3, q4⟩ := List.getElem?_eq_some_iff.1 hb
        exact (hn.getElem_inj_iff).1 (q2.trans q4.symm)
      · intro h; exact absurd (mem_range.2 hlt) h
    · rw [condOf_none hw hin]
      simp

theorem load_spec {ψ : Nat → Nat} {bc : BC F} {mx : Int} {mks : List (List Int)}
    {e : List Int × List Int} (hv : LoadFits Ld n pm ψ sm v) (hel : ∀ (b : Nat) be, sm.bes[b]? = some be →
      ∃ x, sm.elemMap[be.elem]? = some x) (hw : Boundary.Wf bc)
    (hm : Boundary.markers bc.attrs mx = .ok mks) (hx : maxOr e.2 ≤ mx) (hn : bc.attrs.Nodup)
    (he : Topology.Spec.AttributeList e.1 e.2) (hp : ∀ a ∈ e.1, 0 < a)
    (hlen : e.1.length = sm.bes.length) :
    ∃ y, load bc mks e v = .ok y ∧ y.length = v.space.vsize ∧
      ∀ (i ee a : Nat), sm.elemMap[i]? = some ee → a < n ee → ve y (pos v.space i a) =
        Ld.vol ee a + ∑ j ∈ range e.1.length,
          ((condOf bc (e.1[j]?.getD 0)).map fun f => belVec v.bel j f (pos v.space i a)).getD 0 := by
  obtain ⟨y0, e0, l0, g0⟩ := loadElems_spec hv (y := List.replicate v.space.vsize 0) (by simp)
  obtain ⟨act, ms, y, h1, h2, h3, h4, h5⟩ := load_bdr_spec hv hel hw hm hx hn he hp hlen l0
  refine ⟨y, ?_, h4, ?_⟩
  · unfold load
    rw [e0, ok_bind, h1, ok_bind, h2, ok_bind, h3]
  · intro i ee a hi ha
    rw [h5 i ee a hi ha, g0, Pi.add_apply, ve_replicate, zero_add, elems_at hv hi ha]

/-! ## The attributes and markers of a division -/

variable {bc : BC F}

omit [CommRing R] in
theorem setup (D : Division pm subs φ g) (hbc : Conditions pm bc) :
    ∃ st fms mesh mks mx, buildSubMeshes2D pm subs = .ok (st, fms) ∧
      attributes subs.length st = .ok mesh ∧ bdrMarkers bc.attrs mesh = .ok mks ∧
      Boundary.markers bc.attrs mx = .ok mks ∧
      ∀ (k : Nat) sm, subs[k]? = some sm → ∃ (l' : List BE) (u : List Int),
        mesh[k]? = some (l'.map (fun b => b.attr), u) ∧ maxOr u ≤ mx ∧
        Topology.Spec.AttributeList (l'.map fun b => b.attr) u ∧ l'.length = sm.bes.length ∧
        (∀ a ∈ l'.map (fun b => b.attr), 0 < a) ∧
        ∀ (b : Nat) be, sm.bes[b]? = some be → ∃ be', l'[b]? = some be' ∧
          ((∃ q ∈ pm.bdr, q.1 = φ k be.face ∧ be'.attr = q.2) ∨
            (Free pm (φ k be.face) ∧ g < be'.attr)) := by
  obtain ⟨st, fms, bes, hst, hC, hE⟩ := submeshes2D_correct pm subs φ g D.max D.pos D.wf
  have T : Result pm subs φ g st fms bes := ⟨hC, hE⟩
  obtain ⟨mesh, hmesh, hml, hm⟩ := attributes_spec D T
  have hpos : ∀ (k : Nat) sm (l' : List BE), subs[k]? = some sm → l'.length = sm.bes.length →
      (∀ (b : Nat) be, sm.bes[b]? = some be → ∃ be', l'[b]? = some be' ∧
        ((∃ q ∈ pm.bdr, q.1 = φ k be.face ∧ be'.attr = q.2) ∨
          (Free pm (φ k be.face) ∧ g < be'.attr))) → ∀ a ∈ l'.map (fun b => b.attr), 0 < a := by
    intro k sm l' hk hl h a ha
    obtain ⟨be', hbe', rfl⟩ := List.mem_map.1 ha
    obtain ⟨b, hb⟩ := List.mem_iff_getElem?.1 hbe'
    have hlt : b < sm.bes.length := by rw [← hl]; exact (List.getElem?_eq_some_iff.1 hb).1
    obtain ⟨be2, h1, h2⟩ := h b _ (List.getElem?_eq_getElem hlt)
    rw [hb] at h1; cases h1
    rcases h2 with ⟨q, hq, _, hqa⟩ | ⟨_, h2⟩
    · rw [hqa]; exact D.bdrPos q hq
    · have := D.pos; omega
  obtain ⟨mks, hmks⟩ := bdrMarkers_total (battrs := bc.attrs) (mesh := mesh) (by
      intro x hx
      obtain ⟨k, hk⟩ := List.mem_iff_getElem?.1 hx
      have hlt : k < subs.length := by rw [← hml]; exact (List.getElem?_eq_some_iff.1 hk).1
      have hs := List.getElem?_eq_getElem hlt
      obtain ⟨l', u, h1, h2, h3, _⟩ := hm k _ hs
      rw [hk] at h1; cases h1
      have hne : 0 < l'.length := by rw [h3]; exact List.length_pos_of_ne_nil (D.bdrSome k _ hs)
      intro hu
      have := (h2.complete _).2 (List.mem_map.2 ⟨l'[0], List.getElem_mem hne, rfl⟩)
      dsimp only at hu
      rw [hu] at this
      exact absurd this (by simp)) (by
      intro a ha
      obtain ⟨q, hq, rfl⟩ := hbc.occur a ha
      refine ⟨D.bdrPos q hq, ?_⟩
      have hfc := List.getElem?_eq_getElem (D.wf.parent_bdr q hq).1
      obtain ⟨⟨k, hown⟩, _⟩ := D.owned _ _ hfc
      obtain ⟨sm, hs, _⟩ := id hown
      obtain ⟨be, hbe, hbf⟩ := D.bdrAll q hq k sm _ hs hfc hown
      obtain ⟨b, hb⟩ := List.mem_iff_getElem?.1 hbe
      obtain ⟨l', u, h1, h2, _, h4⟩ := hm k sm hs
      obtain ⟨be', h5, h6⟩ := h4 b be hb
      refine ⟨_, List.mem_of_getElem? h1, (h2.complete _).2 (List.mem_map.2 ⟨be', List.mem_of_getElem? h5, ?_⟩)⟩
      rcases h6 with ⟨q', hq', g1, g2⟩ | ⟨hfree, _⟩
      · rw [g2, bdr_unique D hq' hq (g1.trans hbf)]
      · exact absurd hbf.symm (hfree q hq))
  obtain ⟨mx, hmx, hmk⟩ := bdrMarkers_ok hmks
  refine ⟨st, fms, mesh, mks, mx, hst, hmesh, hmks, hmk, ?_⟩
  intro k sm hk
  obtain ⟨l', u, h1, h2, h3, h4⟩ := hm k sm hk
  exact ⟨l', u, h1, hmx _ (List.mem_of_getElem? h1), h2, h3, hpos k sm l' hk h3 h4, h4⟩

/-! ## The boundary terms on the parent mesh -/

theorem bdr_load_sum (D : Division pm subs φ g) (hbc : Conditions pm bc) (hk : subs[k]? = some sm)
    (hv : LoadFits Ld n pm (φ k) sm v) {l' : List BE} (hl : l'.length = sm.bes.length)
    (hfin : ∀ (b : Nat) be, sm.bes[b]? = some be → ∃ be', l'[b]? = some be' ∧
        ((∃ q ∈ pm.bdr, q.1 = φ k be.face ∧ be'.attr = q.2) ∨
          (Free pm (φ k be.face) ∧ g < be'.attr)))
    {i e a : Nat} (hi : sm.elemMap[i]? = some e) (ha : a < n e) :
    (∑ j ∈ range (l'.map fun b => b.attr).length,
      ((condOf bc ((l'.map fun b => b.attr)[j]?.getD 0)).map fun f =>
        belVec v.bel j f (pos v.space i a)).getD 0) = (pm.bdr.map (bdrLoad Ld pm bc e a)).sum := by
  classical
  set B : Nat → R := fun f => if h : ∃ q ∈ pm.bdr, q.1 = f then bdrLoad Ld pm bc e a h.choose else 0
    with hB
  have hBq : ∀ q ∈ pm.bdr, B q.1 = bdrLoad Ld pm bc e a q := by
    intro q hq
    have hex : ∃ q' ∈ pm.bdr, q'.1 = q.1 := ⟨q, hq, rfl⟩
    simp only [hB]
    rw [dif_pos hex, bdr_unique D hex.choose_spec.1 hq hex.choose_spec.2]
  have hB0 : ∀ f, Free pm f → B f = 0 := by
    intro f hf
    simp only [hB]
    rw [dif_neg]
    rintro ⟨q, hq, h⟩
    exact hf q hq h
  have hR : pm.bdr.map (bdrLoad Ld pm bc e a) = (pm.bdr.map Prod.fst).map B := by
    rw [List.map_map]
    apply List.map_congr_left
    intro q hq
    exact (hBq q hq).symm
  obtain ⟨_, b4, _⟩ := sized_dofs hv.space hi
  have hL : (∑ j ∈ range (l'.map fun b => b.attr).length,
      ((condOf bc ((l'.map fun b => b.attr)[j]?.getD 0)).map fun f =>
        belVec v.bel j f (pos v.space i a)).getD 0) = ((sm.bes.map fun be => φ k be.face).map B).sum := by
    rw [List.map_map, List.length_map, hl, ← sum_range_getD]
    apply sum_congr rfl
    intro j hj
    rw [mem_range] at hj
    have hbe := List.getElem?_eq_getElem hj
    obtain ⟨be', h1, h2⟩ := hfin j _ hbe
    obtain ⟨fc, x, _, h3, h4, h5⟩ := D.wf.onFace k j sm _ hk hbe
    rw [List.getElem?_map, h1, hbe]
    simp only [Option.map_some, Option.getD_some, Function.comp]
    rcases h2 with ⟨q, hq, hqf, hqa⟩ | ⟨hfree, hgt⟩
    · rw [← hqf, hBq q hq, hqa]
      have hout := D.bdrOuter q hq fc (by rw [hqf]; exact h3)
      have hx0 : (x : Int) = fc.e0 := by
        rcases h5 with h | h
        · exact h.1
        · have := h.1; omega
      obtain ⟨y, y1, y2⟩ := hv.outerBdr j _ x q hbe hq hqf h4
      obtain ⟨r1, _⟩ := hv.bel j _ y hbe y1
      unfold bdrLoad belVec
      rw [y1, hqf, h3]
      dsimp only
      rw [r1]
      have A : At subs k sm.bes[j].elem x := ⟨sm, hk, h4⟩
      have e1 := At.eq_iff D A (k' := k) ⟨sm, hk, hi⟩
      simp only [true_and] at e1
      simp only [Option.map_some, Option.some.injEq]
      by_cases hc : sm.bes[j].elem = i
      · have hxe := e1.1 hc
        rw [if_pos (by rw [← hx0, hxe])]
        cases condOf bc q.2 with
        | none => rfl
        | some f =>
          simp only [Option.map_some, Option.getD_some]
          rw [vscat_at hv.space (by rw [b4]; exact ha), if_pos hc, ← hqf]
          exact y2 f a (by rw [hxe]; exact ha)
      · rw [if_neg (fun h => hc (e1.2 (by rw [← hx0] at h; exact_mod_cast h)))]
        cases condOf bc q.2 with
        | none => rfl
        | some f =>
          simp only [Option.map_some, Option.getD_some]
          rw [vscat_at hv.space (by rw [b4]; exact ha), if_neg hc]
    · rw [hB0 _ hfree, condOf_none hbc.wf]
      · rfl
      · intro h
        obtain ⟨q, hq, hqa⟩ := hbc.occur _ h
        have := (D.wf.parent_bdr q hq).2
        omega
  rw [hL, hR]
  refine list_sum_eq ?_ D.bdrOnce B ?_
  · rw [List.nodup_iff_pairwise_ne, List.pairwise_iff_getElem]
    intro x y hx hy hxy heq
    rw [List.length_map] at hx hy
    rw [List.getElem_map, List.getElem_map] at heq
    have := D.wf.onceFace k x y sm _ _ hk (List.getElem?_eq_getElem hx) (List.getElem?_eq_getElem hy) heq
    omega
  · intro f hf
    have hex : ∃ q ∈ pm.bdr, q.1 = f := by
      by_contra hc
      refine hf (hB0 f fun q hq h => hc ⟨q, hq, h⟩)
    obtain ⟨q, hq, rfl⟩ := hex
    constructor
    · intro _; exact List.mem_map.2 ⟨q, hq, rfl⟩
    · intro _
      rw [hBq q hq] at hf
      unfold bdrLoad at hf
      have hside : (pm.faces[q.1]?).map (·.e0) = some (e : Int) := by
        by_contra hc
        exact hf (if_neg hc)
      cases hfc : pm.faces[q.1]? with
      | none => rw [hfc] at hside; cases hside
      | some fc =>
        rw [hfc] at hside
        have h4 : fc.e0 = e := Option.some.inj hside
        have hown : Owns subs k fc.e0 := by
          rw [h4]; exact At.owns ⟨sm, hk, hi⟩
        obtain ⟨be, hbe, hbf⟩ := D.bdrAll q hq k sm fc hk hfc hown
        exact List.mem_map.2 ⟨be, hbe, hbf⟩

/-! ## Sums over degrees of freedom -/

/-- A sum over the entries of a block is a sum over its elements and their degrees of freedom. -/
theorem sum_block {em : List Nat} {n : Nat → Nat} {s : Space} (h : SpaceFits em n s) (hc : Complete s)
    (G : Nat → R) : ∑ c ∈ range s.vsize, G c =
      ∑ i ∈ range em.length, ∑ b ∈ range (n (em[i]?.getD 0)), G (pos s i b) := by
  have len : ∀ i, i < em.length → (dofsOf s i).length = n (em[i]?.getD 0) := by
    intro i hi
    rw [List.getElem?_eq_getElem hi]
    exact h.size i _ (List.getElem?_eq_getElem hi)
  rw [Finset.sum_sigma']
  symm
  refine Finset.sum_bij (fun p _ => pos s p.1 p.2) ?_ ?_ ?_ ?_
  · rintro ⟨i, b⟩ hp
    simp only [mem_sigma, mem_range] at hp ⊢
    have hi := List.getElem?_eq_getElem hp.1
    have hb : b < (dofsOf s i).length := by rw [len i hp.1]; exact hp.2
    refine (sized_dofs h hi).2.2 _ ?_
    unfold dofAt
    rw [List.getElem?_eq_getElem hb]; exact List.getElem_mem hb
  · rintro ⟨i, b⟩ hp ⟨i', b'⟩ hp' heq
    simp only [mem_sigma, mem_range] at hp hp'
    obtain ⟨h1, h2⟩ := (pos_eq h (by rw [len i hp.1]; exact hp.2) (by rw [len i' hp'.1]; exact hp'.2)).1 heq
    subst h1; subst h2; rfl
  · intro d hd
    obtain ⟨i, a, ha, rfl⟩ := hc d (mem_range.1 hd)
    have hi : i < em.length := by
      rw [← h.count]
      by_contra hn
      unfold dofsOf at ha
      rw [List.getElem?_eq_none (by omega)] at ha
      simp at ha
    refine ⟨⟨i, a⟩, ?_, rfl⟩
    simp only [mem_sigma, mem_range]
    exact ⟨hi, by rw [← len i hi]; exact ha⟩
  · intros; rfl

/-- A sum over the elements of all submeshes is a sum over the elements of the mesh. -/
theorem sum_elems (D : Division pm subs φ g) (hcov : Covers pm subs) (T : Nat → R) :
    ∑ k ∈ range subs.length, ∑ i ∈ range (parents subs k).length, T ((parents subs k)[i]?.getD 0) =
      ∑ e ∈ range pm.elemEdges.length, T e := by
  have at_ : ∀ k i, k < subs.length → i < (parents subs k).length →
      At subs k i ((parents subs k)[i]?.getD 0) := by
    intro k i hk hi
    have hs := List.getElem?_eq_getElem hk
    have hpar : parents subs k = subs[k].elemMap := by unfold parents; rw [hs]; rfl
    refine ⟨subs[k], hs, ?_⟩
    rw [hpar] at hi ⊢
    rw [List.getElem?_eq_getElem hi]; rfl
  rw [Finset.sum_sigma']
  refine Finset.sum_bij (fun p _ => (parents subs p.1)[p.2]?.getD 0) ?_ ?_ ?_ ?_
  · rintro ⟨k, i⟩ hp
    simp only [mem_sigma, mem_range] at hp ⊢
    exact (hcov _).1 ⟨k, (at_ k i hp.1 hp.2).owns⟩
  · rintro ⟨k, i⟩ hp ⟨k', i'⟩ hp' heq
    simp only [mem_sigma, mem_range] at hp hp'
    have a1 := at_ k i hp.1 hp.2
    have a2 := at_ k' i' hp'.1 hp'.2
    dsimp only at heq
    obtain ⟨h1, h2⟩ := (At.eq_iff D a1 a2).2 heq
    subst h1; subst h2; rfl
  · intro e he
    obtain ⟨k, hown⟩ := (hcov e).2 (mem_range.1 he)
    obtain ⟨i, x, ⟨s, h1, h2⟩, h3⟩ := owns_at hown
    have hx : x = e := by exact_mod_cast h3
    subst hx
    have hpar : parents subs k = s.elemMap := by unfold parents; rw [h1]; rfl
    refine ⟨⟨k, i⟩, ?_, ?_⟩
    · simp only [mem_sigma, mem_range]
      refine ⟨(List.getElem?_eq_some_iff.1 h1).1, ?_⟩
      rw [hpar]; exact (List.getElem?_eq_some_iff.1 h2).1
    · dsimp only
      rw [hpar, h2]; rfl
  · intros; rfl

/-! ## Realisation -/

theorem space_complete (em : List Nat) (n : Nat → Nat) : Complete (space em n) := by
  have key : ∀ i, i ≤ em.length → ∀ d, d < offset em n i → ∃ j a, a < (dofsOf (space em n) j).length ∧
      pos (space em n) j a = d := by
    intro i
    induction i with
    | zero => intro _ d hd; unfold offset at hd; simp at hd
    | succ i ih =>
      intro hi d hd
      have he := List.getElem?_eq_getElem (show i < em.length by omega)
      by_cases hlt : d < offset em n i
      · exact ih (by omega) d hlt
      · rw [offset_succ em n he] at hd
        refine ⟨i, d - offset em n i, ?_, ?_⟩
        · rw [space_dofs em n he, length_tab]; omega
        · unfold pos
          rw [space_dofs em n he]
          unfold dofAt
          rw [getElem?_tab, if_pos (by omega), Option.getD_some]
          unfold dofPos
          rw [if_neg (by omega)]; omega
  intro d hd
  refine key em.length (Nat.le_refl _) d ?_
  unfold offset
  rw [List.take_length]
  exact hd

/-- What MFEM could deliver for a right-hand side. -/
def realizeLoads (Ld : Loads R F) (n : Nat → Nat) (subs : List Sub) (φ : Nat → Nat → Nat) :
    List (LView R F) :=
  subs.mapIdx fun k sm => ⟨space sm.elemMap n,
    [fun i => tab (n (sm.elemMap[i]?.getD 0)) (Ld.vol (sm.elemMap[i]?.getD 0))],
    sm.bes.map fun be => some ⟨dofsOf (space sm.elemMap n) be.elem, fun f =>
      tab (n (sm.elemMap[be.elem]?.getD 0)) (Ld.bdr (φ k be.face) f)⟩⟩

theorem ve_tab {m : Nat} {f : Nat → R} {a : Nat} (h : a < m) : ve (tab m f) a = f a := by
  unfold ve
  rw [getElem?_tab, if_pos h]; rfl

theorem realizeLoads_fits (Ld : Loads R F) (n : Nat → Nat) (D : Division pm subs φ g) :
    LoadsFit Ld n pm subs φ (realizeLoads Ld n subs φ) := by
  refine ⟨by unfold realizeLoads; simp, ?_⟩
  intro k sm v hk hv
  unfold realizeLoads at hv
  rw [List.getElem?_mapIdx, hk] at hv
  cases hv
  refine ⟨space_fits _ _, ?_, ?_, by simp, ?_, ?_⟩
  · intro i e hi g hg
    simp only [List.mem_singleton] at hg
    subst hg
    dsimp only
    rw [hi, length_tab]; rfl
  · intro i e a hi ha
    simp only [List.map_cons, List.map_nil, List.sum_cons, List.sum_nil, add_zero]
    rw [hi]
    exact ve_tab ha
  · intro b be x hb hx
    rw [List.getElem?_map, hb] at hx
    cases hx
    obtain ⟨_, y, _, _, hy, _⟩ := D.wf.onFace k b sm be hk hb
    refine ⟨rfl, fun f => ?_⟩
    dsimp only
    rw [hy, length_tab, space_dofs _ _ hy, length_tab]; rfl
  · intro b be x q hb _ hqf hx
    refine ⟨_, by rw [List.getElem?_map, hb]; rfl, ?_⟩
    intro f a ha
    rw [hqf]
    dsimp only
    rw [hx]
    exact ve_tab ha

omit [CommRing R] in
theorem map_mapIdx {α β γ : Type} (l : List α) (f : Nat → α → β) (h : β → γ) :
    (l.mapIdx f).map h = l.mapIdx fun i x => h (f i x) := by
  apply List.ext_getElem?
  intro i
  rw [List.getElem?_map, List.getElem?_mapIdx, List.getElem?_mapIdx, Option.map_map]; rfl

theorem realize_same (W : Whole R) (Ld : Loads R F) (flips : Nat → Nat → Bool) :
    SameSpaces (realize W pm subs φ flips) (realizeLoads Ld W.nt subs φ) := by
  unfold SameSpaces realize realizeLoads
  rw [map_mapIdx, map_mapIdx]; rfl

omit [CommRing R] in
theorem realize_complete (W : Whole R) (flips : Nat → Nat → Bool) :
    (∀ v ∈ realize W pm subs φ flips, Complete v.test) ∧
      ∀ v ∈ realize W pm subs φ flips, Complete v.trial := by
  constructor <;>
  · intro v hv
    obtain ⟨k, hk⟩ := List.mem_iff_getElem?.1 hv
    unfold realize at hk
    rw [List.getElem?_mapIdx] at hk
    cases hs : subs[k]? with
    | none => rw [hs] at hk; cases hk
    | some sm => rw [hs] at hk; cases hk; exact space_complete _ _

omit [CommRing R] in
theorem covers_of_check (h : (∀ e < pm.elemEdges.length, ∃ sm ∈ subs, e ∈ sm.elemMap) ∧
    ∀ sm ∈ subs, ∀ e ∈ sm.elemMap, e < pm.elemEdges.length) : Covers pm subs := by
  intro e
  constructor
  · rintro ⟨k, sm, hk, x, hx, hxe⟩
    have := h.2 sm (List.mem_of_getElem? hk) x hx
    omega
  · intro he
    obtain ⟨sm, h1, h2⟩ := h.1 e he
    obtain ⟨k, hk⟩ := List.mem_iff_getElem?.1 h1
    exact ⟨k, sm, hk, e, h2, rfl⟩

/-- Every division and every choice of integrals are met also for the Stokes equations. -/
theorem realize_stokes (W W' : Whole R) (Ld Ld' : Loads R F) (hn : W.ns = W.nt) (hn' : W'.ns = W.nt)
    (flips : Nat → Nat → Bool) (D : Division pm subs φ g) :
    StokesForms W W' Ld Ld' pm subs φ (subs.map fun sm => space sm.elemMap W.nt)
      (subs.map fun sm => space sm.elemMap W'.nt) (realize W pm subs φ flips)
      (realize W' pm subs φ flips) [innerInt W] [innerInt W'] [some (itfInt W)] [some (itfInt W')]
      (realizeLoads Ld W.nt subs φ) (realizeLoads Ld' W'.nt subs φ) := by
  have hm : ∀ (f : Sub → Space), subs.mapIdx (fun _ sm => f sm) = subs.map f := by
    intro f
    apply List.ext_getElem?
    intro i
    rw [List.getElem?_mapIdx, List.getElem?_map]
  refine ⟨realize_fits W flips D, realize_fits W' flips D, realizeLoads_fits Ld _ D,
    realizeLoads_fits Ld' _ D, ?_, ?_, ?_, ?_, ?_, ?_, ?_, ?_⟩
  · unfold realize; rw [map_mapIdx]; exact hm fun sm => space sm.elemMap W.nt
  · unfold realize; rw [map_mapIdx, ← hn]; exact hm fun sm => space sm.elemMap W.ns
  · unfold realize; rw [map_mapIdx, ← hn']; exact hm fun sm => space sm.elemMap W'.ns
  · unfold realize; rw [map_mapIdx]; exact hm fun sm => space sm.elemMap W'.nt
  · unfold realizeLoads; rw [map_mapIdx]; exact hm fun sm => space sm.elemMap W.nt
  · unfold realizeLoads; rw [map_mapIdx]; exact hm fun sm => space sm.elemMap W'.nt
  · intro s hs; obtain ⟨sm, _, rfl⟩ := List.mem_map.1 hs; exact space_complete _ _
  · intro s hs; obtain ⟨sm, _, rfl⟩ := List.mem_map.1 hs; exact space_complete _ _

end Verif.Divide
