import Verif.Proofs.RomAssembly
import Verif.Props.CompSetup
import Verif.Props.InterfaceForm

/-! # Lemmas about forms on copies of components -/

namespace Verif.RomAssembly

open Verif Verif.LinAlg Verif.LinAlg.Spec Finset Spec
open Verif.InterfaceForm.Spec (scatter dofPos)
open Verif.Boundary (BC weakOf)

variable {R δ F : Type} [CommRing R]

/-! ## Boundary integrators -/

omit [CommRing R] in
theorem foldl_max_ge (l : List Int) (a : Int) : a ≤ l.foldl max a ∧ ∀ b ∈ l, b ≤ l.foldl max a := by
  induction l generalizing a with
  | nil => exact ⟨le_refl _, by simp⟩
  | cons x l ih =>
    obtain ⟨h1, h2⟩ := ih (max a x)
    refine ⟨le_trans (le_max_left _ _) h1, ?_⟩
    intro b hb
    rcases List.mem_cons.1 hb with rfl | hb
    · exact le_trans (le_max_right _ _) h1
    · exact h2 b hb

omit [CommRing R] in
theorem maxOr_ge {l : List Int} {a : Int} (h : a ∈ l) : a ≤ maxOr l := by
  cases l with
  | nil => simp at h
  | cons x l =>
    obtain ⟨h1, h2⟩ := foldl_max_ge l x
    rcases List.mem_cons.1 h with rfl | hb
    · exact h1
    · exact h2 a hb

/-- Entry of a marker for attribute `a`. -/
def mkAt (mk : List Int) (a : Int) : Int := mk[(a - 1).toNat]?.getD 0

omit [CommRing R] in
theorem unionMarker_spec (n : Nat) (mks : List (List Int)) (h : ∀ mk ∈ mks, n ≤ mk.length) :
    ∃ u, unionMarker n mks = .ok u ∧ u.length = n ∧
      ∀ i, i < n → u[i]? = some (mks.any fun mk => mk[i]?.getD 0 != 0) := by
  unfold unionMarker
  obtain ⟨u, e, hl, hu⟩ := loop_total (n := mks.length) (s := List.replicate n false)
    (body := fun k u => do
      let mk ← rd mks k
      loop n (fun i u => do
        let x ← rd mk i
        let o ← rd u i
        wr u i (o || x != 0)) u)
    (fun k u => u.length = n ∧ ∀ i, i < n → u[i]? = some ((mks.take k).any fun mk => mk[i]?.getD 0 != 0))
    ⟨by simp, fun i hi => by simp [hi]⟩ (by
      rintro k u hk ⟨hl, hu⟩
      have hn := h _ (List.getElem_mem hk)
      obtain ⟨v, e, hl', hv⟩ := loop_total (n := n) (s := u)
        (body := fun i u => do
          let x ← rd mks[k] i
          let o ← rd u i
          wr u i (o || x != 0))
        (fun j v => v.length = n ∧ ∀ i, i < n → v[i]? = if i < j then
          some ((u[i]?.getD false) || (mks[k][i]?.getD 0 != 0)) else u[i]?)
        ⟨hl, fun i _ => by simp⟩ (by
          rintro j v hj ⟨hl', hv⟩
          refine ⟨v.set j (v[j] || (mks[k][j] != 0)), ?_, by simp [hl'], ?_⟩
          · rw [rd_of_lt (by omega), ok_bind, rd_of_lt (by omega), ok_bind, wr_of_lt (by omega)]
          · intro i hi
            rw [List.getElem?_set]
            by_cases hij : j = i
            · subst hij
              rw [if_pos rfl, if_pos (by omega), if_pos (by omega)]
              have h1 := hv j hi
              rw [if_neg (by omega)] at h1
              rw [← h1]
              simp [show j < v.length by omega, show j < mks[k].length by omega]
            · rw [if_neg hij, hv i hi]
              by_cases h2 : i < j
              · rw [if_pos h2, if_pos (by omega)]
              · rw [if_neg h2, if_neg (by omega)])
      refine ⟨v, by rw [rd_of_lt hk, ok_bind, e], hl', ?_⟩
      intro i hi
      rw [hv i hi, if_pos hi, hu i hi, List.take_succ, List.getElem?_eq_getElem hk]
      simp only [Option.getD_some, Option.toList_some, List.any_append, List.any_cons, List.any_nil,
        Bool.or_false])
  refine ⟨u, e, hl, fun i hi => ?_⟩
  rw [hu i hi, List.take_length]

theorem addMarked_spec {mks : List (List Int)} {a : Int} (ha : 0 < a)
    (hm : ∀ mk ∈ mks, (a - 1).toNat < mk.length) {f : BFace R} {s : Sp R}
    (h1 : MatOk f.mat) (h2 : f.mat.h = f.rows.length) (h3 : f.mat.w = f.cols.length)
    (h4 : ∀ d ∈ f.rows, dofPos d < s.h) (h5 : ∀ d ∈ f.cols, dofPos d < s.w) :
    ∃ s', addMarked mks a f s = .ok s' ∧ (s'.h = s.h ∧ s'.w = s.w) ∧
      (fun r c => s'.get r c) = (fun r c => s.get r c) +
        (mks.map fun mk => if mkAt mk a = 0 then 0 else scatter f.rows f.cols f.mat).sum := by
  unfold addMarked
  refine loop_list_acc (l := mks) (fun t : Sp R => t.h = s.h ∧ t.w = s.w)
    (fun t => fun r c => t.get r c)
    (fun mk => if mkAt mk a = 0 then 0 else scatter f.rows f.cols f.mat) ⟨rfl, rfl⟩ ?_
  rintro k mk t hmk hk ⟨t1, t2⟩
  have hlt := hm mk hmk
  have hrd : rdI mk (a - 1) = .ok (mkAt mk a) := by
    rw [CompSetup.rdI_ok]
    refine ⟨(a - 1).toNat, by omega, ?_⟩
    unfold mkAt; rw [List.getElem?_eq_getElem hlt]; rfl
  by_cases hz : mkAt mk a = 0
  · refine ⟨t, ?_, ⟨t1, t2⟩, ?_⟩
    · rw [hk, ok_bind, hrd, ok_bind, if_pos hz]
    · rw [if_pos hz, add_zero]
  · obtain ⟨t', e, ⟨d1, d2⟩, d3⟩ := InterfaceForm.addSubMatrix_spec (s := t) (by rw [t1]; exact h4)
      (by rw [t2]; exact h5) h2 h3 h1
    refine ⟨t', ?_, ⟨d1.trans t1, d2.trans t2⟩, ?_⟩
    · rw [hk, ok_bind, hrd, ok_bind, if_neg hz, e]
    · rw [if_neg hz]; funext r c; exact d3 r c

/-- What the boundary integrators with markers `mks` add. -/
def bdrTerm (attrs : List Int) (mks : List (List Int)) (f : BForm R) : Nat → Nat → R :=
  ∑ i ∈ range attrs.length,
    (mks.map fun mk => if mkAt mk (attrs[i]?.getD 0) = 0 then 0 else faceVal f i).sum

theorem assembleBdr_spec {attrList attrs : List Int} {mks : List (List Int)} {f : BForm R} {s : Sp R}
    (ha : ∀ a ∈ attrs, 0 < a ∧ a ≤ maxOr attrList)
    (hm : ∀ mk ∈ mks, (maxOr attrList).toNat ≤ mk.length)
    (hf : BFormOk f attrs.length) (h1 : s.h = f.base.h) (h2 : s.w = f.base.w) :
    ∃ s', assembleBdr attrList attrs mks f.bel s = .ok s' ∧ (s'.h = s.h ∧ s'.w = s.w) ∧
      (fun r c => s'.get r c) = (fun r c => s.get r c) + bdrTerm attrs mks f := by
  unfold assembleBdr
  by_cases h0 : mks.length = 0
  · rw [if_pos h0]
    refine ⟨s, rfl, ⟨rfl, rfl⟩, ?_⟩
    have : mks = [] := List.length_eq_zero_iff.1 h0
    unfold bdrTerm
    rw [this]
    simp
  · rw [if_neg h0]
    obtain ⟨u, e, hl, hu⟩ := unionMarker_spec _ mks hm
    rw [e, ok_bind]
    unfold bdrTerm
    refine loop_acc (fun t : Sp R => t.h = s.h ∧ t.w = s.w) (fun t => fun r c => t.get r c)
      (fun i => (mks.map fun mk => if mkAt mk (attrs[i]?.getD 0) = 0 then 0 else faceVal f i).sum)
      ⟨rfl, rfl⟩ ?_
    rintro i t hi ⟨t1, t2⟩
    obtain ⟨p1, p2⟩ := ha _ (List.getElem_mem hi)
    have hbel : i < f.bel.length := by rw [hf.count]; exact hi
    have hlt : (attrs[i] - 1).toNat < (maxOr attrList).toNat := by omega
    have hx := hu _ hlt
    have hrd : rdI u (attrs[i] - 1) = .ok (mks.any fun mk => mkAt mk attrs[i] != 0) :=
      CompSetup.rdI_ok.2 ⟨(attrs[i] - 1).toNat, by omega, hx⟩
    rw [show attrs[i]?.getD 0 = attrs[i] by simp [hi]]
    cases hany : mks.any (fun mk => mkAt mk attrs[i] != 0) with
    | false =>
      refine ⟨t, ?_, ⟨t1, t2⟩, ?_⟩
      · unfold addBdrElem
        rw [rd_of_lt hi, ok_bind, hrd, ok_bind, rd_of_lt hbel, ok_bind, hany]; rfl
      · rw [List.sum_eq_zero, add_zero]
        intro x hx
        obtain ⟨mk, hmk, rfl⟩ := List.mem_map.1 hx
        rw [if_pos]
        have := List.any_eq_false.1 hany mk hmk
        simpa using this
    | true =>
      cases hface : f.bel[i] with
      | none =>
        refine ⟨t, ?_, ⟨t1, t2⟩, ?_⟩
        · unfold addBdrElem
          rw [rd_of_lt hi, ok_bind, hrd, ok_bind, rd_of_lt hbel, ok_bind, hany, hface]; rfl
        · have hz : faceVal f i = (0 : Nat → Nat → R) := by
            funext r c; unfold faceVal; rw [List.getElem?_eq_getElem hbel, hface]; rfl
          rw [hz, List.sum_eq_zero, add_zero]
          intro x hx
          obtain ⟨mk, hmk, rfl⟩ := List.mem_map.1 hx
          split <;> rfl
      | some x =>
        obtain ⟨f1, f2, f3, f4, f5⟩ := hf.face x (hface ▸ List.getElem_mem hbel)
        obtain ⟨t', e', ⟨d1, d2⟩, d3⟩ := addMarked_spec (s := t) p1
          (fun mk hmk => by have := hm mk hmk; omega) f1 f2 f3
          (by rw [t1, h1]; exact f4) (by rw [t2, h2]; exact f5)
        refine ⟨t', ?_, ⟨d1.trans t1, d2.trans t2⟩, ?_⟩
        · unfold addBdrElem
          rw [rd_of_lt hi, ok_bind, hrd, ok_bind, rd_of_lt hbel, ok_bind, hany, hface]
          exact e'
        · have hz : faceVal f i = scatter x.rows x.cols x.mat := by
            funext r c; unfold faceVal; rw [List.getElem?_eq_getElem hbel, hface]
          rw [hz]; exact d3

/-! ## Which boundaries are active -/

omit [CommRing R] in
theorem weak_iff {bc : BC F} {g : Int} :
    Weak bc g ↔ ∃ k, bc.attrs[k]? = some g ∧ (weakOf bc k).isSome = true := by
  unfold Weak weakOf
  constructor
  · rintro ⟨k, f, h1, h2, h3⟩
    refine ⟨k, h1, ?_⟩
    rw [h2]; simp [h3]
  · rintro ⟨k, h1, h2⟩
    cases hc : bc.coeffs[k]? with
    | none => rw [hc] at h2; simp at h2
    | some x =>
      cases x with
      | none => rw [hc] at h2; simp at h2
      | some f =>
        rw [hc] at h2
        refine ⟨k, f, h1, hc, ?_⟩
        intro hn
        simp [hn] at h2

theorem sum_filter_range {V : Type} [AddCommMonoid V] (n : Nat) (P : Nat → Bool) (g : Nat → V) :
    (((List.range n).filter P).map g).sum = ∑ b ∈ range n, if P b then g b else 0 := by
  induction n with
  | zero => simp
  | succ n ih =>
    rw [List.range_succ, List.filter_append, List.map_append, List.sum_append, ih, sum_range_succ]
    congr 1
    by_cases h : P n = true <;> simp [h]

theorem sum_filterMap_range {V : Type} [AddCommMonoid V] (n : Nat) (P : Nat → Bool)
    (g : Nat × Unit → V) :
    (((List.range n).filterMap fun b => if P b then some (b, ()) else none).map g).sum =
      ∑ b ∈ range n, if P b then g (b, ()) else 0 := by
  induction n with
  | zero => simp
  | succ n ih =>
    rw [List.range_succ, List.filterMap_append, List.map_append, List.sum_append, ih, sum_range_succ]
    congr 1
    by_cases h : P n = true <;> simp [h]

open Classical in
theorem sum_unique {V : Type} [AddCommMonoid V] {l : List Int} (hl : l.Nodup) (g : Int) (P : Nat → Prop)
    (x : V) (n : Nat) (hn : n = l.length) :
    (∑ b ∈ range n, if P b then (if l[b]? = some g then x else 0) else 0) =
      if ∃ k, l[k]? = some g ∧ P k then x else 0 := by
  by_cases h : ∃ k, l[k]? = some g ∧ P k
  · obtain ⟨k, h1, h2⟩ := h
    have hk := (List.getElem?_eq_some_iff.1 h1).1
    rw [if_pos ⟨k, h1, h2⟩, sum_eq_single k]
    · rw [if_pos h2, if_pos h1]
    · intro b _ hb
      split
      · rw [if_neg]
        intro hbg
        have hblt := (List.getElem?_eq_some_iff.1 hbg).1
        apply hb
        exact (List.Nodup.getElem_inj_iff hl (hi := hblt) (hj := hk)).1 (by
          rw [List.getElem?_eq_getElem hblt] at hbg
          rw [List.getElem?_eq_getElem hk] at h1
          exact (Option.some.inj hbg).trans (Option.some.inj h1).symm)
      · rfl
    · intro hnot; exact absurd (mem_range.2 (by omega)) hnot
  · rw [if_neg h, sum_eq_zero]
    intro b _
    split
    · rename_i hp
      rw [if_neg]
      intro hb
      exact h ⟨b, hb, hp⟩
    · rfl

theorem markers_ok {attrs : List Int} {mx : Int} {mks : List (List Int)}
    (h : Boundary.markers attrs mx = .ok mks) : ∀ a ∈ attrs, 0 < a ∧ a ≤ mx := by
  unfold Boundary.markers at h
  have := loop_inv (fun k (_ : List (List Int)) => ∀ j, j < k → ∀ a, attrs[j]? = some a →
    0 < a ∧ a ≤ mx) (by intro j hj; omega) (by
      intro k s s' hk hI hs j hj a ha
      by_cases hjk : j = k
      · subst hjk
        simp only [bind_eq_ok] at hs
        obtain ⟨a', h1, _, h2, _⟩ := hs
        rw [rd_eq_ok] at h1
        rw [ha] at h1; cases h1
        simpa using require_eq_ok.1 h2
      · exact hI j (by omega) a ha) h
  intro a ha
  obtain ⟨k, hk⟩ := List.mem_iff_getElem?.1 ha
  exact this k (List.getElem?_eq_some_iff.1 hk).1 a hk

theorem arrMax_maxOr {l : List Int} {a : Int} (h : CompSetup.arrMax l = .ok a) : maxOr l = a := by
  cases l with
  | nil => cases h
  | cons x l => cases h; rfl

theorem bdrMarkers_ok {battrs : List Int} {mesh : List (List Int × List Int)}
    {mks : List (List Int)} (h : bdrMarkers battrs mesh = .ok mks) :
    ∃ mx, (∀ e ∈ mesh, maxOr e.2 ≤ mx) ∧ Boundary.markers battrs mx = .ok mks := by
  unfold bdrMarkers at h
  simp only [bind_eq_ok] at h
  obtain ⟨mx, h1, h2⟩ := h
  refine ⟨mx, ?_, h2⟩
  have := loop_inv (fun k (x : Int) => ∀ j, j < k → ∀ e, mesh[j]? = some e → maxOr e.2 ≤ x)
    (by intro j hj; omega) (by
      intro k s s' hk hI hs j hj e he
      simp only [bind_eq_ok] at hs
      obtain ⟨e', h1, a, h2, h3⟩ := hs
      cases h3
      by_cases hjk : j = k
      · subst hjk
        rw [rd_eq_ok] at h1
        rw [he] at h1; cases h1
        rw [arrMax_maxOr h2]; exact le_max_right _ _
      · exact le_trans (hI j (by omega) e he) (le_max_left _ _)) h1
  intro e he
  obtain ⟨k, hk⟩ := List.mem_iff_getElem?.1 he
  exact this k (List.getElem?_eq_some_iff.1 hk).1 e hk

theorem pickMarkers_eq {act : List (Nat × Unit)} {mks : List (List Int)}
    (h : ∀ x ∈ act, x.1 < mks.length) :
    pickMarkers act mks = .ok (act.map fun x => mks[x.1]?.getD []) := by
  unfold pickMarkers
  have := loop_spec (n := act.length) (body := fun k acc => do
      let a ← rd act k
      let mk ← rd mks a.1
      return acc ++ [mk]) (s := []) (fun k => (act.take k).map fun x => mks[x.1]?.getD []) (by simp) (by
    intro k hk
    have hx := h _ (List.getElem_mem hk)
    rw [rd_of_lt hk, ok_bind, rd_of_lt hx, ok_bind, List.take_add_one, List.getElem?_eq_getElem hk]
    simp only [Option.toList_some, List.map_append, List.map_cons, List.map_nil,
      List.getElem?_eq_getElem hx, Option.getD_some]
    rfl)
  rw [this, List.take_length]

open Classical in
/-- What the boundary conditions add to the form of a subdomain whose boundary elements have
attributes `attrs`. -/
noncomputable def weakTerm (bc : BC F) (attrs : List Int) (f : BForm R) : Nat → Nat → R :=
  ∑ i ∈ range attrs.length, if Weak bc (attrs[i]?.getD 0) then faceVal f i else 0

theorem domainMatrix_spec {bc : BC F} {mx : Int} {mks : List (List Int)}
    {e : List Int × List Int} {f : BForm R} (hw : Boundary.Wf bc)
    (hm : Boundary.markers bc.attrs mx = .ok mks) (hx : maxOr e.2 ≤ mx) (hn : bc.attrs.Nodup)
    (he : Topology.Spec.AttributeList e.1 e.2) (hp : ∀ a ∈ e.1, 0 < a)
    (hf : BFormOk f e.1.length) :
    ∃ s, domainMatrix bc mks e f = .ok s ∧ (s.h = f.base.h ∧ s.w = f.base.w) ∧
      (fun r c => s.get r c) = (fun r c => f.base.get r c) + weakTerm bc e.1 f := by
  classical
  obtain ⟨ms, hms, hl, hmk⟩ := Boundary.markers_spec (markers_ok hm)
  rw [hm] at hms; cases hms
  unfold domainMatrix
  rw [Boundary.lhsBC_eq hw, ok_bind]
  have hact : ((List.range bc.attrs.length).filterMap fun b =>
      if (bc.attrs[b]?).any (· ∈ e.2) then ((weakOf bc b).map fun _ => ()).map (fun x => (b, x))
      else none) = (List.range bc.attrs.length).filterMap fun b =>
      if ((bc.attrs[b]?).any (· ∈ e.2) && (weakOf bc b).isSome) then some (b, ()) else none := by
    apply List.filterMap_congr
    intro b _
    by_cases h1 : (bc.attrs[b]?).any (· ∈ e.2) = true
    · rw [if_pos h1, h1]
      cases weakOf bc b <;> simp
    · rw [if_neg h1]
      rw [Bool.not_eq_true] at h1
      rw [h1]; simp
  rw [hact, pickMarkers_eq, ok_bind]
  swap
  · rintro x hxm
    rw [List.mem_filterMap] at hxm
    obtain ⟨b, hb, hb'⟩ := hxm
    split at hb'
    · cases hb'
      rw [hl]; simpa using hb
    · cases hb'
  have hlen : ∀ mk ∈ mks, mk.length = mx.toNat := by
    intro mk hmem
    obtain ⟨k, hk⟩ := List.mem_iff_getElem?.1 hmem
    have hlt := (List.getElem?_eq_some_iff.1 hk).1
    obtain ⟨mk', h1, h2, _⟩ := hmk k _ (List.getElem?_eq_getElem (by omega))
    rw [hk] at h1; cases h1; exact h2
  obtain ⟨s, hs, hsz, hent⟩ := assembleBdr_spec (attrList := e.2) (attrs := e.1)
    (mks := ((List.range bc.attrs.length).filterMap fun b =>
      if ((bc.attrs[b]?).any (· ∈ e.2) && (weakOf bc b).isSome) then some (b, ()) else none).map
        fun x => mks[x.1]?.getD []) (f := f) (s := f.base)
    (fun a ha => ⟨hp a ha, maxOr_ge ((he.complete a).2 ha)⟩) (by
      intro mk hmem
      obtain ⟨x, hxm, rfl⟩ := List.mem_map.1 hmem
      rw [List.mem_filterMap] at hxm
      obtain ⟨b, hb, hb'⟩ := hxm
      split at hb'
      · cases hb'
        have hblt : b < mks.length := by rw [hl]; simpa using hb
        rw [List.getElem?_eq_getElem hblt, Option.getD_some, hlen _ (List.getElem_mem hblt)]
        omega
      · cases hb') hf rfl rfl
  refine ⟨s, hs, hsz, hent.trans ?_⟩
  congr 1
  unfold bdrTerm weakTerm
  apply sum_congr rfl
  intro i hi
  rw [mem_range] at hi
  rw [List.map_map]
  set a := e.1[i]?.getD 0 with ha
  have hai : e.1[i]? = some a := by rw [ha, List.getElem?_eq_getElem hi]; rfl
  have hmem : a ∈ e.1 := List.mem_of_getElem? hai
  have hmem2 : a ∈ e.2 := (he.complete a).2 hmem
  rw [sum_filterMap_range]
  have := sum_unique (V := Nat → Nat → R) hn a
    (fun b => ((bc.attrs[b]?).any (· ∈ e.2) && (weakOf bc b).isSome) = true) (faceVal f i)
    bc.attrs.length rfl
  refine Eq.trans (sum_congr rfl ?_) (this.trans ?_)
  · intro b hb
    rw [mem_range] at hb
    congr 1
    obtain ⟨mk, h1, _, h3⟩ := hmk b _ (List.getElem?_eq_getElem hb)
    have hval : mkAt (mks[b]?.getD []) a = if a = bc.attrs[b] then 1 else 0 := by
      unfold mkAt
      rw [h1, Option.getD_some, h3 a (hp a hmem) (le_trans (maxOr_ge hmem2) hx)]; rfl
    show (if mkAt (mks[b]?.getD []) a = 0 then 0 else faceVal f i) = _
    rw [List.getElem?_eq_getElem hb] at *
    by_cases hab : a = bc.attrs[b]
    · rw [if_pos hab] at hval
      rw [if_neg (by rw [hval]; decide), if_pos (by rw [hab])]
    · rw [if_neg hab] at hval
      rw [if_pos hval, if_neg (by simpa using fun h => hab h.symm)]
  · congr 1
    rw [weak_iff]
    apply propext
    constructor
    · rintro ⟨k, h1, h2⟩
      rw [Bool.and_eq_true] at h2
      exact ⟨k, h1, h2.2⟩
    · rintro ⟨k, h1, h2⟩
      refine ⟨k, h1, ?_⟩
      rw [h1, h2]; simpa using hmem2

open Classical in
/-- What boundary `b` of a component adds. -/
noncomputable def bdrOnly (comp : CompSetup.Comp) (f : BForm R) (b : Nat) : Nat → Nat → R :=
  ∑ i ∈ range comp.beAttr.length,
    if comp.bdrAttributes[b]? = some (comp.beAttr[i]?.getD 0) then faceVal f i else 0

theorem compBdrMatrix_spec {comp : CompSetup.Comp} {f : BForm R} {b : Nat}
    (hb : b < comp.bdrAttributes.length) (hp : ∀ a ∈ comp.bdrAttributes, 0 < a)
    (hc : ∀ a ∈ comp.beAttr, a ∈ comp.bdrAttributes) (hf : BFormOk f comp.beAttr.length) :
    ∃ s, compBdrMatrix comp f b = .ok s ∧ (s.h = f.base.h ∧ s.w = f.base.w) ∧
      (fun r c => s.get r c) = bdrOnly comp f b := by
  classical
  have ha := hp _ (List.getElem_mem hb)
  have hle := maxOr_ge (List.getElem_mem hb)
  unfold compBdrMatrix compMarker
  rw [rd_of_lt hb, ok_bind, CompSetup.wrI_ok.2
    ⟨(comp.bdrAttributes[b] - 1).toNat, by omega, by simp; omega, rfl⟩, ok_bind]
  obtain ⟨s, hs, hsz, hent⟩ := assembleBdr_spec (attrList := comp.bdrAttributes) (attrs := comp.beAttr)
    (mks := [(List.replicate (maxOr comp.bdrAttributes).toNat (0 : Int)).set
      (comp.bdrAttributes[b] - 1).toNat 1]) (f := f) (s := ⟨f.base.h, f.base.w, []⟩)
    (fun a ha => ⟨hp a (hc a ha), maxOr_ge (hc a ha)⟩) (by simp) hf rfl rfl
  refine ⟨s, hs, hsz, hent.trans ?_⟩
  have h0 : (fun r c => Sp.get (⟨f.base.h, f.base.w, []⟩ : Sp R) r c) = 0 := rfl
  rw [h0, zero_add]
  unfold bdrTerm bdrOnly
  apply sum_congr rfl
  intro i hi
  rw [mem_range] at hi
  rw [List.map_cons, List.map_nil, List.sum_cons, List.sum_nil, add_zero]
  rw [List.getElem?_eq_getElem hi, Option.getD_some, List.getElem?_eq_getElem hb]
  have hai := hc _ (List.getElem_mem hi)
  have hpi := hp _ hai
  have hlei := maxOr_ge hai
  by_cases hab : comp.bdrAttributes[b] = comp.beAttr[i]
  · have : mkAt ((List.replicate (maxOr comp.bdrAttributes).toNat (0 : Int)).set
        (comp.bdrAttributes[b] - 1).toNat 1) comp.beAttr[i] = 1 := by
      unfold mkAt
      rw [hab, List.getElem?_set, if_pos rfl, List.length_replicate, if_pos (by omega)]; rfl
    rw [this, hab, if_pos rfl, if_neg (by decide)]
  · have : mkAt ((List.replicate (maxOr comp.bdrAttributes).toNat (0 : Int)).set
        (comp.bdrAttributes[b] - 1).toNat 1) comp.beAttr[i] = 0 := by
      unfold mkAt
      rw [List.getElem?_set, if_neg (by omega), List.getElem?_replicate, if_pos (by omega)]; rfl
    rw [this, if_pos rfl, if_neg (by simpa using hab)]

/-- The boundaries of a component that are not skipped add what the boundary conditions add to the
subdomain. -/
theorem sum_bdrOnly {bc : BC F} (hn : bc.attrs.Nodup) {comp : CompSetup.Comp} {row attrs : List Int}
    (hr : row.length = comp.bdrAttributes.length) (hd : comp.bdrAttributes.Nodup)
    (hl : attrs.length = comp.beAttr.length)
    (hbe : ∀ be, be < comp.beAttr.length → ∃ g, attrs[be]? = some g ∧
      CompSetup.bdrElemAttr comp row be = .ok g)
    {act : List Nat} (hact : act = (List.range row.length).filter fun b => match row[b]? with
      | some a => match bc.attrs.findIdx? (· == a) with
        | some g => (weakOf bc g).isSome
        | none => false
      | none => false) (f : BForm R) :
    (act.map fun b => bdrOnly comp f b).sum = weakTerm bc attrs f := by
  classical
  rw [hact, sum_filter_range]
  unfold bdrOnly weakTerm
  rw [hl]
  have hswap : ∀ (P : Nat → Bool) (n k : Nat) (g : Nat → Nat → Nat → Nat → R),
      (∑ b ∈ range n, if P b = true then ∑ i ∈ range k, g b i else 0) =
        ∑ i ∈ range k, ∑ b ∈ range n, if P b = true then g b i else 0 := by
    intro P n k g
    rw [sum_comm]
    apply sum_congr rfl
    intro b _
    split
    · rfl
    · rw [sum_const_zero]
  rw [hswap]
  apply sum_congr rfl
  intro i hi
  rw [mem_range] at hi
  obtain ⟨g, hg, hge⟩ := hbe i hi
  obtain ⟨h0, a, j, ha, hmem, hj, hrow⟩ := CompSetup.bdrElemAttr_ok hge
  have hfi := Topology.arrFind_spec hmem
  obtain ⟨j', hj', hja⟩ := hfi
  have hjj : j = j' := by have := hj.symm.trans hj'; exact_mod_cast this
  subst hjj
  have hpick := sum_unique (V := Nat → Nat → R) hd a
    (fun b => (match row[b]? with
      | some a => match bc.attrs.findIdx? (· == a) with
        | some g => (weakOf bc g).isSome
        | none => false
      | none => false) = true) (faceVal f i) row.length hr
  rw [ha, hg]
  refine (sum_congr rfl fun b _ => ?_).trans (hpick.trans ?_)
  · congr
  congr 1
  apply propext
  simp only [Option.getD_some]
  rw [weak_iff]
  constructor
  · rintro ⟨k, h1, h2⟩
    have hk : k = j := by
      have h3 := (List.getElem?_eq_some_iff.1 h1)
      have h4 := (List.getElem?_eq_some_iff.1 hja)
      exact (List.Nodup.getElem_inj_iff hd (hi := h3.1) (hj := h4.1)).1 (h3.2.trans h4.2.symm)
    subst hk
    rw [hrow] at h2
    dsimp only at h2
    cases hfd : bc.attrs.findIdx? (· == g) with
    | none => rw [hfd] at h2; cases h2
    | some n =>
      rw [hfd] at h2
      obtain ⟨hn1, hn2, _⟩ := List.findIdx?_eq_some_iff_getElem.1 hfd
      refine ⟨n, ?_, h2⟩
      rw [List.getElem?_eq_getElem hn1]
      simpa using hn2
  · rintro ⟨k, h1, h2⟩
    refine ⟨j, hja, ?_⟩
    rw [hrow]
    dsimp only
    have h3 := (List.getElem?_eq_some_iff.1 h1)
    have : bc.attrs.findIdx? (· == g) = some k := by
      rw [List.findIdx?_eq_some_iff_getElem]
      refine ⟨h3.1, by simp [h3.2], ?_⟩
      intro q hq hqe
      have hql : q < bc.attrs.length := lt_trans hq h3.1
      have hqe' : bc.attrs[q] = g := by simpa using hqe
      have := (List.Nodup.getElem_inj_iff hn (hi := hql) (hj := h3.1)).1 (hqe'.trans h3.2.symm)
      omega
    rw [this]; exact h2

end Verif.RomAssembly
