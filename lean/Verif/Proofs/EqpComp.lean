import Verif.Proofs.EqpStore
import Verif.Proofs.Boundary
import Verif.Spec.EqpComp

/-! Helper lemmas about the samples of components and subdomains. -/

namespace Verif.EqpComp

open Verif Verif.Hdf5 Verif.EqpStore Verif.EqpComp.Spec
open Verif.Boundary (BdrType)
open Verif.Topology (arrFind)

variable {R : Type}

/-! ### Ownership, for any set of slots -/

/-- Slots `ι` own the live elements of the heap, one each, with values `val`. -/
structure Own {ι : Type} (ptr : ι → Option Nat) (h : Heap R) (val : ι → Option (Samples R)) : Prop where
  val : ∀ i, (ptr i).bind (cell h) = val i
  live : ∀ i a, ptr i = some a → (cell h a).isSome
  inj : ∀ i j a, ptr i = some a → ptr j = some a → i = j
  own : ∀ a, (cell h a).isSome → ∃ i, ptr i = some a

theorem Own.put {ι : Type} [DecidableEq ι] {ptr : ι → Option Nat} {h : Heap R}
    {val : ι → Option (Samples R)} (o : Own ptr h val) (i : ι) (v : Samples R) :
    ∃ h1, h.release (ptr i) = .ok h1 ∧
      Own (Function.update ptr i (some h1.length)) (h1 ++ [some v]) (Function.update val i (some v)) := by
  obtain ⟨h1, e1, hc, hlen⟩ : ∃ h1 : Heap R, h.release (ptr i) = .ok h1 ∧
      (∀ b, cell h1 b = if ptr i = some b then none else cell h b) ∧ h1.length = h.length := by
    cases e : ptr i with
    | none => exact ⟨h, rfl, fun b => by simp, rfl⟩
    | some a =>
      obtain ⟨w, hw⟩ := Option.isSome_iff_exists.1 (o.live i a e)
      refine ⟨h.set a none, delete_of_cell hw, fun b => ?_, by simp⟩
      by_cases hb : a = b
      · subst hb; simp [cell_set_self]
      · rw [if_neg (by simpa using hb), cell_set hb]
  have hnew : ∀ j, ptr j ≠ some h1.length := by
    intro j hj
    have := o.live _ _ hj
    rw [hlen, cell_len] at this
    cases this
  have hkeep : ∀ j a, j ≠ i → ptr j = some a → cell (h1 ++ [some v]) a = cell h a := by
    intro j a hj ha
    rw [cell_new, if_neg, hc, if_neg]
    · intro e2; exact hj (o.inj _ _ a ha e2)
    · rintro rfl; exact hnew j ha
  refine ⟨h1, e1, ⟨?_, ?_, ?_, ?_⟩⟩
  · intro j
    by_cases e : j = i
    · subst e; simp [cell_new]
    · rw [Function.update_of_ne e, Function.update_of_ne e, ← o.val j]
      cases ea : ptr j with
      | none => rfl
      | some a => exact hkeep j a e ea
  · intro j a hj
    by_cases e : j = i
    · subst e
      rw [Function.update_self] at hj
      cases hj
      simp [cell_new]
    · rw [Function.update_of_ne e] at hj
      rw [hkeep j a e hj]
      exact o.live j a hj
  · intro j j' a hj hj'
    by_cases e : j = i <;> by_cases e' : j' = i
    · rw [e, e']
    · subst e
      rw [Function.update_self] at hj
      rw [Function.update_of_ne e'] at hj'
      cases hj
      exact absurd hj' (hnew j')
    · subst e'
      rw [Function.update_self] at hj'
      rw [Function.update_of_ne e] at hj
      cases hj'
      exact absurd hj (hnew j)
    · rw [Function.update_of_ne e] at hj
      rw [Function.update_of_ne e'] at hj'
      exact o.inj _ _ a hj hj'
  · intro a ha
    rw [cell_new] at ha
    split at ha
    · next e => subst e; exact ⟨i, Function.update_self ..⟩
    · rw [hc] at ha
      split at ha
      · cases ha
      · next hne =>
        obtain ⟨j, hj⟩ := o.own a ha
        refine ⟨j, ?_⟩
        rw [Function.update_of_ne]
        · exact hj
        · rintro rfl; exact hne hj

theorem Own.view {ι : Type} {ptr : ι → Option Nat} {h : Heap R} {val : ι → Option (Samples R)}
    (o : Own ptr h val) (i : ι) : view h (ptr i) = .ok (val i) := by
  rw [← o.val i]
  cases e : ptr i with
  | none => rfl
  | some a =>
    obtain ⟨v, hv⟩ := Option.isSome_iff_exists.1 (o.live i a e)
    show (h.get a >>= _) = .ok (cell h a)
    rw [get_of_cell hv, hv]; rfl

/-! ### Slots of the component forms -/

/-- The pointers of a type. -/
def slotsL (F : Form) : IntegType → List (Option Nat)
  | .domain => F.dom
  | .interiorFace => F.face
  | .bdrFace => F.bdr
  | .interface => []
  | .numIntegType => []

abbrev Slot := Nat × IntegType × Nat

/-- The pointer of a slot. -/
def ptr (s : Comps R) (i : Slot) : Option Nat :=
  ((s.forms[i.1]?).bind (fun F => (slotsL F i.2.1)[i.2.2]?)).join

/-- The invariant of the component forms. -/
structure CompsOk (S : Setup) (s : Comps R) (val : Slot → Option (Samples R)) : Prop where
  len : s.forms.length = S.names.length
  size : ∀ (c : Nat) (F : Form) (nb : Nat), s.forms[c]? = some F → S.nbdr[c]? = some nb → ∀ ty, (slotsL F ty).length = count S nb ty
  own : Own (ptr s) s.heap val

theorem slots_ok {F : Form} {ty : IntegType} (h : 0 < (slotsL F ty).length) :
    F.slots ty = .ok (slotsL F ty) := by
  cases ty <;> first | rfl | (simp [slotsL] at h)

theorem slots_inv {F : Form} {ty : IntegType} {l : List (Option Nat)} (h : F.slots ty = .ok l) :
    l = slotsL F ty := by
  cases ty <;> first | (cases h; rfl) | cases h

theorem slotsL_set (F : Form) (l : List (Option Nat)) (ty ty' : IntegType)
    (h : 0 < (slotsL F ty).length) :
    slotsL (F.setSlots l ty) ty' = if ty' = ty then l else slotsL F ty' := by
  cases ty <;> first | (cases ty' <;> rfl) | (simp [slotsL] at h)

theorem getEQP_ok {F : Form} {ty : IntegType} {k : Nat} (h : k < (slotsL F ty).length) :
    F.getEQP ty (k : Int) = .ok (slotsL F ty)[k] := by
  unfold Form.getEQP
  rw [slots_ok (by omega), ok_bind,
    show (decide ((0 : Int) ≤ k) && decide ((k : Int) < (slotsL F ty).length)) = true by simp; omega,
    require_true, ok_bind, rdI_nat, rd_of_lt h]

theorem getEQP_inv {F : Form} {ty : IntegType} {k : Int} {p : Option Nat} (h : F.getEQP ty k = .ok p) :
    ∃ k' : Nat, k = k' ∧ (slotsL F ty)[k']? = some p := by
  unfold Form.getEQP at h
  obtain ⟨l, h1, h⟩ := bind_eq_ok.1 h
  obtain ⟨⟨⟩, h2, h⟩ := bind_eq_ok.1 h
  rw [slots_inv h1] at h
  exact rdI_ok h

theorem put_ok {S : Setup} {s : Comps R} {val : Slot → Option (Samples R)} (h : CompsOk S s val) {c : Nat}
    {ty : IntegType} {k : Nat} (he : Exists S c ty k) (v : Samples R) :
    ∃ s', put s c ty k v = .ok s' ∧ CompsOk S s' (Function.update val (c, ty, k) (some v)) := by
  obtain ⟨nb, hc, hnb, hk⟩ := he
  have hc' : c < s.forms.length := by rw [h.len]; exact hc
  have hF : s.forms[c]? = some s.forms[c] := List.getElem?_eq_getElem hc'
  have hsz := h.size c _ nb hF hnb ty
  have hk' : k < (slotsL s.forms[c] ty).length := by omega
  unfold put
  rw [rd_of_lt hc', ok_bind, slots_ok (by omega), ok_bind,
    show (decide ((0 : Int) ≤ k) && decide ((k : Int) < (slotsL s.forms[c] ty).length)) = true by
      simp; omega, require_true, ok_bind, rdI_nat, rd_of_lt hk', ok_bind]
  have hp : ptr s (c, ty, k) = (slotsL s.forms[c] ty)[k] := by
    unfold ptr
    show ((s.forms[c]?).bind (fun F => (slotsL F ty)[k]?)).join = _
    rw [hF]
    show ((slotsL s.forms[c] ty)[k]?).join = _
    rw [List.getElem?_eq_getElem hk']; rfl
  obtain ⟨h1, e1, o1⟩ := h.own.put (c, ty, k) v
  rw [← hp, e1, ok_bind]
  dsimp only [Heap.new]
  rw [wrI_nat, wr_of_lt hk', ok_bind, wr_of_lt hc', ok_bind]
  refine ⟨_, rfl, ⟨by simpa using h.len, ?_, ?_⟩⟩
  · intro c' F' nb' hF' hnb' ty'
    have hF'' : (s.forms.set c _)[c']? = some F' := hF'
    by_cases e : c = c'
    · subst e
      rw [List.getElem?_set_self hc'] at hF''
      cases hF''
      rw [slotsL_set _ _ _ _ (by omega)]
      split
      · next e => subst e; rw [List.length_set]; exact h.size c _ nb' hF hnb' _
      · exact h.size c _ nb' hF hnb' ty'
    · rw [List.getElem?_set_ne e] at hF''
      exact h.size c' F' nb' hF'' hnb' ty'
  · convert o1 using 1
    funext ⟨c', ty', k'⟩
    unfold ptr
    dsimp only
    by_cases e : c' = c
    · subst e
      rw [List.getElem?_set_self hc', Option.bind_some, slotsL_set _ _ _ _ (by omega)]
      by_cases e2 : ty' = ty
      · subst e2
        rw [if_pos rfl]
        by_cases e3 : k' = k
        · subst e3
          rw [List.getElem?_set_self hk', Function.update_self]; rfl
        · rw [List.getElem?_set_ne (by omega), Function.update_of_ne (by simp [e3]), hF]; rfl
      · rw [if_neg e2, Function.update_of_ne (by simp [e2]), hF]; rfl
    · rw [List.getElem?_set_ne (by omega), Function.update_of_ne (by simp [e])]

theorem put_range {S : Setup} (hS : S.nbdr.length = S.names.length) {s s' : Comps R}
    {val : Slot → Option (Samples R)} (h : CompsOk S s val) {c : Nat} {ty : IntegType} {k : Int} {v : Samples R}
    (e : put s c ty k v = .ok s') : ∃ k' : Nat, k = k' ∧ Exists S c ty k' := by
  unfold put at e
  obtain ⟨F, h1, e⟩ := bind_eq_ok.1 e
  obtain ⟨l, h2, e⟩ := bind_eq_ok.1 e
  obtain ⟨⟨⟩, h3, e⟩ := bind_eq_ok.1 e
  have h3 := require_eq_ok.1 h3
  simp only [Bool.and_eq_true, decide_eq_true_eq] at h3
  have hF := rd_eq_ok.1 h1
  have hc := (List.getElem?_eq_some_iff.1 hF).1
  rw [h.len] at hc
  refine ⟨k.toNat, by omega, S.nbdr[c], hc, List.getElem?_eq_getElem (by omega), ?_⟩
  rw [← h.size c F _ hF (List.getElem?_eq_getElem (by omega)) ty, ← slots_inv h2]
  omega

theorem allocate_ok {S : Setup} (hS : S.nbdr.length = S.names.length) :
    ∃ s : Comps R, allocate S = .ok s ∧ CompsOk S s (fun _ => none) := by
  unfold allocate
  rw [loop_spec (fun c => tab c (fun c => newForm S (S.nbdr[c]?.getD 0))) (by simp [tab]) (by
    intro c hc
    rw [rd_of_lt (by omega), ok_bind]
    simp only [tab, List.range_succ, List.map_append, List.map_cons, List.map_nil]
    rw [List.getElem?_eq_getElem (by omega)]; rfl), ok_bind]
  have hnull : ∀ i : Slot, ptr (⟨tab S.names.length (fun c => newForm S (S.nbdr[c]?.getD 0)), []⟩ : Comps R) i
      = none := by
    rintro ⟨c, ty, k⟩
    unfold ptr
    dsimp only
    rw [getElem?_tab]
    split
    · rw [Option.bind_some]
      unfold newForm
      cases ho : S.oper <;> cases hg : S.fullDg <;> cases ty <;> cases k <;>
        simp [slotsL, List.getElem?_replicate] <;> split <;> rfl
    · rfl
  refine ⟨_, rfl, ⟨by simp, ?_, ⟨?_, ?_, ?_, ?_⟩⟩⟩
  · intro c F nb hF hnb ty
    have hF' : (tab S.names.length (fun c => newForm S (S.nbdr[c]?.getD 0)))[c]? = some F := hF
    rw [getElem?_tab] at hF'
    split at hF'
    · cases hF'
      rw [hnb]
      unfold newForm count
      cases ho : S.oper <;> cases hg : S.fullDg <;> cases ty <;> simp [slotsL]
    · cases hF'
  · intro i; rw [hnull i]; rfl
  · intro i a h; rw [hnull i] at h; cases h
  · intro i j a h; rw [hnull i] at h; cases h
  · intro a ha; simp [cell] at ha

/-! ### Loading -/

theorem calls_mem {S : Setup} {nb : Nat} {c : Call} :
    c ∈ calls S nb ↔ c.k < count S nb c.ty ∧ c.suffix = suffix c.ty c.k := by
  obtain ⟨ty, k, suf⟩ := c
  unfold calls count suffix
  cases ho : S.oper
  · cases ty <;> simp
  · cases hg : S.fullDg
    · cases ty <;> simp
      constructor
      · rintro ⟨b, hb, ⟨rfl, rfl⟩ | ⟨rfl, rfl⟩⟩
        · exact ⟨by omega, by simp⟩
        · refine ⟨by omega, ?_⟩
          rw [if_neg (by omega), show (2 * b + 1) / 2 = b by omega]
      · rintro ⟨h1, h2⟩
        refine ⟨k / 2, by omega, ?_⟩
        split at h2
        · exact .inl ⟨by omega, h2⟩
        · exact .inr ⟨by omega, h2⟩
    · cases ty <;> simp
      constructor
      · rintro ⟨b, hb, ⟨rfl, rfl⟩ | ⟨rfl, rfl⟩⟩
        · exact ⟨by omega, by simp⟩
        · refine ⟨by omega, ?_⟩
          rw [if_neg (by omega), show (2 * b + 1) / 2 = b by omega]
      · rintro ⟨h1, h2⟩
        refine ⟨k / 2, by omega, ?_⟩
        split at h2
        · exact .inl ⟨by omega, h2⟩
        · exact .inr ⟨by omega, h2⟩

theorem foldlM_mem {α β : Type} {g : α → β → Outcome α} : ∀ {L : List β} {s t : α},
    L.foldlM g s = .ok t → ∀ b ∈ L, ∃ s1 s2, g s1 b = .ok s2
  | [], _, _, _, _, h => by cases h
  | b :: L, s, t, e, x, h => by
    rw [List.foldlM_cons] at e
    obtain ⟨s1, e1, e2⟩ := bind_eq_ok.1 e
    rcases List.mem_cons.1 h with rfl | h
    · exact ⟨s, s1, e1⟩
    · exact foldlM_mem e2 x h

theorem storedAs_ok {f : File R} {name : String} {ty : IntegType} {k : Nat}
    (h : (storedAs f name ty k).isSome) :
    ∃ v, readSamples f ["components"] (name ++ suffix ty k) ty = .ok v ∧ storedAs f name ty k = some v := by
  unfold storedAs at *
  cases e : readSamples f ["components"] (name ++ suffix ty k) ty with
  | ok v => exact ⟨v, rfl, rfl⟩
  | error x => rw [e] at h; cases h

theorem loadCalls {S : Setup} {f : File R} {c : Nat} {name : String} {nb : Nat}
    (hn : S.names[c]? = some name) (hb : S.nbdr[c]? = some nb) : ∀ (L : List Call) {s : Comps R}
    {val : Slot → Option (Samples R)}, CompsOk S s val → (∀ x ∈ L, x ∈ calls S nb) →
    (∀ x ∈ L, (storedAs f name x.ty x.k).isSome) →
    ∃ s', L.foldlM (loadOne f ["components"] name c) s = .ok s' ∧
      CompsOk S s' (fun i => if i.1 = c ∧ ∃ x ∈ L, x.ty = i.2.1 ∧ x.k = i.2.2
        then storedAs f name i.2.1 i.2.2 else val i)
  | [], s, val, h, _, _ => ⟨s, rfl, by simpa using h⟩
  | x :: L, s, val, h, hL, hr => by
    have hx := calls_mem.1 (hL x (by simp))
    obtain ⟨v, e1, e2⟩ := storedAs_ok (hr x (by simp))
    obtain ⟨s1, e3, h1⟩ := put_ok h ⟨nb, (List.getElem?_eq_some_iff.1 hn).1, hb, hx.1⟩ v
    obtain ⟨s2, e4, h2⟩ := loadCalls hn hb L h1 (fun y hy => hL y (by simp [hy]))
      (fun y hy => hr y (by simp [hy]))
    refine ⟨s2, ?_, ?_⟩
    · rw [List.foldlM_cons]
      unfold loadOne at e4 ⊢
      rw [hx.2, e1, ok_bind, e3, ok_bind]
      exact e4
    · convert h2 using 1
      funext ⟨c', ty', k'⟩
      dsimp only
      by_cases hc : c' = c
      · subst hc
        by_cases hm : ∃ y ∈ L, y.ty = ty' ∧ y.k = k'
        · have hm' : ∃ y ∈ x :: L, y.ty = ty' ∧ y.k = k' := by
            obtain ⟨y, hy, hy2⟩ := hm
            exact ⟨y, by simp [hy], hy2⟩
          rw [if_pos ⟨rfl, hm'⟩, if_pos ⟨rfl, hm⟩]
        · by_cases he : x.ty = ty' ∧ x.k = k'
          · obtain ⟨rfl, rfl⟩ := he
            rw [if_pos ⟨rfl, x, by simp, rfl, rfl⟩, if_neg (fun hh => hm hh.2), Function.update_self, e2]
          · rw [if_neg, if_neg (fun hh => hm hh.2), Function.update_of_ne]
            · rintro h4
              simp only [Prod.mk.injEq, true_and] at h4
              exact he ⟨h4.1.symm, h4.2.symm⟩
            · rintro ⟨-, y, hy, hy2⟩
              rcases List.mem_cons.1 hy with rfl | hy
              · exact he hy2
              · exact hm ⟨y, hy, hy2⟩
      · rw [if_neg (fun hh => hc hh.1), if_neg (fun hh => hc hh.1), Function.update_of_ne (by simp [hc])]

/-- A value overridden where the second has one. -/
def over (val new : Slot → Option (Samples R)) : Slot → Option (Samples R) :=
  fun i => match new i with | some v => some v | none => val i

theorem loadComps_ok {S : Setup} (hS : S.nbdr.length = S.names.length) {s : Comps R}
    {val : Slot → Option (Samples R)} (h : CompsOk S s val) {f : File R} (hf : Complete S f) :
    ∃ s', loadComps S s f = .ok s' ∧ CompsOk S s' (over val (fun i => stored S f i.1 i.2.1 i.2.2)) := by
  obtain ⟨n, hn, hle⟩ := hf.number
  unfold loadComps
  rw [openGroup_of hf.group, ok_bind,
    show readAttr f ["components"] "number_of_components" = .ok n by unfold readAttr; rw [hn], ok_bind,
    decide_eq_true hle, require_true, ok_bind, decide_eq_true h.len, require_true, ok_bind]
  obtain ⟨s', e, h'⟩ := loop_total (n := S.names.length) (s := s)
    (body := fun c s => do
      let name ← rd S.names c
      let nb ← rd S.nbdr c
      (calls S nb).foldlM (loadOne f ["components"] name c) s)
    (fun c u => CompsOk S u (fun i => if i.1 < c
      then over val (fun i => stored S f i.1 i.2.1 i.2.2) i else val i)) (by simpa using h) (by
    intro c u hc hu
    have hnm : S.names[c]? = some S.names[c] := List.getElem?_eq_getElem hc
    have hnb : S.nbdr[c]? = some (S.nbdr[c]'(by omega)) := List.getElem?_eq_getElem (by omega)
    have hst : ∀ ty k, stored S f c ty k = if k < count S (S.nbdr[c]'(by omega)) ty
        then storedAs f S.names[c] ty k else none := by
      intro ty k; unfold stored; rw [hnm, hnb]
    rw [rd_of_lt hc, ok_bind, rd_of_lt (by omega), ok_bind]
    have hread : ∀ ty k, k < count S (S.nbdr[c]'(by omega)) ty → (storedAs f S.names[c] ty k).isSome := by
      intro ty k hk
      have := hf.samples c ty k ⟨_, hc, hnb, hk⟩
      rwa [hst, if_pos hk] at this
    obtain ⟨u', e, hu'⟩ := loadCalls (f := f) hnm hnb (calls S (S.nbdr[c]'(by omega))) hu
      (fun _ hx => hx) (fun x hx => hread x.ty x.k (calls_mem.1 hx).1)
    refine ⟨u', e, ?_⟩
    convert hu' using 1
    funext ⟨c', ty, k⟩
    dsimp only
    by_cases e1 : c' = c
    · subst e1
      rw [if_pos (by omega), if_neg (by omega : ¬ c' < c')]
      unfold over
      dsimp only
      rw [hst]
      by_cases hk : k < count S (S.nbdr[c']'(by omega)) ty
      · rw [if_pos hk, if_pos ⟨rfl, ⟨ty, k, suffix ty k⟩, calls_mem.2 ⟨hk, rfl⟩, rfl, rfl⟩]
        obtain ⟨v, hv⟩ := Option.isSome_iff_exists.1 (hread ty k hk)
        rw [hv]
      · rw [if_neg hk, if_neg]
        rintro ⟨-, x, hx, rfl, rfl⟩
        exact hk (calls_mem.1 hx).1
    · rw [if_neg (fun hh => e1 hh.1 : ¬ (c' = c ∧ _))]
      by_cases e2 : c' < c
      · rw [if_pos (by omega), if_pos e2]
      · rw [if_neg (by omega), if_neg e2])
  refine ⟨s', e, ?_⟩
  convert h' using 1
  funext ⟨c, ty, k⟩
  dsimp only
  split
  · rfl
  · next hc =>
    unfold over
    dsimp only
    have : stored S f c ty k = none := by
      unfold stored; rw [List.getElem?_eq_none (by omega)]
    rw [this]

theorem loadComps_range {S : Setup} {s s' : Comps R} {f : File R}
    (e : loadComps S s f = .ok s') : Complete S f := by
  unfold loadComps at e
  obtain ⟨g, hg, e⟩ := bind_eq_ok.1 e
  obtain ⟨n, hn, e⟩ := bind_eq_ok.1 e
  obtain ⟨⟨⟩, h1, e⟩ := bind_eq_ok.1 e
  obtain ⟨⟨⟩, h2, e⟩ := bind_eq_ok.1 e
  have hg' : find f ⟨[], "components", false⟩ = some .group ∧ g = ["components"] := by
    unfold openGroup at hg
    split at hg
    · next he => cases hg; exact ⟨he, rfl⟩
    · cases hg
  obtain ⟨hg1, rfl⟩ := hg'
  have hn' : find f ⟨["components"], "number_of_components", true⟩ = some (.attrInt n) := by
    unfold readAttr at hn
    split at hn
    · next he => cases hn; exact he
    · cases hn
  refine ⟨hg1, ⟨n, hn', by simpa using require_eq_ok.1 h1⟩, ?_⟩
  have := loop_inv (n := S.names.length) (s := s) (t := s')
    (fun c (_ : Comps R) => ∀ c' ty k, c' < c → Exists S c' ty k → (stored S f c' ty k).isSome)
    (by intro c' _ _ h; omega) (by
    intro c u v hc hu hb c' ty k hc' hex
    by_cases e1 : c' < c
    · exact hu c' ty k e1 hex
    · have : c' = c := by omega
      subst this
      obtain ⟨name, hname, hb⟩ := bind_eq_ok.1 hb
      obtain ⟨nb, hnb, hb⟩ := bind_eq_ok.1 hb
      obtain ⟨nb', -, hnb', hk⟩ := hex
      rw [rd_eq_ok.1 hnb] at hnb'
      cases hnb'
      obtain ⟨s1, s2, hl⟩ := foldlM_mem hb ⟨ty, k, suffix ty k⟩ (calls_mem.2 ⟨hk, rfl⟩)
      unfold loadOne at hl
      obtain ⟨w, hw, -⟩ := bind_eq_ok.1 hl
      unfold stored storedAs
      rw [rd_eq_ok.1 hname, rd_eq_ok.1 hnb]
      dsimp only
      rw [if_pos hk]
      dsimp only at hw
      rw [hw]; rfl) e
  intro c ty k hex
  exact this c ty k hex.choose_spec.1 hex

end Verif.EqpComp
