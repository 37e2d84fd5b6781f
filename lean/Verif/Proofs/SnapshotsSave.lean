import Verif.Spec.Snapshots
import Verif.Proofs.Snapshots

/-! Helper lemmas: saving snapshots. -/

namespace Verif.Snapshots

open Verif Spec

variable {V : Type}

/-- Everything about ports is the same in both stores. -/
def SamePorts (a b : Store V) : Prop :=
  a.portTags = b.portTags ∧ a.port2idx = b.port2idx ∧ a.portCols = b.portCols

theorem SamePorts.rfl' (a : Store V) : SamePorts a a := ⟨rfl, rfl, rfl⟩

theorem SamePorts.trans {a b c : Store V} (h1 : SamePorts a b) (h2 : SamePorts b c) :
    SamePorts a c := ⟨h1.1.trans h2.1, h1.2.1.trans h2.2.1, h1.2.2.trans h2.2.2⟩

theorem ensure_spec {st : Store V} (w : WF st) (tag : BasisTag) :
    ∃ st1, ensureGenerator st tag = .ok st1 ∧ WF st1 ∧
      (∀ t, st1.cols t = st.cols t) ∧
      (∀ t, t ∈ st1.basisTags ↔ t ∈ st.basisTags ∨ t = tag) ∧ SamePorts st1 st := by
  unfold ensureGenerator
  cases h : mapFind BasisTag.lt st.tag2idx tag with
  | some i =>
    have hm : tag ∈ st.basisTags := by
      by_contra hm
      rw [(mapFind_none (lt := BasisTag.lt) (fun a b => basisTag_equiv) w.basis tag).2 hm] at h
      cases h
    refine ⟨st, rfl, w, fun _ => rfl, ?_, SamePorts.rfl' _⟩
    intro t
    constructor
    · exact .inl
    · rintro (h | rfl)
      · exact h
      · exact hm
  | none =>
    have hm := (mapFind_none (lt := BasisTag.lt) (fun a b => basisTag_equiv) w.basis tag).1 h
    have hr := w.basis.register (lt := BasisTag.lt) (fun a b => basisTag_equiv) hm
    refine ⟨({ st with
      gens := st.gens ++ [[]]
      tag2idx := mapSet BasisTag.lt st.tag2idx tag st.basisTags.length
      basisTags := st.basisTags ++ [tag] } : Store V), ?_, ⟨hr, w.port⟩, ?_, ?_, ⟨rfl, rfl, rfl⟩⟩
    · show addSnapshotGenerator st tag = _
      unfold addSnapshotGenerator
      have h1 : (mapSet BasisTag.lt st.tag2idx tag st.basisTags.length).length
          = (st.gens ++ [[]]).length := by
        rw [hr.idx_eq]; simp [w.basis.len]
      have h2 : (st.basisTags ++ [tag]).length = (st.gens ++ [[]]).length := by
        simp [w.basis.len]
      simp only [h1, h2, beq_self_eq_true, require_true, ok_bind]
      rfl
    · intro t
      exact regGet_append_new w.basis.len hm t
    · intro t; simp

/-- What one iteration of the save loop does. -/
structure SaveSpec (st st' : Store V) (new : List (V × BasisTag)) : Prop where
  wf : WF st'
  cols : ∀ t, st'.cols t = st.cols t ++ filed new t
  mem : ∀ t, t ∈ st'.basisTags ↔ t ∈ st.basisTags ∨ t ∈ new.map (·.2)
  ports : SamePorts st' st

theorem filed_append (a b : List (V × BasisTag)) (t : BasisTag) :
    filed (a ++ b) t = filed a t ++ filed b t := by simp [filed]

theorem filed_single (u : V) (k t : BasisTag) :
    filed [(u, k)] t = if t = k then [u] else [] := by
  by_cases h : t = k
  · simp [filed, h]
  · simp [filed, h, Ne.symm h]

theorem SaveSpec.refl {st : Store V} (w : WF st) : SaveSpec st st [] :=
  ⟨w, by simp [filed], by simp, SamePorts.rfl' _⟩

theorem SaveSpec.trans {a b c : Store V} {x y} (h1 : SaveSpec a b x) (h2 : SaveSpec b c y) :
    SaveSpec a c (x ++ y) :=
  ⟨h2.wf, fun t => by rw [h2.cols, h1.cols, filed_append, List.append_assoc],
    fun t => by rw [h2.mem, h1.mem]; simp [or_assoc], h2.ports.trans h1.ports⟩

theorem saveStep_exists {rom : Rom V} {blocks : List V} {tags : List BasisTag} {s : Nat}
    {acc : Store V × List Nat} {u : V} {tag : BasisTag} (w : WF acc.1)
    (hu : blocks[s]? = some u) (ht : tags[s]? = some tag) (hs : s < acc.2.length)
    (hcap : (acc.1.cols tag).length < rom.cap) (hacc : rom.accept u = true) :
    ∃ st', saveSnapshotStep rom blocks tags s acc
        = .ok (st', acc.2.set s (acc.1.cols tag).length) ∧ SaveSpec acc.1 st' [(u, tag)] := by
  obtain ⟨st1, h1, w1, hc1, hm1, hp1⟩ := ensure_spec w tag
  obtain ⟨i, _, hg, hk, hp⟩ := w1.basis.find (lt := BasisTag.lt) (fun a b => basisTag_equiv)
    ((hm1 tag).2 (.inr rfl))
  have hgl : i < st1.gens.length := (List.getElem?_eq_some_iff.1 hp).1
  refine ⟨({ st1 with gens := st1.gens.set i (acc.1.cols tag ++ [u]) } : Store V), ?_, ?_⟩
  · unfold saveSnapshotStep
    rw [rd_eq_ok.2 ht]
    simp only [ok_bind]
    rw [h1]
    simp only [ok_bind, hg]
    rw [rd_eq_ok.2 hu, rd_eq_ok.2 hp]
    have e : regGet st1.basisTags st1.gens tag = acc.1.cols tag := hc1 tag
    simp only [ok_bind, e, takeSample, hcap, decide_true, hacc, require_true, pure, Except.pure]
    rw [wr_of_lt hgl]
    simp only [ok_bind]
    rw [wr_of_lt hs]
    simp
  · refine ⟨⟨w1.basis.update _ _, w1.port⟩, ?_, ?_, hp1⟩
    · intro t
      show regGet st1.basisTags (st1.gens.set i _) t = _
      rw [regGet_set w1.basis.nodup w1.basis.len hk]
      have e : regGet st1.basisTags st1.gens t = acc.1.cols t := hc1 t
      rw [e, filed_single]
      by_cases h : t = tag
      · subst h; simp
      · simp [h]
    · intro t
      rw [show (({ st1 with gens := st1.gens.set i (acc.1.cols tag ++ [u]) } : Store V).basisTags)
        = st1.basisTags from rfl, hm1]
      simp

/-- Inversion: a successful iteration met its preconditions. -/
theorem saveStep_inv {rom : Rom V} {blocks : List V} {tags : List BasisTag} {s : Nat}
    {acc r : Store V × List Nat} (w : WF acc.1)
    (h : saveSnapshotStep rom blocks tags s acc = .ok r) :
    ∃ u tag, blocks[s]? = some u ∧ tags[s]? = some tag ∧ s < acc.2.length ∧
      (acc.1.cols tag).length < rom.cap ∧ rom.accept u = true := by
  cases ht : tags[s]? with
  | none => simp [saveSnapshotStep, rd, ht] at h
  | some tag =>
    obtain ⟨st1, h1, w1, hc1, hm1, hp1⟩ := ensure_spec w tag
    obtain ⟨i, _, hg, hk, hp⟩ := w1.basis.find (lt := BasisTag.lt) (fun a b => basisTag_equiv)
      ((hm1 tag).2 (.inr rfl))
    have hgl : i < st1.gens.length := (List.getElem?_eq_some_iff.1 hp).1
    unfold saveSnapshotStep at h
    rw [rd_eq_ok.2 ht] at h
    simp only [ok_bind] at h
    rw [h1] at h
    simp only [ok_bind, hg] at h
    cases hu : blocks[s]? with
    | none => simp [rd, hu] at h
    | some u =>
      rw [rd_eq_ok.2 hu, rd_eq_ok.2 hp] at h
      have e : regGet st1.basisTags st1.gens tag = acc.1.cols tag := hc1 tag
      simp only [ok_bind, e, takeSample] at h
      by_cases hcap : (acc.1.cols tag).length < rom.cap
      · by_cases ha : rom.accept u = true
        · simp only [hcap, ha, decide_true, require_true, ok_bind, pure, Except.pure] at h
          rw [wr_of_lt hgl] at h
          simp only [ok_bind] at h
          by_cases hs : s < acc.2.length
          · exact ⟨u, tag, rfl, rfl, hs, hcap, ha⟩
          · simp [wr, hs] at h
        · simp [hcap, ha] at h
      · simp [hcap] at h

theorem take_succ_zip {blocks : List V} {tags : List BasisTag} {s : Nat} {u tag}
    (hu : blocks[s]? = some u) (ht : tags[s]? = some tag) :
    (blocks.zip tags).take (s + 1) = (blocks.zip tags).take s ++ [(u, tag)] := by
  have : (blocks.zip tags)[s]? = some (u, tag) := by
    rw [List.getElem?_zip_eq_some]; exact ⟨hu, ht⟩
  rw [List.take_add_one, this]; rfl

/-- Result of a whole `SaveSnapshot` call. -/
structure CallSpec (st : Store V) (blocks : List V) (tags : List BasisTag)
    (r : Store V × List Nat) : Prop where
  len : blocks.length = tags.length
  save : SaveSpec st r.1 (blocks.zip tags)
  clen : r.2.length = blocks.length
  idx : ∀ s u t, blocks[s]? = some u → tags[s]? = some t →
    r.2[s]? = some ((st.cols t).length + (filed ((blocks.zip tags).take s) t).length)

structure LoopInv (st : Store V) (blocks : List V) (tags : List BasisTag) (j : Nat)
    (acc : Store V × List Nat) : Prop where
  save : SaveSpec st acc.1 ((blocks.zip tags).take j)
  clen : acc.2.length = blocks.length
  idx : ∀ s u t, s < j → blocks[s]? = some u → tags[s]? = some t →
    acc.2[s]? = some ((st.cols t).length + (filed ((blocks.zip tags).take s) t).length)

theorem LoopInv.step {rom : Rom V} {st : Store V} {blocks : List V} {tags : List BasisTag} {j : Nat}
    {acc : Store V × List Nat} {u tag} (h : LoopInv st blocks tags j acc)
    (hu : blocks[j]? = some u) (ht : tags[j]? = some tag)
    (hcap : (acc.1.cols tag).length < rom.cap) (hacc : rom.accept u = true) :
    ∃ r, saveSnapshotStep rom blocks tags j acc = .ok r ∧ LoopInv st blocks tags (j + 1) r := by
  have hj : j < acc.2.length := by rw [h.clen]; exact (List.getElem?_eq_some_iff.1 hu).1
  obtain ⟨st', he, hs⟩ := saveStep_exists (rom := rom) h.save.wf hu ht hj hcap hacc
  refine ⟨_, he, ?_, ?_, ?_⟩
  · rw [take_succ_zip hu ht]; exact h.save.trans hs
  · simp [h.clen]
  · intro s u' t' hs' hu' ht'
    show (acc.2.set j _)[s]? = _
    rw [List.getElem?_set]
    by_cases hsj : j = s
    · subst hsj
      rw [ht] at ht'; cases ht'
      rw [h.save.cols]
      simp [hj]
    · rw [if_neg hsj]; exact h.idx s u' t' (by omega) hu' ht'

theorem saveSnapshot_inv {rom : Rom V} {st : Store V} {blocks : List V} {tags : List BasisTag}
    {r : Store V × List Nat} (w : WF st) (h : saveSnapshot rom st blocks tags = .ok r) :
    CallSpec st blocks tags r := by
  unfold saveSnapshot at h
  by_cases hl : blocks.length = tags.length
  · simp only [hl, beq_self_eq_true, require_true, ok_bind] at h
    have hinv := loop_inv (LoopInv st blocks tags) (s := (st, List.replicate tags.length 0)) (t := r)
      ⟨by simpa using SaveSpec.refl w, by simp [hl], by intro s u t hs; omega⟩ (by
        intro j a b hj hI hb
        obtain ⟨u, tag, hu, ht, _, hcap, hacc⟩ := saveStep_inv hI.save.wf hb
        obtain ⟨r, hr, hI'⟩ := hI.step (rom := rom) hu ht hcap hacc
        rw [hb] at hr; cases hr; exact hI') h
    refine ⟨hl, ?_, hinv.clen, ?_⟩
    · have := hinv.save
      rwa [List.take_of_length_le (by simp [hl])] at this
    · intro s u t hu ht
      exact hinv.idx s u t (List.getElem?_eq_some_iff.1 ht).1 hu ht
  · have e : (blocks.length == tags.length) = false := by simp [hl]
    rw [e] at h; cases h

theorem filed_take_length_lt {l : List (V × BasisTag)} {j : Nat} {u t}
    (h : l[j]? = some (u, t)) : (filed (l.take j) t).length < (filed l t).length := by
  have e : l = l.take j ++ (u, t) :: l.drop (j + 1) := by
    obtain ⟨hj, he⟩ := List.getElem?_eq_some_iff.1 h
    rw [← he, List.getElem_cons_drop, List.take_append_drop]
  conv => rhs; rw [e]
  rw [filed_append]
  simp [filed]

theorem saveSnapshot_exists {rom : Rom V} {st : Store V} {blocks : List V} {tags : List BasisTag}
    (w : WF st) (hl : blocks.length = tags.length) (ha : ∀ u ∈ blocks, rom.accept u = true)
    (hcap : ∀ t, (st.cols t).length + (filed (blocks.zip tags) t).length ≤ rom.cap) :
    ∃ r, saveSnapshot rom st blocks tags = .ok r := by
  unfold saveSnapshot
  simp only [hl, beq_self_eq_true, require_true, ok_bind]
  obtain ⟨r, hr, _⟩ := loop_total (n := tags.length) (body := saveSnapshotStep rom blocks tags)
    (LoopInv st blocks tags) (s := (st, List.replicate tags.length 0))
    ⟨by simpa using SaveSpec.refl w, by simp [hl], by intro s u t hs; omega⟩ (by
      intro j a hj hI
      have hu : blocks[j]? = some blocks[j] := by simp [hl, hj]
      have ht : tags[j]? = some tags[j] := by simp [hj]
      refine hI.step hu ht ?_ (ha _ (List.getElem_mem _))
      rw [hI.save.cols, List.length_append]
      have hz : (blocks.zip tags)[j]? = some (blocks[j], tags[j]) := by
        rw [List.getElem?_zip_eq_some]; exact ⟨hu, ht⟩
      have := filed_take_length_lt hz
      have := hcap tags[j]
      omega)
  exact ⟨r, hr⟩

/-- The returned column retrieves the saved block, now and after any later extension. -/
theorem CallSpec.retrieve {st : Store V} {blocks : List V} {tags : List BasisTag}
    {r : Store V × List Nat} (h : CallSpec st blocks tags r) {s : Nat} {u : V} {t : BasisTag}
    (hu : blocks[s]? = some u) (ht : tags[s]? = some t) :
    ∃ c : Nat, r.2[s]? = some c ∧ (r.1.cols t)[c]? = some u := by
  refine ⟨_, h.idx s u t hu ht, ?_⟩
  rw [h.save.cols]
  have hz : (blocks.zip tags)[s]? = some (u, t) := by
    rw [List.getElem?_zip_eq_some]; exact ⟨hu, ht⟩
  obtain ⟨hj, he⟩ := List.getElem?_eq_some_iff.1 hz
  have e : blocks.zip tags = (blocks.zip tags).take s ++ (u, t) :: (blocks.zip tags).drop (s + 1) := by
    rw [← he, List.getElem_cons_drop, List.take_append_drop]
  rw [show filed (blocks.zip tags) t = filed ((blocks.zip tags).take s) t ++
      filed ((u, t) :: (blocks.zip tags).drop (s + 1)) t by rw [← filed_append, ← e]]
  rw [← List.append_assoc, List.getElem?_append_right (by simp)]
  simp [filed]

end Verif.Snapshots
