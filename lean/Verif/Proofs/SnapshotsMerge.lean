import Verif.Proofs.SnapshotsHistory

/-! Helper lemmas: merging port files. -/

namespace Verif.Snapshots

open Verif Spec

variable {V : Type}

theorem loadSamples_inv {rom : Rom V} {cols new r : List V}
    (h : loadSamples rom cols new = .ok r) : r = cols ++ new := by
  have := loop_inv (n := new.length) (fun j acc => acc = cols ++ new.take j) (s := cols) (t := r)
    (by simp) (by
      intro j u v hj hI hb
      subst hI
      have hn : new[j]? = some new[j] := by simp [hj]
      rw [rd_eq_ok.2 hn] at hb
      simp only [ok_bind, takeSample] at hb
      by_cases h1 : (cols ++ new.take j).length < rom.cap
      · by_cases h2 : rom.accept new[j] = true
        · simp only [h1, h2, decide_true, require_true, ok_bind, pure, Except.pure] at hb
          cases hb
          rw [List.take_add_one, hn]; simp
        · rw [decide_eq_true h1] at hb
          simp [h2] at hb
      · rw [decide_eq_false h1] at hb
        simp at hb) h
  simpa using this

theorem loadSamples_exists {rom : Rom V} {cols new : List V}
    (hcap : (cols ++ new).length ≤ rom.cap) (ha : ∀ u ∈ new, rom.accept u = true) :
    loadSamples rom cols new = .ok (cols ++ new) := by
  have := loop_spec (n := new.length) (body := fun k cols => do
      let u ← rd new k
      takeSample rom cols u) (fun j => cols ++ new.take j) (s := cols) (by simp) (by
      intro j hj
      have hn : new[j]? = some new[j] := by simp [hj]
      rw [rd_eq_ok.2 hn]
      simp only [ok_bind, takeSample]
      rw [decide_eq_true (by simp at hcap ⊢; omega), ha _ (List.getElem_mem hj)]
      simp only [require_true, ok_bind, pure, Except.pure]
      rw [List.take_add_one, hn]; simp)
  rw [List.take_length] at this
  exact this

/-- Collecting the snapshot files of one tag. -/
theorem collectByBasis_inv {rom : Rom V} {fs : FS V} {st st' : Store V} {tag : BasisTag}
    {f : String} (w : WF st) (h : collectSnapshotsByBasis rom fs st tag [f] = .ok st') :
    ∃ new, fs f = some new ∧ WF st' ∧ SamePorts st' st ∧
      (∀ t, st'.cols t = st.cols t ++ if t = tag then new else []) ∧
      (∀ t, t ∈ st'.basisTags ↔ t ∈ st.basisTags ∨ t = tag) := by
  unfold collectSnapshotsByBasis at h
  simp only [rd, List.getElem?_cons_zero, ok_bind] at h
  cases hf : fs f with
  | none => rw [hf] at h; simp at h
  | some new =>
    rw [hf] at h
    obtain ⟨st1, h1, w1, hc1, hm1, hp1⟩ := ensure_spec w tag
    obtain ⟨i, _, hg, hk, hp⟩ := w1.basis.find (lt := BasisTag.lt) (fun a b => basisTag_equiv)
      ((hm1 tag).2 (.inr rfl))
    have hgl : i < st1.gens.length := (List.getElem?_eq_some_iff.1 hp).1
    simp only [Option.isSome_some, require_true, ok_bind, h1, hg, loop, List.length_cons,
      List.length_nil, loopFrom, List.getElem?_cons_zero, hf, hp] at h
    cases hl : loadSamples rom (regGet st1.basisTags st1.gens tag) new with
    | error e => rw [hl] at h; simp at h
    | ok cols =>
      rw [hl] at h
      simp only [ok_bind] at h
      rw [wr_of_lt hgl] at h
      simp only [ok_bind, pure, Except.pure, Except.ok.injEq] at h
      have hcols := loadSamples_inv hl
      subst h
      refine ⟨new, rfl, ⟨w1.basis.update _ _, w1.port⟩, hp1, ?_, hm1⟩
      intro t
      show regGet st1.basisTags (st1.gens.set i cols) t = _
      rw [regGet_set w1.basis.nodup w1.basis.len hk, hcols]
      have e : ∀ t, regGet st1.basisTags st1.gens t = st.cols t := hc1
      rw [e, e]
      by_cases ht : t = tag
      · subst ht; simp
      · simp [ht]

/-- The offset of a component is the number of columns of any of its tags. -/
theorem offset_inv {st : Store V} (w : WF st) {comp : String} {off : Nat}
    (h : getSnapshotOffset st comp = .ok off) :
    (∀ t ∈ st.basisTags, t.comp = comp → (st.cols t).length = off) ∧
    ((∀ t ∈ st.basisTags, t.comp ≠ comp) → off = 0) := by
  unfold getSnapshotOffset at h
  have e : (st.basisTags.length == st.gens.length) = true := by simp [w.basis.len]
  rw [e] at h
  simp only [require_true, ok_bind] at h
  revert h
  generalize hL : loop st.basisTags.length _ _ = x
  intro h
  cases x with
  | error e => simp at h
  | ok r =>
    simp only [ok_bind, pure, Except.pure, Except.ok.injEq] at h
    subst h
    have hI := loop_inv (fun j (acc : Nat × Option Nat) =>
      (∀ x, acc.2 = some x → acc.1 = x) ∧
      (∀ (k : Nat) t, k < j → st.basisTags[k]? = some t → t.comp = comp →
        ∃ g, st.gens[k]? = some g ∧ acc.2 = some g.length) ∧
      ((∀ (k : Nat) t, k < j → st.basisTags[k]? = some t → t.comp ≠ comp) → acc = (0, none)))
      ⟨by simp, by intro k t hk; omega, by simp⟩ (by
        intro j u v hj hI hb
        obtain ⟨i1, i2, i3⟩ := hI
        have ht : st.basisTags[j]? = some st.basisTags[j] := by simp [hj]
        have hgj : j < st.gens.length := by rw [w.basis.len]; exact hj
        have hg : st.gens[j]? = some st.gens[j] := by simp [hgj]
        rw [rd_eq_ok.2 ht] at hb
        simp only [ok_bind] at hb
        by_cases hc : st.basisTags[j].comp = comp
        · simp only [hc, ne_eq, not_true_eq_false, if_false] at hb
          rw [rd_eq_ok.2 hg] at hb
          simp only [ok_bind] at hb
          by_cases ho : st.gens[j].length = u.2.getD st.gens[j].length
          · rw [if_neg (by simpa using ho)] at hb
            simp only [pure, Except.pure, Except.ok.injEq] at hb
            subst hb
            refine ⟨?_, ?_, ?_⟩
            · intro x hx; simp only [Option.some.injEq] at hx
              rw [← hx]; exact ho
            · intro k t hk hkt hkc
              by_cases hkj : k < j
              · obtain ⟨g, hg1, hg2⟩ := i2 k t hkj hkt hkc
                exact ⟨g, hg1, by simp [hg2]⟩
              · obtain rfl : k = j := by omega
                exact ⟨_, hg, by simp [← ho]⟩
            · intro hno; exact absurd hc (hno j _ (by omega) ht)
          · rw [if_pos (by simpa using ho)] at hb
            cases hb
        · simp only [hc, ne_eq, not_false_eq_true, if_true, pure, Except.pure, Except.ok.injEq] at hb
          subst hb
          refine ⟨i1, ?_, ?_⟩
          · intro k t hk hkt hkc
            by_cases hkj : k < j
            · exact i2 k t hkj hkt hkc
            · obtain rfl : k = j := by omega
              rw [ht] at hkt; cases hkt
              exact absurd hkc hc
          · intro hno; exact i3 (fun k t hk => hno k t (by omega))) hL
    obtain ⟨i1, i2, i3⟩ := hI
    constructor
    · intro t ht hc
      obtain ⟨k, hk⟩ := List.mem_iff_getElem?.1 ht
      obtain ⟨g, hg1, hg2⟩ := i2 k t (List.getElem?_eq_some_iff.1 hk).1 hk hc
      have : st.cols t = g := regGet_of_index w.basis.nodup hk hg1
      rw [this, i1 _ hg2]
    · intro hno
      rw [i3 (fun k t _ hk => hno t (List.mem_of_getElem? hk))]

/-- The port part of one merge. -/
structure PortMerge (ports : List (PortTag × List (Nat × Nat))) (off : String → Nat)
    (st st' : Store V) : Prop where
  wf : WF st'
  basis : SameBasis st' st
  rows : ∀ t, st'.rows t = st.rows t ++ (ports.filter (fun e => decide (e.1 = t))).flatMap
    (fun e => e.2.map (fun c => (c.1 + off t.mesh1, c.2 + off t.mesh2)))
  mem : ∀ t, t ∈ st'.portTags ↔ t ∈ st.portTags ∨ t ∈ ports.map (·.1)

theorem offset_congr {a b : Store V} (h : SameBasis a b) (c : String) :
    getSnapshotOffset a c = getSnapshotOffset b c := by
  unfold getSnapshotOffset; rw [h.1, h.2.2]

/-- The offset of a component, `0` when it cannot be determined. -/
def offOf (st : Store V) (c : String) : Nat :=
  match getSnapshotOffset st c with
  | .ok n => n
  | .error _ => 0

theorem collectPorts_inv {file : PortFile} {st st' : Store V} (w : WF st)
    (h : loop file.ports.length (collectPortStep file) st = .ok st') :
    PortMerge file.ports (offOf st) st st' ∧
    ∀ e ∈ file.ports, getSnapshotOffset st e.1.mesh1 = .ok (offOf st e.1.mesh1) ∧
      getSnapshotOffset st e.1.mesh2 = .ok (offOf st e.1.mesh2) := by
  have := loop_inv (fun p st1 => PortMerge (file.ports.take p) (offOf st) st st1 ∧
    ∀ e ∈ file.ports.take p, getSnapshotOffset st e.1.mesh1 = .ok (offOf st e.1.mesh1) ∧
      getSnapshotOffset st e.1.mesh2 = .ok (offOf st e.1.mesh2))
    ⟨⟨w, SameBasis.rfl' _, by simp, by simp⟩, by simp⟩ (by
      rintro p s1 s2 hp ⟨hI, hE⟩ hb
      have he : file.ports[p]? = some file.ports[p] := by simp [hp]
      generalize hx : file.ports[p] = x at he
      obtain ⟨tag, cols⟩ := x
      unfold collectPortStep at hb
      rw [rd_eq_ok.2 he] at hb
      simp only [ok_bind] at hb
      obtain ⟨_, _, _, hbs⟩ := ensurePort_spec hI.wf tag
      have e1 : ∀ c, getSnapshotOffset (ensurePort s1 tag) c = getSnapshotOffset st c :=
        fun c => offset_congr (hbs.trans hI.basis) c
      rw [e1, e1] at hb
      cases h1 : getSnapshotOffset st tag.mesh1 with
      | error e => rw [h1] at hb; simp at hb
      | ok o1 =>
        cases h2 : getSnapshotOffset st tag.mesh2 with
        | error e => rw [h1, h2] at hb; simp at hb
        | ok o2 =>
          rw [h1, h2] at hb
          simp only [ok_bind] at hb
          have ho1 : offOf st tag.mesh1 = o1 := by simp [offOf, h1]
          have ho2 : offOf st tag.mesh2 = o2 := by simp [offOf, h2]
          obtain ⟨rows, pc, hr, hw, w', hrows, hmem, hb'⟩ :=
            appendRows_spec hI.wf tag (cols.map (fun c => (c.1 + o1, c.2 + o2)))
          rw [hr] at hb
          simp only [ok_bind] at hb
          rw [hw] at hb
          simp only [ok_bind, pure, Except.pure, Except.ok.injEq] at hb
          subst hb
          have et : file.ports.take (p + 1) = file.ports.take p ++ [(tag, cols)] := by
            rw [List.take_add_one, he]; rfl
          rw [et]
          refine ⟨⟨w', hb'.trans hI.basis, ?_, ?_⟩, ?_⟩
          · intro t
            rw [hrows, hI.rows, List.filter_append, List.flatMap_append, List.append_assoc]
            by_cases ht : t = tag
            · subst ht; simp [ho1, ho2]
            · simp [ht, Ne.symm ht]
          · intro t
            rw [hmem, hI.mem]; simp [or_assoc]
          · intro e hem
            rcases List.mem_append.1 hem with hem | hem
            · exact hE e hem
            · simp at hem; subst hem
              exact ⟨by rw [h1, ho1], by rw [h2, ho2]⟩) h
  simpa using this

/-- One merge: port rows shifted by the offsets, columns appended. -/
theorem collectByPort_inv {rom : Rom V} {fs : FS V} {st st' : Store V} {r : Run V} (w : WF st)
    (hd : OnDisk fs r) (hn : r.file.basisTags.Nodup)
    (h : collectSnapshotsByPort rom fs st r.file = .ok st') :
    WF st' ∧
    (∀ t, st'.cols t = st.cols t ++ if t ∈ r.file.basisTags then r.cols t else []) ∧
    (∀ t, t ∈ st'.basisTags ↔ t ∈ st.basisTags ∨ t ∈ r.file.basisTags) ∧
    (∀ t, st'.rows t = st.rows t ++ (r.file.ports.filter (fun e => decide (e.1 = t))).flatMap
      (fun e => e.2.map (fun c => (c.1 + offOf st t.mesh1, c.2 + offOf st t.mesh2)))) ∧
    (∀ t, t ∈ st'.portTags ↔ t ∈ st.portTags ∨ t ∈ r.file.ports.map (·.1)) ∧
    ∀ e ∈ r.file.ports, getSnapshotOffset st e.1.mesh1 = .ok (offOf st e.1.mesh1) ∧
      getSnapshotOffset st e.1.mesh2 = .ok (offOf st e.1.mesh2) := by
  unfold collectSnapshotsByPort at h
  cases h1 : loop r.file.ports.length (collectPortStep r.file) st with
  | error e => rw [h1] at h; simp at h
  | ok st1 =>
    rw [h1] at h
    simp only [ok_bind] at h
    obtain ⟨hp, ho⟩ := collectPorts_inv w h1
    by_cases h0 : r.file.basisTags.length > 0
    · rw [decide_eq_true h0] at h
      simp only [require_true, ok_bind] at h
      have hI := loop_inv (fun b st2 => WF st2 ∧ SamePorts st2 st1 ∧
        (∀ t, st2.cols t = st1.cols t ++ if t ∈ r.file.basisTags.take b then r.cols t else []) ∧
        (∀ t, t ∈ st2.basisTags ↔ t ∈ st1.basisTags ∨ t ∈ r.file.basisTags.take b))
        ⟨hp.wf, SamePorts.rfl' _, by simp, by simp⟩ (by
          rintro b s2 s3 hb ⟨iw, ip, ic, im⟩ hs
          have ht : r.file.basisTags[b]? = some r.file.basisTags[b] := by simp [hb]
          generalize hx : r.file.basisTags[b] = tag at ht
          rw [rd_eq_ok.2 ht] at hs
          simp only [ok_bind] at hs
          obtain ⟨new, hf, w', hp', hc', hm'⟩ := collectByBasis_inv iw hs
          rw [hd tag (List.mem_of_getElem? ht)] at hf
          cases hf
          have et : r.file.basisTags.take (b + 1) = r.file.basisTags.take b ++ [tag] := by
            rw [List.take_add_one, ht]; rfl
          have hnot : tag ∉ r.file.basisTags.take b := by
            intro hmem
            obtain ⟨k, hk⟩ := List.mem_iff_getElem?.1 hmem
            have hkl := (List.getElem?_eq_some_iff.1 hk).1
            rw [List.length_take] at hkl
            rw [List.getElem?_take_of_lt (by omega)] at hk
            have := (List.getElem?_inj (i := k) (j := b) (by omega) hn).1 (by rw [hk, ht])
            omega
          rw [et]
          refine ⟨w', hp'.trans ip, ?_, ?_⟩
          · intro t
            rw [hc', ic]
            by_cases htt : t = tag
            · subst htt; simp [hnot]
            · simp [htt]
          · intro t
            rw [hm', im]; simp [or_assoc]) h
      obtain ⟨iw, ip, ic, im⟩ := hI
      rw [List.take_length] at ic im
      refine ⟨iw, ?_, ?_, ?_, ?_, ho⟩
      · intro t; rw [ic, hp.basis.cols]
      · intro t; rw [im, hp.basis.1]
      · intro t; rw [ip.rows, hp.rows]
      · intro t; rw [ip.1, hp.mem]
    · rw [decide_eq_false h0] at h
      simp at h

/-- The state after merging the runs `done`. -/
structure Merged (done : List (Run V)) (st : Store V) : Prop where
  wf : WF st
  cols : ∀ t, st.cols t = mergedCols done t
  mem : ∀ t, t ∈ st.basisTags ↔ ∃ r ∈ done, t ∈ r.file.basisTags
  pmem : ∀ t, t ∈ st.portTags ↔ ∃ r ∈ done, t ∈ r.file.ports.map (·.1)
  rows : ∀ t, List.Forall₂ (fun row (o : Run V × (Nat × Nat)) =>
    SameVector st.cols o.1 t.mesh1 row.1 o.2.1 ∧ SameVector st.cols o.1 t.mesh2 row.2 o.2.2)
    (st.rows t) (mergedRows done t)

theorem sameVector_mono {a b : Store V} (h : Extends a b) {r : Run V} {comp : String} {c c0 : Nat}
    (hs : SameVector a.cols r comp c c0) : SameVector b.cols r comp c c0 := by
  intro w hw hlt
  obtain ⟨l, hl⟩ := h ⟨comp, w⟩
  have e := hs w hw hlt
  have hlt' : (r.cols ⟨comp, w⟩)[c0]? = some (r.cols ⟨comp, w⟩)[c0] := by simp [hlt]
  rw [hlt'] at e ⊢
  rw [← hl, List.getElem?_append_left (List.getElem?_eq_some_iff.1 e).1, e]

theorem forall₂_flatMap_same {α β γ : Type} {R : β → γ → Prop} (l : List α) (f : α → List β)
    (g : α → List γ) (h : ∀ a ∈ l, List.Forall₂ R (f a) (g a)) :
    List.Forall₂ R (l.flatMap f) (l.flatMap g) := by
  induction l with
  | nil => exact .nil
  | cons a l ih =>
    rw [List.flatMap_cons, List.flatMap_cons]
    exact List.rel_append (h a (by simp)) (ih (fun b hb => h b (by simp [hb])))

theorem Merged.step {rom : Rom V} {fs : FS V} {done : List (Run V)} {r : Run V} {st st' : Store V}
    (hM : Merged done st) (hd : OnDisk fs r) (hn : r.file.basisTags.Nodup)
    (hu : UniformVars (done ++ [r]))
    (h : collectSnapshotsByPort rom fs st r.file = .ok st') : Merged (done ++ [r]) st' := by
  obtain ⟨w', hc, hm, hr, hp, ho⟩ := collectByPort_inv hM.wf hd hn h
  have hext : Extends st st' := fun t => by rw [hc]; exact List.prefix_append _ _
  -- the shifted column points at the vector just appended
  have key : ∀ comp (c0 : Nat), getSnapshotOffset st comp = .ok (offOf st comp) →
      SameVector st'.cols r comp (c0 + offOf st comp) c0 := by
    intro comp c0 hoff w hw hlt
    obtain ⟨o1, o2⟩ := offset_inv hM.wf hoff
    have hlen : (st.cols ⟨comp, w⟩).length = offOf st comp := by
      by_cases hex : ∃ t ∈ st.basisTags, t.comp = comp
      · obtain ⟨⟨tc, tw⟩, ht, rfl⟩ := hex
        obtain ⟨q, hq, hqt⟩ := (hM.mem _).1 ht
        have : (⟨tc, w⟩ : BasisTag) ∈ q.file.basisTags :=
          hu r (by simp) q (by simp [hq]) tc w tw hw hqt
        exact o1 ⟨tc, w⟩ ((hM.mem _).2 ⟨q, hq, this⟩) rfl
      · push Not at hex
        rw [o2 hex]
        have : (⟨comp, w⟩ : BasisTag) ∉ st.basisTags := fun hh => hex _ hh rfl
        rw [show st.cols ⟨comp, w⟩ = [] from regGet_not_mem this]; rfl
    rw [hc, if_pos hw, List.getElem?_append_right (by omega)]
    congr 1; omega
  refine ⟨w', ?_, ?_, ?_, ?_⟩
  · intro t; rw [hc, hM.cols]; simp [mergedCols]
  · intro t
    rw [hm, hM.mem]
    constructor
    · rintro (⟨q, hq, hqt⟩ | h)
      · exact ⟨q, by simp [hq], hqt⟩
      · exact ⟨r, by simp, h⟩
    · rintro ⟨q, hq, hqt⟩
      rcases List.mem_append.1 hq with hq | hq
      · exact .inl ⟨q, hq, hqt⟩
      · simp at hq; subst hq; exact .inr hqt
  · intro t
    rw [hp, hM.pmem]
    constructor
    · rintro (⟨q, hq, hqt⟩ | h)
      · exact ⟨q, by simp [hq], hqt⟩
      · exact ⟨r, by simp, h⟩
    · rintro ⟨q, hq, hqt⟩
      rcases List.mem_append.1 hq with hq | hq
      · exact .inl ⟨q, hq, hqt⟩
      · simp at hq; subst hq; exact .inr hqt
  · intro t
    rw [hr]
    have : mergedRows (done ++ [r]) t = mergedRows done t ++
        (r.file.ports.filter (fun e => decide (e.1 = t))).flatMap
          (fun e => e.2.map (fun row => (r, row))) := by simp [mergedRows]
    rw [this]
    refine List.rel_append ((hM.rows t).imp
      (fun a b hh => ⟨sameVector_mono hext hh.1, sameVector_mono hext hh.2⟩)) ?_
    refine forall₂_flatMap_same _ _ _ ?_
    intro e he
    obtain ⟨hef, het⟩ := List.mem_filter.1 he
    have het : e.1 = t := by simpa using het
    subst het
    rw [List.forall₂_map_left_iff, List.forall₂_map_right_iff, List.forall₂_same]
    intro c _
    exact ⟨key _ _ (ho e hef).1, key _ _ (ho e hef).2⟩

end Verif.Snapshots
