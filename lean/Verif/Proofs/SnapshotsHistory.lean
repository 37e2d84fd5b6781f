import Verif.Proofs.SnapshotsPorts

/-! Helper lemmas: histories of saves. -/

namespace Verif.Snapshots

open Verif Spec

variable {V : Type}

theorem runSaves_inv {rom : Rom V} : ∀ {hist : List (List V × List BasisTag)} {st st' : Store V}
    {cols : List (List Nat)}, WF st → runSaves rom st hist = .ok (st', cols) →
    SaveSpec st st' (flat hist) ∧ cols.length = hist.length ∧
    (∀ c ∈ hist, c.1.length = c.2.length) ∧
    ∀ (k : Nat) call cs, hist[k]? = some call → cols[k]? = some cs →
      cs.length = call.1.length ∧
      ∀ (s : Nat) u t, call.1[s]? = some u → call.2[s]? = some t →
        ∃ c : Nat, cs[s]? = some c ∧ (st'.cols t)[c]? = some u
  | [], st, st', cols, w, h => by
    cases h
    refine ⟨by simpa [flat] using SaveSpec.refl w, rfl, by simp, ?_⟩
    intro k call cs hk; simp at hk
  | c :: cs, st, st', cols, w, h => by
    rw [runSaves] at h
    cases h1 : saveSnapshot rom st c.1 c.2 with
    | error e => rw [h1] at h; simp at h
    | ok r =>
      rw [h1] at h
      simp only [ok_bind] at h
      have hc := saveSnapshot_inv w h1
      cases h2 : runSaves rom r.1 cs with
      | error e => rw [h2] at h; simp at h
      | ok q =>
        rw [h2] at h
        simp only [ok_bind, pure, Except.pure, Except.ok.injEq, Prod.mk.injEq] at h
        obtain ⟨rfl, rfl⟩ := h
        obtain ⟨i1, i2, i3, i4⟩ := runSaves_inv (st' := q.1) (cols := q.2) hc.save.wf h2
        refine ⟨?_, by simp [i2], ?_, ?_⟩
        · have := hc.save.trans i1
          simpa [flat] using this
        · intro d hd
          rcases List.mem_cons.1 hd with rfl | hd
          · exact hc.len
          · exact i3 d hd
        · intro k call cc hk hcs
          cases k with
          | zero =>
            simp at hk hcs
            subst hk; subst hcs
            refine ⟨hc.clen, ?_⟩
            intro s u t hu ht
            obtain ⟨x, hx1, hx2⟩ := hc.retrieve hu ht
            refine ⟨x, hx1, ?_⟩
            rw [i1.cols, List.getElem?_append_left (List.getElem?_eq_some_iff.1 hx2).1, hx2]
          | succ k =>
            simp only [List.getElem?_cons_succ] at hk hcs
            exact i4 k call cc hk hcs

theorem runSaves_exists {rom : Rom V} : ∀ {hist : List (List V × List BasisTag)} {st : Store V},
    WF st → (∀ c ∈ hist, c.1.length = c.2.length) →
    (∀ c ∈ hist, ∀ u ∈ c.1, rom.accept u = true) →
    (∀ t, (st.cols t).length + (filed (flat hist) t).length ≤ rom.cap) →
    ∃ r, runSaves rom st hist = .ok r
  | [], st, _, _, _, _ => ⟨_, rfl⟩
  | c :: cs, st, w, hl, ha, hcap => by
    have e : ∀ t, (filed (flat (c :: cs)) t).length
        = (filed (c.1.zip c.2) t).length + (filed (flat cs) t).length := by
      intro t
      rw [← List.length_append, ← filed_append]; simp [flat]
    obtain ⟨r, hr⟩ := saveSnapshot_exists (rom := rom) w (hl c (by simp)) (ha c (by simp))
      (fun t => by have := hcap t; rw [e] at this; omega)
    have hc := saveSnapshot_inv w hr
    obtain ⟨q, hq⟩ := runSaves_exists (rom := rom) (hist := cs) hc.save.wf
      (fun d hd => hl d (by simp [hd])) (fun d hd => ha d (by simp [hd]))
      (fun t => by
        rw [hc.save.cols, List.length_append]
        have := hcap t; rw [e] at this; omega)
    exact ⟨_, by rw [runSaves, hr]; simp only [ok_bind, hq]; rfl⟩

/-- Columns only grow at the end. -/
def Extends (a b : Store V) : Prop := ∀ t, a.cols t <+: b.cols t

theorem isBlock_mono {a b : Store V} (h : Extends a b) {s : Sample V} {m c : Nat}
    (hb : IsBlock a.cols s m c) : IsBlock b.cols s m c := by
  obtain ⟨comp, h1, h2⟩ := hb
  refine ⟨comp, h1, ?_⟩
  intro v w hv
  obtain ⟨h3, h4⟩ := h2 v w hv
  refine ⟨?_, h4⟩
  obtain ⟨l, hl⟩ := h ⟨comp, w⟩
  rw [← hl, ← h3]
  rw [← h3] at h4
  obtain ⟨x, hx⟩ := Option.isSome_iff_exists.1 h4
  rw [List.getElem?_append_left (List.getElem?_eq_some_iff.1 hx).1]

theorem mem_length_div {n k : Nat} (h0 : 0 < n) : n * k / n = k := Nat.mul_div_cancel_left k h0

theorem forall₂_mem_right {α β : Type} {R : α → β → Prop} {l : List α} {u : List β}
    (h : List.Forall₂ R l u) : List.Forall₂ (fun a b => R a b ∧ b ∈ u) l u := by
  induction h with
  | nil => exact .nil
  | cons h1 _ ih =>
    exact .cons ⟨h1, by simp⟩ (ih.imp (fun a b hh => ⟨hh.1, by simp [hh.2]⟩))

theorem compOf_lt {topo : Topo} {m : Nat} {c : String} (h : compOf topo m = some c) :
    m < topo.meshType.length := by
  by_contra hm
  have : topo.meshType[m]? = none := by simpa using hm
  simp [compOf, this] at h

theorem mem_tags {topo : Topo} {vars : List String} {tags : List BasisTag}
    (h : getBasisTags topo vars = .ok tags) (t : BasisTag) :
    t ∈ tags ↔ ∃ m comp, ∃ w ∈ vars, compOf topo m = some comp ∧ t = ⟨comp, w⟩ := by
  have hT := getBasisTags_inv h
  constructor
  · intro ht
    obtain ⟨i, hi⟩ := List.mem_iff_getElem?.1 ht
    have hil : i < topo.meshType.length * vars.length := by
      rw [← hT.1]; exact (List.getElem?_eq_some_iff.1 hi).1
    have hvpos : 0 < vars.length := by
      rcases Nat.eq_zero_or_pos vars.length with h | h
      · rw [h] at hil; simp at hil
      · exact h
    have hm : i / vars.length < topo.meshType.length := Nat.div_lt_of_lt_mul (by rwa [Nat.mul_comm])
    have hv : i % vars.length < vars.length := Nat.mod_lt _ hvpos
    obtain ⟨comp, hc, htag⟩ := hT.2 _ hm (i % vars.length) vars[i % vars.length] (by simp [hv])
    rw [Nat.div_add_mod' i vars.length, hi] at htag
    cases htag
    exact ⟨_, comp, _, List.getElem_mem hv, hc, rfl⟩
  · rintro ⟨m, comp, w, hw, hc, rfl⟩
    obtain ⟨v, hv⟩ := List.mem_iff_getElem?.1 hw
    obtain ⟨comp', hc', htag⟩ := hT.2 m (compOf_lt hc) v w hv
    rw [hc] at hc'; cases hc'
    exact List.mem_of_getElem? htag

/-- One `SaveSnapshots` call. -/
theorem saveSnapshots_inv {rom : Rom V} {st st' : Store V} {s : Sample V} (w : WF st)
    (h : saveSnapshots rom st s.topo s.vars s.blocks = .ok st') :
    WF st' ∧ Extends st st' ∧
    (∃ tags, getBasisTags s.topo s.vars = .ok tags ∧ s.blocks.length = tags.length ∧
      (∀ t, st'.cols t = st.cols t ++ filed (s.blocks.zip tags) t) ∧
      (∀ t, t ∈ st'.basisTags ↔ t ∈ st.basisTags ∨ t ∈ tags)) ∧
    (∀ t, t ∈ st'.portTags ↔ t ∈ st.portTags ∨ ∃ p ∈ s.topo.ports, portTagOf s.topo p = some t) ∧
    ∀ t, ∃ new, st'.rows t = st.rows t ++ new ∧
      List.Forall₂ (fun row p => IsBlock st'.cols s p.mesh1 row.1 ∧ IsBlock st'.cols s p.mesh2 row.2)
        new (s.topo.ports.filter (fun p => decide (portTagOf s.topo p = some t))) := by
  unfold saveSnapshots at h
  cases ht : getBasisTags s.topo s.vars with
  | error e => rw [ht] at h; simp at h
  | ok tags =>
    rw [ht] at h
    simp only [ok_bind] at h
    have hT := getBasisTags_inv ht
    by_cases hl : s.blocks.length = tags.length
    · simp only [hl, beq_self_eq_true, require_true, ok_bind] at h
      cases h1 : saveSnapshot rom st s.blocks tags with
      | error e => rw [h1] at h; simp at h
      | ok r =>
        rw [h1] at h
        simp only [ok_bind] at h
        have hc := saveSnapshot_inv w h1
        obtain ⟨h0, hmod, hp⟩ := saveSnapshotPorts_inv hc.save.wf h
        have hnv : r.2.length / s.topo.meshType.length = s.vars.length := by
          rw [hc.clen, hl, hT.1]; exact mem_length_div h0
        have hcols : ∀ t, st'.cols t = st.cols t ++ filed (s.blocks.zip tags) t := by
          intro t; rw [hp.basis.cols, hc.save.cols]
        have key : ∀ (m c : Nat) (comp : String), compOf s.topo m = some comp →
            (∀ v, v < s.vars.length → r.2[v + s.vars.length * m]? = some c) →
            IsBlock st'.cols s m c := by
          intro m c comp hcomp hv
          refine ⟨comp, hcomp, ?_⟩
          intro v x hx
          have hvl := (List.getElem?_eq_some_iff.1 hx).1
          have hm : m < s.topo.meshType.length := by
            by_contra hm
            have : s.topo.meshType[m]? = none := by simpa using hm
            simp [compOf, this] at hcomp
          obtain ⟨comp', hc1, htag⟩ := hT.2 m hm v x hx
          rw [hcomp] at hc1; cases hc1
          have hlt : m * s.vars.length + v < s.blocks.length := by
            rw [hl]; exact (List.getElem?_eq_some_iff.1 htag).1
          have hu : s.blocks[m * s.vars.length + v]? = some s.blocks[m * s.vars.length + v] := by
            simp [hlt]
          obtain ⟨c', hc1, hc2⟩ := hc.retrieve hu htag
          have := hv v hvl
          rw [show v + s.vars.length * m = m * s.vars.length + v by
            rw [Nat.mul_comm]; omega, hc1] at this
          cases this
          rw [hp.basis.cols, hc2, hu]
          exact ⟨rfl, rfl⟩
        refine ⟨hp.wf, ?_, ⟨tags, rfl, hl, hcols, ?_⟩, ?_, ?_⟩
        · intro t; rw [hcols]; exact List.prefix_append _ _
        · intro t
          rw [hp.basis.1, hc.save.mem, List.map_snd_zip (by omega)]
        · intro t
          rw [hp.mem, hc.save.ports.1]
        · intro t
          obtain ⟨new, hn1, hn2⟩ := hp.rows t
          refine ⟨new, by rw [hn1, hc.save.ports.rows], ?_⟩
          refine (forall₂_mem_right hn2).imp ?_
          rintro row p ⟨⟨_, _, hR⟩, hpm⟩
          have hpt : portTagOf s.topo p = some t := by
            simpa using (List.mem_filter.1 hpm).2
          rw [hnv] at hR
          unfold portTagOf at hpt
          split at hpt
          · rename_i a b ha hb
            exact ⟨key _ _ _ ha (fun v hv => (hR v hv).1), key _ _ _ hb (fun v hv => (hR v hv).2)⟩
          · cases hpt
    · have e : (s.blocks.length == tags.length) = false := by simp [hl]
      rw [e] at h; cases h

/-- A history of `SaveSnapshots` calls. -/
theorem runSamples_inv {rom : Rom V} : ∀ {hist : List (Sample V)} {st st' : Store V}, WF st →
    runSamples rom st hist = .ok st' →
    WF st' ∧ Extends st st' ∧
    (∀ t, t ∈ st'.portTags ↔ t ∈ st.portTags ∨
      ∃ s ∈ hist, ∃ p ∈ s.topo.ports, portTagOf s.topo p = some t) ∧
    (∀ t, t ∈ st'.basisTags ↔ t ∈ st.basisTags ∨
      ∃ s ∈ hist, ∃ m comp, ∃ w ∈ s.vars, compOf s.topo m = some comp ∧ t = ⟨comp, w⟩) ∧
    ∀ t, ∃ new, st'.rows t = st.rows t ++ new ∧
      List.Forall₂ (fun row (o : Sample V × Port) =>
        IsBlock st'.cols o.1 o.2.mesh1 row.1 ∧ IsBlock st'.cols o.1 o.2.mesh2 row.2)
        new (occurrences hist t)
  | [], st, st', w, h => by
    cases h
    refine ⟨w, fun t => List.prefix_refl _, by simp, by simp, ?_⟩
    intro t; exact ⟨[], by simp, by simp [occurrences]⟩
  | s :: ss, st, st', w, h => by
    rw [runSamples] at h
    cases h1 : saveSnapshots rom st s.topo s.vars s.blocks with
    | error e => rw [h1] at h; simp at h
    | ok st1 =>
      rw [h1] at h
      simp only [ok_bind] at h
      obtain ⟨w1, e1, ⟨tags, ht, hl, _, hb1⟩, m1, r1⟩ := saveSnapshots_inv w h1
      obtain ⟨w2, e2, m2, b2, r2⟩ := runSamples_inv w1 h
      refine ⟨w2, fun t => (e1 t).trans (e2 t), ?_, ?_, ?_⟩
      · intro t
        rw [m2, m1]
        simp [or_assoc]
      · intro t
        rw [b2, hb1, mem_tags ht]
        simp only [List.mem_cons, exists_eq_or_imp, or_assoc]
      · intro t
        obtain ⟨n1, hn1, hf1⟩ := r1 t
        obtain ⟨n2, hn2, hf2⟩ := r2 t
        refine ⟨n1 ++ n2, by rw [hn2, hn1, List.append_assoc], ?_⟩
        have : occurrences (s :: ss) t = (s.topo.ports.filter
            (fun p => decide (portTagOf s.topo p = some t))).map (fun p => (s, p))
            ++ occurrences ss t := by simp [occurrences]
        rw [this]
        refine List.rel_append ?_ hf2
        rw [List.forall₂_map_right_iff]
        exact hf1.imp (fun row p hh => ⟨isBlock_mono e2 hh.1, isBlock_mono e2 hh.2⟩)

/-! ### Totality -/

/-- The tag list of a solver, in closed form. -/
def tagsF (topo : Topo) (vars : List String) (n : Nat) : List BasisTag :=
  (List.range n).flatMap (fun m => vars.map (fun w => ⟨(compOf topo m).getD "", w⟩))

theorem tagsF_succ (topo : Topo) (vars : List String) (n : Nat) :
    tagsF topo vars (n + 1) = tagsF topo vars n ++
      vars.map (fun w => ⟨(compOf topo n).getD "", w⟩) := by
  simp [tagsF, List.range_succ]

theorem getBasisTags_eq {topo : Topo} {vars : List String}
    (h : ∀ m, m < topo.meshType.length → (compOf topo m).isSome) :
    getBasisTags topo vars = .ok (tagsF topo vars topo.meshType.length) := by
  unfold getBasisTags
  refine loop_spec (tagsF topo vars) rfl ?_
  intro m hm
  obtain ⟨c, hc⟩ := Option.isSome_iff_exists.1 (h m hm)
  rw [inner_tags.1 c hc, tagsF_succ, hc]; rfl

theorem length_tagsF (topo : Topo) (vars : List String) (n : Nat) :
    (tagsF topo vars n).length = n * vars.length := by
  induction n with
  | zero => simp [tagsF]
  | succ n ih => rw [tagsF_succ]; simp [ih, Nat.succ_mul]

theorem tagsF_prefix (topo : Topo) (vars : List String) {m n : Nat} (h : m ≤ n) :
    tagsF topo vars m <+: tagsF topo vars n := by
  induction n with
  | zero => obtain rfl : m = 0 := by omega
            exact List.prefix_refl _
  | succ n ih =>
    by_cases hm : m = n + 1
    · subst hm; exact List.prefix_refl _
    · rw [tagsF_succ]; exact (ih (by omega)).trans (List.prefix_append _ _)

theorem take_tagsF (topo : Topo) (vars : List String) {m n v : Nat} (hm : m < n)
    (hv : v < vars.length) :
    (tagsF topo vars n).take (m * vars.length + v) = tagsF topo vars m ++
      (vars.take v).map (fun w => ⟨(compOf topo m).getD "", w⟩) := by
  obtain ⟨rest, hr⟩ := tagsF_prefix topo vars (m := m + 1) (n := n) (by omega)
  have hl := length_tagsF topo vars m
  rw [← hr, tagsF_succ, List.append_assoc, List.take_append]
  rw [List.take_of_length_le (by omega), hl]
  rw [show m * vars.length + v - m * vars.length = v by omega, List.take_append_of_le_length (by simp; omega)]
  rw [List.map_take]

theorem count_map_tag {vars : List String} (hn : vars.Nodup) {w : String} (hw : w ∈ vars)
    (c d : String) : (vars.map (fun x => (⟨d, x⟩ : BasisTag))).count ⟨c, w⟩ = if d = c then 1 else 0 := by
  by_cases h : d = c
  · subst h
    rw [if_pos rfl, List.count_eq_one_of_mem]
    · exact hn.map (fun a b hab => by simpa using hab)
    · exact List.mem_map.2 ⟨w, hw, rfl⟩
  · rw [if_neg h, List.count_eq_zero]
    simp [h]

/-- Number of subdomains below `n` of component `c`. -/
def cntC (topo : Topo) (c : String) (n : Nat) : Nat :=
  ((List.range n).filter (fun m => decide (compOf topo m = some c))).length

theorem count_tagsF {topo : Topo} {vars : List String} (hn : vars.Nodup) {w : String}
    (hw : w ∈ vars) (c : String) {n : Nat} (hv : ∀ m, m < n → (compOf topo m).isSome) :
    (tagsF topo vars n).count ⟨c, w⟩ = cntC topo c n := by
  induction n with
  | zero => simp [tagsF, cntC]
  | succ n ih =>
    rw [tagsF_succ, List.count_append, ih (fun m hm => hv m (by omega)), count_map_tag hn hw]
    obtain ⟨d, hd⟩ := Option.isSome_iff_exists.1 (hv n (by omega))
    unfold cntC
    rw [List.range_succ, List.filter_append, List.length_append, hd]
    by_cases h : d = c
    · simp [h, hd]
    · simp [h, hd]

theorem filed_zip_length : ∀ (blocks : List V) (tags : List BasisTag) (t : BasisTag),
    blocks.length = tags.length → (filed (blocks.zip tags) t).length = tags.count t
  | [], [], t, _ => by simp [filed]
  | [], _ :: _, _, h => by simp at h
  | _ :: _, [], _, h => by simp at h
  | b :: bs, x :: xs, t, h => by
    have ih := filed_zip_length bs xs t (by simpa using h)
    by_cases hx : x = t
    · simp [filed, hx] at ih ⊢; exact ih
    · simp [filed, hx] at ih ⊢; exact ih

theorem take_zip' {α β : Type} (a : List α) (b : List β) (k : Nat) :
    (a.zip b).take k = (a.take k).zip (b.take k) := by
  simp only [List.zip, List.take_zipWith]

theorem saveSnapshots_exists {rom : Rom V} {st : Store V} {vars : List String} {s : Sample V}
    {N : String → Nat} (w : WF st) (hn : vars.Nodup) (hne : vars ≠ []) (hwf : WellFormed vars s)
    (hN : ∀ c, ∀ x ∈ vars, (st.cols ⟨c, x⟩).length = N c)
    (hN' : ∀ t, t.var ∉ vars → st.cols t = [])
    (ha : ∀ u ∈ s.blocks, rom.accept u = true)
    (hcap : ∀ c, N c + cntC s.topo c s.topo.meshType.length ≤ rom.cap) :
    ∃ st', saveSnapshots rom st s.topo s.vars s.blocks = .ok st' ∧
      (∀ c, ∀ x ∈ vars, (st'.cols ⟨c, x⟩).length = N c + cntC s.topo c s.topo.meshType.length) ∧
      (∀ t, t.var ∉ vars → st'.cols t = []) := by
  obtain ⟨rfl, h0, hcomp, hports, hlen⟩ := hwf
  have htags := getBasisTags_eq (vars := s.vars) hcomp
  have hl : s.blocks.length = (tagsF s.topo s.vars s.topo.meshType.length).length := by
    rw [hlen, length_tagsF]
  have hzero : ∀ t : BasisTag, t.var ∉ s.vars →
      (tagsF s.topo s.vars s.topo.meshType.length).count t = 0 := by
    intro t ht
    rw [List.count_eq_zero]
    intro hm
    obtain ⟨_, _, x, hx, _, rfl⟩ := (mem_tags htags t).1 hm
    exact ht hx
  obtain ⟨r, hr⟩ := saveSnapshot_exists (rom := rom) w hl ha (fun t => by
    rw [filed_zip_length _ _ _ hl]
    by_cases ht : t.var ∈ s.vars
    · have e1 := hN t.comp t.var ht
      have e2 := count_tagsF hn ht t.comp (topo := s.topo) hcomp
      have := hcap t.comp
      obtain ⟨tc, tv⟩ := t
      simp only at e1 e2 this
      omega
    · rw [hzero t ht, hN' t ht]; simp)
  have hc := saveSnapshot_inv w hr
  have hnv : r.2.length / s.topo.meshType.length = s.vars.length := by
    rw [hc.clen, hlen]; exact mem_length_div h0
  have hcol : ∀ m, m < s.topo.meshType.length → ∃ c : Nat, ∀ v, v < s.vars.length →
      r.2[v + s.vars.length * m]? = some c := by
    intro m hm
    obtain ⟨cm, hcm⟩ := Option.isSome_iff_exists.1 (hcomp m hm)
    refine ⟨N cm + cntC s.topo cm m, ?_⟩
    intro v hv
    have hx : s.vars[v]? = some s.vars[v] := by simp [hv]
    have hT := getBasisTags_inv htags
    obtain ⟨c', hc', htag⟩ := hT.2 m hm v _ hx
    rw [hcm] at hc'; cases hc'
    have hlt : m * s.vars.length + v < s.blocks.length := by
      rw [hl]; exact (List.getElem?_eq_some_iff.1 htag).1
    have hu : s.blocks[m * s.vars.length + v]? = some s.blocks[m * s.vars.length + v] := by
      simp [hlt]
    have := hc.idx _ _ _ hu htag
    rw [show v + s.vars.length * m = m * s.vars.length + v by rw [Nat.mul_comm]; omega, this]
    congr 1
    rw [hN cm _ (List.getElem_mem hv), take_zip',
      filed_zip_length _ _ _ (by simp [hl]), take_tagsF _ _ hm hv, List.count_append,
      count_tagsF hn (List.getElem_mem hv) cm (fun k hk => hcomp k (by omega))]
    have : ((s.vars.take v).map (fun w => (⟨(compOf s.topo m).getD "", w⟩ : BasisTag))).count
        ⟨cm, s.vars[v]⟩ = 0 := by
      rw [List.count_eq_zero]
      intro hmem
      obtain ⟨x, hx, he⟩ := List.mem_map.1 hmem
      have : x = s.vars[v] := by simpa using (BasisTag.mk.inj he).2
      subst this
      obtain ⟨k, hk⟩ := List.mem_iff_getElem?.1 hx
      have hkl := (List.getElem?_eq_some_iff.1 hk).1
      rw [List.length_take] at hkl
      have hkl1 : k < v := by omega
      have hkl2 : k < s.vars.length := by omega
      rw [List.getElem?_take_of_lt hkl1] at hk
      have hv' : s.vars[v]? = some s.vars[v] := by simp [hv]
      have := (List.getElem?_inj (i := k) (j := v) hkl2 hn).1 (by rw [hk, hv'])
      omega
    omega
  obtain ⟨st', hst'⟩ := saveSnapshotPorts_exists (topo := s.topo) (colIdxs := r.2) hc.save.wf h0
    (by rw [hc.clen, hlen]; exact Nat.mul_mod_right _ _) (by
      intro p hp
      obtain ⟨h1, h2⟩ := hports p hp
      obtain ⟨c1, hc1⟩ := hcol _ h1
      obtain ⟨c2, hc2⟩ := hcol _ h2
      obtain ⟨n1, hn1⟩ := Option.isSome_iff_exists.1 (hcomp _ h1)
      obtain ⟨n2, hn2⟩ := Option.isSome_iff_exists.1 (hcomp _ h2)
      have hpos : 0 < s.vars.length := List.length_pos_iff.2 hne
      refine ⟨by simp [portTagOf, hn1, hn2], (c1, c2), ?_, ?_, ?_⟩
      · rw [hnv]; simpa using hc1 0 hpos
      · rw [hnv]; simpa using hc2 0 hpos
      · rw [hnv]; exact fun v hv => ⟨hc1 v hv, hc2 v hv⟩)
  have hcall : saveSnapshots rom st s.topo s.vars s.blocks = .ok st' := by
    unfold saveSnapshots
    rw [htags]
    simp only [ok_bind, hl, beq_self_eq_true, require_true]
    rw [hr]
    exact hst'
  refine ⟨st', hcall, ?_, ?_⟩
  all_goals
    obtain ⟨_, _, ⟨tags, ht, hl', hcols, _⟩, _, _⟩ := saveSnapshots_inv w hcall
    rw [htags] at ht; cases ht
  · intro c x hx
    rw [hcols, List.length_append, hN c x hx, filed_zip_length _ _ _ hl, count_tagsF hn hx c hcomp]
  · intro t ht
    have : (st'.cols t).length = 0 := by
      rw [hcols, List.length_append, hN' t ht, filed_zip_length _ _ _ hl, hzero t ht]; rfl
    exact List.length_eq_zero_iff.1 this

theorem compCount_cons (s : Sample V) (ss : List (Sample V)) (c : String) :
    compCount (s :: ss) c = cntC s.topo c s.topo.meshType.length + compCount ss c := by
  simp [compCount, cntC]

theorem runSamples_exists {rom : Rom V} {vars : List String} (hn : vars.Nodup) (hne : vars ≠ []) :
    ∀ {hist : List (Sample V)} {st : Store V} {N : String → Nat}, WF st →
    (∀ s ∈ hist, WellFormed vars s) →
    (∀ c, ∀ x ∈ vars, (st.cols ⟨c, x⟩).length = N c) →
    (∀ t, t.var ∉ vars → st.cols t = []) →
    (∀ s ∈ hist, ∀ u ∈ s.blocks, rom.accept u = true) →
    (∀ c, N c + compCount hist c ≤ rom.cap) →
    ∃ st', runSamples rom st hist = .ok st'
  | [], st, _, _, _, _, _, _, _ => ⟨st, rfl⟩
  | s :: ss, st, N, w, hwf, hN, hN', ha, hcap => by
    obtain ⟨st1, h1, h2, h3⟩ := saveSnapshots_exists (rom := rom) w hn hne (hwf s (by simp)) hN hN'
      (ha s (by simp)) (fun c => by have := hcap c; rw [compCount_cons] at this; omega)
    obtain ⟨w1, _⟩ := saveSnapshots_inv w h1
    obtain ⟨st', hst'⟩ := runSamples_exists hn hne (hist := ss) w1
      (fun q hq => hwf q (by simp [hq])) h2 h3 (fun q hq => ha q (by simp [hq]))
      (fun c => by have := hcap c; rw [compCount_cons] at this; omega)
    exact ⟨st', by rw [runSamples, h1]; exact hst'⟩

end Verif.Snapshots
