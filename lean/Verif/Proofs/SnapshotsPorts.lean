import Verif.Proofs.SnapshotsSave

/-! Helper lemmas: saving port columns. -/

namespace Verif.Snapshots

open Verif Spec

variable {V : Type}

/-- Everything about snapshots is the same in both stores. -/
def SameBasis (a b : Store V) : Prop :=
  a.basisTags = b.basisTags ∧ a.tag2idx = b.tag2idx ∧ a.gens = b.gens

theorem SameBasis.rfl' (a : Store V) : SameBasis a a := ⟨rfl, rfl, rfl⟩

theorem SameBasis.trans {a b c : Store V} (h1 : SameBasis a b) (h2 : SameBasis b c) :
    SameBasis a c := ⟨h1.1.trans h2.1, h1.2.1.trans h2.2.1, h1.2.2.trans h2.2.2⟩

theorem SameBasis.cols {a b : Store V} (h : SameBasis a b) (t : BasisTag) : a.cols t = b.cols t := by
  unfold Store.cols; rw [h.1, h.2.2]

theorem SamePorts.rows {a b : Store V} (h : SamePorts a b) (t : PortTag) : a.rows t = b.rows t := by
  unfold Store.rows; rw [h.1, h.2.2]

theorem ensurePort_spec {st : Store V} (w : WF st) (tag : PortTag) :
    WF (ensurePort st tag) ∧ (∀ t, (ensurePort st tag).rows t = st.rows t) ∧
      (∀ t, t ∈ (ensurePort st tag).portTags ↔ t ∈ st.portTags ∨ t = tag) ∧
      SameBasis (ensurePort st tag) st := by
  unfold ensurePort
  cases h : mapFind PortTag.lt st.port2idx tag with
  | some i =>
    have hm : tag ∈ st.portTags := by
      by_contra hm
      rw [(mapFind_none (lt := PortTag.lt) (fun a b => portTag_equiv) w.port tag).2 hm] at h
      cases h
    refine ⟨w, fun _ => rfl, ?_, SameBasis.rfl' _⟩
    intro t
    constructor
    · exact .inl
    · rintro (h | rfl)
      · exact h
      · exact hm
  | none =>
    have hm := (mapFind_none (lt := PortTag.lt) (fun a b => portTag_equiv) w.port tag).1 h
    have hr := w.port.register (lt := PortTag.lt) (fun a b => portTag_equiv) hm
    refine ⟨⟨w.basis, hr⟩, ?_, ?_, ⟨rfl, rfl, rfl⟩⟩
    · intro t
      exact regGet_append_new w.port.len hm t
    · intro t; simp

/-- Register a port tag and append rows to it. -/
theorem appendRows_spec {st : Store V} (w : WF st) (tag : PortTag) (new : List (Nat × Nat)) :
    ∃ rows pc, rd (ensurePort st tag).portCols (mapGet PortTag.lt (ensurePort st tag).port2idx tag)
        = .ok rows ∧
      wr (ensurePort st tag).portCols (mapGet PortTag.lt (ensurePort st tag).port2idx tag)
        (rows ++ new) = .ok pc ∧
      WF { ensurePort st tag with portCols := pc } ∧
      (∀ t, ({ ensurePort st tag with portCols := pc } : Store V).rows t
        = st.rows t ++ if t = tag then new else []) ∧
      (∀ t, t ∈ ({ ensurePort st tag with portCols := pc } : Store V).portTags
        ↔ t ∈ st.portTags ∨ t = tag) ∧
      SameBasis { ensurePort st tag with portCols := pc } st := by
  obtain ⟨w1, hr, hm, hb⟩ := ensurePort_spec w tag
  obtain ⟨i, _, hg, hk, hp⟩ := w1.port.find (lt := PortTag.lt) (fun a b => portTag_equiv)
    ((hm tag).2 (.inr rfl))
  have hl : i < (ensurePort st tag).portCols.length := (List.getElem?_eq_some_iff.1 hp).1
  refine ⟨_, (ensurePort st tag).portCols.set i
      (regGet (ensurePort st tag).portTags (ensurePort st tag).portCols tag ++ new),
    by rw [hg]; exact rd_eq_ok.2 hp, by rw [hg, wr_of_lt hl], ⟨w1.basis, w1.port.update _ _⟩, ?_, hm, hb⟩
  intro t
  show regGet (ensurePort st tag).portTags ((ensurePort st tag).portCols.set i _) t = _
  rw [regGet_set w1.port.nodup w1.port.len hk]
  have e : ∀ t, regGet (ensurePort st tag).portTags (ensurePort st tag).portCols t = st.rows t := hr
  rw [e, e]
  by_cases h : t = tag
  · subst h; simp
  · simp [h]

theorem name_ok {topo : Topo} {m : Nat} {c : String} :
    topo.name m = .ok c ↔ compOf topo m = some c := by
  unfold Topo.name compOf
  cases h : topo.meshType[m]? with
  | none => simp [rd, h]
  | some k =>
    rw [rd_eq_ok.2 h]
    simp only [ok_bind, Option.bind_some]
    exact rd_eq_ok

/-- The pair of columns is the one the assertions of `SaveSnapshotPorts` certify for `port`. -/
def ColsOf (numVar : Nat) (colIdxs : List Nat) (row : Nat × Nat) (port : Port) : Prop :=
  colIdxs[numVar * port.mesh1]? = some row.1 ∧ colIdxs[numVar * port.mesh2]? = some row.2 ∧
  ∀ v, v < numVar → colIdxs[v + numVar * port.mesh1]? = some row.1 ∧
    colIdxs[v + numVar * port.mesh2]? = some row.2

theorem checkCols {numVar : Nat} {colIdxs : List Nat} {port : Port} {c1 c2 : Nat} :
    loop numVar (fun v (_ : Unit) => do
      let a ← rd colIdxs (v + numVar * port.mesh1)
      require (c1 == a)
      let b ← rd colIdxs (v + numVar * port.mesh2)
      require (c2 == b)) () = .ok () ↔
    ∀ v, v < numVar → colIdxs[v + numVar * port.mesh1]? = some c1 ∧
      colIdxs[v + numVar * port.mesh2]? = some c2 := by
  constructor
  · intro h
    refine (loop_inv (fun j (_ : Unit) => ∀ v, v < j →
      colIdxs[v + numVar * port.mesh1]? = some c1 ∧ colIdxs[v + numVar * port.mesh2]? = some c2)
      (by intro v hv; omega) ?_ h)
    intro j _ x hj ih hb v hv
    cases x
    by_cases hvj : v < j
    · exact ih v hvj
    · obtain rfl : v = j := by omega
      cases h1 : colIdxs[v + numVar * port.mesh1]? with
      | none => simp [rd, h1] at hb
      | some a =>
        rw [rd_eq_ok.2 h1] at hb
        simp only [ok_bind] at hb
        by_cases ha : c1 = a
        · subst ha
          simp only [beq_self_eq_true, require_true, ok_bind] at hb
          cases h2 : colIdxs[v + numVar * port.mesh2]? with
          | none => simp [rd, h2] at hb
          | some b =>
            rw [rd_eq_ok.2 h2] at hb
            simp only [ok_bind, require_eq_ok, beq_iff_eq] at hb
            subst hb; exact ⟨rfl, rfl⟩
        · have e : (c1 == a) = false := by simp [ha]
          rw [e] at hb; cases hb
  · intro h
    exact loop_spec (fun _ => ()) rfl (fun i hi => by
      rw [rd_eq_ok.2 (h i hi).1, rd_eq_ok.2 (h i hi).2]; simp)

/-- What one successful iteration of the port loop does. -/
theorem savePortStep_spec {topo : Topo} {numVar : Nat} {colIdxs : List Nat} {p : Nat} {st : Store V}
    (w : WF st) :
    (∀ st', savePortStep topo numVar colIdxs p st = .ok st' →
      ∃ port tag row, topo.ports[p]? = some port ∧ portTagOf topo port = some tag ∧
        ColsOf numVar colIdxs row port) ∧
    (∀ port tag row, topo.ports[p]? = some port → portTagOf topo port = some tag →
      ColsOf numVar colIdxs row port →
      ∃ st', savePortStep topo numVar colIdxs p st = .ok st' ∧ WF st' ∧ SameBasis st' st ∧
        (∀ t, st'.rows t = st.rows t ++ if t = tag then [row] else []) ∧
        (∀ t, t ∈ st'.portTags ↔ t ∈ st.portTags ∨ t = tag)) := by
  constructor
  · intro st' h
    unfold savePortStep at h
    cases hp : topo.ports[p]? with
    | none => simp [rd, hp] at h
    | some port =>
      rw [rd_eq_ok.2 hp] at h
      simp only [ok_bind] at h
      cases h1 : topo.name port.mesh1 with
      | error e => rw [h1] at h; simp at h
      | ok m1 =>
        cases h2 : topo.name port.mesh2 with
        | error e => rw [h1, h2] at h; simp at h
        | ok m2 =>
          rw [h1, h2] at h
          simp only [ok_bind] at h
          cases hc1 : colIdxs[numVar * port.mesh1]? with
          | none => simp [rd, hc1] at h
          | some c1 =>
            cases hc2 : colIdxs[numVar * port.mesh2]? with
            | none => simp [rd, hc1, hc2] at h
            | some c2 =>
              rw [rd_eq_ok.2 hc1, rd_eq_ok.2 hc2] at h
              simp only [ok_bind] at h
              refine ⟨port, ⟨m1, m2, port.attr1, port.attr2⟩, (c1, c2), rfl, ?_, hc1, hc2, ?_⟩
              · simp [portTagOf, name_ok.1 h1, name_ok.1 h2]
              · refine checkCols.1 ?_
                revert h
                generalize loop numVar _ () = x
                intro h
                cases x with
                | error e => simp at h
                | ok u => rfl
  · intro port tag row hp ht hc
    obtain ⟨hc1, hc2, hv⟩ := hc
    obtain ⟨m1, m2, h1, h2, rfl⟩ : ∃ m1 m2, compOf topo port.mesh1 = some m1 ∧
        compOf topo port.mesh2 = some m2 ∧ tag = ⟨m1, m2, port.attr1, port.attr2⟩ := by
      unfold portTagOf at ht
      split at ht
      · rename_i a b ha hb
        cases ht
        exact ⟨a, b, ha, hb, rfl⟩
      · cases ht
    obtain ⟨rows, pc, hr, hw, w', hrows, hmem, hb⟩ :=
      appendRows_spec w ⟨m1, m2, port.attr1, port.attr2⟩ [row]
    refine ⟨_, ?_, w', hb, hrows, hmem⟩
    unfold savePortStep
    rw [rd_eq_ok.2 hp]
    simp only [ok_bind, name_ok.2 h1, name_ok.2 h2, rd_eq_ok.2 hc1, rd_eq_ok.2 hc2,
      checkCols.2 hv, hr, hw]
    rfl

/-- The port loop: rows appended per port tag, in port order. -/
structure PortsSpec (topo : Topo) (numVar : Nat) (colIdxs : List Nat) (ports : List Port)
    (st st' : Store V) : Prop where
  wf : WF st'
  basis : SameBasis st' st
  valid : ∀ p ∈ ports, (portTagOf topo p).isSome
  rows : ∀ t, ∃ new, st'.rows t = st.rows t ++ new ∧
    List.Forall₂ (ColsOf numVar colIdxs) new
      (ports.filter (fun p => decide (portTagOf topo p = some t)))
  mem : ∀ t, t ∈ st'.portTags ↔ t ∈ st.portTags ∨ ∃ p ∈ ports, portTagOf topo p = some t

theorem PortsSpec.step {topo : Topo} {numVar : Nat} {colIdxs : List Nat} {p : Nat}
    {st0 st st' : Store V} {port tag row}
    (h : PortsSpec topo numVar colIdxs (topo.ports.take p) st0 st)
    (hp : topo.ports[p]? = some port) (ht : portTagOf topo port = some tag)
    (hc : ColsOf numVar colIdxs row port)
    (w : WF st') (hb : SameBasis st' st)
    (hr : ∀ t, st'.rows t = st.rows t ++ if t = tag then [row] else [])
    (hm : ∀ t, t ∈ st'.portTags ↔ t ∈ st.portTags ∨ t = tag) :
    PortsSpec topo numVar colIdxs (topo.ports.take (p + 1)) st0 st' := by
  have e : topo.ports.take (p + 1) = topo.ports.take p ++ [port] := by
    rw [List.take_add_one, hp]; rfl
  rw [e]
  refine ⟨w, hb.trans h.basis, ?_, ?_, ?_⟩
  · intro q hq
    rcases List.mem_append.1 hq with hq | hq
    · exact h.valid q hq
    · simp at hq; subst hq; simp [ht]
  · intro t
    obtain ⟨new, h1, h2⟩ := h.rows t
    by_cases hte : t = tag
    · subst hte
      refine ⟨new ++ [row], by rw [hr, h1]; simp, ?_⟩
      rw [List.filter_append]
      refine List.rel_append h2 ?_
      simp [ht, hc]
    · refine ⟨new, by rw [hr, h1]; simp [hte], ?_⟩
      rw [List.filter_append]
      have : portTagOf topo port ≠ some t := by rw [ht]; simpa using Ne.symm hte
      simpa [this] using h2
  · intro t
    rw [hm, h.mem]
    simp only [List.mem_append, List.mem_singleton, or_and_right, exists_or, or_assoc,
      exists_eq_left, ht, Option.some.injEq]
    rw [eq_comm]

theorem PortsSpec.init {topo : Topo} {numVar : Nat} {colIdxs : List Nat} {st : Store V} (w : WF st) :
    PortsSpec topo numVar colIdxs (topo.ports.take 0) st st := by
  refine ⟨w, SameBasis.rfl' _, by simp, ?_, by simp⟩
  intro t
  exact ⟨[], by simp, by simp⟩

theorem saveSnapshotPorts_inv {st st' : Store V} {topo : Topo} {colIdxs : List Nat} (w : WF st)
    (h : saveSnapshotPorts st topo colIdxs = .ok st') :
    0 < topo.meshType.length ∧ colIdxs.length % topo.meshType.length = 0 ∧
    PortsSpec topo (colIdxs.length / topo.meshType.length) colIdxs topo.ports st st' := by
  unfold saveSnapshotPorts at h
  dsimp only at h
  by_cases h0 : topo.meshType.length = 0
  · simp [h0] at h
  · rw [if_neg h0] at h
    by_cases hm : colIdxs.length % topo.meshType.length = 0
    · simp only [hm, beq_self_eq_true, require_true, ok_bind] at h
      refine ⟨by omega, hm, ?_⟩
      have := loop_inv (fun p st1 => PortsSpec topo (colIdxs.length / topo.meshType.length) colIdxs
        (topo.ports.take p) st st1) (PortsSpec.init w) (by
          intro p s1 s2 hp hI hs
          obtain ⟨hinv, hex⟩ := savePortStep_spec (topo := topo)
            (numVar := colIdxs.length / topo.meshType.length) (colIdxs := colIdxs) (p := p) hI.wf
          obtain ⟨port, tag, row, a, b, c⟩ := hinv _ hs
          obtain ⟨s2', hs', w', hb', hr', hm'⟩ := hex _ _ _ a b c
          rw [hs] at hs'; cases hs'
          exact hI.step a b c w' hb' hr' hm') h
      simpa using this
    · have e : (colIdxs.length % topo.meshType.length == 0) = false := by simp [hm]
      rw [e] at h; cases h

theorem saveSnapshotPorts_exists {st : Store V} {topo : Topo} {colIdxs : List Nat} (w : WF st)
    (h0 : 0 < topo.meshType.length) (hm : colIdxs.length % topo.meshType.length = 0)
    (hv : ∀ p ∈ topo.ports, (portTagOf topo p).isSome ∧
      ∃ row, ColsOf (colIdxs.length / topo.meshType.length) colIdxs row p) :
    ∃ st', saveSnapshotPorts st topo colIdxs = .ok st' := by
  unfold saveSnapshotPorts
  dsimp only
  rw [if_neg (by omega)]
  simp only [hm, beq_self_eq_true, require_true, ok_bind]
  obtain ⟨r, hr, _⟩ := loop_total (n := topo.ports.length)
    (body := savePortStep topo (colIdxs.length / topo.meshType.length) colIdxs)
    (fun p st1 => PortsSpec topo (colIdxs.length / topo.meshType.length) colIdxs
        (topo.ports.take p) st st1) (PortsSpec.init w) (by
      intro p s1 hp hI
      have hpp : topo.ports[p]? = some topo.ports[p] := by simp [hp]
      obtain ⟨h1, row, h2⟩ := hv _ (List.getElem_mem hp)
      obtain ⟨tag, h1⟩ := Option.isSome_iff_exists.1 h1
      obtain ⟨_, hex⟩ := savePortStep_spec (topo := topo)
            (numVar := colIdxs.length / topo.meshType.length) (colIdxs := colIdxs) (p := p) hI.wf
      obtain ⟨s2', hs', w', hb', hr', hm'⟩ := hex _ _ _ hpp h1 h2
      exact ⟨s2', hs', hI.step hpp h1 h2 w' hb' hr' hm'⟩)
  exact ⟨r, hr⟩

/-! ### Tags of a solver -/

theorem inner_tags {topo : Topo} {vars : List String} {m : Nat} {acc : List BasisTag} :
    (∀ comp, compOf topo m = some comp →
      loop vars.length (fun v acc => do
        let c ← topo.name m
        let w ← rd vars v
        return acc ++ [(⟨c, w⟩ : BasisTag)]) acc = .ok (acc ++ vars.map (fun w => ⟨comp, w⟩))) ∧
    (∀ r, loop vars.length (fun v acc => do
        let c ← topo.name m
        let w ← rd vars v
        return acc ++ [(⟨c, w⟩ : BasisTag)]) acc = .ok r →
        vars ≠ [] → ∃ comp, compOf topo m = some comp) := by
  constructor
  · intro comp hc
    have := loop_spec (n := vars.length) (body := fun v acc => do
        let c ← topo.name m
        let w ← rd vars v
        return acc ++ [(⟨c, w⟩ : BasisTag)])
      (fun v => acc ++ (vars.take v).map (fun w => (⟨comp, w⟩ : BasisTag))) (s := acc) (by simp)
      (fun i hi => by
        have hv : vars[i]? = some vars[i] := by simp [hi]
        simp only [name_ok.2 hc, ok_bind, rd_eq_ok.2 hv, pure, Except.pure]
        rw [List.take_add_one, hv, List.map_append]; simp)
    rw [List.take_length] at this
    exact this
  · intro r h hne
    cases hc : topo.name m with
    | ok c => exact ⟨c, name_ok.1 hc⟩
    | error e =>
      exfalso
      cases vars with
      | nil => exact hne rfl
      | cons x xs =>
        simp only [loop, List.length_cons, loopFrom, hc, error_bind] at h
        cases h

/-- Shape of the tag list of a solver: entry `m * numVar + v` is (component of `m`, variable `v`). -/
def TagsOf (topo : Topo) (vars : List String) (n : Nat) (tags : List BasisTag) : Prop :=
  tags.length = n * vars.length ∧ ∀ m, m < n → ∀ v w, vars[v]? = some w →
    ∃ comp, compOf topo m = some comp ∧ tags[m * vars.length + v]? = some ⟨comp, w⟩

theorem TagsOf.step {topo : Topo} {vars : List String} {n : Nat} {tags : List BasisTag}
    {comp : String} (h : TagsOf topo vars n tags) (hc : compOf topo n = some comp) :
    TagsOf topo vars (n + 1) (tags ++ vars.map (fun w => ⟨comp, w⟩)) := by
  refine ⟨by simp [h.1, Nat.succ_mul], ?_⟩
  intro m hm v w hv
  have hvl : v < vars.length := (List.getElem?_eq_some_iff.1 hv).1
  by_cases hmn : m < n
  · obtain ⟨c, h1, h2⟩ := h.2 m hmn v w hv
    refine ⟨c, h1, ?_⟩
    rw [List.getElem?_append_left (List.getElem?_eq_some_iff.1 h2).1, h2]
  · obtain rfl : m = n := by omega
    refine ⟨comp, hc, ?_⟩
    rw [List.getElem?_append_right (by rw [h.1]; omega), h.1]
    simp [hv]

theorem getBasisTags_inv {topo : Topo} {vars : List String} {tags : List BasisTag}
    (h : getBasisTags topo vars = .ok tags) : TagsOf topo vars topo.meshType.length tags := by
  unfold getBasisTags at h
  refine loop_inv (fun m acc => TagsOf topo vars m acc) ⟨by simp, by intro m hm; omega⟩ ?_ h
  intro m a b hm hI hb
  by_cases hv : vars = []
  · subst hv
    simp only [loop, List.length_nil, loopFrom] at hb
    cases hb
    exact ⟨by simpa using hI.1, by intro m hm v w hw; simp at hw⟩
  · obtain ⟨comp, hc⟩ := inner_tags.2 b hb hv
    rw [inner_tags.1 comp hc] at hb
    cases hb
    exact hI.step hc

theorem getBasisTags_exists {topo : Topo} {vars : List String}
    (h : ∀ m, m < topo.meshType.length → (compOf topo m).isSome) :
    ∃ tags, getBasisTags topo vars = .ok tags := by
  unfold getBasisTags
  obtain ⟨t, ht, _⟩ := loop_total (fun _ (_ : List BasisTag) => True) (n := topo.meshType.length)
    (body := fun m acc => do
      loop vars.length (fun v acc => do
        let c ← topo.name m
        let w ← rd vars v
        return acc ++ [(⟨c, w⟩ : BasisTag)]) acc) (s := []) trivial (by
      intro m a hm _
      obtain ⟨c, hc⟩ := Option.isSome_iff_exists.1 (h m hm)
      exact ⟨_, inner_tags.1 c hc, trivial⟩)
  exact ⟨t, ht⟩

end Verif.Snapshots
