import Verif.Spec.TrainRom
import Verif.Props.Snapshots
import Verif.Props.BasisNumbers

/-! Helper lemmas: training and loading bases. -/

namespace Verif.TrainRom

open Verif Verif.Snapshots Verif.Snapshots.Spec Verif.TrainRom.Spec
open Verif.Options (Node Conv key pieces find option required lookUpValue formatted snapshotFiles elems)

variable {V : Type}

theorem hold_unique {fs : FS V} : ∀ {files : List String} {a b : List (List V)}, Hold fs files a →
    Hold fs files b → a = b
  | [], _, _, .nil, .nil => rfl
  | _ :: _, _, _, .cons h1 t1, .cons h2 t2 => by
    rw [h1] at h2
    cases h2
    rw [hold_unique t1 t2]

/-! ### Collecting several files for a tag -/

theorem collectFiles_inv {rom : Rom V} {fs : FS V} {st st' : Store V} {tag : BasisTag} {files : List String}
    (w : WF st) (h : collectSnapshotsByBasis rom fs st tag files = .ok st') :
    ∃ data, Hold fs files data ∧ WF st' ∧
      (∀ t, st'.cols t = st.cols t ++ if t = tag then data.flatten else []) ∧
      (∀ t, t ∈ st'.basisTags ↔ t ∈ st.basisTags ∨ t = tag) := by
  unfold collectSnapshotsByBasis at h
  obtain ⟨f0, -, h⟩ := bind_eq_ok.1 h
  obtain ⟨-, -, h⟩ := bind_eq_ok.1 h
  obtain ⟨st1, h1, w1, hc1, hm1, -⟩ := ensure_spec w tag
  rw [h1, ok_bind] at h
  obtain ⟨i, -, hg, hk, hp⟩ := w1.basis.find (lt := BasisTag.lt) (fun a b => basisTag_equiv)
    ((hm1 tag).2 (.inr rfl))
  rw [hg] at h
  have := loop_inv (fun j (s : Store V) => ∃ data, Hold fs (files.take j) data ∧ WF s ∧
      s.basisTags = st1.basisTags ∧
      ∀ t, s.cols t = st.cols t ++ if t = tag then data.flatten else [])
    ⟨[], .nil, w1, rfl, fun t => by rw [hc1]; simp⟩ (by
      rintro j s s' hj ⟨data, hd, ws, hb, hc⟩ e
      rw [rd_of_lt hj, ok_bind] at e
      cases hf : fs files[j] with
      | none => rw [hf] at e; cases e
      | some new =>
        rw [hf] at e
        dsimp only at e
        obtain ⟨cols, e1, e⟩ := bind_eq_ok.1 e
        obtain ⟨cols', e2, e⟩ := bind_eq_ok.1 e
        obtain ⟨gens, e3, e⟩ := bind_eq_ok.1 e
        cases e
        have hkt : s.basisTags[i]? = some tag := by rw [hb]; exact hk
        have hgc : s.cols tag = cols := regGet_of_index ws.basis.nodup hkt (rd_eq_ok.1 e1)
        have hil : i < s.gens.length := (List.getElem?_eq_some_iff.1 (rd_eq_ok.1 e1)).1
        rw [wr_of_lt hil] at e3
        cases e3
        refine ⟨data ++ [new], ?_, ⟨ws.basis.update _ _, ws.port⟩, hb, ?_⟩
        · rw [List.take_add_one, List.getElem?_eq_getElem hj]
          exact List.rel_append hd (.cons hf .nil)
        · intro t
          show regGet s.basisTags (s.gens.set i cols') t = _
          rw [regGet_set ws.basis.nodup ws.basis.len hkt, loadSamples_inv e2]
          have e : ∀ t, regGet s.basisTags s.gens t = s.cols t := fun _ => rfl
          rw [e, hc, ← hgc, hc]
          by_cases ht : t = tag
          · subst ht; simp
          · simp [ht]) h
  obtain ⟨data, hd, ws, hb, hc⟩ := this
  rw [List.take_length] at hd
  exact ⟨data, hd, ws, hc, fun t => by rw [hb]; exact hm1 t⟩

theorem collectFiles_exists {rom : Rom V} {fs : FS V} {st : Store V} {tag : BasisTag} {files : List String}
    {data : List (List V)} (w : WF st) (hne : files ≠ []) (hd : Hold fs files data)
    (ha : ∀ l ∈ data, ∀ u ∈ l, rom.accept u = true) (hcap : (st.cols tag ++ data.flatten).length ≤ rom.cap) :
    ∃ st', collectSnapshotsByBasis rom fs st tag files = .ok st' := by
  have hlen : files.length = data.length := hd.length_eq
  have hat : ∀ j (hj : j < files.length), fs files[j] = some (data[j]'(hlen ▸ hj)) := fun j hj => hd.get hj _
  have h0 : 0 < files.length := List.length_pos_iff.2 hne
  unfold collectSnapshotsByBasis
  rw [rd_of_lt h0, ok_bind, hat 0 h0]
  obtain ⟨st1, h1, w1, hc1, hm1, -⟩ := ensure_spec w tag
  simp only [Option.isSome_some, require_true, ok_bind, h1]
  obtain ⟨i, -, hg, hk, hp⟩ := w1.basis.find (lt := BasisTag.lt) (fun a b => basisTag_equiv)
    ((hm1 tag).2 (.inr rfl))
  rw [hg]
  have hil : i < st1.gens.length := (List.getElem?_eq_some_iff.1 hp).1
  obtain ⟨t, ht, -⟩ := loop_total (n := files.length) (body := fun s (st : Store V) => do
      let f ← rd files s
      match fs f with
      | none => .error .abort
      | some new => do
        let cols ← rd st.gens i
        let cols ← loadSamples rom cols new
        let gens ← wr st.gens i cols
        return { st with gens := gens }) (s := st1)
    (fun j s => s.gens[i]? = some (st.cols tag ++ (data.take j).flatten)) (by
      rw [hp]
      have : regGet st1.basisTags st1.gens tag = st.cols tag := hc1 tag
      simp [this]) (by
      intro j s hj hs
      rw [rd_of_lt hj, ok_bind, hat j hj]
      dsimp only
      have hjd : j < data.length := hlen ▸ hj
      have htk : (data.take (j + 1)).flatten = (data.take j).flatten ++ data[j] := by
        rw [List.take_add_one, List.getElem?_eq_getElem hjd, List.flatten_append]
        show _ ++ [data[j]].flatten = _
        rw [List.flatten_singleton]
      rw [rd_eq_ok.2 hs, ok_bind, loadSamples_exists (by
        have : (data.take (j + 1)).flatten.length ≤ data.flatten.length := by
          conv_rhs => rw [← List.take_append_drop (j + 1) data, List.flatten_append, List.length_append]
          omega
        rw [htk] at this
        simp only [List.length_append] at hcap this ⊢
        omega) (ha _ (List.getElem_mem hjd)), ok_bind, wr_of_lt (List.getElem?_eq_some_iff.1 hs).1, ok_bind]
      refine ⟨_, rfl, ?_⟩
      simp [htk, (List.getElem?_eq_some_iff.1 hs).1])
  exact ⟨t, ht⟩

/-- Collecting for a list of tags. -/
theorem collectByBasis_inv' {cv : Conv} {cfg : Node} {rom : Rom V} {fs : FS V} {pfx : String}
    {tags : List BasisTag} {st' : Store V}
    (h : collectByBasis cv cfg rom fs pfx tags (Store.empty V) = .ok st') :
    WF st' ∧ (∀ t, t ∈ st'.basisTags ↔ t ∈ tags) ∧ ∀ t ∈ tags, ∃ files data,
      snapshotFiles cv t.print (snapshotFilename pfx t) cfg = .ok files ∧ Hold fs files data ∧
      st'.cols t = copies (tags.count t) data.flatten := by
  unfold collectByBasis at h
  have := loop_inv (fun j (s : Store V) => WF s ∧ (∀ t, t ∈ s.basisTags ↔ t ∈ tags.take j) ∧
      (∀ t ∈ tags.take j, ∃ files data, snapshotFiles cv t.print (snapshotFilename pfx t) cfg = .ok files ∧
        Hold fs files data ∧ s.cols t = copies ((tags.take j).count t) data.flatten) ∧
      ∀ t, t ∉ tags.take j → s.cols t = [])
    ⟨WF.empty V, by simp [Store.empty], by simp, by intro t _; simp [Store.cols, Store.empty, regGet]⟩ (by
      rintro j s s' hj ⟨w, hm, hc, hn⟩ e
      rw [rd_of_lt hj, ok_bind] at e
      obtain ⟨files, e1, e⟩ := bind_eq_ok.1 e
      obtain ⟨-, -, e⟩ := bind_eq_ok.1 e
      obtain ⟨data, hd, w', hc', hm'⟩ := collectFiles_inv w e
      have htk : tags.take (j + 1) = tags.take j ++ [tags[j]] := by
        rw [List.take_add_one, List.getElem?_eq_getElem hj]; rfl
      rw [htk]
      refine ⟨w', fun t => by rw [hm', hm, List.mem_append, List.mem_singleton], ?_, ?_⟩
      · intro t ht
        by_cases htj : t = tags[j]
        · by_cases hmem : t ∈ tags.take j
          · obtain ⟨f2, d2, k1, k2, k3⟩ := hc t hmem
            rw [← htj, k1] at e1
            cases e1
            have hdd : d2 = data := hold_unique k2 hd
            refine ⟨_, data, k1, hd, ?_⟩
            rw [hc', k3, hdd, if_pos htj, List.count_append, htj]
            simp [copies, List.replicate_succ']
          · refine ⟨files, data, by rw [htj]; exact e1, hd, ?_⟩
            rw [hc', hn t hmem, if_pos htj, List.count_append, List.count_eq_zero.2 hmem, htj]
            simp [copies]
        · have hmem : t ∈ tags.take j := (List.mem_append.1 ht).resolve_right (by simpa using htj)
          obtain ⟨f2, d2, k1, k2, k3⟩ := hc t hmem
          refine ⟨f2, d2, k1, k2, ?_⟩
          rw [hc', k3, if_neg htj, List.count_append]
          simp [Ne.symm htj]
      · intro t ht
        simp only [List.mem_append, List.mem_singleton, not_or] at ht
        rw [hc', hn t ht.1, if_neg ht.2]; rfl) h
  rw [List.take_length] at this
  exact ⟨this.1, this.2.1, this.2.2.1⟩

/-- Collecting for a list of different tags is possible if every tag has its files. -/
theorem collectByBasis_exists {cv : Conv} {cfg : Node} {rom : Rom V} {fs : FS V} {pfx : String}
    {tags : List BasisTag} (hnd : tags.Nodup) (h : ∀ t ∈ tags, ∃ files data,
      snapshotFiles cv t.print (snapshotFilename pfx t) cfg = .ok files ∧ files ≠ [] ∧ Hold fs files data ∧
      (∀ l ∈ data, ∀ u ∈ l, rom.accept u = true) ∧ data.flatten.length ≤ rom.cap) :
    ∃ st', collectByBasis cv cfg rom fs pfx tags (Store.empty V) = .ok st' := by
  obtain ⟨t, ht, -⟩ := loop_total (n := tags.length) (body := fun p (st : Store V) => do
      let tag ← rd tags p
      let files ← snapshotFiles cv tag.print (snapshotFilename pfx tag) cfg
      require (decide (0 < files.length))
      collectSnapshotsByBasis rom fs st tag files) (s := Store.empty V)
    (fun j s => WF s ∧ ∀ t, t ∉ tags.take j → s.cols t = [])
    ⟨WF.empty V, fun t _ => by simp [Store.cols, Store.empty, regGet]⟩ (by
      rintro j s hj ⟨w, hn⟩
      obtain ⟨files, data, h1, h2, h3, h4, h5⟩ := h _ (List.getElem_mem hj)
      rw [rd_of_lt hj, ok_bind, h1, ok_bind, decide_eq_true (List.length_pos_iff.2 h2), require_true, ok_bind]
      have hnj : tags[j] ∉ tags.take j := by
        intro hm
        obtain ⟨i, hi⟩ := List.mem_iff_getElem?.1 hm
        have hij : i < j := by
          have := (List.getElem?_eq_some_iff.1 hi).1
          simp only [List.length_take] at this
          omega
        rw [List.getElem?_take_of_lt hij, ← List.getElem?_eq_getElem hj] at hi
        have := (List.getElem?_inj (by omega) hnd).1 hi
        omega
      obtain ⟨s', hs'⟩ := collectFiles_exists (st := s) w h2 h3 h4 (by rw [hn _ hnj]; exact h5)
      refine ⟨s', hs', ?_⟩
      obtain ⟨data', -, w', hc', -⟩ := collectFiles_inv w hs'
      refine ⟨w', fun t ht => ?_⟩
      have htk : tags.take (j + 1) = tags.take j ++ [tags[j]] := by
        rw [List.take_add_one, List.getElem?_eq_getElem hj]; rfl
      rw [htk, List.mem_append, List.mem_singleton, not_or] at ht
      rw [hc', hn t ht.1, if_neg ht.2]
      rfl)
  exact ⟨t, ht⟩

/-! ### Forming the bases -/

theorem numBasis_cases (cv : Conv) (list : Option Node) (dflt : Int) (tag : BasisTag) :
    numBasis cv list dflt tag =
      lookUpValue cv.str cv.int (key "name") tag.print (key "number_of_basis") dflt (list.getD .null) := by
  cases list <;> rfl

/-- The bases written by `FormReducedBasis`. -/
theorem formBasis_inv {cv : Conv} {cfg : Node} {pod : List V → List V} {pre : String} {st : Store V}
    {bases bases' : FS V} (w : WF st) (hn : (st.basisTags.map (baseFilename pre)).Nodup)
    (h : formBasis cv cfg pod pre st bases = .ok bases') :
    (∀ t ∈ st.basisTags, bases' (baseFilename pre t) = some (pod (st.cols t)) ∧ st.cols t ≠ []) ∧
    (∀ f, f ∉ st.basisTags.map (baseFilename pre) → bases' f = bases f) := by
  unfold formBasis at h
  obtain ⟨-, -, h⟩ := bind_eq_ok.1 h
  obtain ⟨-, -, h⟩ := bind_eq_ok.1 h
  obtain ⟨dflt, -, h⟩ := bind_eq_ok.1 h
  obtain ⟨list, -, h⟩ := bind_eq_ok.1 h
  have hI := loop_inv (fun k (b : FS V) =>
    (∀ (j : Nat) t, j < k → st.basisTags[j]? = some t →
      b (baseFilename pre t) = some (pod (st.cols t)) ∧ st.cols t ≠ []) ∧
    (∀ f, f ∉ st.basisTags.map (baseFilename pre) → b f = bases f))
    ⟨by intro j t hj; omega, fun _ _ => rfl⟩ (by
      rintro k b1 b2 hk ⟨i1, i2⟩ hb
      unfold formOne at hb
      have hkt : k < st.basisTags.length := by rw [← w.basis.len]; exact hk
      have ht : st.basisTags[k]? = some st.basisTags[k] := List.getElem?_eq_getElem hkt
      rw [rd_of_lt hk, ok_bind] at hb
      obtain ⟨⟨⟩, hpos, hb⟩ := bind_eq_ok.1 hb
      rw [rd_of_lt hkt, ok_bind] at hb
      obtain ⟨n, -, hb⟩ := bind_eq_ok.1 hb
      obtain ⟨-, -, hb⟩ := bind_eq_ok.1 hb
      cases hb
      have hc : st.cols st.basisTags[k] = st.gens[k] :=
        regGet_of_index w.basis.nodup ht (List.getElem?_eq_getElem hk)
      have hpos : 0 < st.gens[k].length := by simpa using require_eq_ok.1 hpos
      constructor
      · intro j t hj hjt
        by_cases hjk : j = k
        · subst hjk
          rw [ht] at hjt; cases hjt
          rw [Function.update_self, hc]
          exact ⟨rfl, List.length_pos_iff.1 hpos⟩
        · refine ⟨?_, (i1 j t (by omega) hjt).2⟩
          rw [Function.update_of_ne, (i1 j t (by omega) hjt).1]
          intro heq
          have hjl := (List.getElem?_eq_some_iff.1 hjt).1
          have := (List.getElem?_inj (i := j) (j := k) (by simpa using hjl) hn).1 (by
            rw [List.getElem?_map, List.getElem?_map, hjt, ht]; simpa using heq)
          exact hjk this
      · intro f hf
        rw [Function.update_of_ne, i2 f hf]
        intro heq
        exact hf (List.mem_map.2 ⟨_, List.getElem_mem hkt, heq.symm⟩)) h
  refine ⟨fun t ht => ?_, hI.2⟩
  obtain ⟨j, hj⟩ := List.mem_iff_getElem?.1 ht
  exact hI.1 j t (by rw [w.basis.len]; exact (List.getElem?_eq_some_iff.1 hj).1) hj

theorem formBasis_exists {cv : Conv} {cfg : Node} {pod : List V → List V} {pre : String} {st : Store V}
    {bases : FS V} {dflt : Int} {list : Option Node} (w : WF st) (hne : st.basisTags ≠ [])
    (hd : option cv.int (key "basis/number_of_basis") (-1) cfg = .ok dflt)
    (hl : find cfg (pieces '/' (key "basis/tags")) = .ok list)
    (h : ∀ t ∈ st.basisTags, st.cols t ≠ [] ∧ ∃ n, numBasis cv list dflt t = .ok n ∧ 0 < n) :
    ∃ bases', formBasis cv cfg pod pre st bases = .ok bases' := by
  unfold formBasis
  have hlen := w.basis.len
  rw [decide_eq_true (by rw [hlen]; exact List.length_pos_iff.2 hne), require_true, ok_bind, hlen,
    beq_self_eq_true, require_true, ok_bind, hd, ok_bind, hl, ok_bind]
  obtain ⟨t, ht, -⟩ := loop_total (n := st.basisTags.length) (body := formOne cv list dflt pod pre st)
    (s := bases) (fun _ _ => True) trivial (by
      intro k b hk _
      have hkg : k < st.gens.length := by omega
      have hc : st.cols st.basisTags[k] = st.gens[k] :=
        regGet_of_index w.basis.nodup (List.getElem?_eq_getElem hk) (List.getElem?_eq_getElem hkg)
      obtain ⟨h1, n, h2, h3⟩ := h _ (List.getElem_mem hk)
      rw [hc] at h1
      unfold formOne
      rw [rd_of_lt hkg, ok_bind, decide_eq_true (List.length_pos_iff.2 h1), require_true, ok_bind,
        rd_of_lt hk, ok_bind, h2, ok_bind, decide_eq_true h3, require_true, ok_bind]
      exact ⟨_, rfl, trivial⟩)
  exact ⟨t, ht⟩

/-! ### The snapshots of a component -/

theorem filed_chunk (chunk : List V) (c : String) (vars : List String) (hn : vars.Nodup)
    (hl : chunk.length = vars.length) (comp w : String) (v : Nat) (hv : vars[v]? = some w) :
    filed (chunk.zip (vars.map fun w => (⟨c, w⟩ : BasisTag))) ⟨comp, w⟩ =
      if c = comp then (chunk[v]?).toList else [] := by
  induction vars generalizing chunk v with
  | nil => simp at hv
  | cons x xs ih =>
    cases chunk with
    | nil => simp at hl
    | cons u us =>
      have hl' : us.length = xs.length := by simpa using hl
      obtain ⟨hx, hn'⟩ := List.nodup_cons.1 hn
      rw [List.map_cons, List.zip_cons_cons]
      have : ∀ l : List (V × BasisTag), filed ((u, (⟨c, x⟩ : BasisTag)) :: l) ⟨comp, w⟩ =
          (if (⟨comp, w⟩ : BasisTag) = ⟨c, x⟩ then [u] else []) ++ filed l ⟨comp, w⟩ := by
        intro l
        rw [← filed_single, ← filed_append]; rfl
      rw [this]
      cases v with
      | zero =>
        simp only [List.getElem?_cons_zero, Option.some.injEq] at hv
        subst hv
        have hz : filed (us.zip (xs.map fun w => (⟨c, w⟩ : BasisTag))) ⟨comp, x⟩ = [] := by
          unfold filed
          rw [List.map_eq_nil_iff, List.filter_eq_nil_iff]
          rintro ⟨a, t⟩ hat
          have := (List.of_mem_zip hat).2
          obtain ⟨y, hy, rfl⟩ := List.mem_map.1 this
          simp only [BasisTag.mk.injEq, decide_eq_true_eq, not_and]
          rintro - rfl
          exact hx hy
        rw [hz]
        by_cases h : c = comp
        · simp [h]
        · simp [h, Ne.symm h]
      | succ v =>
        rw [List.getElem?_cons_succ] at hv
        rw [ih us hn' hl' v hv, if_neg (by
          intro e
          simp only [BasisTag.mk.injEq] at e
          exact hx (e.2 ▸ List.mem_of_getElem? hv))]
        simp

theorem filed_blocks {topo : Topo} {vars : List String} (hn : vars.Nodup) {comp w : String} {v : Nat}
    (hv : vars[v]? = some w) (hc : ∀ m, m < topo.meshType.length → (compOf topo m).isSome)
    (blocks : List V) (hl : blocks.length = topo.meshType.length * vars.length) :
    ∀ n, n ≤ topo.meshType.length →
      filed ((blocks.take (n * vars.length)).zip (tagsF topo vars n)) ⟨comp, w⟩ =
        ((List.range n).filter fun m => decide (compOf topo m = some comp)).filterMap
          fun m => blocks[m * vars.length + v]?
  | 0, _ => by simp [filed, tagsF]
  | n + 1, hle => by
    have ih := filed_blocks (comp := comp) hn hv hc blocks hl n (by omega)
    have hvl : v < vars.length := (List.getElem?_eq_some_iff.1 hv).1
    have hb : (n + 1) * vars.length ≤ blocks.length := by rw [hl]; exact Nat.mul_le_mul_right _ hle
    rw [Nat.succ_mul] at hb
    obtain ⟨c, hcn⟩ := Option.isSome_iff_exists.1 (hc n (by omega))
    have hlen : (blocks.take (n * vars.length)).length = (tagsF topo vars n).length := by
      rw [length_tagsF, List.length_take]; omega
    rw [tagsF_succ, Nat.succ_mul, List.take_add, List.zip_append hlen, filed_append, ih, hcn, Option.getD_some,
      filed_chunk _ _ _ hn (by simp; omega) comp w v hv, List.range_succ, List.filter_append,
      List.filterMap_append]
    congr 1
    rw [List.getElem?_take_of_lt hvl, List.getElem?_drop]
    by_cases h : c = comp
    · subst h
      rw [if_pos rfl]
      cases hx : blocks[n * vars.length + v]? <;> simp [hcn, hx]
    · simp [hcn, h]

/-- What the sample generator has collected under a tag. -/
theorem runSamples_cols {rom : Rom V} {slots : List String} (hn : slots.Nodup) {comp w : String} {v : Nat}
    (hv : slots[v]? = some w) : ∀ {hist : List (Sample V)} {st st' : Store V}, WF st →
    (∀ s ∈ hist, s.vars = slots) → runSamples rom st hist = .ok st' →
    st'.cols ⟨comp, w⟩ = st.cols ⟨comp, w⟩ ++ snapshotsOf hist comp v
  | [], st, st', _, _, h => by cases h; simp [snapshotsOf]
  | s :: ss, st, st', wf, hs, h => by
    rw [runSamples] at h
    obtain ⟨st1, h1, h⟩ := bind_eq_ok.1 h
    obtain ⟨w1, -, ⟨tags, ht, hl, hc, -⟩, -, -⟩ := saveSnapshots_inv wf h1
    rw [runSamples_cols hn hv w1 (fun s' hs' => hs s' (by simp [hs'])) h, hc]
    have hsv : s.vars = slots := hs s (by simp)
    have hvl : v < slots.length := (List.getElem?_eq_some_iff.1 hv).1
    have hT := getBasisTags_inv ht
    have hcomp : ∀ m, m < s.topo.meshType.length → (compOf s.topo m).isSome := by
      intro m hm
      obtain ⟨c, hc, -⟩ := hT.2 m hm v w (by rw [hsv]; exact hv)
      simp [hc]
    rw [getBasisTags_eq hcomp] at ht
    cases ht
    have hbl : s.blocks.length = s.topo.meshType.length * s.vars.length := by rw [hl, length_tagsF]
    have := filed_blocks (by rw [hsv]; exact hn) (by rw [hsv]; exact hv) hcomp s.blocks hbl (comp := comp)
      s.topo.meshType.length le_rfl
    rw [← hbl, List.take_length] at this
    rw [this, List.append_assoc]
    rfl

end Verif.TrainRom
