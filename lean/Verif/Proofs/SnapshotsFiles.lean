import Verif.Proofs.SnapshotsMerge

/-! Helper lemmas: writing runs to files and merging them. -/

namespace Verif.Snapshots

open Verif Spec

variable {V : Type}

theorem collectAll_inv {rom : Rom V} {fs : FS V} {runs : List (Run V)} {st : Store V}
    (hd : ∀ r ∈ runs, OnDisk fs r) (hn : ∀ r ∈ runs, r.file.basisTags.Nodup)
    (hu : UniformVars runs)
    (h : collectAll rom fs (Store.empty V) (runs.map (·.file)) = .ok st) : Merged runs st := by
  unfold collectAll at h
  have := loop_inv (fun k s => Merged (runs.take k) s) (s := Store.empty V) (t := st)
    ⟨WF.empty V, by simp [mergedCols, Store.cols, Store.empty, regGet],
      by simp [Store.empty], by simp [Store.empty],
      by simp [mergedRows, Store.rows, Store.empty, regGet]⟩ (by
      intro k s1 s2 hk hI hs
      rw [List.length_map] at hk
      have hr : runs[k]? = some runs[k] := by simp [hk]
      have hf : (runs.map (·.file))[k]? = some runs[k].file := by simp [hk]
      rw [rd_eq_ok.2 hf] at hs
      simp only [ok_bind] at hs
      have e : runs.take (k + 1) = runs.take k ++ [runs[k]] := by
        rw [List.take_add_one, hr]; rfl
      rw [e]
      have hmem : runs[k] ∈ runs := List.getElem_mem hk
      refine hI.step (hd _ hmem) (hn _ hmem) ?_ hs
      rw [← e]
      intro a ha b hb
      exact hu a (List.mem_of_mem_take ha) b (List.mem_of_mem_take hb)) h
  rw [List.length_map, List.take_length] at this
  exact this

theorem writeSnapshots_inv {st : Store V} {pfx : String} {fs fs' : FS V} (w : WF st)
    (hn : (st.basisTags.map (snapshotFilename pfx)).Nodup)
    (h : writeSnapshots st pfx fs = .ok fs') :
    (∀ t ∈ st.basisTags, fs' (snapshotFilename pfx t) = some (st.cols t)) ∧
    (∀ n, n ∉ st.basisTags.map (snapshotFilename pfx) → fs' n = fs n) := by
  unfold writeSnapshots at h
  by_cases h0 : st.gens.length > 0
  · rw [decide_eq_true h0] at h
    simp only [require_true, ok_bind] at h
    have hI := loop_inv (fun k (f : FS V) =>
      (∀ (j : Nat) t, j < k → st.basisTags[j]? = some t → f (snapshotFilename pfx t) = some (st.cols t)) ∧
      (∀ n, n ∉ st.basisTags.map (snapshotFilename pfx) → f n = fs n))
      ⟨by intro j t hj; omega, fun _ _ => rfl⟩ (by
        rintro k f1 f2 hk ⟨i1, i2⟩ hb
        have hg : st.gens[k]? = some st.gens[k] := by simp [hk]
        have hkt : k < st.basisTags.length := by rw [← w.basis.len]; exact hk
        have ht : st.basisTags[k]? = some st.basisTags[k] := by simp [hkt]
        rw [rd_eq_ok.2 hg, rd_eq_ok.2 ht] at hb
        simp only [ok_bind, pure, Except.pure, Except.ok.injEq] at hb
        subst hb
        have hc : st.cols st.basisTags[k] = st.gens[k] := regGet_of_index w.basis.nodup ht hg
        constructor
        · intro j t hj hjt
          dsimp only
          by_cases hjk : j = k
          · subst hjk
            rw [ht] at hjt; cases hjt
            rw [if_pos rfl, hc]
          · rw [if_neg, i1 j t (by omega) hjt]
            intro heq
            have hjl := (List.getElem?_eq_some_iff.1 hjt).1
            have := (List.getElem?_inj (i := j) (j := k) (by simpa using hjl) hn).1 (by
              rw [List.getElem?_map, List.getElem?_map, hjt, ht]; simpa using heq)
            exact hjk this
        · intro n hn'
          dsimp only
          rw [if_neg, i2 n hn']
          intro heq
          exact hn' (List.mem_map.2 ⟨_, List.getElem_mem hkt, heq.symm⟩)) h
    refine ⟨?_, hI.2⟩
    intro t ht
    obtain ⟨j, hj⟩ := List.mem_iff_getElem?.1 ht
    exact hI.1 j t (by rw [w.basis.len]; exact (List.getElem?_eq_some_iff.1 hj).1) hj
  · rw [decide_eq_false h0] at h
    simp at h

theorem writeSnapshotPorts_eq {st : Store V} {pfx : String} (w : WF st) :
    writeSnapshotPorts st pfx = .ok ⟨pfx, st.portTags.zip st.portCols, st.basisTags⟩ := by
  unfold writeSnapshotPorts
  have := loop_spec (n := st.portTags.length) (body := fun p acc => do
      let t ← rd st.portTags p
      let c ← rd st.portCols p
      return acc ++ [(t, c)]) (fun k => (st.portTags.zip st.portCols).take k) (s := []) (by simp) (by
      intro k hk
      have ht : st.portTags[k]? = some st.portTags[k] := by simp [hk]
      have hkc : k < st.portCols.length := by rw [w.port.len]; exact hk
      have hc : st.portCols[k]? = some st.portCols[k] := by simp [hkc]
      rw [rd_eq_ok.2 ht, rd_eq_ok.2 hc]
      simp only [ok_bind, pure, Except.pure]
      have hz : (st.portTags.zip st.portCols)[k]? = some (st.portTags[k], st.portCols[k]) := by
        rw [List.getElem?_zip_eq_some]; exact ⟨ht, hc⟩
      rw [List.take_add_one, hz]; rfl)
  rw [this]
  simp only [ok_bind, pure, Except.pure]
  rw [List.take_of_length_le (by rw [List.length_zip]; omega)]

/-- The run a finished store leaves behind. -/
def runOf (e : String × Store V) : Run V :=
  ⟨⟨e.1, e.2.portTags.zip e.2.portCols, e.2.basisTags⟩, e.2.cols⟩

theorem writeAll_inv : ∀ {stores : List (String × Store V)} {fs fs' : FS V} {files : List PortFile},
    (∀ e ∈ stores, WF e.2) →
    (stores.flatMap (fun e => e.2.basisTags.map (snapshotFilename e.1))).Nodup →
    writeAll fs stores = .ok (fs', files) →
    files = stores.map (fun e => (runOf e).file) ∧
    (∀ e ∈ stores, OnDisk fs' (runOf e)) ∧
    (∀ n, n ∉ stores.flatMap (fun e => e.2.basisTags.map (snapshotFilename e.1)) → fs' n = fs n)
  | [], fs, fs', files, _, _, h => by
    cases h
    exact ⟨rfl, by simp, by simp⟩
  | (pfx, g) :: rest, fs, fs', files, hw, hn, h => by
    rw [writeAll] at h
    cases h1 : writeSnapshots g pfx fs with
    | error e => rw [h1] at h; simp at h
    | ok fs1 =>
      have wg : WF g := hw (pfx, g) (by simp)
      rw [h1, writeSnapshotPorts_eq wg] at h
      simp only [ok_bind] at h
      cases h2 : writeAll fs1 rest with
      | error e => rw [h2] at h; simp at h
      | ok q =>
        rw [h2] at h
        simp only [ok_bind, pure, Except.pure, Except.ok.injEq, Prod.mk.injEq] at h
        obtain ⟨rfl, rfl⟩ := h
        rw [List.flatMap_cons, List.nodup_append] at hn
        obtain ⟨n1, n2, n3⟩ := hn
        obtain ⟨i1, i2, i3⟩ := writeAll_inv (fs' := q.1) (files := q.2)
          (fun e he => hw e (by simp [he])) n2 h2
        obtain ⟨j1, j2⟩ := writeSnapshots_inv wg n1 h1
        refine ⟨by rw [i1]; rfl, ?_, ?_⟩
        · intro e he
          rcases List.mem_cons.1 he with rfl | he
          · intro t ht
            have ht' : t ∈ g.basisTags := ht
            show q.1 (snapshotFilename pfx t) = some (g.cols t)
            rw [i3, j1 t ht']
            intro hmem
            exact n3 _ (List.mem_map.2 ⟨t, ht', rfl⟩) _ hmem rfl
          · exact i2 e he
        · intro n hn'
          rw [List.flatMap_cons, List.mem_append, not_or] at hn'
          rw [i3 n hn'.2, j2 n hn'.1]

theorem zip_filter_rows : ∀ (tags : List PortTag) (pay : List (List (Nat × Nat))) (t : PortTag),
    tags.Nodup → ((tags.zip pay).filter (fun e => decide (e.1 = t))).flatMap (·.2)
      = regGet tags pay t
  | [], _, t, _ => by simp [regGet]
  | _ :: _, [], t, _ => by simp [regGet]
  | k :: ks, p :: ps, t, hn => by
    have ih := zip_filter_rows ks ps t (List.nodup_cons.1 hn).2
    rw [List.zip_cons_cons, regGet]
    by_cases h : k = t
    · subst h
      have : regGet ks ps k = [] := regGet_not_mem (List.nodup_cons.1 hn).1
      rw [this] at ih
      simp [ih]
    · simp [h, ih]

theorem mergedRows_runOf {stores : List (String × Store V)} (hw : ∀ e ∈ stores, WF e.2)
    (t : PortTag) : mergedRows (stores.map runOf) t
      = stores.flatMap (fun e => (e.2.rows t).map (fun row => (runOf e, row))) := by
  unfold mergedRows
  rw [List.flatMap_map]
  apply List.flatMap_congr
  intro e he
  have := zip_filter_rows e.2.portTags e.2.portCols t (hw e he).port.nodup
  unfold Store.rows
  rw [← this, List.map_flatMap]
  rfl

theorem forall₂_comp {α β γ : Type} {R : α → β → Prop} {S : β → γ → Prop} {T : α → γ → Prop}
    (h : ∀ a b c, R a b → S b c → T a c) :
    ∀ {l1 : List α} {l2 : List β} {l3 : List γ}, List.Forall₂ R l1 l2 → List.Forall₂ S l2 l3 →
      List.Forall₂ T l1 l3
  | [], _, _, .nil, .nil => .nil
  | _, _, _, .cons a as, .cons b bs => .cons (h _ _ _ a b) (forall₂_comp h as bs)

theorem sameVector_isBlock {g : String × Store V} {cols : BasisTag → List V} {s : Sample V}
    {m c c0 : Nat} {comp : String} (hcomp : compOf s.topo m = some comp)
    (h1 : SameVector cols (runOf g) comp c c0) (h2 : IsBlock g.2.cols s m c0) :
    IsBlock cols s m c := by
  obtain ⟨comp', hc', h3⟩ := h2
  rw [hcomp] at hc'; cases hc'
  refine ⟨comp, hcomp, ?_⟩
  intro v x hv
  obtain ⟨h4, h5⟩ := h3 v x hv
  refine ⟨?_, h5⟩
  rw [← h4] at h5
  obtain ⟨y, hy⟩ := Option.isSome_iff_exists.1 h5
  have hlt := (List.getElem?_eq_some_iff.1 hy).1
  have hmem : (⟨comp, x⟩ : BasisTag) ∈ g.2.basisTags := by
    by_contra hnot
    rw [show g.2.cols ⟨comp, x⟩ = [] from regGet_not_mem hnot] at hlt
    simp at hlt
  rw [h1 x hmem hlt, ← h4]; rfl

end Verif.Snapshots
