import Verif.Proofs.SnapshotsFiles
import Mathlib.Algebra.BigOperators.Group.List.Basic

/-!
# C07-C12: snapshot and port bookkeeping
-/

namespace Verif.Snapshots

open Verif Spec

variable {V : Type}

/-! ## C11: tags are strictly totally ordered and equivalence is equality -/

/-- C11 for basis tags: `operator<` is irreflexive, transitive and total, map-key equivalence is
equality of both fields, and so is `operator==`. -/
theorem basisTag_order :
    (∀ a : BasisTag, a.lt a = false) ∧
    (∀ a b c : BasisTag, a.lt b = true → b.lt c = true → a.lt c = true) ∧
    (∀ a b : BasisTag, a.lt b = true ∨ (a.comp = b.comp ∧ a.var = b.var) ∨ b.lt a = true) ∧
    (∀ a b : BasisTag, (a.lt b = false ∧ b.lt a = false) ↔ (a.comp = b.comp ∧ a.var = b.var)) ∧
    (∀ a b : BasisTag, a.eqOp b = true ↔ (a.comp = b.comp ∧ a.var = b.var)) := by
  have heq : ∀ a b : BasisTag, (a.lt b = false ∧ b.lt a = false) ↔ (a.comp = b.comp ∧ a.var = b.var) := by
    intro a b
    have := basisTag_equiv (a := a) (b := b)
    unfold keyEquiv at this
    simp only [Bool.and_eq_true, Bool.not_eq_true'] at this
    rw [this]
    constructor
    · rintro rfl; exact ⟨rfl, rfl⟩
    · rintro ⟨h1, h2⟩; obtain ⟨_, _⟩ := a; obtain ⟨_, _⟩ := b; simp_all
  refine ⟨?_, ?_, ?_, heq, ?_⟩
  · intro a; simp [BasisTag.lt]
  · rintro ⟨a1, a2⟩ ⟨b1, b2⟩ ⟨c1, c2⟩ h1 h2
    unfold BasisTag.lt at *
    simp only at *
    by_cases hab : a1 = b1 <;> by_cases hbc : b1 = c1
    · subst hab; subst hbc
      simp only [if_true, decide_eq_true_eq] at *
      exact String.lt_trans h1 h2
    · subst hab; simp_all
    · subst hbc; simp_all
    · simp only [hab, hbc, if_false, decide_eq_true_eq] at *
      have := String.lt_trans h1 h2
      have hne : a1 ≠ c1 := by rintro rfl; exact String.lt_irrefl _ this
      simp [hne, this]
  · intro a b
    by_cases h1 : a.lt b = true
    · exact .inl h1
    · by_cases h2 : b.lt a = true
      · exact .inr (.inr h2)
      · exact .inr (.inl ((heq a b).1 ⟨by simpa using h1, by simpa using h2⟩))
  · intro a b; simp [BasisTag.eqOp]

/-- C11 for port tags. -/
theorem portTag_order :
    (∀ a : PortTag, a.lt a = false) ∧
    (∀ a b c : PortTag, a.lt b = true → b.lt c = true → a.lt c = true) ∧
    (∀ a b : PortTag, a.lt b = true ∨ a = b ∨ b.lt a = true) ∧
    (∀ a b : PortTag, (a.lt b = false ∧ b.lt a = false) ↔
      (a.mesh1 = b.mesh1 ∧ a.mesh2 = b.mesh2 ∧ a.attr1 = b.attr1 ∧ a.attr2 = b.attr2)) := by
  have heq : ∀ a b : PortTag, (a.lt b = false ∧ b.lt a = false) ↔ a = b := by
    intro a b
    have := portTag_equiv (a := a) (b := b)
    unfold keyEquiv at this
    simpa only [Bool.and_eq_true, Bool.not_eq_true'] using this
  refine ⟨?_, ?_, ?_, ?_⟩
  · intro a; simp [PortTag.lt]
  · rintro ⟨a1, a2, a3, a4⟩ ⟨b1, b2, b3, b4⟩ ⟨c1, c2, c3, c4⟩ h1 h2
    have tr : ∀ x y z : String, x < y → y < z → x ≠ z ∧ x < z := by
      intro x y z h h'
      have := String.lt_trans h h'
      exact ⟨by rintro rfl; exact String.lt_irrefl _ this, this⟩
    unfold PortTag.lt at *
    simp only [ne_eq] at *
    by_cases e1 : a1 = b1
    · subst e1
      by_cases f1 : a1 = c1
      · subst f1
        by_cases e2 : a2 = b2
        · subst e2
          by_cases f2 : a2 = c2
          · subst f2
            by_cases e3 : a3 = b3
            · subst e3
              by_cases f3 : a3 = c3
              · subst f3
                by_cases e4 : a4 = b4
                · simp_all
                · by_cases f4 : b4 = c4
                  · simp_all
                  · by_cases g4 : a4 = c4
                    · simp_all; omega
                    · simp_all; omega
              · simp_all
            · by_cases f3 : b3 = c3
              · subst f3; simp_all
              · by_cases g3 : a3 = c3
                · simp_all; omega
                · simp_all; omega
          · simp_all
        · by_cases f2 : b2 = c2
          · subst f2; simp_all
          · simp only [not_true_eq_false, if_false, e2, f2, not_false_eq_true, if_true,
              decide_eq_true_eq] at *
            obtain ⟨g, g'⟩ := tr _ _ _ h1 h2
            simp [g, g']
      · simp_all
    · by_cases f1 : b1 = c1
      · subst f1; simp_all
      · simp only [e1, f1, not_false_eq_true, if_true, decide_eq_true_eq] at *
        obtain ⟨g, g'⟩ := tr _ _ _ h1 h2
        simp [g, g']
  · intro a b
    by_cases h1 : a.lt b = true
    · exact .inl h1
    · by_cases h2 : b.lt a = true
      · exact .inr (.inr h2)
      · exact .inr (.inl ((heq a b).1 ⟨by simpa using h1, by simpa using h2⟩))
  · intro a b
    rw [heq]
    constructor
    · rintro rfl; exact ⟨rfl, rfl, rfl, rfl⟩
    · rintro ⟨h1, h2, h3, h4⟩
      obtain ⟨_, _, _, _⟩ := a; obtain ⟨_, _, _, _⟩ := b; simp_all

/-! ## C12: printed tags -/

/-- The printed form does not identify the tag: component `a_b` with unified variables and
component `a` with variable `b` print the same, hence share every file name. -/
theorem print_not_injective :
    ∃ a b : BasisTag, a ≠ b ∧ a.print = b.print ∧
      ∀ pfx, snapshotFilename pfx a = snapshotFilename pfx b := by
  refine ⟨⟨"a_b", ""⟩, ⟨"a", "b"⟩, by decide, by decide, ?_⟩
  intro pfx
  have : (⟨"a_b", ""⟩ : BasisTag).print = (⟨"a", "b"⟩ : BasisTag).print := by decide
  unfold snapshotFilename baseFilename
  rw [this]

/-- Consequence: two different tags of one run, one snapshot file.  The second write replaces the
first and the columns of the first tag are lost. -/
theorem print_collision_loses_snapshots :
    ∃ (st : Store Nat) (fs : FS Nat),
      runSaves ⟨100, fun _ => true⟩ (Store.empty Nat) [([7, 8], [⟨"a_b", ""⟩, ⟨"a", "b"⟩])]
        = .ok (st, [[0, 0]]) ∧
      lookUpSnapshot st ⟨"a_b", ""⟩ = .ok [7] ∧
      writeSnapshots st "s" (fun _ => none) = .ok fs ∧
      fs (snapshotFilename "s" ⟨"a_b", ""⟩) = some [8] := by
  refine ⟨_, _, rfl, rfl, rfl, ?_⟩
  decide

/-- C12, the part that holds: among tags whose component names contain no underscore, the printed
form determines the tag. -/
theorem print_injective_partial (a b : BasisTag) (ha : '_' ∉ a.comp.toList)
    (hb : '_' ∉ b.comp.toList) (h : a.print = b.print) : a = b := by
  obtain ⟨ac, av⟩ := a
  obtain ⟨bc, bv⟩ := b
  unfold BasisTag.print at h
  simp only [ne_eq, ite_not] at h
  have hu : "_".toList = ['_'] := by decide
  by_cases h1 : av = "" <;> by_cases h2 : bv = ""
  · simp only [h1, h2, if_true] at h ⊢; rw [h]
  · simp only [h1, h2, if_true, if_false] at h
    exact absurd (by rw [h]; simp [hu]) ha
  · simp only [h1, h2, if_true, if_false] at h
    exact absurd (by rw [← h]; simp [hu]) hb
  · simp only [h1, h2, if_false] at h
    have := congrArg String.toList h
    simp only [String.toList_append, hu, List.singleton_append] at this
    obtain ⟨e1, e2⟩ := list_split_unique ha hb this
    have e1 : ac = bc := String.toList_injective e1
    rw [e1, String.toList_injective e2]

/-- C12: and then so do the file names of one run. -/
theorem filename_injective_partial (pfx : String) (a b : BasisTag) (ha : '_' ∉ a.comp.toList)
    (hb : '_' ∉ b.comp.toList) (h : snapshotFilename pfx a = snapshotFilename pfx b) : a = b := by
  refine print_injective_partial a b ha hb ?_
  have := congrArg String.toList h
  simp only [snapshotFilename, baseFilename, String.toList_append, List.append_assoc,
    List.append_cancel_left_eq, List.append_cancel_right_eq] at this
  exact String.toList_injective this

example : '_' ∉ (⟨"comp", "vel_x"⟩ : BasisTag).comp.toList ∧
    (⟨"comp", "vel_x"⟩ : BasisTag).print = "comp_vel_x" := by decide

/-! ## C07: snapshots are filed by tag -/

/-- C07.  After any successful history of saves: looking up a tag returns exactly the vectors saved
with that tag, in order; a tag never saved is refused; and every column index returned by a save
still retrieves the saved block. -/
theorem saveSnapshot_history {rom : Rom V} {hist : List (List V × List BasisTag)} {st : Store V}
    {cols : List (List Nat)} (h : runSaves rom (Store.empty V) hist = .ok (st, cols)) :
    (∀ t ∈ (flat hist).map (·.2), lookUpSnapshot st t = .ok (filed (flat hist) t)) ∧
    (∀ t, t ∉ (flat hist).map (·.2) → lookUpSnapshot st t = .error .abort) ∧
    cols.length = hist.length ∧
    ∀ (k : Nat) call cs, hist[k]? = some call → cols[k]? = some cs →
      cs.length = call.1.length ∧ call.1.length = call.2.length ∧
      ∀ (s : Nat) u t, call.1[s]? = some u → call.2[s]? = some t →
        ∃ c : Nat, cs[s]? = some c ∧ (filed (flat hist) t)[c]? = some u := by
  obtain ⟨h1, h2, h3, h4⟩ := runSaves_inv (WF.empty V) h
  have hcols : ∀ t, st.cols t = filed (flat hist) t := by
    intro t; rw [h1.cols]; simp [Store.cols, Store.empty, regGet]
  have hmem : ∀ t, t ∈ st.basisTags ↔ t ∈ (flat hist).map (·.2) := by
    intro t; rw [h1.mem]; simp [Store.empty]
  refine ⟨?_, ?_, h2, ?_⟩
  · intro t ht; rw [lookUp_mem h1.wf ((hmem t).2 ht), hcols]
  · intro t ht; exact lookUp_not_mem h1.wf (fun hh => ht ((hmem t).1 hh))
  · intro k call cs hk hcs
    obtain ⟨h5, h6⟩ := h4 k call cs hk hcs
    refine ⟨h5, h3 call (List.mem_of_getElem? hk), ?_⟩
    intro s u t hu ht
    obtain ⟨c, hc1, hc2⟩ := h6 s u t hu ht
    exact ⟨c, hc1, by rw [← hcols]; exact hc2⟩

/-- C07, liveness: as long as every call has one tag per block, libROM accepts each vector and no
tag collects more than `max_num_snapshots` vectors, no save aborts. -/
theorem saveSnapshot_history_succeeds {rom : Rom V} {hist : List (List V × List BasisTag)}
    (hl : ∀ c ∈ hist, c.1.length = c.2.length)
    (ha : ∀ c ∈ hist, ∀ u ∈ c.1, rom.accept u = true)
    (hcap : ∀ t, (filed (flat hist) t).length ≤ rom.cap) :
    ∃ st cols, runSaves rom (Store.empty V) hist = .ok (st, cols) := by
  obtain ⟨⟨st, cols⟩, h⟩ := runSaves_exists (rom := rom) (WF.empty V) hl ha
    (fun t => by
      have : (Store.empty V).cols t = [] := by simp [Store.cols, Store.empty, regGet]
      rw [this]; simpa using hcap t)
  exact ⟨st, cols, h⟩

/-- Two saves over two tags: the hypotheses are met and the result is not trivial. -/
example : ∃ st, runSaves ⟨3, fun u => u != 0⟩ (Store.empty Nat)
    [([1, 2, 3], [⟨"A", ""⟩, ⟨"B", ""⟩, ⟨"A", ""⟩]), ([4, 5], [⟨"B", ""⟩, ⟨"A", ""⟩])]
      = .ok (st, [[0, 0, 1], [1, 2]]) ∧
    lookUpSnapshot st ⟨"A", ""⟩ = .ok [1, 3, 5] ∧ lookUpSnapshot st ⟨"B", ""⟩ = .ok [2, 4] :=
  ⟨_, rfl, rfl, rfl⟩

/-! ## C08: port columns -/

/-- C08.  After any successful history of `SaveSnapshots` calls (topologies and variables may vary
from call to call), the rows collected for a port tag correspond one to one and in order with the
occurrences of that port in the saved samples, and the two columns of a row retrieve, for every
variable, the blocks of that very sample on the two sides of that port. -/
theorem portColumns_history {rom : Rom V} {hist : List (Sample V)} {st : Store V}
    (h : runSamples rom (Store.empty V) hist = .ok st) (t : PortTag) (ht : occurrences hist t ≠ []) :
    ∃ rows, lookUpPort st t = .ok rows ∧
      List.Forall₂ (fun row (o : Sample V × Port) =>
        IsBlock (fun b => match lookUpSnapshot st b with | .ok c => c | .error _ => [])
          o.1 o.2.mesh1 row.1 ∧
        IsBlock (fun b => match lookUpSnapshot st b with | .ok c => c | .error _ => [])
          o.1 o.2.mesh2 row.2)
        rows (occurrences hist t) := by
  obtain ⟨w, _, hm, _, hr⟩ := runSamples_inv (WF.empty V) h
  have hcols : (fun b => match lookUpSnapshot st b with | .ok c => c | .error _ => [])
      = st.cols := by
    funext b
    by_cases hb : b ∈ st.basisTags
    · rw [lookUp_mem w hb]
    · rw [lookUp_not_mem w hb, show st.cols b = [] from regGet_not_mem hb]
  have hmem : t ∈ st.portTags := by
    rw [hm]
    right
    obtain ⟨o, ho⟩ := List.exists_mem_of_ne_nil _ ht
    obtain ⟨s, hs, hso⟩ := List.mem_flatMap.1 ho
    obtain ⟨p, hp, _⟩ := List.mem_map.1 hso
    obtain ⟨hp1, hp2⟩ := List.mem_filter.1 hp
    exact ⟨s, hs, p, hp1, by simpa using hp2⟩
  obtain ⟨new, h1, h2⟩ := hr t
  refine ⟨st.rows t, lookUpPort_mem w hmem, ?_⟩
  have e : (Store.empty V).rows t = [] := by simp [Store.rows, Store.empty, regGet]
  rw [hcols, h1, e, List.nil_append]
  exact h2

/-- C08: a port tag that never occurred is refused. -/
theorem portColumns_unknown {rom : Rom V} {hist : List (Sample V)} {st : Store V}
    (h : runSamples rom (Store.empty V) hist = .ok st) (t : PortTag) (ht : occurrences hist t = []) :
    lookUpPort st t = .error .abort := by
  obtain ⟨w, _, hm, _, _⟩ := runSamples_inv (WF.empty V) h
  refine lookUpPort_not_mem w ?_
  rw [hm]
  rintro (h | ⟨s, hs, p, hp, hpt⟩)
  · simp [Store.empty] at h
  · have : (s, p) ∈ occurrences hist t :=
      List.mem_flatMap.2 ⟨s, hs, List.mem_map.2 ⟨p, List.mem_filter.2 ⟨hp, by simpa using hpt⟩, rfl⟩⟩
    rw [ht] at this
    simp at this

/-- C08, liveness: with one list of distinct variable names for all samples, the equal-column
assertions of `SaveSnapshotPorts` never fire. -/
theorem portColumns_succeeds {rom : Rom V} {vars : List String} {hist : List (Sample V)}
    (hn : vars.Nodup) (hne : vars ≠ []) (hwf : ∀ s ∈ hist, WellFormed vars s)
    (ha : ∀ s ∈ hist, ∀ u ∈ s.blocks, rom.accept u = true)
    (hcap : ∀ c, compCount hist c ≤ rom.cap) :
    ∃ st, runSamples rom (Store.empty V) hist = .ok st := by
  have e : ∀ t, (Store.empty V).cols t = [] := by
    intro t; simp [Store.cols, Store.empty, regGet]
  exact runSamples_exists (N := fun _ => 0) hn hne (WF.empty V) hwf (by simp [e]) (by simp [e]) ha
    (by simpa using hcap)

/-- Three subdomains of two components, two variables, two ports, two samples. -/
def exTopo : Topo :=
  ⟨[0, 1, 0], ["A", "B"], [⟨0, 1, 2, 4⟩, ⟨1, 2, 2, 4⟩]⟩

def exHist : List (Sample Nat) :=
  [⟨exTopo, ["u", "p"], [10, 11, 12, 13, 14, 15]⟩, ⟨exTopo, ["u", "p"], [20, 21, 22, 23, 24, 25]⟩]

example : ∃ st, runSamples ⟨10, fun _ => true⟩ (Store.empty Nat) exHist = .ok st ∧
    lookUpPort st ⟨"A", "B", 2, 4⟩ = .ok [(0, 0), (2, 1)] ∧
    lookUpPort st ⟨"B", "A", 2, 4⟩ = .ok [(0, 1), (1, 3)] ∧
    lookUpSnapshot st ⟨"A", "p"⟩ = .ok [11, 15, 21, 25] ∧
    (occurrences exHist ⟨"A", "B", 2, 4⟩).length = 2 :=
  ⟨_, rfl, rfl, rfl, rfl, rfl⟩

/-! ## C09: merging port files -/

/-- C09.  If the snapshot files of each run hold its columns, no run lists a tag twice and the runs
agree on the variable names of each component, then a successful merge holds for each tag the
columns of the runs in order, and each row of a port tag is the row of one run, in order, with its
columns moved to where the vectors they referred to now are. -/
theorem collectByPort_merge_partial {rom : Rom V} {fs : FS V} {runs : List (Run V)} {st : Store V}
    (hd : ∀ r ∈ runs, OnDisk fs r) (hn : ∀ r ∈ runs, r.file.basisTags.Nodup)
    (hu : UniformVars runs)
    (h : collectAll rom fs (Store.empty V) (runs.map (·.file)) = .ok st) :
    (∀ t, (∃ r ∈ runs, t ∈ r.file.basisTags) → lookUpSnapshot st t = .ok (mergedCols runs t)) ∧
    (∀ t, (∃ r ∈ runs, t ∈ r.file.ports.map (·.1)) → ∃ rows, lookUpPort st t = .ok rows ∧
      List.Forall₂ (fun row (o : Run V × (Nat × Nat)) =>
        SameVector (mergedCols runs) o.1 t.mesh1 row.1 o.2.1 ∧
        SameVector (mergedCols runs) o.1 t.mesh2 row.2 o.2.2)
        rows (mergedRows runs t)) := by
  have hM := collectAll_inv hd hn hu h
  have hc : st.cols = mergedCols runs := funext hM.cols
  constructor
  · intro t ht
    rw [lookUp_mem hM.wf ((hM.mem t).2 ht), hM.cols]
  · intro t ht
    refine ⟨_, lookUpPort_mem hM.wf ((hM.pmem t).2 ht), ?_⟩
    have := hM.rows t
    rw [hc] at this
    exact this

/-- C09, end to end.  Generate several runs (each a history of samples, all with the same variable
names), write each under its prefix, and merge the port files: if the snapshot file names are
distinct and the merge succeeds, the rows of a port tag are, in order, the occurrences of the port
in all the samples of all runs, and their columns retrieve the blocks of those samples. -/
theorem generate_write_merge_partial {rom rom' : Rom V} {vars : List String}
    {runs : List (String × List (Sample V) × Store V)} {fs fs' : FS V} {files : List PortFile}
    {st : Store V}
    (hrun : ∀ r ∈ runs, runSamples rom (Store.empty V) r.2.1 = .ok r.2.2)
    (hvars : ∀ r ∈ runs, ∀ s ∈ r.2.1, s.vars = vars)
    (hnames : (runs.flatMap (fun r => r.2.2.basisTags.map (snapshotFilename r.1))).Nodup)
    (hwrite : writeAll fs (runs.map (fun r => (r.1, r.2.2))) = .ok (fs', files))
    (hmerge : collectAll rom' fs' (Store.empty V) files = .ok st) (t : PortTag)
    (ht : occurrences (runs.flatMap (fun r => r.2.1)) t ≠ []) :
    ∃ rows, lookUpPort st t = .ok rows ∧
      List.Forall₂ (fun row (o : Sample V × Port) =>
        IsBlock (fun b => match lookUpSnapshot st b with | .ok c => c | .error _ => [])
          o.1 o.2.mesh1 row.1 ∧
        IsBlock (fun b => match lookUpSnapshot st b with | .ok c => c | .error _ => [])
          o.1 o.2.mesh2 row.2)
        rows (occurrences (runs.flatMap (fun r => r.2.1)) t) := by
  have hinv := fun r hr => runSamples_inv (WF.empty V) (hrun r hr)
  have hwf : ∀ e ∈ runs.map (fun r => (r.1, r.2.2)), WF e.2 := by
    intro e he
    obtain ⟨r, hr, rfl⟩ := List.mem_map.1 he
    exact (hinv r hr).1
  obtain ⟨hf, hd, _⟩ := writeAll_inv hwf (by rw [List.flatMap_map]; exact hnames) hwrite
  have hfiles : files = ((runs.map (fun r => (r.1, r.2.2))).map runOf).map (·.file) := by
    rw [hf]; simp only [List.map_map]; rfl
  rw [hfiles] at hmerge
  have hM := collectAll_inv (runs := (runs.map (fun r => (r.1, r.2.2))).map runOf)
    (by
      intro r hr
      obtain ⟨e, he, rfl⟩ := List.mem_map.1 hr
      exact hd e he)
    (by
      intro r hr
      obtain ⟨e, he, rfl⟩ := List.mem_map.1 hr
      exact (hwf e he).basis.nodup)
    (by
      have htag : ∀ r ∈ runs, ∀ c w, (⟨c, w⟩ : BasisTag) ∈ r.2.2.basisTags ↔
          w ∈ vars ∧ ∃ s ∈ r.2.1, ∃ m, compOf s.topo m = some c := by
        intro r hr c w
        rw [(hinv r hr).2.2.2.1]
        constructor
        · rintro (h | ⟨s, hs, m, comp, w', hw', hc, he⟩)
          · simp [Store.empty] at h
          · cases he
            rw [hvars r hr s hs] at hw'
            exact ⟨hw', s, hs, m, hc⟩
        · rintro ⟨hw, s, hs, m, hc⟩
          exact .inr ⟨s, hs, m, c, w, by rw [hvars r hr s hs]; exact hw, hc, rfl⟩
      intro a ha b hb c w w' h1 h2
      obtain ⟨e, he, rfl⟩ := List.mem_map.1 ha
      obtain ⟨r, hr, rfl⟩ := List.mem_map.1 he
      obtain ⟨e', he', rfl⟩ := List.mem_map.1 hb
      obtain ⟨r', hr', rfl⟩ := List.mem_map.1 he'
      have h1 := (htag r hr c w).1 h1
      have h2 := (htag r' hr' c w').1 h2
      exact (htag r' hr' c w).2 ⟨h1.1, h2.2⟩)
    hmerge
  have hcols : (fun b => match lookUpSnapshot st b with | .ok c => c | .error _ => [])
      = st.cols := by
    funext b
    by_cases hb : b ∈ st.basisTags
    · rw [lookUp_mem hM.wf hb]
    · rw [lookUp_not_mem hM.wf hb, show st.cols b = [] from regGet_not_mem hb]
  rw [hcols]
  have hpm : ∀ r ∈ runs, ∀ s ∈ r.2.1, ∀ p ∈ s.topo.ports, portTagOf s.topo p = some t →
      t ∈ st.portTags := by
    intro r hr s hs p hp hpt
    rw [hM.pmem]
    refine ⟨runOf (r.1, r.2.2), List.mem_map.2 ⟨_, List.mem_map.2 ⟨r, hr, rfl⟩, rfl⟩, ?_⟩
    have : t ∈ r.2.2.portTags := ((hinv r hr).2.2.1 t).2 (.inr ⟨s, hs, p, hp, hpt⟩)
    show t ∈ (r.2.2.portTags.zip r.2.2.portCols).map (·.1)
    rw [List.map_fst_zip (by rw [(hinv r hr).1.port.len]; omega)]
    exact this
  have hmem : t ∈ st.portTags := by
    obtain ⟨o, ho⟩ := List.exists_mem_of_ne_nil _ ht
    obtain ⟨s, hs, hso⟩ := List.mem_flatMap.1 ho
    obtain ⟨r, hr, hsr⟩ := List.mem_flatMap.1 hs
    obtain ⟨p, hp, _⟩ := List.mem_map.1 hso
    obtain ⟨hp1, hp2⟩ := List.mem_filter.1 hp
    exact hpm r hr s hsr p hp1 (by simpa using hp2)
  refine ⟨_, lookUpPort_mem hM.wf hmem, ?_⟩
  have hrows := hM.rows t
  rw [mergedRows_runOf hwf, List.flatMap_map] at hrows
  -- rows of the runs against the occurrences
  have hocc : occurrences (runs.flatMap (fun r => r.2.1)) t
      = runs.flatMap (fun r => occurrences r.2.1 t) := by
    unfold occurrences; rw [List.flatMap_assoc]
  have hstep : List.Forall₂ (fun (o : Run V × (Nat × Nat)) (q : Sample V × Port) =>
      ∃ g : String × Store V, o.1 = runOf g ∧ portTagOf q.1.topo q.2 = some t ∧
        IsBlock g.2.cols q.1 q.2.mesh1 o.2.1 ∧ IsBlock g.2.cols q.1 q.2.mesh2 o.2.2)
      (runs.flatMap (fun r => (r.2.2.rows t).map (fun row => (runOf (r.1, r.2.2), row))))
      (runs.flatMap (fun r => occurrences r.2.1 t)) := by
    refine forall₂_flatMap_same _ _ _ ?_
    intro r hr
    obtain ⟨_, _, _, _, hrr⟩ := hinv r hr
    obtain ⟨new, h1, h2⟩ := hrr t
    have e : (Store.empty V).rows t = [] := by simp [Store.rows, Store.empty, regGet]
    rw [h1, e, List.nil_append, List.forall₂_map_left_iff]
    refine (forall₂_mem_right h2).imp ?_
    rintro row q ⟨⟨ha, hb⟩, hq⟩
    obtain ⟨s, hs, hso⟩ := List.mem_flatMap.1 hq
    obtain ⟨p, hp, rfl⟩ := List.mem_map.1 hso
    obtain ⟨_, hp2⟩ := List.mem_filter.1 hp
    exact ⟨(r.1, r.2.2), rfl, by simpa using hp2, ha, hb⟩
  rw [hocc]
  refine forall₂_comp ?_ hrows hstep
  rintro row ⟨run, row0⟩ q ⟨hs1, hs2⟩ ⟨g, hg, hpt, hb1, hb2⟩
  simp only at hg; subst hg
  unfold portTagOf at hpt
  split at hpt
  · rename_i a b ha hb
    cases hpt
    exact ⟨sameVector_isBlock ha hs1 hb1, sameVector_isBlock hb hs2 hb2⟩
  · cases hpt

/-- Two runs with two variables merged: the columns of the second are shifted. -/
example : ∃ g fs files st,
    runSamples ⟨10, fun _ => true⟩ (Store.empty Nat) exHist = .ok g ∧
    writeAll (fun _ => none) [("r0", g), ("r1", g)] = .ok (fs, files) ∧
    collectAll ⟨10, fun _ => true⟩ fs (Store.empty Nat) files = .ok st ∧
    lookUpPort st ⟨"A", "B", 2, 4⟩ = .ok [(0, 0), (2, 1), (4, 2), (6, 3)] ∧
    lookUpSnapshot st ⟨"A", "p"⟩ = .ok [11, 15, 21, 25, 11, 15, 21, 25] :=
  ⟨_, _, _, _, rfl, rfl, rfl, by decide, by decide⟩

/-- What is missing from C09 in the code: nothing checks that the merged files agree on the variable
names.  Merging a run with separate variables and a run with unified variables succeeds, and a row
of the second run then points past the end of its snapshots. -/
theorem merge_mixed_variables_misaligned :
    ∃ (g1 g2 : Store Nat) (fs : FS Nat) (files : List PortFile) (st : Store Nat),
      runSamples ⟨10, fun _ => true⟩ (Store.empty Nat) [⟨⟨[0, 0], ["A"], [⟨0, 1, 2, 4⟩]⟩, ["u"], [1, 2]⟩]
        = .ok g1 ∧
      runSamples ⟨10, fun _ => true⟩ (Store.empty Nat) [⟨⟨[0, 0], ["A"], [⟨0, 1, 2, 4⟩]⟩, [""], [3, 4]⟩]
        = .ok g2 ∧
      writeAll (fun _ => none) [("r0", g1), ("r1", g2)] = .ok (fs, files) ∧
      collectAll ⟨10, fun _ => true⟩ fs (Store.empty Nat) files = .ok st ∧
      lookUpPort st ⟨"A", "A", 2, 4⟩ = .ok [(0, 1), (2, 3)] ∧
      lookUpSnapshot st ⟨"A", ""⟩ = .ok [3, 4] :=
  ⟨_, _, _, _, _, rfl, rfl, rfl, rfl, by decide, by decide⟩

/-! ## C10: reported energy fraction -/

theorem coverage_eq {R : Type} [AddMonoid R] (sv : List R) (ref : Int) :
    coverage sv ref = .ok (if 0 ≤ ref ∧ ref ≤ sv.length then (sv.take ref.toNat).sum else 0, sv.sum) := by
  unfold coverage
  have := loop_spec (n := sv.length) (body := fun d (acc : R × R) => do
    let cov := if (d : Int) = ref then acc.2 else acc.1
    let x ← rd sv d
    return (cov, acc.2 + x))
    (fun d => (if 0 ≤ ref ∧ ref < d then (sv.take ref.toNat).sum else 0, (sv.take d).sum))
    (s := ((0 : R), (0 : R))) (by simp; omega) (by
      intro d hd
      have hs : sv[d]? = some sv[d] := by simp [hd]
      rw [rd_eq_ok.2 hs]
      simp only [ok_bind, pure, Except.pure]
      congr 1
      rw [List.take_add_one, hs, List.sum_append]
      simp only [Option.toList_some, List.sum_cons, List.sum_nil, add_zero, Prod.mk.injEq, and_true]
      by_cases h : (d : Int) = ref
      · subst h
        rw [if_pos rfl, if_pos ⟨by omega, by omega⟩]; simp
      · rw [if_neg h]
        congr 1
        apply propext
        constructor
        · rintro ⟨h1, h2⟩; exact ⟨h1, by omega⟩
        · rintro ⟨h1, h2⟩; exact ⟨h1, by omega⟩)
  rw [this]
  simp only [ok_bind, pure, Except.pure, List.take_length]
  congr 2
  by_cases h : (sv.length : Int) = ref
  · subst h; simp
  · rw [if_neg h]
    congr 1
    apply propext
    constructor
    · rintro ⟨h1, h2⟩; exact ⟨h1, by omega⟩
    · rintro ⟨h1, h2⟩; exact ⟨h1, by omega⟩

/-- C10, the part that holds: when the requested basis is no larger than the number of singular
values, the reported fraction is the sum of the first `n` over the sum of all. -/
theorem coverage_partial {R : Type} [AddMonoid R] (sv : List R) (n : Nat) (h : n ≤ sv.length) :
    coverage sv (n : Int) = .ok ((sv.take n).sum, sv.sum) := by
  rw [coverage_eq, if_pos ⟨by omega, by omega⟩]; simp

example : coverage [5, 3, 2] 2 = .ok ((8 : Int), 10) := rfl

/-- C10 fails otherwise: asking for more basis vectors than there are singular values (they cover
everything, and `[..].take n` is the whole list) reports a fraction with numerator `0`. -/
theorem coverage_zero_when_larger {R : Type} [AddMonoid R] (sv : List R) (n : Nat)
    (h : sv.length < n) : coverage sv (n : Int) = .ok (0, sv.sum) ∧ (sv.take n).sum = sv.sum := by
  rw [coverage_eq, if_neg (by omega), List.take_of_length_le (by omega)]
  exact ⟨rfl, rfl⟩

end Verif.Snapshots
