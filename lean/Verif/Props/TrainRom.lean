import Verif.Proofs.TrainRom
import Verif.Props.SampleConfig
import Verif.Proofs.Blocks

/-!
# C87: from snapshots to the bases of a later run

The basis that a reduced run uses for a variable of a component is made from exactly the snapshots of that
variable on the instances of that component, whatever the numbering of the components in the two runs.
-/

namespace Verif.TrainRom

open Verif Verif.Snapshots Verif.Snapshots.Spec Verif.TrainRom.Spec
open Verif.Options (Node Conv key pieces find option required lookUpValue formatted snapshotFiles elems
  required_iff find_some_iff)
open Verif.Options.Spec (At)
open Verif.Supremizer (refTag tagFor)

variable {V : Type}

/-! ## Names of the files -/

/-- Variable names as the solvers have them: different, and either one empty one or none with an underscore. -/
structure Good (slots : List String) : Prop where
  nodup : slots.Nodup
  nonempty : slots ≠ []
  plain : slots = [""] ∨ ∀ w ∈ slots, w ≠ "" ∧ '_' ∉ w.toList

theorem slots_good {solver : String} {vars : List String} (h : solverNames solver = some vars)
    (separate : Bool) : Good (slots separate vars) := by
  cases separate with
  | false => exact ⟨by simp [slots], by simp [slots], .inl rfl⟩
  | true =>
    have : vars = ["solution"] ∨ vars = ["vel", "pres"] := by
      unfold solverNames variableNames at h
      repeat' split at h
      all_goals first | cases h | skip
      all_goals simp
    rcases this with rfl | rfl
    · exact ⟨by decide, by decide, .inr (by decide)⟩
    · exact ⟨by decide, by decide, .inr (by decide)⟩

/-- **Bases of one run never share a file name**, whatever the component names are. -/
theorem print_unique {slots : List String} (hg : Good slots) {a b : BasisTag} (ha : a.var ∈ slots)
    (hb : b.var ∈ slots) (h : a.print = b.print) : a = b := by
  obtain ⟨ac, av⟩ := a
  obtain ⟨bc, bv⟩ := b
  rcases hg.plain with hs | hs
  · rw [hs] at ha hb
    simp only [List.mem_singleton] at ha hb
    subst ha; subst hb
    simpa [BasisTag.print] using h
  · have h1 := hs _ ha
    have h2 := hs _ hb
    simp only at h1 h2
    unfold BasisTag.print at h
    simp only [ne_eq, h1.1, not_false_eq_true, if_true, h2.1] at h
    have h := congrArg String.toList h
    have hu : "_".toList = ['_'] := by decide
    simp only [String.toList_append, hu, List.singleton_append] at h
    have h := congrArg List.reverse h
    simp only [List.reverse_append, List.reverse_cons, List.append_assoc, List.singleton_append] at h
    obtain ⟨e1, e2⟩ := list_split_unique (by simpa using h1.2) (by simpa using h2.2) h
    rw [String.toList_injective (List.reverse_injective e1), String.toList_injective (List.reverse_injective e2)]

theorem nodup_files {slots : List String} (hg : Good slots) {tags : List BasisTag} (hn : tags.Nodup)
    (hv : ∀ t ∈ tags, t.var ∈ slots) (f : BasisTag → String)
    (hf : ∀ a b : BasisTag, f a = f b → a.print = b.print) : (tags.map f).Nodup :=
  List.Nodup.map_on (fun a ha b hb e => print_unique hg (hv a ha) (hv b hb) (hf a b e)) hn

theorem base_print (pre : String) (a b : BasisTag) (h : baseFilename pre a = baseFilename pre b) :
    a.print = b.print := by
  have := congrArg String.toList h
  simp only [baseFilename, String.toList_append, List.append_assoc, List.append_cancel_left_eq] at this
  exact String.toList_injective this

theorem snap_print (pre : String) (a b : BasisTag) (h : snapshotFilename pre a = snapshotFilename pre b) :
    a.print = b.print := by
  have := congrArg String.toList h
  simp only [snapshotFilename, baseFilename, String.toList_append, List.append_assoc,
    List.append_cancel_left_eq, List.append_cancel_right_eq] at this
  exact String.toList_injective this

example : Good ["vel", "pres"] ∧ (⟨"a_vel", "pres"⟩ : BasisTag).print = "a_vel_pres" :=
  ⟨slots_good (solver := "stokes") rfl true, by decide⟩

/-! ## The tags to train -/

theorem mem_tagsOf {names slots : List String} {t : BasisTag} :
    t ∈ tagsOf names slots ↔ t.comp ∈ names ∧ t.var ∈ slots := by
  unfold tagsOf
  constructor
  · intro h
    obtain ⟨c, hc, h⟩ := List.mem_flatMap.1 h
    obtain ⟨w, hw, rfl⟩ := List.mem_map.1 h
    exact ⟨hc, hw⟩
  · rintro ⟨h1, h2⟩
    exact List.mem_flatMap.2 ⟨_, h1, List.mem_map.2 ⟨_, h2, rfl⟩⟩

theorem nodup_tagsOf {names slots : List String} (h1 : names.Nodup) (h2 : slots.Nodup) :
    (tagsOf names slots).Nodup := by
  unfold tagsOf
  rw [List.nodup_flatMap]
  refine ⟨fun c _ => h2.map (fun a b e => by simpa using e), h1.imp fun hab t ha hb => ?_⟩
  obtain ⟨_, _, rfl⟩ := List.mem_map.1 ha
  obtain ⟨_, _, e⟩ := List.mem_map.1 hb
  exact hab (by simpa using (congrArg BasisTag.comp e).symm)

theorem mapM_some {α β : Type} {f : α → Outcome β} : ∀ {l : List α} {r : List β},
    List.Forall₂ (fun a b => f a = .ok b) l r → l.mapM f = .ok r := by
  intro l r h
  induction h with
  | nil => rfl
  | cons h _ ih => rw [List.mapM_cons, h, ok_bind, ih, ok_bind]; rfl

/-- The component names of the configuration, in order. -/
theorem component_names {cv : Conv} {cfg : Node} {es : List Node} {names : List String}
    (h : At cfg (pieces '/' (key "mesh/component-wise/components")) (.seq es)) :
    componentList cv cfg .component = .ok names ↔ Names cv es names := by
  have hq : ∀ e n, entryName cv (some e) = .ok n ↔
      ∃ x, At e (pieces '/' (key "name")) x ∧ cv.str x = .ok n := fun e n => required_iff _ _ _ _
  unfold componentList
  rw [(find_some_iff _ _ _).2 h, ok_bind]
  show (es.map some).mapM (entryName cv) = _ ↔ _
  constructor
  · intro h
    have := SampleConfig.mapM_forall₂ h
    rw [List.forall₂_map_left_iff] at this
    exact this.imp fun a b hab => (hq _ _).1 hab
  · intro h
    refine mapM_some ?_
    rw [List.forall₂_map_left_iff]
    exact h.imp fun a b hab => (hq _ _).2 hab

/-- **The trained tags are every variable of every listed component.** -/
theorem training_tags {cv : Conv} {cfg : Node} {mode : Mode} {separate : Bool} {names vars : List String}
    {solver : String} (hn : componentList cv cfg mode = .ok names)
    (hs : separate = true → required cv.str (key "main/solver") cfg = .ok solver ∧
      variableNames solver = some vars) :
    globalTags cv cfg mode separate = .ok (tagsOf names (slots separate vars)) := by
  unfold globalTags
  rw [hn, ok_bind]
  have inner : ∀ (vars : List String) (c : String) (acc : List BasisTag),
      loop vars.length (fun v tags => do
        let w ← rd vars v
        return tags ++ [(⟨c, w⟩ : BasisTag)]) acc = .ok (acc ++ vars.map fun w => ⟨c, w⟩) := by
    intro vars c acc
    have := loop_spec (n := vars.length) (body := fun v tags => do
        let w ← rd vars v
        return tags ++ [(⟨c, w⟩ : BasisTag)]) (s := acc)
      (fun k => acc ++ (vars.take k).map fun w => ⟨c, w⟩) (by simp) (by
        intro k hk
        rw [rd_of_lt hk, ok_bind, List.take_add_one, List.getElem?_eq_getElem hk, List.map_append,
          ← List.append_assoc]
        rfl)
    rwa [List.take_length] at this
  have outer : ∀ vs : List String, (∀ c acc, tagsOfComponent separate vs c acc =
        .ok (acc ++ (slots separate vars).map fun w => ⟨c, w⟩)) →
      loop names.length (fun c tags => do
        let n ← rd names c
        tagsOfComponent separate vs n tags) [] = .ok (tagsOf names (slots separate vars)) := by
    intro vs h
    have := loop_spec (n := names.length) (body := fun c tags => do
        let n ← rd names c
        tagsOfComponent separate vs n tags) (s := [])
      (fun k => tagsOf (names.take k) (slots separate vars)) rfl (by
        intro k hk
        rw [rd_of_lt hk, ok_bind, h, List.take_add_one, List.getElem?_eq_getElem hk]
        unfold tagsOf
        rw [List.flatMap_append]
        simp)
    rwa [List.take_length] at this
  cases separate with
  | false => exact outer [] fun c acc => rfl
  | true =>
    obtain ⟨h1, h2⟩ := hs rfl
    have : variableList cv cfg = .ok vars := by unfold variableList; rw [h1, ok_bind, h2]
    rw [if_pos rfl, this, ok_bind]
    exact outer vars fun c acc => inner vars c acc

/-- The variables of the solvers: one, the solution, for Poisson and elasticity, velocity and pressure for
flows.  Training knows all of them but advection-diffusion. -/
theorem solver_variables (solver : String) :
    solverNames solver =
      (if solver ∈ ["poisson", "adv-diff", "linelast"] then some ["solution"]
       else if solver ∈ ["stokes", "steady-ns", "unsteady-ns"] then some ["vel", "pres"] else none) ∧
    (solver ≠ "adv-diff" → variableNames solver = solverNames solver) := by
  constructor
  · unfold solverNames variableNames
    simp only [List.mem_cons, List.not_mem_nil, or_false]
    by_cases h1 : solver = "poisson"
    · subst h1; decide
    by_cases h2 : solver = "adv-diff"
    · subst h2; decide
    by_cases h3 : solver = "linelast"
    · subst h3; decide
    by_cases h4 : solver = "stokes"
    · subst h4; decide
    by_cases h5 : solver = "steady-ns"
    · subst h5; decide
    by_cases h6 : solver = "unsteady-ns"
    · subst h6; decide
    simp [h1, h2, h3, h4, h5, h6]
  · intro h
    unfold solverNames
    rw [if_neg h]

/-- **Advection-diffusion has no separate training**: with a basis of its own for every variable, training by
basis always stops for the solver "adv-diff", although the same choice works when generating and solving. -/
theorem adv_diff_stops {cv : Conv} {cfg : Node} (mode : Mode) (rom : Rom V) (pod : List V → List V) (d : Disk V)
    (hs : required cv.str (key "main/solver") cfg = .ok "adv-diff")
    (hm : option cv.str (key "sample_collection/mode") "basis" cfg = .ok "basis") :
    solverNames "adv-diff" = some ["solution"] ∧ ∀ d', trainRom cv cfg mode true rom pod d ≠ .ok d' := by
  refine ⟨rfl, fun d' h => ?_⟩
  unfold trainRom at h
  obtain ⟨pre, -, h⟩ := bind_eq_ok.1 h
  obtain ⟨st, h, -⟩ := bind_eq_ok.1 h
  unfold collect at h
  obtain ⟨pfx, -, h⟩ := bind_eq_ok.1 h
  rw [hm, ok_bind, if_pos rfl] at h
  obtain ⟨tags, h, -⟩ := bind_eq_ok.1 h
  unfold globalTags at h
  obtain ⟨names, -, h⟩ := bind_eq_ok.1 h
  rw [if_pos rfl] at h
  unfold variableList at h
  rw [hs, ok_bind] at h
  cases h

/-! ## Training -/

theorem train_basis_steps {cv : Conv} {cfg : Node} {mode : Mode} {separate : Bool} {rom : Rom V}
    {pod : List V → List V} {d d' : Disk V} {pfx : String} {tags : List BasisTag}
    (hp : samplePrefix cv cfg = .ok pfx)
    (hm : option cv.str (key "sample_collection/mode") "basis" cfg = .ok "basis")
    (ht : globalTags cv cfg mode separate = .ok tags)
    (h : trainRom cv cfg mode separate rom pod d = .ok d') :
    ∃ pre st, basisPrefix cv cfg = .ok pre ∧
      collectByBasis cv cfg rom d.snaps pfx tags (Store.empty V) = .ok st ∧
      formBasis cv cfg pod pre st d.bases = .ok d'.bases ∧ d'.snaps = d.snaps ∧ d'.ports = d.ports := by
  unfold trainRom at h
  obtain ⟨pre, h1, h⟩ := bind_eq_ok.1 h
  obtain ⟨st, h2, h⟩ := bind_eq_ok.1 h
  obtain ⟨bases, h3, h⟩ := bind_eq_ok.1 h
  cases h
  unfold collect at h2
  rw [hp, ok_bind, hm, ok_bind, if_pos rfl, ht, ok_bind] at h2
  exact ⟨pre, st, h1, h2, h3, rfl, rfl⟩

/-- **Training, tag by tag.**  A successful training by basis reads, for every variable of every listed
component, the snapshot files configured for it, and writes the basis of their columns to the file of this
variable and component; a component listed `k` times has its snapshots taken `k` times.  Every other basis
file, and all snapshot and port files, stay as they were. -/
theorem trained {cv : Conv} {cfg : Node} {mode : Mode} {separate : Bool} {rom : Rom V} {pod : List V → List V}
    {d d' : Disk V} {pfx pre : String} {names slots : List String} (hg : Good slots)
    (hp : samplePrefix cv cfg = .ok pfx) (hpre : basisPrefix cv cfg = .ok pre)
    (hm : option cv.str (key "sample_collection/mode") "basis" cfg = .ok "basis")
    (ht : globalTags cv cfg mode separate = .ok (tagsOf names slots))
    (h : trainRom cv cfg mode separate rom pod d = .ok d') :
    (∀ c ∈ names, ∀ w ∈ slots, ∃ files data,
      snapshotFiles cv (BasisTag.mk c w).print (snapshotFilename pfx ⟨c, w⟩) cfg = .ok files ∧
      Hold d.snaps files data ∧ data.flatten ≠ [] ∧
      d'.bases (baseFilename pre ⟨c, w⟩) = some (pod (copies (names.count c) data.flatten))) ∧
    (∀ f, (∀ c ∈ names, ∀ w ∈ slots, f ≠ baseFilename pre ⟨c, w⟩) → d'.bases f = d.bases f) ∧
    d'.snaps = d.snaps ∧ d'.ports = d.ports := by
  obtain ⟨pre', st, e1, e2, e3, e4, e5⟩ := train_basis_steps hp hm ht h
  rw [hpre] at e1
  cases e1
  obtain ⟨w, hmem, hcols⟩ := collectByBasis_inv' e2
  have hnd := nodup_files hg w.basis.nodup (fun t htm => (mem_tagsOf.1 ((hmem t).1 htm)).2)
    (baseFilename pre) (base_print pre)
  obtain ⟨f1, f2⟩ := formBasis_inv w hnd e3
  have hcount : ∀ c x, x ∈ slots → (tagsOf names slots).count ⟨c, x⟩ = names.count c := by
    intro c x hx
    unfold tagsOf
    clear ht hmem hcols e2 h
    induction names with
    | nil => simp
    | cons a l ih =>
      rw [List.flatMap_cons, List.count_append, ih, List.count_cons, Nat.add_comm]
      congr 1
      by_cases hac : a = c
      · subst hac
        rw [if_pos (by simp)]
        have : (⟨a, x⟩ : BasisTag) ∈ slots.map fun w => (⟨a, w⟩ : BasisTag) := List.mem_map.2 ⟨x, hx, rfl⟩
        exact List.count_eq_one_of_mem (hg.nodup.map fun p q e => by simpa using e) this
      · rw [if_neg (by simpa using hac), List.count_eq_zero]
        intro hmem
        obtain ⟨_, _, e⟩ := List.mem_map.1 hmem
        exact hac (by simpa using congrArg BasisTag.comp e)
  refine ⟨fun c hc x hx => ?_, fun f hf => ?_, e4, e5⟩
  · have htag : (⟨c, x⟩ : BasisTag) ∈ tagsOf names slots := mem_tagsOf.2 ⟨hc, hx⟩
    obtain ⟨files, data, g1, g2, g3⟩ := hcols _ htag
    obtain ⟨k1, k2⟩ := f1 _ ((hmem _).2 htag)
    rw [g3, hcount c x hx] at k1 k2
    refine ⟨files, data, g1, g2, fun e => k2 ?_, k1⟩
    rw [e]; simp [copies]
  · refine f2 f fun hmf => ?_
    obtain ⟨t, ht', rfl⟩ := List.mem_map.1 hmf
    obtain ⟨q1, q2⟩ := mem_tagsOf.1 ((hmem t).1 ht')
    exact hf _ q1 _ q2 rfl

/-! ## Loading -/

theorem load_inv {pre : String} {separate : Bool} {vars names : List String} {numRef : List Int} {bases : FS V}
    {ref : List (List V)} (h : loadBasis pre separate vars names numRef bases = .ok ref) :
    ref.length = (if separate then names.length * vars.length else names.length) ∧
    ∀ k, k < (if separate then names.length * vars.length else names.length) → ∃ tag n cols,
      refTag separate vars names k = .ok tag ∧ numRef[k]? = some n ∧ bases (pre ++ "_" ++ tag.print) = some cols ∧
      0 < n ∧ n ≤ cols.length ∧ ref[k]? = some (cols.take n.toNat) := by
  unfold loadBasis at h
  have := loop_inv (fun j (acc : List (List V)) => acc.length = j ∧ ∀ k, k < j → ∃ tag n cols,
      refTag separate vars names k = .ok tag ∧ numRef[k]? = some n ∧ bases (pre ++ "_" ++ tag.print) = some cols ∧
      0 < n ∧ n ≤ cols.length ∧ acc[k]? = some (cols.take n.toNat))
    ⟨rfl, fun k hk => absurd hk (by omega)⟩ (by
      rintro j a b hj ⟨h1, h2⟩ e
      unfold loadStep at e
      obtain ⟨tag, e1, e⟩ := bind_eq_ok.1 e
      obtain ⟨n, e2, e⟩ := bind_eq_ok.1 e
      cases hb : bases (pre ++ "_" ++ tag.print) with
      | none => rw [hb] at e; cases e
      | some cols =>
        rw [hb] at e
        dsimp only at e
        obtain ⟨x, e3, e⟩ := bind_eq_ok.1 e
        cases e
        unfold spatialBasis at e3
        obtain ⟨⟨⟩, p1, e3⟩ := bind_eq_ok.1 e3
        obtain ⟨⟨⟩, p2, e3⟩ := bind_eq_ok.1 e3
        cases e3
        refine ⟨by simp [h1], fun k hk => ?_⟩
        by_cases hkj : k = j
        · subst hkj
          refine ⟨tag, n, cols, e1, rd_eq_ok.1 e2, hb, by simpa using require_eq_ok.1 p1,
            by simpa using require_eq_ok.1 p2, ?_⟩
          rw [List.getElem?_append_right (by omega), h1]
          simp
        · obtain ⟨tag', n', cols', g1, g2, g3, g4, g5, g6⟩ := h2 k (by omega)
          refine ⟨tag', n', cols', g1, g2, g3, g4, g5, ?_⟩
          rw [List.getElem?_append_left (by omega), g6]) h
  exact this

theorem refTag_eq {separate : Bool} {vars names : List String} {c v : Nat} {name w : String}
    (hc : names[c]? = some name) (hv : (slots separate vars)[v]? = some w) :
    refTag separate vars names (c * (slots separate vars).length + v) = .ok ⟨name, w⟩ ∧
    c * (slots separate vars).length + v <
      (if separate then names.length * vars.length else names.length) := by
  have hcl : c < names.length := (List.getElem?_eq_some_iff.1 hc).1
  have hvl : v < (slots separate vars).length := (List.getElem?_eq_some_iff.1 hv).1
  cases separate with
  | false =>
    simp only [slots, Bool.false_eq_true, if_false, List.length_singleton] at hv hvl ⊢
    obtain rfl : v = 0 := by omega
    simp only [List.getElem?_cons_zero, Option.some.injEq] at hv
    subst hv
    refine ⟨?_, by omega⟩
    unfold refTag tagFor
    rw [if_neg (by simp), show c * 1 + 0 = c by omega, rd_eq_ok.2 hc]
    rfl
  | true =>
    simp only [slots, if_true] at hv hvl ⊢
    constructor
    · unfold refTag tagFor
      rw [if_pos rfl, show (c * vars.length + v) % vars.length = v by
        rw [Nat.add_comm, Nat.add_mul_mod_self_right, Nat.mod_eq_of_lt hvl],
        show (c * vars.length + v) / vars.length = c by
          rw [Nat.add_comm, Nat.add_mul_div_right _ _ (by omega), Nat.div_eq_of_lt hvl, Nat.zero_add],
        rd_eq_ok.2 hv, ok_bind, rd_eq_ok.2 hc]
      rfl
    · have := Nat.mul_le_mul_right vars.length (show c + 1 ≤ names.length by omega)
      rw [Nat.succ_mul] at this
      omega

/-- **Loading, block by block.**  The reference basis of variable `v` of component `c` consists of the first
columns, as many as configured, of the file of this variable and component. -/
theorem loaded {pre : String} {separate : Bool} {vars names : List String} {numRef : List Int} {bases : FS V}
    {ref : List (List V)} (h : loadBasis pre separate vars names numRef bases = .ok ref)
    {c v : Nat} {name w : String} (hc : names[c]? = some name) (hv : (slots separate vars)[v]? = some w) :
    ∃ n cols, numRef[c * (slots separate vars).length + v]? = some n ∧
      bases (baseFilename pre ⟨name, w⟩) = some cols ∧ 0 < n ∧ n ≤ cols.length ∧
      ref[c * (slots separate vars).length + v]? = some (cols.take n.toNat) := by
  obtain ⟨h1, h2⟩ := refTag_eq hc hv
  obtain ⟨tag, n, cols, g1, g2, g3, g4, g5, g6⟩ := (load_inv h).2 _ h2
  rw [h1] at g1
  cases g1
  exact ⟨n, cols, g2, g3, g4, g5, g6⟩

/-! ## From the samples to the bases of a later run -/

/-- What a sampling run leaves on disk. -/
theorem written {rom : Rom V} {hist : List (Sample V)} {g : Store V} {pfx : String} {fs fs' : FS V}
    {slots : List String} (hg : Good slots) (hs : ∀ s ∈ hist, s.vars = slots)
    (h1 : runSamples rom (Store.empty V) hist = .ok g) (h2 : writeSnapshots g pfx fs = .ok fs')
    (c : String) {v : Nat} {w : String} (hv : slots[v]? = some w) :
    (Sampled hist c → fs' (snapshotFilename pfx ⟨c, w⟩) = some (snapshotsOf hist c v)) ∧
    (¬ Sampled hist c → fs' (snapshotFilename pfx ⟨c, w⟩) = fs (snapshotFilename pfx ⟨c, w⟩)) := by
  obtain ⟨wf, -, -, hm, -⟩ := runSamples_inv (WF.empty V) h1
  have hm : ∀ t, t ∈ g.basisTags ↔ Sampled hist t.comp ∧ t.var ∈ slots := by
    intro t
    rw [hm]
    constructor
    · rintro (h | ⟨s, hs', m, comp, x, hx, e1, rfl⟩)
      · simp [Store.empty] at h
      · exact ⟨⟨s, hs', m, e1⟩, by rw [hs s hs'] at hx; exact hx⟩
    · rintro ⟨⟨s, hs', m, e⟩, hx⟩
      exact .inr ⟨s, hs', m, t.comp, t.var, by rw [hs s hs']; exact hx, e, rfl⟩
  have hnd := nodup_files hg wf.basis.nodup (fun t ht => ((hm t).1 ht).2) (snapshotFilename pfx) (snap_print pfx)
  obtain ⟨k1, k2⟩ := writeSnapshots_inv wf hnd h2
  have hw : w ∈ slots := List.mem_of_getElem? hv
  constructor
  · intro hc
    rw [k1 _ ((hm _).2 ⟨hc, hw⟩), runSamples_cols hg.nodup hv (WF.empty V) hs h1]
    simp [Store.cols, Store.empty, regGet]
  · intro hc
    refine k2 _ fun hmem => ?_
    obtain ⟨t, ht, e⟩ := List.mem_map.1 hmem
    have := print_unique hg ((hm t).1 ht).2 hw (snap_print pfx _ _ e)
    subst this
    exact hc ((hm _).1 ht).1

/-- **Every basis of a later run is made from the snapshots of its own variable and component.**  Sampling,
training and a later run use the same solver; component lists and numberings of the three may differ. -/
theorem trained_basis {cv : Conv} {cfg : Node} {mode : Mode} {separate : Bool} {rom0 rom : Rom V}
    {pod : List V → List V} {d d' : Disk V} {pfx pre solver : String} {names names' vars : List String}
    {hist : List (Sample V)} {g : Store V} {fs : FS V} {numRef : List Int} {ref : List (List V)}
    -- the sampling run
    (hs : ∀ s ∈ hist, s.vars = slots separate vars) (hgen : runSamples rom0 (Store.empty V) hist = .ok g)
    (hw : writeSnapshots g pfx fs = .ok d.snaps)
    -- the training run
    (hsol : required cv.str (key "main/solver") cfg = .ok solver) (hvars : variableNames solver = some vars)
    (hp : samplePrefix cv cfg = .ok pfx) (hpre : basisPrefix cv cfg = .ok pre)
    (hm : option cv.str (key "sample_collection/mode") "basis" cfg = .ok "basis")
    (hn : componentList cv cfg mode = .ok names) (hnd : names.Nodup)
    (hfiles : ∀ c ∈ names, ∀ w ∈ slots separate vars,
      snapshotFiles cv (BasisTag.mk c w).print (snapshotFilename pfx ⟨c, w⟩) cfg =
        .ok [snapshotFilename pfx ⟨c, w⟩])
    (ht : trainRom cv cfg mode separate rom pod d = .ok d')
    -- the later run
    (hl : loadBasis pre separate vars names' numRef d'.bases = .ok ref)
    {c v : Nat} {name w : String} (hc : names'[c]? = some name) (hv : (slots separate vars)[v]? = some w)
    (hin : name ∈ names) (hsam : Sampled hist name) :
    ∃ n, numRef[c * (slots separate vars).length + v]? = some n ∧ 0 < n ∧
      n ≤ (pod (snapshotsOf hist name v)).length ∧
      ref[c * (slots separate vars).length + v]? = some ((pod (snapshotsOf hist name v)).take n.toNat) := by
  have hsn : solverNames solver = some vars := by
    unfold solverNames
    split
    · rename_i e; subst e; cases hvars
    · exact hvars
  have hg := slots_good hsn separate
  have htags := training_tags (separate := separate) hn (fun _ => ⟨hsol, hvars⟩)
  obtain ⟨t1, -, -, -⟩ := trained hg hp hpre hm htags ht
  obtain ⟨files, data, e1, e2, -, e4⟩ := t1 name hin w (List.mem_of_getElem? hv)
  rw [hfiles name hin w (List.mem_of_getElem? hv)] at e1
  cases e1
  have e5 := (written hg hs hgen hw name hv).1 hsam
  have hdat : data = [snapshotsOf hist name v] := hold_unique e2 (.cons e5 .nil)
  rw [hdat, List.count_eq_one_of_mem hnd hin] at e4
  obtain ⟨n, cols, g1, g2, g3, g4, g5⟩ := loaded hl hc hv
  have e4 : d'.bases (baseFilename pre ⟨name, w⟩) = some (pod (snapshotsOf hist name v)) := by
    simpa [copies] using e4
  rw [e4] at g2
  cases g2
  exact ⟨n, g1, g3, g4, g5⟩

/-- **A component without snapshots cannot be trained**: if a listed component occurs in no sample and there is
no older file of that name, training stops. -/
theorem unsampled_stops {cv : Conv} {cfg : Node} {mode : Mode} {separate : Bool} {rom0 rom : Rom V}
    {pod : List V → List V} {d : Disk V} {pfx solver : String} {names vars : List String}
    {hist : List (Sample V)} {g : Store V} {fs : FS V}
    (hs : ∀ s ∈ hist, s.vars = slots separate vars) (hgen : runSamples rom0 (Store.empty V) hist = .ok g)
    (hw : writeSnapshots g pfx fs = .ok d.snaps)
    (hsol : required cv.str (key "main/solver") cfg = .ok solver) (hvars : variableNames solver = some vars)
    (hp : samplePrefix cv cfg = .ok pfx)
    (hm : option cv.str (key "sample_collection/mode") "basis" cfg = .ok "basis")
    (hn : componentList cv cfg mode = .ok names)
    (hfiles : ∀ c ∈ names, ∀ w ∈ slots separate vars,
      snapshotFiles cv (BasisTag.mk c w).print (snapshotFilename pfx ⟨c, w⟩) cfg =
        .ok [snapshotFilename pfx ⟨c, w⟩])
    {name w : String} (hin : name ∈ names) (hwin : w ∈ slots separate vars) (hno : ¬ Sampled hist name)
    (hold : fs (snapshotFilename pfx ⟨name, w⟩) = none) :
    ∀ d', trainRom cv cfg mode separate rom pod d ≠ .ok d' := by
  intro d' ht
  have hsn : solverNames solver = some vars := by
    unfold solverNames
    split
    · rename_i e; subst e; cases hvars
    · exact hvars
  have hg := slots_good hsn separate
  have htags := training_tags (separate := separate) hn (fun _ => ⟨hsol, hvars⟩)
  obtain ⟨pre, -, -, -, -, -⟩ := train_basis_steps hp hm htags ht
  obtain ⟨pre, st, h1, -⟩ := train_basis_steps hp hm htags ht
  obtain ⟨t1, -, -, -⟩ := trained hg hp h1 hm htags ht
  obtain ⟨files, data, e1, e2, -, -⟩ := t1 name hin w hwin
  rw [hfiles name hin w hwin] at e1
  cases e1
  obtain ⟨v, hv⟩ := List.mem_iff_getElem?.1 hwin
  have := (written hg hs hgen hw name hv).2 hno
  rw [hold] at this
  cases e2 with
  | cons a _ => rw [this] at a; cases a

/-- **Training is possible** whenever every listed component has been sampled, the snapshots are fewer than the
maximal number, libROM accepts them, and every number of basis vectors is positive. -/
theorem train_possible {cv : Conv} {cfg : Node} {mode : Mode} {separate : Bool} {rom0 rom : Rom V}
    (pod : List V → List V) {d : Disk V} {pfx pre solver : String} {names vars : List String}
    {hist : List (Sample V)} {g : Store V} {fs : FS V} {dflt : Int} {list : Option Node}
    (hs : ∀ s ∈ hist, s.vars = slots separate vars) (hgen : runSamples rom0 (Store.empty V) hist = .ok g)
    (hw : writeSnapshots g pfx fs = .ok d.snaps)
    (hsol : required cv.str (key "main/solver") cfg = .ok solver) (hvars : variableNames solver = some vars)
    (hp : samplePrefix cv cfg = .ok pfx) (hpre : basisPrefix cv cfg = .ok pre)
    (hm : option cv.str (key "sample_collection/mode") "basis" cfg = .ok "basis")
    (hn : componentList cv cfg mode = .ok names) (hnd : names.Nodup) (hne : names ≠ [])
    (hfiles : ∀ c ∈ names, ∀ w ∈ slots separate vars,
      snapshotFiles cv (BasisTag.mk c w).print (snapshotFilename pfx ⟨c, w⟩) cfg =
        .ok [snapshotFilename pfx ⟨c, w⟩])
    (hsam : ∀ c ∈ names, Sampled hist c)
    (hcap : ∀ c ∈ names, ∀ v, v < (slots separate vars).length → snapshotsOf hist c v ≠ [] ∧
      (snapshotsOf hist c v).length ≤ rom.cap ∧ ∀ u ∈ snapshotsOf hist c v, rom.accept u = true)
    (hd : option cv.int (key "basis/number_of_basis") (-1) cfg = .ok dflt)
    (hli : find cfg (pieces '/' (key "basis/tags")) = .ok list)
    (hnum : ∀ c ∈ names, ∀ w ∈ slots separate vars, ∃ n, numBasis cv list dflt ⟨c, w⟩ = .ok n ∧ 0 < n) :
    ∃ d', trainRom cv cfg mode separate rom pod d = .ok d' := by
  have hsn : solverNames solver = some vars := by
    unfold solverNames
    split
    · rename_i e; subst e; cases hvars
    · exact hvars
  have hg := slots_good hsn separate
  have htags := training_tags (separate := separate) hn (fun _ => ⟨hsol, hvars⟩)
  have hdata : ∀ t ∈ tagsOf names (slots separate vars), ∃ v, v < (slots separate vars).length ∧
      Hold d.snaps [snapshotFilename pfx t] [snapshotsOf hist t.comp v] := by
    intro t ht
    obtain ⟨h1, h2⟩ := mem_tagsOf.1 ht
    obtain ⟨v, hv⟩ := List.mem_iff_getElem?.1 h2
    exact ⟨v, (List.getElem?_eq_some_iff.1 hv).1, .cons ((written hg hs hgen hw _ hv).1 (hsam _ h1)) .nil⟩
  obtain ⟨st, hst⟩ := collectByBasis_exists (rom := rom) (fs := d.snaps) (nodup_tagsOf hnd hg.nodup)
    (fun t ht => by
      obtain ⟨h1, h2⟩ := mem_tagsOf.1 ht
      obtain ⟨v, hv, hh⟩ := hdata t ht
      refine ⟨_, _, hfiles _ h1 _ h2, by simp, hh, ?_, ?_⟩
      · intro l hl
        rw [List.mem_singleton] at hl
        subst hl
        exact (hcap _ h1 v hv).2.2
      · simpa using (hcap _ h1 v hv).2.1)
  obtain ⟨wf, hmem, hcols⟩ := collectByBasis_inv' hst
  obtain ⟨b, hb⟩ := formBasis_exists (pod := pod) (pre := pre) (bases := d.bases) wf (by
      intro e
      obtain ⟨c, hc⟩ := List.exists_mem_of_ne_nil _ hne
      obtain ⟨w, hw'⟩ := List.exists_mem_of_ne_nil _ hg.nonempty
      have := (hmem ⟨c, w⟩).2 (mem_tagsOf.2 ⟨hc, hw'⟩)
      rw [e] at this
      simp at this) hd hli (by
      intro t ht
      have ht' := (hmem t).1 ht
      obtain ⟨h1, h2⟩ := mem_tagsOf.1 ht'
      refine ⟨?_, hnum _ h1 _ h2⟩
      obtain ⟨files, data, q1, q2, q3⟩ := hcols t ht'
      rw [hfiles _ h1 _ h2] at q1
      cases q1
      obtain ⟨v, hv, hh⟩ := hdata t ht'
      rw [q3, hold_unique q2 hh, List.count_eq_one_of_mem (nodup_tagsOf hnd hg.nodup) ht']
      simpa [copies] using (hcap _ h1 v hv).1)
  refine ⟨{ d with bases := b }, ?_⟩
  unfold trainRom collect
  rw [hpre, ok_bind, hp, ok_bind, hm, ok_bind, if_pos rfl, htags, ok_bind, hst, ok_bind, hb, ok_bind]
  rfl

/-- **Loading is possible** if every basis file is there and has enough columns. -/
theorem load_possible {pre : String} {separate : Bool} {vars names : List String} {numRef : List Int}
    {bases : FS V} (h : ∀ (c v : Nat) name w, names[c]? = some name → (slots separate vars)[v]? = some w →
      ∃ n cols, numRef[c * (slots separate vars).length + v]? = some n ∧
        bases (baseFilename pre ⟨name, w⟩) = some cols ∧ 0 < n ∧ n ≤ cols.length) :
    ∃ ref, loadBasis pre separate vars names numRef bases = .ok ref := by
  obtain ⟨r, hr, -⟩ := loop_total (n := if separate then names.length * vars.length else names.length)
    (body := loadStep pre separate vars names numRef bases) (s := []) (fun _ _ => True) trivial (by
      intro k acc hk _
      have hL : (if separate then names.length * vars.length else names.length) =
          names.length * (slots separate vars).length := by
        cases separate <;> simp [slots]
      rw [hL] at hk
      have hpos : 0 < (slots separate vars).length := by
        rcases Nat.eq_zero_or_pos (slots separate vars).length with e | e
        · rw [e] at hk; omega
        · exact e
      have hcl : k / (slots separate vars).length < names.length :=
        (Nat.div_lt_iff_lt_mul hpos).2 hk
      have hvl : k % (slots separate vars).length < (slots separate vars).length := Nat.mod_lt _ hpos
      have hc := List.getElem?_eq_getElem hcl
      have hv := List.getElem?_eq_getElem hvl
      have hkk : k / (slots separate vars).length * (slots separate vars).length +
          k % (slots separate vars).length = k := by rw [Nat.mul_comm]; exact Nat.div_add_mod k _
      obtain ⟨n, cols, h1, h2, h3, h4⟩ := h _ _ _ _ hc hv
      obtain ⟨t1, -⟩ := refTag_eq hc hv
      rw [hkk] at t1 h1
      unfold loadStep spatialBasis
      have h2 : bases (pre ++ "_" ++ (BasisTag.mk names[k / (slots separate vars).length]
          (slots separate vars)[k % (slots separate vars).length]).print) = some cols := h2
      rw [t1, ok_bind, rd_eq_ok.2 h1, ok_bind, h2]
      refine ⟨acc ++ [cols.take n.toNat], ?_, trivial⟩
      dsimp only
      rw [decide_eq_true h3, require_true, ok_bind, decide_eq_true h4, require_true, ok_bind]
      rfl)
  exact ⟨r, hr⟩

/-! ## Training from port files -/

theorem collectByPort_inv' {cv : Conv} {cfg : Node} {rom : Rom V} {fs : FS V} {ports : String → Option PortFile}
    {pfx : String} {st : Store V} {files : List String} {runs : List (Run V)}
    (hf : portFiles cv cfg pfx = .ok files)
    (hr : List.Forall₂ (fun f (r : Run V) => ports f = some r.file) files runs)
    (h : collectByPort cv cfg rom fs ports pfx (Store.empty V) = .ok st) :
    collectAll rom fs (Store.empty V) (runs.map (·.file)) = .ok st := by
  unfold collectByPort at h
  rw [hf, ok_bind] at h
  unfold collectAll
  rw [List.length_map, ← hr.length_eq, ← h]
  refine loop_congr fun j s hj => ?_
  have hjr : j < runs.length := hr.length_eq ▸ hj
  have e : ports files[j] = some (runs[j]).file := hr.get hj hjr
  rw [rd_of_lt hj, ok_bind, rd_of_lt (by simpa using hjr), ok_bind, e]
  simp

/-- **Training from the port files of several runs**: every basis is made from the snapshots of its own variable
and component in all of these runs, run by run. -/
theorem trained_by_port {cv : Conv} {cfg : Node} {mode : Mode} {separate : Bool} {rom : Rom V}
    {pod : List V → List V} {d d' : Disk V} {pfx pre : String} {slots files : List String} {runs : List (Run V)}
    (hg : Good slots) (hp : samplePrefix cv cfg = .ok pfx) (hpre : basisPrefix cv cfg = .ok pre)
    (hm : option cv.str (key "sample_collection/mode") "basis" cfg = .ok "port")
    (hf : portFiles cv cfg pfx = .ok files)
    (hr : List.Forall₂ (fun f (r : Run V) => d.ports f = some r.file) files runs)
    (hd : ∀ r ∈ runs, OnDisk d.snaps r) (hn : ∀ r ∈ runs, r.file.basisTags.Nodup) (hu : UniformVars runs)
    (hv : ∀ r ∈ runs, ∀ t ∈ r.file.basisTags, t.var ∈ slots)
    (h : trainRom cv cfg mode separate rom pod d = .ok d') :
    (∀ r ∈ runs, ∀ t ∈ r.file.basisTags,
      d'.bases (baseFilename pre t) = some (pod (mergedCols runs t)) ∧ mergedCols runs t ≠ []) ∧
    ∀ f, (∀ r ∈ runs, ∀ t ∈ r.file.basisTags, f ≠ baseFilename pre t) → d'.bases f = d.bases f := by
  unfold trainRom at h
  rw [hpre, ok_bind] at h
  obtain ⟨st, h2, h⟩ := bind_eq_ok.1 h
  obtain ⟨bases, h3, h⟩ := bind_eq_ok.1 h
  cases h
  unfold collect at h2
  rw [hp, ok_bind, hm, ok_bind, if_neg (by decide), if_pos rfl] at h2
  have M := collectAll_inv hd hn hu (collectByPort_inv' hf hr h2)
  have hnd := nodup_files hg M.wf.basis.nodup (fun t htm => by
    obtain ⟨r, hr, ht⟩ := (M.mem t).1 htm
    exact hv r hr t ht) (baseFilename pre) (base_print pre)
  obtain ⟨f1, f2⟩ := formBasis_inv M.wf hnd h3
  refine ⟨fun r hr t ht => ?_, fun f hf => ?_⟩
  · have := f1 t ((M.mem t).2 ⟨r, hr, ht⟩)
    rw [M.cols] at this
    exact this
  · refine f2 f fun hmf => ?_
    obtain ⟨t, ht, rfl⟩ := List.mem_map.1 hmf
    obtain ⟨r, hr, ht⟩ := (M.mem t).1 ht
    exact hf r hr t ht rfl

/-! ## An example -/

section Example

open Verif.Options (exConv)

/-- Components "p_vel" and "q" in this order, the Stokes solver, two vectors for every basis but one. -/
def exCfg : Node :=
  .map [(key "main", .map [(key "solver", .scalar "stokes".toList)]),
    (key "mesh", .map [(key "component-wise", .map [(key "components", .seq [
      .map [(key "name", .scalar "p_vel".toList)], .map [(key "name", .scalar "q".toList)]])])]),
    (key "basis", .map [(key "prefix", .scalar "b".toList), (key "number_of_basis", .scalar ['2']),
      (key "tags", .seq [.map [(key "name", .scalar "q_pres".toList), (key "number_of_basis", .scalar ['1'])]])])]

/-- Two samples, on other components orders: subdomains q, p_vel, q and p_vel, q. -/
def exHist : List (Sample Nat) :=
  [⟨⟨[0, 1, 0], ["q", "p_vel"], []⟩, ["vel", "pres"], [11, 12, 13, 14, 15, 16]⟩,
    ⟨⟨[0, 1], ["p_vel", "q"], []⟩, ["vel", "pres"], [21, 22, 23, 24]⟩]

def exRom : Rom Nat := ⟨3, fun u => u != 0⟩

/-- Sampling, training and loading with components in the order q, p_vel; "POD" reverses the snapshots. -/
def exStudy : Outcome (List (List Nat)) := do
  let g ← runSamples exRom (Store.empty Nat) exHist
  let fs ← writeSnapshots g "./sample_sample" (fun _ => none)
  let d ← trainRom exConv exCfg .component true exRom List.reverse ⟨fs, fun _ => none, fun _ => none⟩
  loadBasis "b" true ["vel", "pres"] ["q", "p_vel"] [2, 1, 2, 2] d.bases

/-- The whole study runs, and every basis comes from its own snapshots. -/
example : exStudy = .ok [[23, 15], [24], [21, 13], [22, 14]] ∧
    snapshotsOf exHist "q" 0 = [11, 15, 23] ∧ snapshotsOf exHist "p_vel" 1 = [14, 22] := by decide +kernel

/-- The hypotheses of `trained_basis` on the configuration hold. -/
example : required exConv.str (key "main/solver") exCfg = .ok "stokes" ∧
    variableNames "stokes" = some ["vel", "pres"] ∧ samplePrefix exConv exCfg = .ok "./sample_sample" ∧
    basisPrefix exConv exCfg = .ok "b" ∧
    option exConv.str (key "sample_collection/mode") "basis" exCfg = .ok "basis" ∧
    componentList exConv exCfg .component = .ok ["p_vel", "q"] ∧
    (∀ c ∈ ["p_vel", "q"], ∀ w ∈ slots true ["vel", "pres"],
      snapshotFiles exConv (BasisTag.mk c w).print (snapshotFilename "./sample_sample" ⟨c, w⟩) exCfg =
        .ok [snapshotFilename "./sample_sample" ⟨c, w⟩]) ∧
    (∀ c ∈ ["p_vel", "q"], ∀ w ∈ slots true ["vel", "pres"],
      numBasis exConv (some (.seq [.map [(key "name", .scalar "q_pres".toList),
        (key "number_of_basis", .scalar ['1'])]])) 2 ⟨c, w⟩ =
        .ok (if c = "q" ∧ w = "pres" then 1 else 2)) := by decide +kernel

/-- The same configuration, for advection-diffusion. -/
def exAdv : Node :=
  .map [(key "main", .map [(key "solver", .scalar "adv-diff".toList)])]

example : required exConv.str (key "main/solver") exAdv = .ok "adv-diff" ∧
    option exConv.str (key "sample_collection/mode") "basis" exAdv = .ok "basis" ∧
    globalTags exConv exAdv (.submesh 2) true = .error .abort ∧
    globalTags exConv exAdv (.submesh 2) false = .ok [⟨"comp0", ""⟩, ⟨"comp1", ""⟩] := by decide +kernel

/-- A configuration that collects by port file. -/
def exPort : Node :=
  .map [(key "sample_collection", .map [(key "mode", .scalar "port".toList),
      (key "port_files", .seq [.scalar "x".toList, .scalar "y".toList])]),
    (key "basis", .map [(key "number_of_basis", .scalar ['1'])])]

/-- Two runs, one of which has a second component. -/
def exRuns : List (Run Nat) :=
  [⟨⟨"u", [], [⟨"q", "vel"⟩]⟩, fun _ => [1, 2]⟩, ⟨⟨"v", [], [⟨"r", "vel"⟩, ⟨"q", "vel"⟩]⟩, fun t => if t.comp = "q" then [3] else [4]⟩]

def exDisk : Disk Nat :=
  ⟨fun f => if f = "u_q_vel_snapshot" then some [1, 2] else if f = "v_q_vel_snapshot" then some [3]
    else if f = "v_r_vel_snapshot" then some [4] else none,
   fun f => if f = "x" then (exRuns[0]?).map (·.file) else if f = "y" then (exRuns[1]?).map (·.file) else none,
   fun _ => none⟩

example : portFiles exConv exPort "p" = .ok ["x", "y"] ∧
    (trainRom exConv exPort .unset false exRom List.reverse exDisk).map
      (fun d => [d.bases "basis_q_vel", d.bases "basis_r_vel", d.bases "basis_q"]) =
        .ok [some [3, 2, 1], some [4], none] ∧
    mergedCols exRuns ⟨"q", "vel"⟩ = [1, 2, 3] := by decide +kernel

end Example

end Verif.TrainRom
