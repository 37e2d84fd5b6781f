import Verif.Spec.AdvDiff
import Verif.Props.SingleRun
import Verif.Props.Options
import Verif.Proofs.Visual

/-!
# C98: the advection-diffusion solver convects by the flow of its problem
-/

namespace Verif.AdvDiff

open Verif Verif.LinAlg Verif.AdvDiff.Spec
open Verif.Blocks (BlockVector)
open Verif.Blocks.Spec (IsOffsets HasSizes blockOf)
open Verif.RomHandler (readBlock)
open Verif.SingleRun (Disk saveSolution loadSolution save_load_solution save_succeeds load_wrong_size)

variable {F : Type}

theorem readBlock_blockOf {R : Type} {b : BlockVector R} {z : List Nat} (h : HasSizes b z) {i : Nat}
    (hi : i < z.length) : readBlock b i = .ok (blockOf b i) := by
  have hs : z[i]? = some z[i] := List.getElem?_eq_getElem hi
  unfold readBlock blockOf
  rw [rd_eq_ok.2 (h.1.value (i := i) (by omega)), ok_bind, h.blockSize hs, ok_bind]
  unfold getSeg
  rw [if_pos (by rw [h.2]; exact block_bound z hs), h.1.value (i := i + 1) hi, h.1.value (i := i) (by omega)]
  simp only [Option.getD_some]
  rw [Blocks.take_sum_succ z hs, Nat.add_sub_cancel_left]

/-- Coefficients written one after the other. -/
theorem fill_flow {s : Solver ℝ F} (h : s.flow.length = s.numSub) (g : Nat → Coef F) :
    loop s.numSub (fun m fl => wr fl m (some (g m))) s.flow = .ok ((List.range s.numSub).map fun m => some (g m)) := by
  obtain ⟨r, h1, h2, h3, -⟩ := loop_fill (n := s.numSub) (fun m => m) (fun m => some (g m)) s.flow
    (fun _ _ _ _ e => e) (fun i hi => by omega)
  rw [h1]
  congr 1
  apply List.ext_getElem?
  intro k
  by_cases hk : k < s.numSub
  · rw [h3 k hk, List.getElem?_map, List.getElem?_range hk]; rfl
  · rw [List.getElem?_eq_none (by omega), List.getElem?_eq_none (by simp; omega)]

theorem buildDomain_of {s : Solver ℝ F} {v : Nat → Velocity ℝ F} (h : ∀ m, m < s.numSub → ∃ c : Coef F,
    s.flow[m]? = some (some c) ∧ eval s c = .ok (v m)) : buildDomain s = .ok ((List.range s.numSub).map v) := by
  unfold buildDomain
  rw [Visual.loop_flatMap (fun m => [v m]) []]
  · simp [← List.map_eq_flatMap]
  · intro m acc hm
    obtain ⟨c, h1, h2⟩ := h m hm
    rw [rd_eq_ok.2 h1, ok_bind]
    show (Except.ok c >>= _) = _
    rw [ok_bind, h2]
    rfl

theorem idx_lt {m n k : Nat} (hm : m < n) (hk : 0 < k) : m * k < n * k := Nat.mul_lt_mul_of_pos_right hm hk

/-- A run convects by the velocities of whatever vector it got. -/
theorem run_of {numSub numVar : Nat} {offs sizes : List Nat} (hl : Layout numSub numVar offs sizes) {r : Run ℝ}
    {d d' : Disk ℝ} {U : List ℝ} (hU : U.length = sizes.sum) (h : flowVector r.opts r.solve r.junk d = .ok (U, d')) :
    run (F := F) numSub numVar offs r d = .ok (velocities numSub numVar offs U, d') := by
  have hf := fill_flow (s := (new numSub numVar offs : Solver ℝ F)) (by simp [new]) (fun m => .grid m)
  unfold run setProblem getFlowField
  simp only [Bool.false_eq_true, if_false, h, ok_bind]
  rw [hf, ok_bind]
  show (buildDomain _ >>= _) = _
  rw [buildDomain_of (v := fun m => .values (velocityOf offs numVar U m))]
  · rfl
  · intro m hm
    have hm : m < numSub := hm
    refine ⟨.grid m, ?_, ?_⟩
    · show ((List.range numSub).map fun m => some (Coef.grid m))[m]? = _
      rw [List.getElem?_map, List.getElem?_range hm]; rfl
    · show (readBlock ⟨U, offs⟩ (m * numVar) >>= _) = _
      rw [readBlock_blockOf (z := sizes) ⟨hl.offs, hU⟩ (by rw [hl.num]; exact idx_lt hm hl.var), ok_bind]
      rfl

/-- **The flow of the problem.**  Without a file to load, a run in which the Stokes solve converges convects, on every
subdomain, by the velocity of the solution of its flow problem. -/
theorem flow_computed {numSub numVar : Nat} {offs sizes : List Nat} (hl : Layout numSub numVar offs sizes) {r : Run ℝ}
    {d : Disk ℝ} {U : List ℝ} (hU : U.length = sizes.sum) (hs : r.solve = .ok (U, true))
    (hno : r.opts.load = false ∨ d r.opts.file = none) :
    ∃ d', run (F := F) numSub numVar offs r d = .ok (velocities numSub numVar offs U, d') ∧
      (r.opts.save = true → ∀ V : List ℝ, V.length = U.length → loadSolution r.opts.file d' V = .ok U) := by
  obtain ⟨d', hd⟩ := save_succeeds (on := r.opts.save) (file := r.opts.file) (U := U) d (by rw [hU]; exact hl.pos)
  refine ⟨d', run_of hl hU ?_, fun e V hV => save_load_solution (by rw [← e]; exact hd) hV⟩
  unfold flowVector
  have : (r.opts.load && (d r.opts.file).isSome) = false := by
    rcases hno with h | h <;> simp [h]
  rw [this, hs]
  simp only [Bool.false_eq_true, if_false, ok_bind, hd]
  rfl

/-- Files hold the flows `sol`. -/
def Good (n : Nat) (sol : String → List ℝ) (d : Disk ℝ) : Prop :=
  ∀ f, (d f).isSome = true → ∀ V : List ℝ, V.length = n → loadSolution f d V = .ok (sol f)

theorem flowVector_good {n : Nat} (hn : 0 < n) {sol : String → List ℝ} {d : Disk ℝ} (hg : Good n sol d) {r : Run ℝ}
    {U : List ℝ} (hU : U.length = n) (hj : r.junk.length = n) (hs : r.solve = .ok (U, true))
    (hf : r.opts.save = true ∨ r.opts.load = true → U = sol r.opts.file) :
    ∃ d', flowVector r.opts r.solve r.junk d = .ok (U, d') ∧ Good n sol d' := by
  unfold flowVector
  by_cases hc : (r.opts.load && (d r.opts.file).isSome) = true
  · rw [hc]
    rw [Bool.and_eq_true] at hc
    refine ⟨d, ?_, hg⟩
    rw [if_pos rfl, hg _ hc.2 _ hj, hf (.inr hc.1)]
    rfl
  · rw [Bool.not_eq_true] at hc
    rw [hc, hs]
    simp only [Bool.false_eq_true, if_false, ok_bind]
    obtain ⟨d', hd⟩ := save_succeeds (on := r.opts.save) (file := r.opts.file) (U := U) d (by omega)
    refine ⟨d', by rw [hd]; rfl, ?_⟩
    intro f hsome V hV
    by_cases e : r.opts.save = true
    · by_cases ef : f = r.opts.file
      · subst ef
        rw [← hf (.inl e)]
        exact save_load_solution (by rw [← e]; exact hd) (hV.trans hU.symm)
      · have hsame := SingleRun.save_other hd ef
        have : loadSolution f d' V = loadSolution f d V := by unfold loadSolution; rw [hsame]
        rw [this]
        exact hg f (by rw [← hsame]; exact hsome) V hV
    · rw [Bool.not_eq_true] at e
      rw [e] at hd
      cases hd
      exact hg f hsome V hV

/-- **Any history of runs.**  If runs that share a flow file also share the flow problem, and all Stokes solves converge,
then every run convects by the solution of its own flow problem, whether it computes, stores or loads it. -/
theorem history_partial {numSub numVar : Nat} {offs sizes : List Nat} (hl : Layout numSub numVar offs sizes)
    (sol : String → List ℝ) (U : Run ℝ → List ℝ) (rs : List (Run ℝ)) {d : Disk ℝ} (hg : Good sizes.sum sol d)
    (hU : ∀ r ∈ rs, (U r).length = sizes.sum ∧ r.junk.length = sizes.sum ∧ r.solve = .ok (U r, true))
    (hf : ∀ r ∈ rs, r.opts.save = true ∨ r.opts.load = true → U r = sol r.opts.file) :
    ∃ d', runs (F := F) numSub numVar offs rs d = .ok (rs.map fun r => velocities numSub numVar offs (U r), d') := by
  induction rs generalizing d with
  | nil => exact ⟨d, rfl⟩
  | cons r rs ih =>
    obtain ⟨h1, h2, h3⟩ := hU r List.mem_cons_self
    obtain ⟨d1, a1, a2⟩ := flowVector_good hl.pos hg h1 h2 h3 (hf r List.mem_cons_self)
    obtain ⟨d', hd'⟩ := ih a2 (fun r h => hU r (List.mem_cons_of_mem _ h)) fun r h => hf r (List.mem_cons_of_mem _ h)
    refine ⟨d', ?_⟩
    unfold runs
    rw [run_of hl h1 a1, ok_bind]
    dsimp only
    rw [hd', ok_bind]
    rfl

/-- VIOLATION: a run that may load takes whatever flow the file holds, also that of another problem: nothing in the file
says which problem it is. -/
theorem stale_flow {numSub numVar : Nat} {offs sizes : List Nat} (hl : Layout numSub numVar offs sizes) {d : Disk ℝ}
    {file : String} (hno : d file = none) {U₁ U₂ : List ℝ} (h1 : U₁.length = sizes.sum) {junk : List ℝ}
    (hj : junk.length = sizes.sum) :
    ∃ d', runs (F := F) numSub numVar offs
      [⟨⟨true, true, file⟩, .ok (U₁, true), junk⟩, ⟨⟨true, true, file⟩, .ok (U₂, true), junk⟩] d =
      .ok ([velocities numSub numVar offs U₁, velocities numSub numVar offs U₁], d') := by
  obtain ⟨d1, a1, a2⟩ := flow_computed (F := F) hl (r := ⟨⟨true, true, file⟩, .ok (U₁, true), junk⟩) h1 rfl (.inr hno)
  have hload := a2 rfl junk (hj.trans h1.symm)
  have hsome : (d1 file).isSome = true := by
    cases e : d1 file with
    | none => rw [SingleRun.load_missing e] at hload; cases hload
    | some _ => rfl
  have hrun2 := run_of (F := F) hl (r := ⟨⟨true, true, file⟩, .ok (U₂, true), junk⟩) (d := d1) (d' := d1) h1 (by
    unfold flowVector
    dsimp only
    rw [hsome]
    simp only [Bool.and_self, if_true, hload, ok_bind]
    rfl)
  refine ⟨d1, ?_⟩
  unfold runs
  rw [a1, ok_bind]
  dsimp only
  unfold runs
  rw [hrun2, ok_bind]
  rfl

/-- VIOLATION: the result of a Stokes solve that did not converge is convected by, and stored for later runs. -/
theorem unconverged_used {numSub numVar : Nat} {offs sizes : List Nat} (hl : Layout numSub numVar offs sizes)
    {d : Disk ℝ} {file : String} (hno : d file = none) {U : List ℝ} (hU : U.length = sizes.sum) {junk : List ℝ} :
    ∃ d', run (F := F) numSub numVar offs ⟨⟨true, true, file⟩, .ok (U, false), junk⟩ d =
      .ok (velocities numSub numVar offs U, d') ∧
      ∀ V : List ℝ, V.length = U.length → loadSolution file d' V = .ok U := by
  obtain ⟨d', hd⟩ := save_succeeds (on := true) (file := file) (U := U) d (by rw [hU]; exact hl.pos)
  refine ⟨d', run_of hl hU ?_, fun V hV => save_load_solution hd hV⟩
  unfold flowVector
  simp only [hno, Option.isSome_none, Bool.and_false, Bool.false_eq_true, if_false, ok_bind, hd]
  rfl

/-- A stored flow of another size stops the run. -/
theorem wrong_size_stops {numSub numVar : Nat} {offs : List Nat} {d d' : Disk ℝ} {file : String} {U : List ℝ}
    {r : Run ℝ} (h : saveSolution true file U d = .ok d') (hr : r.opts.load = true ∧ r.opts.file = file)
    (hlen : r.junk.length ≠ U.length) : ∀ x, run (F := F) numSub numVar offs r d' ≠ .ok x := by
  intro x hx
  unfold run setProblem getFlowField at hx
  simp only [Bool.false_eq_true, if_false] at hx
  obtain ⟨s, hs, _⟩ := bind_eq_ok.1 hx
  obtain ⟨y, hy, _⟩ := bind_eq_ok.1 hs
  unfold flowVector at hy
  have hsome : (d' file).isSome = true := by
    unfold saveSolution at h
    rw [if_pos rfl] at h
    obtain ⟨f, _, h⟩ := bind_eq_ok.1 h
    cases h
    rw [Function.update_self]
    rfl
  rw [hr.1, hr.2, hsome, Bool.and_self, if_pos rfl] at hy
  obtain ⟨W, hW, _⟩ := bind_eq_ok.1 hy
  exact load_wrong_size h hlen W hW

/-! ### A given flow -/

/-- A flow given for all subdomains is used by all of them. -/
theorem given_all {s : Solver ℝ F} (h : s.flow.length = s.numSub) (f : F) :
    ∃ s', setFlowAt f (-1) s = .ok s' ∧ buildDomain s' = .ok (List.replicate s.numSub (.fn f)) := by
  unfold setFlowAt
  rw [decide_eq_true h, decide_eq_true (by left; rfl), require_true, ok_bind, ok_bind, if_pos rfl,
    fill_flow h fun _ => .fn f]
  refine ⟨_, rfl, ?_⟩
  rw [buildDomain_of (v := fun _ => .fn f)]
  · simp
  · intro m hm
    refine ⟨.fn f, ?_, rfl⟩
    have hm : m < s.numSub := hm
    show ((List.range s.numSub).map fun m => some (Coef.fn f))[m]? = _
    rw [List.getElem?_map, List.getElem?_range hm]; rfl

/-- A flow given for one subdomain is used there, and the others keep theirs. -/
theorem given_one {s : Solver ℝ F} (h : s.flow.length = s.numSub) (f : F) {m : Nat} (hm : m < s.numSub)
    {v : Nat → Velocity ℝ F} (hv : ∀ k : Nat, k < s.numSub → k ≠ m → ∃ c, s.flow[k]? = some (some c) ∧
      eval s c = .ok (v k)) :
    ∃ s', setFlowAt f m s = .ok s' ∧
      buildDomain s' = .ok ((List.range s.numSub).map fun k => if k = m then .fn f else v k) := by
  unfold setFlowAt
  rw [decide_eq_true h, decide_eq_true (by right; omega), require_true, ok_bind, ok_bind, if_neg (by omega),
    Int.toNat_natCast, wr_of_lt (by omega)]
  refine ⟨_, rfl, ?_⟩
  rw [buildDomain_of (v := fun k => if k = m then .fn f else v k)]
  intro k hk
  have hk : k < s.numSub := hk
  by_cases e : k = m
  · subst e
    refine ⟨.fn f, ?_, by rw [if_pos rfl]; rfl⟩
    show (s.flow.set k _)[k]? = _
    rw [List.getElem?_set_self (by omega)]
  · obtain ⟨c, h1, h2⟩ := hv k hk e
    refine ⟨c, ?_, by rw [if_neg e, ← h2]; cases c <;> rfl⟩
    show (s.flow.set m _)[k]? = _
    rw [List.getElem?_set_ne (Ne.symm e), h1]

/-- Other indices stop the program. -/
theorem given_outside {s : Solver ℝ F} (f : F) {m : Int} (hm : m < -1 ∨ (s.numSub : Int) ≤ m) :
    setFlowAt f m s = .error .abort := by
  unfold setFlowAt
  by_cases h : s.flow.length = s.numSub
  · rw [decide_eq_true h, decide_eq_false (by omega)]
    rfl
  · rw [decide_eq_false h]
    rfl

/-- Without a flow on some subdomain the program stops when the operators are built, if the flows that are given can
be evaluated. -/
theorem unset_stops {s : Solver ℝ F} {m : Nat} (hm : s.flow[m]? = some none) (hms : m < s.numSub)
    (hl : s.numSub ≤ s.flow.length)
    (hf : ∀ (k : Nat) (c : Coef F), s.flow[k]? = some (some c) → ∃ v, eval s c = .ok v) :
    buildDomain s = .error .abort := by
  unfold buildDomain
  refine Visual.loop_fault .abort (fun _ => True) trivial (fun k u hk _ => ?_) ⟨m, hms, fun u _ => ?_⟩
  · have hkl : k < s.flow.length := by omega
    rw [rd_of_lt hkl, ok_bind]
    cases hc : s.flow[k] with
    | none => exact .inr rfl
    | some c =>
      obtain ⟨v, hv⟩ := hf k c (by rw [List.getElem?_eq_getElem hkl, hc])
      refine .inl ⟨u ++ [v], ?_, trivial⟩
      show (do let v ← eval s c; _) = _
      rw [hv]
      rfl
  · rw [rd_eq_ok.2 hm, ok_bind]
    rfl

/-- A file name is required exactly when the flow is to be stored or loaded. -/
theorem file_required (c : Options.Conv) (bool : Options.Node → Outcome Bool) (cfg : Options.Node) (o : Opts) :
    readOpts c bool cfg = .ok o ↔
      Options.option bool (Options.key "adv-diff/save_flow") false cfg = .ok o.save ∧
      Options.option bool (Options.key "adv-diff/load_flow") false cfg = .ok o.load ∧
      (if o.save = true ∨ o.load = true then Options.required c.str (Options.key "adv-diff/flow_file") cfg = .ok o.file
        else o.file = "") := by
  unfold readOpts
  constructor
  · intro h
    obtain ⟨a, h1, h⟩ := bind_eq_ok.1 h
    obtain ⟨b, h2, h⟩ := bind_eq_ok.1 h
    obtain ⟨f, h3, h⟩ := bind_eq_ok.1 h
    cases h
    refine ⟨h1, h2, ?_⟩
    cases a <;> cases b <;> simp at h3 ⊢ <;> exact h3
  · rintro ⟨h1, h2, h3⟩
    rw [h1, ok_bind, h2, ok_bind]
    obtain ⟨a, b, f⟩ := o
    cases a <;> cases b <;> simp at h3 ⊢ <;> first | (rw [h3]; rfl) | (subst h3; rfl)

/-! ### Cases that meet the hypotheses -/

/-- Two subdomains with two velocity and one pressure dof each. -/
example : Layout 2 2 [0, 2, 3, 5, 6] [2, 1, 2, 1] :=
  ⟨⟨rfl, rfl, fun i s h => by
    match i, h with
    | 0, h | 1, h | 2, h | 3, h => simp at h; subst h; simp
    | i + 4, h => simp at h⟩, rfl, by decide, by decide⟩

/-- The velocities of the two subdomains. -/
example : (velocities 2 2 [0, 2, 3, 5, 6] [(1 : ℝ), 2, 3, 4, 5, 6] : List (Velocity ℝ Unit)) =
    [.values [1, 2], .values [4, 5]] := by
  simp [velocities, velocityOf, blockOf, List.range_succ]

/-- A flow is given on the first of two subdomains only. -/
example : buildDomain (⟨2, 2, [], [some (.fn 7), none], none⟩ : Solver ℝ Nat) = .error .abort :=
  unset_stops (m := 1) rfl (by decide) (by decide) (by
    intro k c h
    match k, h with
    | 0, h => cases h; exact ⟨_, rfl⟩
    | 1, h => cases h
    | k + 2, h => simp at h)

/-- At the start there are no files. -/
example (sol : String → List ℝ) : Good 6 sol fun _ => none := by
  intro f h
  simp at h

/-- Three runs of the same problem: the first stores, the others load; and one of another problem that does neither. -/
example {U V : List ℝ} (hU : U.length = 6) (hV : V.length = 6) (hl : Layout 2 2 [0, 2, 3, 5, 6] [2, 1, 2, 1]) :
    ∃ d', runs (F := Unit) 2 2 [0, 2, 3, 5, 6]
      [⟨⟨true, false, "f"⟩, .ok (U, true), U⟩, ⟨⟨false, true, "f"⟩, .ok (U, true), U⟩,
       ⟨⟨false, false, ""⟩, .ok (V, true), U⟩] (fun _ => none) =
      .ok ([velocities 2 2 [0, 2, 3, 5, 6] U, velocities 2 2 [0, 2, 3, 5, 6] U, velocities 2 2 [0, 2, 3, 5, 6] V],
        d') := by
  have := history_partial (F := Unit) hl (fun _ => U) (fun r => match r.solve with | .ok x => x.1 | .error _ => [])
    [⟨⟨true, false, "f"⟩, .ok (U, true), U⟩, ⟨⟨false, true, "f"⟩, .ok (U, true), U⟩,
       ⟨⟨false, false, ""⟩, .ok (V, true), U⟩] (d := fun _ => none) (fun f h => by simp at h) (by
        intro r hr
        simp only [List.mem_cons, List.not_mem_nil, or_false] at hr
        rcases hr with rfl | rfl | rfl
        · exact ⟨hU, hU, rfl⟩
        · exact ⟨hU, hU, rfl⟩
        · exact ⟨hV, hU, rfl⟩) (by
        intro r hr
        simp only [List.mem_cons, List.not_mem_nil, or_false] at hr
        rcases hr with rfl | rfl | rfl <;> simp)
  exact this

end Verif.AdvDiff
