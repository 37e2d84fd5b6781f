import Verif.Proofs.SingleRun

/-!
# C83: what a single run saves, compares and reports

The relative errors are those of the variables over all subdomains; the comparison with a full-order
solution does not change what is saved; a saved solution loads back exactly; and a comparison with a
full-order solution from a file gives the same report as one that solves again.
-/

namespace Verif.SingleRun

open Verif Verif.Hdf5 Verif.SingleRun.Spec Finset
open Verif.Blocks (BlockVector)
open Verif.RomHandler (Handler readBlock)

/-! ## A concrete case: two subdomains, two variables -/

namespace Case

/-- Square root of the squares used below. -/
def root (x : ℚ) : ℚ := if x = 4 then 2 else if x = 9 then 3 else if x = 16 then 4 else if x = 25 then 5 else x

/-- One quadrature point, one component, the sum of the degrees of freedom. -/
def space {R : Type} [One R] : Space R := ⟨1, [⟨1, fun _ _ => 1⟩]⟩

/-- Full-order solution `(3, 2, 4, 0)` and reduced solution `(3, 2, 0, 0)`: first variable in entries 0
and 2, second in entries 1 and 3. -/
def ext {R : Type} [Zero R] [One R] [OfNat R 2] [OfNat R 3] [OfNat R 4] : Ext R :=
  { numSub := 2, numVar := 2, varOffs := [0, 1, 2, 3, 4], spaces := [space, space, space, space]
    rom := fun _ => .ok [3, 2, 0, 0], fom := fun _ => .ok [3, 2, 4, 0]
    handler := ⟨false, .variable, 2, [0, 0], [0, 1, 2], [], [], false⟩, junk := fun _ => 0 }

def cfg : Cfg :=
  { useRom := true, saveRom := false, compare := true, loadSol := false, fomFile := "fom", saveReduced := false
    saveSol := true, solFile := "sol", outFile := "out" }

end Case

/-! ## The error -/

/-- Comparing two solutions of the right size gives the relative error of every variable. -/
theorem compare_spec {x : Ext ℝ} (h : Layout x) {U V : List ℝ} (hU : U.length = size x)
    (hV : V.length = size x) :
    compareSolution Real.sqrt x.spaces x.numSub x.numVar ⟨U, x.varOffs⟩ ⟨V, x.varOffs⟩ =
      .ok ((List.range x.numVar).map (relErr x U V)) := compare_ok h hU hV

/-- Solutions whose blocks differ in number or size are not compared. -/
theorem compare_same_blocks {spaces : List (Space ℝ)} {numSub numVar : Nat} {U V : BlockVector ℝ}
    {e : List (Num ℝ)} (h : compareSolution Real.sqrt spaces numSub numVar U V = .ok e) :
    V.offsets.length - 1 = U.offsets.length - 1 ∧ ∀ k, k < U.offsets.length - 1 →
      ∃ a b a' b', U.offsets[k]? = some a ∧ U.offsets[k + 1]? = some b ∧ V.offsets[k]? = some a' ∧
        V.offsets[k + 1]? = some b' ∧ b' - a' = b - a := by
  unfold compareSolution at h
  obtain ⟨⟨⟩, h, -⟩ := bind_eq_ok.1 h
  unfold sameBlocks at h
  obtain ⟨⟨⟩, h1, h⟩ := bind_eq_ok.1 h
  refine ⟨by simpa [BlockVector.numBlocks] using require_eq_ok.1 h1, ?_⟩
  refine loop_inv (fun q (_ : Unit) => ∀ k, k < q → ∃ a b a' b', U.offsets[k]? = some a ∧
      U.offsets[k + 1]? = some b ∧ V.offsets[k]? = some a' ∧ V.offsets[k + 1]? = some b' ∧ b' - a' = b - a)
    (fun k hk => absurd hk (by omega)) (by
      rintro q _ _ hq ih e k hk
      by_cases hkq : k = q
      · subst hkq
        obtain ⟨x, e1, e⟩ := bind_eq_ok.1 e
        obtain ⟨y, e2, e⟩ := bind_eq_ok.1 e
        unfold BlockVector.blockSize at e1 e2
        obtain ⟨b', f1, e1⟩ := bind_eq_ok.1 e1
        obtain ⟨a', f2, e1⟩ := bind_eq_ok.1 e1
        obtain ⟨b, f3, e2⟩ := bind_eq_ok.1 e2
        obtain ⟨a, f4, e2⟩ := bind_eq_ok.1 e2
        cases e1; cases e2
        exact ⟨a, b, a', b', rd_eq_ok.1 f4, rd_eq_ok.1 f3, rd_eq_ok.1 f2, rd_eq_ok.1 f1,
          by simpa using require_eq_ok.1 e⟩
      · exact ih k (by omega)) h

theorem sqSum_nonneg {x : Ext ℝ} (h : Layout x) {v : Nat} (hv : v < x.numVar) (U V : List ℝ) :
    0 ≤ normOf x U v ∧ 0 ≤ diffOf x U V v := by
  have key : ∀ m ∈ range x.numSub, ∀ q ∈ (x.spaces[m * x.numVar + v]?.getD ⟨0, []⟩).pts, 0 ≤ q.w := by
    intro m hm
    have hm := mem_range.1 hm
    have : m * x.numVar + v < x.spaces.length := by
      have := Nat.mul_le_mul_right x.numVar (show m + 1 ≤ x.numSub by omega)
      rw [Nat.succ_mul] at this; rw [h.spaces]; omega
    rw [List.getElem?_eq_getElem this]
    exact h.weights _ (List.getElem_mem _)
  exact ⟨sum_nonneg fun m hm => by rw [← sqDiff_nil]; exact sqDiff_nonneg (key m hm) _ _,
    sum_nonneg fun m hm => sqDiff_nonneg (key m hm) _ _⟩

/-- A finite error is the ratio of the norms of difference and solution: it is nonnegative and its
square times the squared norm of the solution is the squared norm of the difference. -/
theorem relErr_finite {x : Ext ℝ} (h : Layout x) {U V : List ℝ} {v : Nat} (hv : v < x.numVar) {e : ℝ} :
    relErr x U V v = .fin e ↔ normOf x U v ≠ 0 ∧ 0 ≤ e ∧ e ^ 2 * normOf x U v = diffOf x U V v := by
  obtain ⟨hn, hd⟩ := sqSum_nonneg h hv U V
  unfold relErr
  by_cases h0 : normOf x U v = 0
  · rw [if_pos h0]
    split <;> simp [h0]
  · rw [if_neg h0]
    simp only [Num.fin.injEq]
    constructor
    · rintro rfl
      exact ⟨h0, Real.sqrt_nonneg _, by rw [Real.sq_sqrt (div_nonneg hd hn), div_mul_cancel₀ _ h0]⟩
    · rintro ⟨_, he, h1⟩
      rw [← h1, mul_div_cancel_right₀ _ h0, Real.sqrt_sq he]

/-- The error of a solution with respect to itself is zero unless the solution vanishes. -/
theorem relErr_self {x : Ext ℝ} (h : Layout x) {U : List ℝ} {v : Nat} (hv : v < x.numVar)
    (h0 : normOf x U v ≠ 0) : relErr x U U v = .fin 0 := by
  rw [relErr_finite h hv]
  exact ⟨h0, le_rfl, by simp [diffOf, sqDiff]⟩

theorem gt_fold : ∀ (l : List (Num ℝ)) (a : Num ℝ), a ≠ .nan →
    let m := l.foldl (fun m y => if y.gt m then y else m) a
    m ∈ a :: l ∧ m ≠ .nan ∧ ∀ e ∈ a :: l, e.gt m = false
  | [], a, ha => by
    refine ⟨by simp, ha, ?_⟩
    intro e he
    simp only [List.mem_cons, List.not_mem_nil, or_false] at he
    subst he
    cases e <;> simp [Num.gt]
  | b :: l, a, ha => by
    simp only [List.foldl_cons]
    by_cases hb : b.gt a = true
    · rw [if_pos hb]
      have hbn : b ≠ .nan := by rintro rfl; simp [Num.gt] at hb
      obtain ⟨h1, h2, h3⟩ := gt_fold l b hbn
      refine ⟨List.mem_cons_of_mem _ h1, h2, ?_⟩
      intro e he
      rcases List.mem_cons.1 he with rfl | he
      · have := h3 b (by simp)
        revert this hb h2
        generalize List.foldl _ _ _ = m
        cases e <;> cases b <;> cases m <;> simp [Num.gt]
        intro a b; exact lt_of_lt_of_le a b |>.le
      · exact h3 e he
    · rw [if_neg hb]
      obtain ⟨h1, h2, h3⟩ := gt_fold l a ha
      refine ⟨?_, h2, ?_⟩
      · rcases List.mem_cons.1 h1 with h1 | h1
        · rw [h1]; simp
        · exact List.mem_cons_of_mem _ (List.mem_cons_of_mem _ h1)
      · intro e he
        rcases List.mem_cons.1 he with rfl | he
        · exact h3 _ (by simp)
        · rcases List.mem_cons.1 he with rfl | he
          · have := h3 a (by simp)
            revert this hb h2 ha
            generalize List.foldl _ _ _ = m
            cases e <;> cases a <;> cases m <;> simp [Num.gt]
            intro a b; exact a.trans b
          · exact h3 e (List.mem_cons_of_mem _ he)

/-- `Max` returns a greatest entry, if the first entry is not NaN. -/
theorem vmax_spec {a : Num ℝ} {l : List (Num ℝ)} (h : a ≠ .nan) :
    ∃ m, vmax (a :: l) = .ok m ∧ m ∈ a :: l ∧ m ≠ .nan ∧ ∀ e ∈ a :: l, e.gt m = false :=
  ⟨_, rfl, gt_fold l a h⟩

/-- If the first entry is NaN, so is the maximum. -/
theorem vmax_nan (l : List (Num ℝ)) : vmax (.nan :: l) = .ok .nan := by
  show Except.ok _ = _
  congr 1
  induction l with
  | nil => rfl
  | cons b l ih => rw [List.foldl_cons, if_neg (by cases b <;> simp [Num.gt])]; exact ih

theorem vmax_replicate {n : Nat} (h : 0 < n) {a : ℝ} : vmax (List.replicate n (Num.fin a)) = .ok (.fin a) := by
  obtain ⟨k, rfl⟩ : ∃ k, n = k + 1 := ⟨n - 1, by omega⟩
  rw [List.replicate_succ]
  obtain ⟨m, h1, h2, -⟩ := vmax_spec (a := Num.fin a) (l := List.replicate k (Num.fin a)) (by simp)
  rw [h1]
  rcases List.mem_cons.1 h2 with rfl | h2
  · rfl
  · rw [List.eq_of_mem_replicate h2]

/-! ## The run -/

theorem size_of_rd {x : Ext ℝ} {n : Nat} (h : rd x.varOffs (x.varOffs.length - 1) = .ok n) : n = size x := by
  unfold size; rw [rd_eq_ok.1 h]; rfl

theorem maybeCompare_fst {c : Cfg} {x : Ext ℝ} {d : Disk ℝ} {U : List ℝ} {r : List ℝ × List (Num ℝ)}
    (h : maybeCompare Real.sqrt c x d U = .ok r) : r.1 = U := by
  unfold maybeCompare at h
  split at h
  · unfold comparison at h
    obtain ⟨_, _, h⟩ := bind_eq_ok.1 h
    obtain ⟨_, _, h⟩ := bind_eq_ok.1 h
    obtain ⟨_, _, h⟩ := bind_eq_ok.1 h
    obtain ⟨_, _, h⟩ := bind_eq_ok.1 h
    cases h; rfl
  · cases h; rfl

/-- The steps of a successful run. -/
theorem run_steps {c : Cfg} {x : Ext ℝ} {d d' : Disk ℝ} {m : Num ℝ}
    (h : singleRun Real.sqrt c x d = .ok (d', m)) :
    ∃ U e d1, rd x.varOffs (x.varOffs.length - 1) = .ok (size x) ∧ solution c x = .ok U ∧ saveSystem c = .ok () ∧
      maybeCompare Real.sqrt c x d U = .ok (U, e) ∧ report c e d = .ok d1 ∧
      saveSolution c.saveSol c.solFile U d1 = .ok d' ∧ vmax e = .ok m := by
  unfold singleRun at h
  obtain ⟨n, h1, h⟩ := bind_eq_ok.1 h
  cases size_of_rd h1
  obtain ⟨U, h2, h⟩ := bind_eq_ok.1 h
  obtain ⟨⟨⟩, h3, h⟩ := bind_eq_ok.1 h
  obtain ⟨⟨U', e⟩, h4, h⟩ := bind_eq_ok.1 h
  obtain ⟨d1, h5, h⟩ := bind_eq_ok.1 h
  obtain ⟨d2, h6, h⟩ := bind_eq_ok.1 h
  obtain ⟨m', h7, h⟩ := bind_eq_ok.1 h
  cases h
  cases maybeCompare_fst h4
  exact ⟨_, _, _, h1, h2, h3, h4, h5, h6, h7⟩

theorem run_of_steps {c : Cfg} {x : Ext ℝ} {d d' d1 : Disk ℝ} {m : Num ℝ} {U : List ℝ} {e : List (Num ℝ)}
    (h1 : rd x.varOffs (x.varOffs.length - 1) = .ok (size x)) (h2 : solution c x = .ok U)
    (h3 : saveSystem c = .ok ()) (h4 : maybeCompare Real.sqrt c x d U = .ok (U, e))
    (h5 : report c e d = .ok d1) (h6 : saveSolution c.saveSol c.solFile U d1 = .ok d') (h7 : vmax e = .ok m) :
    singleRun Real.sqrt c x d = .ok (d', m) := by
  unfold singleRun
  rw [h1, ok_bind]
  unfold solution at h2
  rw [h2, ok_bind, h3, ok_bind, h4, ok_bind, h5, ok_bind, h6, ok_bind, h7, ok_bind]
  rfl

/-- **What is saved is the computed solution.**  After a successful run that saves its solution, loading
the file into a vector of the same size gives exactly the solution the run computed, also when it was
compared with a full-order solution in between. -/
theorem saved_is_solution {c : Cfg} {x : Ext ℝ} {d d' : Disk ℝ} {m : Num ℝ}
    (h : singleRun Real.sqrt c x d = .ok (d', m)) (hs : c.saveSol = true) :
    ∃ U, solution c x = .ok U ∧ ∀ V : List ℝ, V.length = U.length → loadSolution c.solFile d' V = .ok U := by
  obtain ⟨U, e, d1, -, h2, -, -, -, h6, -⟩ := run_steps h
  rw [hs] at h6
  exact ⟨U, h2, fun V hV => save_load_solution h6 hV⟩

theorem report_other {c : Cfg} {e : List (Num ℝ)} {d d1 : Disk ℝ} (h : report c e d = .ok d1) {f : String}
    (hf : f ≠ c.outFile) : d1 f = d f := by
  unfold report at h
  split at h
  · obtain ⟨_, _, h⟩ := bind_eq_ok.1 h
    cases h
    exact Function.update_of_ne hf _ _
  · cases h; rfl

theorem save_other {on : Bool} {file : String} {U : List ℝ} {d d1 : Disk ℝ}
    (h : saveSolution on file U d = .ok d1) {f : String} (hf : f ≠ file) : d1 f = d f := by
  unfold saveSolution at h
  split at h
  · obtain ⟨_, _, h⟩ := bind_eq_ok.1 h
    cases h
    exact Function.update_of_ne hf _ _
  · cases h; rfl

/-- **Other files are left alone.** -/
theorem other_files {c : Cfg} {x : Ext ℝ} {d d' : Disk ℝ} {m : Num ℝ}
    (h : singleRun Real.sqrt c x d = .ok (d', m)) {f : String} (ho : f ≠ c.outFile) (hs : f ≠ c.solFile) :
    d' f = d f := by
  obtain ⟨U, e, d1, -, -, -, -, h5, h6, -⟩ := run_steps h
  rw [save_other h6 hs, report_other h5 ho]

/-- **The comparison does not change what is saved.**  If a run succeeds, the same run without the
comparison also succeeds, returns -1, and leaves every file the same, except for the report. -/
theorem compare_harmless {c : Cfg} {x : Ext ℝ} {d d' : Disk ℝ} {m : Num ℝ} (hv : 0 < x.numVar)
    (h : singleRun Real.sqrt c x d = .ok (d', m)) :
    ∃ d'', singleRun Real.sqrt { c with compare := false } x d = .ok (d'', .fin (-1)) ∧
      ∀ f, f ≠ c.outFile → d'' f = d' f := by
  obtain ⟨U, e, d1, h1, h2, h3, h4, h5, h6, -⟩ := run_steps h
  obtain ⟨d1', h5'⟩ : ∃ d1', report { c with compare := false } (List.replicate x.numVar (.fin (-1))) d =
      .ok d1' := by
    unfold report
    dsimp only
    split
    · rw [show decide (0 < (List.replicate x.numVar (Num.fin (-1 : ℝ))).length) = true by simp [hv],
        require_true, ok_bind]
      exact ⟨_, rfl⟩
    · exact ⟨_, rfl⟩
  have h5o : ∀ f, f ≠ c.outFile → d1' f = d1 f := fun f hf =>
    (report_other (c := { c with compare := false }) h5' hf).trans (report_other h5 hf).symm
  obtain ⟨d'', h6', ho⟩ : ∃ d'', saveSolution c.saveSol c.solFile U d1' = .ok d'' ∧
      ∀ f, f ≠ c.outFile → d'' f = d' f := by
    unfold saveSolution at h6 ⊢
    split at h6
    · obtain ⟨g, hg, h6⟩ := bind_eq_ok.1 h6
      cases h6
      rw [if_pos (by assumption), hg, ok_bind]
      refine ⟨_, rfl, fun f hf => ?_⟩
      by_cases hfs : f = c.solFile
      · rw [hfs, Function.update_self, Function.update_self]
      · rw [Function.update_of_ne hfs, Function.update_of_ne hfs, h5o f hf]
    · cases h6
      rw [if_neg (by assumption)]
      exact ⟨_, rfl, h5o⟩
  refine ⟨d'', run_of_steps (c := { c with compare := false }) (e := List.replicate x.numVar (.fin (-1)))
    h1 h2 h3 ?_ h5' h6' ?_, ho⟩
  · unfold maybeCompare
    simp
  · exact vmax_replicate hv

/-- A run without comparison returns -1. -/
theorem no_compare {c : Cfg} {x : Ext ℝ} {d d' : Disk ℝ} {m : Num ℝ} (hv : 0 < x.numVar)
    (hc : (c.useRom && c.compare) = false) (h : singleRun Real.sqrt c x d = .ok (d', m)) : m = .fin (-1) := by
  obtain ⟨U, e, d1, h1, h2, h3, h4, h5, h6, h7⟩ := run_steps h
  unfold maybeCompare at h4
  rw [hc, if_neg (by simp)] at h4
  cases h4
  rw [vmax_replicate hv] at h7
  exact (Except.ok.inj h7).symm

theorem comparison_ok {c : Cfg} {x : Ext ℝ} (hl : Layout x) {d : Disk ℝ} {U F : List ℝ} {e : List (Num ℝ)}
    (hU : U.length = size x) (hF : fomSolution c x d U = .ok F) (hFl : F.length = size x)
    (h : comparison Real.sqrt c x d U = .ok (U, e)) : e = (List.range x.numVar).map (relErr x F U) := by
  unfold comparison at h
  dsimp only at h
  rw [hF, ok_bind, compare_ok hl hFl hU, ok_bind] at h
  obtain ⟨_, _, h⟩ := bind_eq_ok.1 h
  obtain ⟨_, _, h⟩ := bind_eq_ok.1 h
  exact (Prod.mk.inj (Except.ok.inj h)).2.symm

theorem load_length {file : String} {d : Disk ℝ} {U V : List ℝ} (h : loadSolution file d U = .ok V) :
    (∃ f dims vals, d file = some (.sol f) ∧ find f ⟨[], "solution", false⟩ = some (.dset dims vals) ∧
      dims = [U.length]) := by
  unfold loadSolution at h
  split at h
  · next f hf =>
    split at h
    · next dims vals hd =>
      obtain ⟨_, _, h⟩ := bind_eq_ok.1 h
      obtain ⟨_, h2, h⟩ := bind_eq_ok.1 h
      refine ⟨f, dims, vals, hf, hd, ?_⟩
      have := require_eq_ok.1 h2
      simp only [Bool.and_eq_true, beq_iff_eq] at this
      obtain ⟨a, b⟩ := this
      match dims, a with
      | [n], _ => simpa using b
    · cases h
  · cases h

/-- **The report.**  A successful run of the reduced model with comparison writes to the output file the
relative error of every variable of the computed reduced solution with respect to the full-order solution,
and returns a greatest one, unless the first is NaN. -/
theorem reported {c : Cfg} {x : Ext ℝ} {d d' : Disk ℝ} {m : Num ℝ} (hl : Layout x)
    (hc : (c.useRom && c.compare) = true) (h : singleRun Real.sqrt c x d = .ok (d', m))
    {U F : List ℝ} (hs : solution c x = .ok U) (hU : U.length = size x)
    (hF : fomSolution c x d U = .ok F) (hFl : F.length = size x) :
    (c.outFile ≠ "" → (c.saveSol = true → c.outFile ≠ c.solFile) →
      d' c.outFile = some (.report ((List.range x.numVar).map (relErr x F U)))) ∧
    (relErr x F U 0 ≠ .nan → (∃ v, v < x.numVar ∧ m = relErr x F U v) ∧
      ∀ v, v < x.numVar → (relErr x F U v).gt m = false) := by
  obtain ⟨U', e, d1, h1, h2, h3, h4, h5, h6, h7⟩ := run_steps h
  cases Except.ok.inj (hs.symm.trans h2)
  unfold maybeCompare at h4
  rw [hc, if_pos rfl] at h4
  cases comparison_ok hl hU hF hFl h4
  constructor
  · intro ho hne
    have : d' c.outFile = d1 c.outFile := by
      by_cases hsv : c.saveSol = true
      · exact save_other h6 (hne hsv)
      · unfold saveSolution at h6
        rw [if_neg hsv] at h6
        cases h6; rfl
    rw [this]
    unfold report at h5
    rw [if_pos (by
      have := String.length_eq_zero_iff (s := c.outFile)
      have := mt this.1 ho
      omega)] at h5
    obtain ⟨_, _, h5⟩ := bind_eq_ok.1 h5
    cases h5
    exact Function.update_self _ _ _
  · intro hn
    obtain ⟨k, hk⟩ : ∃ k, x.numVar = k + 1 := ⟨x.numVar - 1, by have := hl.vars; omega⟩
    have e1 : (List.range x.numVar).map (relErr x F U) =
        relErr x F U 0 :: (List.range k).map (fun v => relErr x F U (v + 1)) := by
      rw [hk, List.range_succ_eq_map, List.map_cons, List.map_map]; rfl
    obtain ⟨m', a1, a2, a3, a4⟩ := vmax_spec (l := (List.range k).map (fun v => relErr x F U (v + 1))) hn
    rw [e1, a1] at h7
    cases h7
    rw [← e1] at a2 a4
    obtain ⟨v, hv, hm⟩ := List.mem_map.1 a2
    exact ⟨⟨v, List.mem_range.1 hv, hm.symm⟩, fun v hv =>
      a4 _ (List.mem_map.2 ⟨v, List.mem_range.2 hv, rfl⟩)⟩

/-- **A stored full-order solution is as good as a new one.**  If a full-order run of the same problem has
saved its solution and the full-order solve does not depend on its starting vector, then comparing with that
file gives exactly the same run as solving again. -/
theorem stored_fom_same {cf c : Cfg} {xf x : Ext ℝ} {d d1 : Disk ℝ} {m : Num ℝ}
    (hf : singleRun Real.sqrt cf xf d = .ok (d1, m)) (hfr : cf.useRom = false) (hfs : cf.saveSol = true)
    (hfile : c.fomFile = cf.solFile) (hsame : xf.fom = x.fom) (hoffs : xf.varOffs = x.varOffs)
    (hind : ∀ U V : List ℝ, U.length = size x → V.length = size x → x.fom U = x.fom V)
    (hrom : ∀ U V, x.rom U = .ok V → V.length = size x)
    (hfom : ∀ U V, x.fom U = .ok V → V.length = size x) (hr : c.useRom = true) :
    singleRun Real.sqrt { c with loadSol := true } x d1 = singleRun Real.sqrt { c with loadSol := false } x d1 := by
  obtain ⟨ur, sr, cm, ls, ff, rd', ss, sf, o⟩ := c
  cases hr
  obtain ⟨F, hF, hload⟩ := saved_is_solution hf hfs
  have hsz : size xf = size x := by unfold size; rw [hoffs]
  unfold solution at hF
  rw [hfr, if_neg (by simp), hsame, hsz] at hF
  have hFl := hfom _ _ hF
  have key : ∀ U : List ℝ, U.length = size x →
      fomSolution (⟨true, sr, cm, true, ff, rd', ss, sf, o⟩ : Cfg) x d1 U = fomSolution ⟨true, sr, cm, false, ff, rd', ss, sf, o⟩ x d1 U := by
    intro U hU
    unfold fomSolution
    dsimp only
    rw [if_pos rfl, if_neg (by simp), show ff = cf.solFile from hfile, hload U (by omega), hind U _ hU (List.length_replicate ..), hF]
  have step : ∀ U : List ℝ, U.length = size x → maybeCompare Real.sqrt ⟨true, sr, cm, true, ff, rd', ss, sf, o⟩ x d1 U =
      maybeCompare Real.sqrt ⟨true, sr, cm, false, ff, rd', ss, sf, o⟩ x d1 U := by
    intro U hU
    unfold maybeCompare comparison
    dsimp only
    rw [key U hU]
    rfl
  unfold singleRun
  dsimp only
  rw [if_pos rfl]
  cases hn : rd x.varOffs (x.varOffs.length - 1) with
  | error _ => rfl
  | ok n =>
    rw [ok_bind, ok_bind]
    cases hU : x.rom (List.replicate n 0) with
    | error _ => rfl
    | ok U =>
      rw [ok_bind, ok_bind, step U (hrom _ _ hU)]
      rfl

/-- A missing file is not accepted as a stored solution. -/
theorem load_missing {file : String} {d : Disk ℝ} (h : d file = none) (U : List ℝ) :
    loadSolution file d U = .error .abort := by
  unfold loadSolution; rw [h]

/-- A stored solution of another size is not accepted. -/
theorem load_wrong_size {file : String} {U V : List ℝ} {d d' : Disk ℝ}
    (h : saveSolution true file U d = .ok d') (hl : V.length ≠ U.length) :
    ∀ W, loadSolution file d' V ≠ .ok W := by
  intro W hW
  obtain ⟨f, dims, vals, h1, h2, h3⟩ := load_length hW
  unfold saveSolution at h
  rw [if_pos rfl] at h
  obtain ⟨g, hg, h⟩ := bind_eq_ok.1 h
  cases h
  rw [Function.update_self] at h1
  cases h1
  unfold writeVector at hg
  obtain ⟨_, -, hg⟩ := bind_eq_ok.1 hg
  obtain ⟨-, -, rfl⟩ := create_inv hg
  rw [find_cons_self] at h2
  cases h2
  simp only [List.cons.injEq, and_true] at h3
  exact hl h3.symm

theorem save_succeeds {on : Bool} {file : String} {U : List ℝ} (d : Disk ℝ) (h : 0 < U.length) :
    ∃ d', saveSolution on file U d = .ok d' := by
  unfold saveSolution
  split
  · unfold writeVector
    rw [show decide (0 < U.length) = true by simpa using h, require_true, ok_bind]
    exact ⟨_, rfl⟩
  · exact ⟨_, rfl⟩

/-- **A run succeeds** if its solves do, give vectors of the right size, and neither the reduced
full-order solution nor, without a reduced model, the reduced system is asked for. -/
theorem run_succeeds {c : Cfg} {x : Ext ℝ} (hl : Layout x) (hp : 0 < size x) (d : Disk ℝ) {U : List ℝ}
    (hs : solution c x = .ok U) (hU : U.length = size x) (hsys : c.saveRom = true → c.useRom = true)
    (hcmp : c.compare = true → ∃ F, fomSolution c x d U = .ok F ∧ F.length = size x)
    (hred : c.saveReduced = false) : ∃ d' m, singleRun Real.sqrt c x d = .ok (d', m) := by
  have h1 : rd x.varOffs (x.varOffs.length - 1) = .ok (size x) := by
    have : x.varOffs.length - 1 < x.varOffs.length := by have := hl.offs; omega
    rw [rd_of_lt this]; unfold size; rw [List.getElem?_eq_getElem this]; rfl
  have h3 : saveSystem c = .ok () := by
    unfold saveSystem
    by_cases hr : c.saveRom = true
    · rw [hsys hr]; simp
    · simp [hr]
  obtain ⟨e, h4, he⟩ : ∃ e, maybeCompare Real.sqrt c x d U = .ok (U, e) ∧ e.length = x.numVar := by
    unfold maybeCompare
    by_cases hc : (c.useRom && c.compare) = true
    · rw [if_pos hc]
      obtain ⟨F, hF, hFl⟩ := hcmp (by simp only [Bool.and_eq_true] at hc; exact hc.2)
      unfold comparison reducedSolution
      dsimp only
      rw [hF, ok_bind, compare_ok hl hFl hU, ok_bind, hred, if_neg (by simp), ok_bind, sameBlocks_ok, ok_bind]
      exact ⟨_, rfl, by simp⟩
    · rw [if_neg hc]
      exact ⟨_, rfl, by simp⟩
  obtain ⟨d1, h5⟩ : ∃ d1, report c e d = .ok d1 := by
    unfold report
    split
    · rw [show decide (0 < e.length) = true by have := hl.vars; simp [he, this], require_true, ok_bind]
      exact ⟨_, rfl⟩
    · exact ⟨_, rfl⟩
  obtain ⟨d', h6⟩ := save_succeeds (on := c.saveSol) (file := c.solFile) d1 (show 0 < U.length by omega)
  obtain ⟨m, h7⟩ : ∃ m, vmax e = .ok m := by
    cases e with
    | nil => have := hl.vars; simp at he; omega
    | cons a l => exact ⟨_, rfl⟩
  exact ⟨d', m, run_of_steps h1 hs h3 h4 h5 h6 h7⟩

/-! ## What goes wrong -/

/-- Asking for the reduced system in a full-order run dereferences a null pointer after the solve. -/
theorem fom_save_system_ub {c : Cfg} {x : Ext ℝ} (hl : Layout x) (d : Disk ℝ) {U : List ℝ}
    (hs : solution c x = .ok U) (hr : c.useRom = false) (hsv : c.saveRom = true) :
    singleRun Real.sqrt c x d = .error .ub := by
  have h1 : rd x.varOffs (x.varOffs.length - 1) = .ok (size x) := by
    have : x.varOffs.length - 1 < x.varOffs.length := by have := hl.offs; omega
    rw [rd_of_lt this]; unfold size; rw [List.getElem?_eq_getElem this]; rfl
  unfold singleRun
  rw [h1, ok_bind]
  unfold solution at hs
  rw [hs, ok_bind]
  unfold saveSystem
  rw [hsv, hr]
  rfl

/-- With one basis for all variables and several variables, a comparing run that is asked for the reduced
full-order solution never succeeds: the solution has one block per variable, the reduced model one per
subdomain. -/
theorem reduced_never {c : Cfg} {x : Ext ℝ} (hl : Layout x) (hc : (c.useRom && c.compare) = true)
    (hsv : c.saveReduced = true) (hsep : x.handler.separate = false) (hsub : x.handler.numSub = x.numSub)
    (h0 : 0 < x.numSub) (h1 : x.numVar ≠ 1) (d : Disk ℝ) : ∀ r, singleRun Real.sqrt c x d ≠ .ok r := by
  rintro ⟨d', m⟩ h
  obtain ⟨U, e, d1, -, -, -, h4, -, -, -⟩ := run_steps h
  unfold maybeCompare at h4
  rw [hc, if_pos rfl] at h4
  unfold comparison at h4
  obtain ⟨F, _, h4⟩ := bind_eq_ok.1 h4
  obtain ⟨_, _, h4⟩ := bind_eq_ok.1 h4
  obtain ⟨_, h5, h4⟩ := bind_eq_ok.1 h4
  unfold reducedSolution at h5
  rw [if_pos hsv] at h5
  obtain ⟨_, h5, _⟩ := bind_eq_ok.1 h5
  unfold Handler.project at h5
  obtain ⟨_, h5, _⟩ := bind_eq_ok.1 h5
  have := require_eq_ok.1 h5
  simp only [BlockVector.numBlocks, hl.offs, Handler.numBlocks, hsep, hsub, beq_iff_eq] at this
  have h6 : x.numSub * x.numVar = x.numSub * 1 := by simpa using this
  exact h1 (Nat.eq_of_mul_eq_mul_left h0 h6)

/-- If the first variable vanishes in both solutions the returned error is NaN, however large the errors
of the other variables are. -/
theorem zero_first_nan {c : Cfg} {x : Ext ℝ} {d d' : Disk ℝ} {m : Num ℝ} (hl : Layout x)
    (hc : (c.useRom && c.compare) = true) (h : singleRun Real.sqrt c x d = .ok (d', m))
    {U F : List ℝ} (hs : solution c x = .ok U) (hU : U.length = size x)
    (hF : fomSolution c x d U = .ok F) (hFl : F.length = size x)
    (h0 : normOf x F 0 = 0) (h0' : diffOf x F U 0 = 0) : m = .nan := by
  obtain ⟨U', e, d1, h1, h2, h3, h4, h5, h6, h7⟩ := run_steps h
  cases Except.ok.inj (hs.symm.trans h2)
  unfold maybeCompare at h4
  rw [hc, if_pos rfl] at h4
  cases comparison_ok hl hU hF hFl h4
  obtain ⟨k, hk⟩ : ∃ k, x.numVar = k + 1 := ⟨x.numVar - 1, by have := hl.vars; omega⟩
  have e0 : relErr x F U 0 = .nan := by unfold relErr; rw [if_pos h0, if_pos h0']
  rw [hk, List.range_succ_eq_map, List.map_cons, e0, vmax_nan] at h7
  exact (Except.ok.inj h7).symm

/-! ## The concrete case -/

/-- The concrete solver meets the hypotheses on the layout. -/
theorem Case.layout : Layout (Case.ext (R := ℝ)) where
  offs := rfl
  mono := by
    intro k hk
    have : k < 4 := hk
    match k, this with
    | 0, _ => decide
    | 1, _ => decide
    | 2, _ => decide
    | 3, _ => decide
  spaces := rfl
  weights := by
    intro s hs q hq
    have : s = Case.space := by simpa [Case.ext] using hs
    subst this
    simp [Case.space] at hq
    subst hq
    simp
  vars := by decide

/-- The run of the concrete case succeeds over the reals, with the hypotheses of the theorems above. -/
example (d : Disk ℝ) : ∃ d' m, singleRun Real.sqrt Case.cfg Case.ext d = .ok (d', m) :=
  run_succeeds (U := [3, 2, 0, 0]) Case.layout (by decide) d rfl rfl (by decide)
    (fun _ => ⟨[3, 2, 4, 0], rfl, rfl⟩) rfl

/-- The same case over the rationals: the first variable has norm 5 and error 4, the second no error. -/
example : (compareSolution Case.root (Case.ext (R := ℚ)).spaces 2 2 ⟨[3, 2, 4, 0], [0, 1, 2, 3, 4]⟩
    ⟨[3, 2, 0, 0], [0, 1, 2, 3, 4]⟩).toOption = some [.fin (4 / 5), .fin 0] := by decide +kernel

/-- The run returns 4/5, reports both errors and saves the reduced solution. -/
example : (((singleRun Case.root Case.cfg (Case.ext (R := ℚ)) (fun _ => none)).bind fun r =>
      (loadSolution "sol" r.1 [0, 0, 0, 0]).map fun U => (r.2, U)).toOption) =
    some (.fin (4 / 5), [3, 2, 0, 0]) := by decide +kernel

/-- Asking for the reduced solution fails. -/
example : (singleRun Case.root { Case.cfg with saveReduced := true } (Case.ext (R := ℚ))
    (fun _ => none)).toOption.map (·.2) = none := by decide +kernel

/-- A first variable that vanishes hides an error of 1 in the second. -/
example : ((singleRun Case.root Case.cfg { (Case.ext (R := ℚ)) with
    rom := fun _ => .ok [0, 2, 0, 0], fom := fun _ => .ok [0, 1, 0, 0] } (fun _ => none)).toOption.map (·.2)) =
      some .nan := by decide +kernel

end Verif.SingleRun
