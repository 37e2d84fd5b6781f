import Verif.Proofs.Training
import Mathlib.Algebra.Order.BigOperators.Ring.Finset
import Mathlib.Tactic.Linarith
import Mathlib.Tactic.Positivity
import Mathlib.Data.Rat.Defs
import Mathlib.Algebra.Order.Ring.Rat

/-! # Training of hyper-reduced forms: C47, C48 -/

namespace Verif.Training

open Verif Verif.LinAlg Verif.LinAlg.Spec Verif.Convection.Spec Verif.Eqp.Spec Verif.Training.Spec Finset
open Verif.Eqp (Sample Integ Space Kind Entry Form at_eq rdI_get vecTerm_eq full_entry)

variable {P R : Type} [Field R] [LinearOrder R]

/-- What training does, in one piece. -/
theorem trainEntry_eq {t : Setting R} {sp : Space} {b : Mat R} {snaps : CMat R} {w : List R} {kind : Kind}
    {e : Entry P R} {nq : Nat} (h : Trainable t sp b snaps w kind e nq) :
    ∃ sys, SysOk (target sp kind e.integ b snaps (entitiesOf sp kind) nq) w nq (b.w * snaps.cols)
        (t.split (entitiesOf sp kind).length) sys ∧
      ∀ sols, sols = t.solve (sys.map Prod.fst)
          (bounds t.tol (transposeMult (b.w * snaps.cols) sys)).1
          (bounds t.tol (transposeMult (b.w * snaps.cols) sys)).2 →
        sols.map List.length = sys.map (fun s => s.1.rows) →
        sols.flatten.length = (entitiesOf sp kind).length * nq ∧
        trainEntry t sp b snaps w kind e =
          .ok { e with samples := some (samplesOf (entitiesOf sp kind) nq sols.flatten) } := by
  obtain ⟨sys, h1, h2⟩ := setup_sys h.space h.vec h.basis h.height h.snapsOk h.snapRows h.weights h.split t.junk
  refine ⟨sys, h2, fun sols hs hl => ?_⟩
  have hlen : sols.flatten.length = (entitiesOf sp kind).length * nq := by
    rw [List.length_flatten, hl, ← h.split (entitiesOf sp kind).length]
    rw [sum_map_index, h2.length, ← List.map_id (t.split _), sum_map_index, sum_mul, List.map_id]
    refine sum_congr rfl fun r hr => ?_
    obtain ⟨s, e1, -, h3, -⟩ := h2.rank r (mem_range.1 hr)
    rw [e1]
    simp [h3]
  refine ⟨hlen, ?_⟩
  unfold trainEntry
  rw [candidates_eq h.space h.marker, ok_bind, h.rule]
  show (do
    let s ← setup sp t.vsize b kind e.integ nq w snaps t.split t.junk (entitiesOf sp kind)
    let samples ← trainIntegrator nq t.tol t.solve s.1 s.2
    match kind with
    | .domain => return { e with samples := some samples }
    | _ => do
      let samples ← renumber (entitiesOf sp kind) samples
      return { e with samples := some samples }) = _
  rw [h1, ok_bind]
  unfold trainIntegrator
  dsimp only
  rw [← hs, if_pos hl, extract_eq hlen, ok_bind]
  have hd : kind = .domain → List.range (entitiesOf sp kind).length = entitiesOf sp kind := by
    rintro rfl
    have := candidates_eq h.space h.marker
    dsimp only [candidates] at this
    rw [← Except.ok.inj this, List.length_range]
  cases kind with
  | domain => rw [hd rfl]; rfl
  | interior => rw [renumber_eq hlen]; rfl
  | boundary m => rw [renumber_eq hlen]; rfl

theorem entity_ok {sp : Space} {kind : Kind} {k el : Nat} (h : (entitiesOf sp kind)[k]? = some el) :
    Acts sp kind el ∧ ∃ rows, rowsOf sp kind el = some rows := by
  obtain ⟨-, h2, h3⟩ := mem_entitiesOf.1 (List.mem_of_getElem? h)
  exact ⟨h2, Option.ne_none_iff_exists'.1 h3⟩

/-- The full quadrature, point by point. -/
theorem sum_target {sp : Space} {kind : Kind} {g : Integ P R} {b : Mat R} {snaps : CMat R} {nq : Nat}
    {c i : Nat} (hc : c < b.w) (V : Nat → Nat → R) :
    ∑ k ∈ range ((entitiesOf sp kind).length * nq),
        target sp kind g b snaps (entitiesOf sp kind) nq k (c + i * b.w) * V (k / nq) (k % nq) =
      ∑ e ∈ range (entitiesOf sp kind).length, ∑ q ∈ range nq,
        point sp kind g b (fun k => cent snaps k i) ((entitiesOf sp kind)[e]?.getD 0) q c * V e q := by
  rw [← sum_divmod _ _ fun e q => point sp kind g b (fun k => cent snaps k i)
    ((entitiesOf sp kind)[e]?.getD 0) q c * V e q]
  refine sum_congr rfl fun k _ => ?_
  unfold target
  rw [Nat.add_comm c, (divmod_add hc).1, (divmod_add hc).2]

theorem fullTest_eq {sp : Space} {kind : Kind} {g : Integ P R} {b : Mat R} {snaps : CMat R} {nq : Nat}
    {w : List R} {c i : Nat} (hc : c < b.w) {sizes : List Nat} {sys : List (CMat R × List R)}
    (hs : SysOk (target sp kind g b snaps (entitiesOf sp kind) nq) w nq (b.w * snaps.cols) sizes sys)
    (hsum : sizes.sum = (entitiesOf sp kind).length) (hi : i < snaps.cols) :
    ve (transposeMult (b.w * snaps.cols) sys) (c + i * b.w) = fullTest sp kind g b snaps nq w c i := by
  have hlt : c + i * b.w < b.w * snaps.cols := by
    calc c + i * b.w < b.w + i * b.w := by omega
      _ = b.w * (i + 1) := by ring
      _ ≤ _ := Nat.mul_le_mul_left _ hi
  rw [transposeMult_eq hs hlt, hsum, sum_target hc (fun _ q => ve w q)]
  unfold fullTest
  rw [sum_map_index]
  refine sum_congr rfl fun e he => ?_
  rw [List.getElem?_eq_getElem (mem_range.1 he)]
  simp [mul_comm]

/-- **C47.** Training sets, for each integrator, exactly the samples whose weight in the solution of
the nonnegative least squares problem exceeds the threshold: valid pairs of an entity the integrator
acts on and a quadrature point of its rule, without repetition and in increasing order.  The problem
is the one it should be: its rows are the points of all entities, distributed over the processes, its
columns the tests with all basis vectors of all snapshots; the bounds enclose the full quadrature. -/
theorem train_samples {t : Setting R} {sp : Space} {b : Mat R} {snaps : CMat R} {w : List R} {kind : Kind}
    {e : Entry P R} {nq : Nat} (h : Trainable t sp b snaps w kind e nq) (hl : OneWeightPerRow t.solve) :
    ∃ gts lb ub samples, SystemOk sp kind e.integ b snaps nq (t.split (entitiesOf sp kind).length) gts ∧
      lb.length = b.w * snaps.cols ∧ ub.length = b.w * snaps.cols ∧
      (∀ c i, c < b.w → i < snaps.cols →
        ve lb (c + i * b.w) = fullTest sp kind e.integ b snaps nq w c i -
          t.tol * |fullTest sp kind e.integ b snaps nq w c i| ∧
        ve ub (c + i * b.w) = fullTest sp kind e.integ b snaps nq w c i +
          t.tol * |fullTest sp kind e.integ b snaps nq w c i|) ∧
      trainEntry t sp b snaps w kind e = .ok { e with samples := some samples } ∧
      Extracted (entitiesOf sp kind) nq cutoff (t.solve gts lb ub).flatten samples := by
  obtain ⟨sys, h1, h2⟩ := trainEntry_eq h
  obtain ⟨h3, h4⟩ := h2 _ rfl (by rw [hl, List.map_map]; rfl)
  have hlen : (transposeMult (b.w * snaps.cols) sys).length = b.w * snaps.cols := by
    unfold transposeMult; simp
  refine ⟨_, _, _, _, ?_, by rw [(bounds_length _ _).1, hlen], by rw [(bounds_length _ _).2, hlen], ?_, h4,
    samplesOf_extracted (entitiesOf_sorted _ _) h3⟩
  · have hr : ∀ r gt, (sys.map Prod.fst)[r]? = some gt → ∃ s, sys[r]? = some s ∧ gt = s.1 ∧
        r < (t.split (entitiesOf sp kind).length).length ∧
        RankOk (target sp kind e.integ b snaps (entitiesOf sp kind) nq) w nq (b.w * snaps.cols)
          ((t.split (entitiesOf sp kind).length).take r).sum
          ((t.split (entitiesOf sp kind).length)[r]?.getD 0) s := by
      intro r gt hg
      rw [List.getElem?_map, Option.map_eq_some_iff] at hg
      obtain ⟨s, e1, e2⟩ := hg
      have hlt : r < (t.split (entitiesOf sp kind).length).length := by
        rw [← h1.length]; exact (List.getElem?_eq_some_iff.1 e1).1
      obtain ⟨s', e3, h5⟩ := h1.rank r hlt
      rw [e1] at e3
      cases e3
      exact ⟨s, e1, e2.symm, hlt, h5⟩
    constructor
    · apply List.ext_getElem?
      intro r
      by_cases hlt : r < (t.split (entitiesOf sp kind).length).length
      · obtain ⟨s, e1, h5⟩ := h1.rank r hlt
        rw [List.getElem?_map, List.getElem?_map, e1, List.getElem?_map, List.getElem?_eq_getElem hlt]
        have := h5.2.1
        rw [List.getElem?_eq_getElem hlt] at this
        simp only [Option.map_some, Option.getD_some] at this ⊢
        rw [this]
      · rw [List.getElem?_eq_none (by simp [h1.length]; omega), List.getElem?_eq_none (by simp; omega)]
    · intro gt hg
      obtain ⟨r, hg⟩ := List.mem_iff_getElem?.1 hg
      obtain ⟨s, -, rfl, -, h5⟩ := hr r gt hg
      exact h5.2.2.1
    · intro r gt hg e' q c i h5 hq hc hi
      obtain ⟨s, e1, rfl, hlt, r1, r2, r3, r4, -⟩ := hr r gt hg
      rw [r2] at h5
      rw [r4 _ _ h5 (by
        calc c + i * b.w < b.w + i * b.w := by omega
          _ = b.w * (i + 1) := by ring
          _ ≤ _ := Nat.mul_le_mul_left _ hi)]
      unfold target
      rw [← Nat.add_assoc, ← Nat.add_mul, (divmod_add hq).1, (divmod_add hq).2, Nat.add_comm c,
        (divmod_add hc).1, (divmod_add hc).2]
  · intro c i hc hi
    have hlt : c + i * b.w < (transposeMult (b.w * snaps.cols) sys).length := by
      rw [hlen]
      calc c + i * b.w < b.w + i * b.w := by omega
        _ = b.w * (i + 1) := by ring
        _ ≤ _ := Nat.mul_le_mul_left _ hi
    unfold bounds
    dsimp only
    rw [ve_map _ _ hlt, ve_map _ _ hlt, fullTest_eq hc h1 (h.split _) hi]
    exact ⟨rfl, rfl⟩

theorem entryOk_of {t : Setting R} {sp : Space} {b : Mat R} {snaps : CMat R} {w : List R} {kind : Kind}
    {e : Entry P R} {nq : Nat} (h : Trainable t sp b snaps w kind e nq) (hg : GradOk sp kind e.integ)
    {sol : List R} {samples : List (Sample P R)}
    (h2 : Extracted (entitiesOf sp kind) nq cutoff sol samples) :
    EntryOk sp b.h kind { e with samples := some samples } := by
  refine ⟨nq, samples, h.rule, rfl, fun s hs => ?_⟩
  obtain ⟨k, q, el, hq, h3, -, -, h4, h5, -⟩ := (h2.mem s).1 hs
  obtain ⟨ha, rows, hr⟩ := entity_ok h3
  have hro := rowsOf_ok h.space hr
  refine ⟨by omega, by omega, by omega, ?_, rows, ?_, ⟨hro.1, fun r hr => ?_⟩, fun w u => ?_⟩
  · rw [h4]; exact ha
  · rw [h4]; exact hr
  · obtain ⟨r1, r2⟩ := hro.2 r hr
    have := h.height
    exact ⟨r1, by omega⟩
  · rw [h4, h5]
    simp only [Int.toNat_natCast]
    exact ⟨h.vec el rows hr q w u, hg el rows hr q w u⟩

/-- A trained integrator can be evaluated: it meets the hypotheses of C45. -/
theorem train_entryOk {t : Setting R} {sp : Space} {b : Mat R} {snaps : CMat R} {w : List R} {kind : Kind}
    {e e' : Entry P R} {nq : Nat} (h : Trainable t sp b snaps w kind e nq) (hl : OneWeightPerRow t.solve)
    (hg : GradOk sp kind e.integ) (he : trainEntry t sp b snaps w kind e = .ok e') :
    e'.integ = e.integ ∧ EntryOk sp b.h kind e' := by
  obtain ⟨_, _, _, samples, -, -, -, -, h1, h2⟩ := train_samples h hl
  rw [he] at h1
  cases h1
  exact ⟨rfl, entryOk_of h hg h2⟩

/-! ## C48: the error on the snapshots -/

theorem vecTerm_point {sp : Space} {kind : Kind} {g : Integ P R} (hg : WeightLinear sp kind g) (b : Mat R)
    (x : List R) {el : Nat} {rows : List Int} (hr : rowsOf sp kind el = some rows) (q : Nat) (w : R)
    (p : Option P) (c : Nat) :
    vecTerm sp kind g b x ⟨(el : Int), (q : Int), w, p⟩ c = w * point sp kind g b (liftAll b x) el q c := by
  unfold vecTerm point
  simp only [Int.toNat_natCast, hr]
  unfold project
  rw [mul_sum]
  refine sum_congr rfl fun k hk => ?_
  rw [hg el rows hr q w _ k (mem_range.1 hk)]
  rw [Eqp.restrict_lift]
  ring

theorem point_congr {sp : Space} {n : Nat} (hs : SpaceOk sp n) {kind : Kind} {g : Integ P R} {b : Mat R}
    {u v : Nat → R} (h : ∀ r < n, u r = v r) (el q c : Nat) :
    point sp kind g b u el q c = point sp kind g b v el q c := by
  unfold point
  cases hr : rowsOf sp kind el with
  | none => rfl
  | some rows =>
    dsimp only
    rw [show Eqp.Spec.restrict u rows = Eqp.Spec.restrict v rows from
      tab_congr fun k hk => h _ (rowAt_lt (rowsOf_ok hs hr) hk).1]

/-- The tested full-order residual, point by point. -/
theorem full_points {sp : Space} {n : Nat} (hs : SpaceOk sp n) {kind : Kind} {g : Integ P R}
    (hg : WeightLinear sp kind g) {b : Mat R} (hn : n ≤ b.h) (w : Nat → R) (nq : Nat) (x : List R) (c : Nat) :
    ∑ r ∈ range b.h, ent b r c * fullVec sp kind g w nq (liftAll b x) r =
      ((entitiesOf sp kind).map fun el => ∑ q ∈ range nq,
        w q * point sp kind g b (liftAll b x) el q c).sum := by
  classical
  have hfull := full_entry (e := (⟨g, some ((fullPoints sp kind w nq).map fun p =>
      (⟨p.1, p.2.1, p.2.2, none⟩ : Sample P R))⟩ : Entry P R)) (sp := sp) (kind := kind) (w := w) (nq := nq)
    (b := b) ⟨_, rfl, by rw [List.map_map]; exact List.Perm.of_eq (List.map_id _)⟩
    (fun el rows _ hr => by
      obtain ⟨h1, h2⟩ := rowsOf_ok hs hr
      exact ⟨h1, fun r hr => ⟨(h2 r hr).1, by have := (h2 r hr).2; omega⟩⟩) x c
  dsimp only at hfull
  rw [← hfull, Option.getD_some, List.map_map]
  unfold fullPoints entitiesOf
  rw [List.map_flatMap, Eqp.sum_flatMap']
  have hfil : ∀ (l : List Nat) (p : Nat → Prop) [DecidablePred p] (F : Nat → R) (G : Nat → List R),
      (∀ a, p a → (G a).sum = F a) → (∀ a, ¬ p a → (G a).sum = 0) →
      (l.map fun a => (G a).sum).sum = ((l.filter fun a => p a).map F).sum := by
    intro l p _ F G h1 h2
    induction l with
    | nil => rfl
    | cons a l ih =>
      by_cases hp : p a
      · rw [List.filter_cons_of_pos (by simpa using hp), List.map_cons, List.map_cons, List.sum_cons,
          List.sum_cons, ih, h1 a hp]
      · rw [List.filter_cons_of_neg (by simpa using hp), List.map_cons, List.sum_cons, ih, h2 a hp, zero_add]
  refine hfil (List.range (count sp kind)) (fun el => Acts sp kind el ∧ rowsOf sp kind el ≠ none) _
    (fun el => List.map ((fun s => vecTerm sp kind g b x s c) ∘ fun p : Int × Int × R =>
        (⟨p.1, p.2.1, p.2.2, none⟩ : Sample P R))
      (if Acts sp kind el ∧ rowsOf sp kind el ≠ none then
        (List.range nq).map fun q : Nat => ((el : Int), (q : Int), w q) else [])) ?_ ?_
  · rintro el ⟨h1, h2⟩
    obtain ⟨rows, hr⟩ := Option.ne_none_iff_exists'.1 h2
    rw [if_pos ⟨h1, h2⟩, List.map_map]
    show _ = ((List.range nq).map _).sum
    congr 1
    refine List.map_congr_left fun q _ => ?_
    exact vecTerm_point hg b x hr q (w q) none c
  · intro el h
    rw [if_neg h]; rfl

theorem fit_sum {T : Nat → Nat → R} {w : List R} {nq cols : Nat} {sizes : List Nat}
    {sys : List (CMat R × List R)} (h : SysOk T w nq cols sizes sys) {sols : List (List R)}
    (hl : sols.map List.length = sys.map fun s => s.1.rows) {c : Nat} (hc : c < cols) :
    (((sys.map Prod.fst).zip sols).map fun p => ∑ r ∈ range p.1.rows, cent p.1 r c * ve p.2 r).sum =
      ∑ i ∈ range (sizes.sum * nq), T i c * ve sols.flatten i := by
  have hlen : sols.length = sys.length := by simpa using congrArg List.length hl
  have hrows : sols.map List.length = sizes.map (· * nq) := by
    rw [hl]
    apply List.ext_getElem?
    intro r
    by_cases hlt : r < sizes.length
    · obtain ⟨s, e1, h5⟩ := h.rank r hlt
      have := h5.2.1
      rw [List.getElem?_eq_getElem hlt] at this
      rw [List.getElem?_map, e1, List.getElem?_map, List.getElem?_eq_getElem hlt]
      simp only [Option.map_some, Option.getD_some] at this ⊢
      rw [this]
    · rw [List.getElem?_eq_none (by simp [h.length]; omega), List.getElem?_eq_none (by simp; omega)]
  have htake : ∀ (l : List Nat) r, ((l.map (· * nq)).take r).sum = (l.take r).sum * nq := by
    intro l
    induction l with
    | nil => simp
    | cons a l ih =>
      intro r
      cases r with
      | zero => simp
      | succ r => simp [ih r, Nat.add_mul]
  rw [sum_map_index, ← split_sum sizes nq, show ((sys.map Prod.fst).zip sols).length = sizes.length by
    simp [hlen, h.length]]
  refine sum_congr rfl fun r hr => ?_
  have hr := mem_range.1 hr
  obtain ⟨s, e1, h1, h2, h3, h4, h5⟩ := h.rank r hr
  have hr' : r < sols.length := by rw [hlen, h.length]; exact hr
  have hz : ((sys.map Prod.fst).zip sols)[r]? = some (s.1, sols[r]) := by
    rw [List.getElem?_zip_eq_some]
    exact ⟨by rw [List.getElem?_map, e1]; rfl, List.getElem?_eq_getElem hr'⟩
  rw [hz]
  simp only [Option.map_some, Option.getD_some]
  rw [h2]
  refine sum_congr rfl fun k hk => ?_
  have hk := mem_range.1 hk
  rw [h4 k c hk hc]
  congr 1
  have hsl : sols[r].length = sizes[r]?.getD 0 * nq := by
    have := congrArg (fun l => l[r]?) hrows
    rw [List.getElem?_map, List.getElem?_map, List.getElem?_eq_getElem hr', List.getElem?_eq_getElem hr] at this
    rw [List.getElem?_eq_getElem hr]
    simpa using this
  have := flatten_get sols r k sols[r] (List.getElem?_eq_getElem hr') (by rw [hsl]; exact hk)
  rw [hrows, htake] at this
  unfold ve
  rw [this]

variable [IsStrictOrderedRing R]

/-- The full rule itself satisfies the bounds. -/
theorem full_fits {T : Nat → Nat → R} {w : List R} {nq cols : Nat} {sizes : List Nat}
    {sys : List (CMat R × List R)} (h : SysOk T w nq cols sizes sys) (hw : ∀ q < nq, 0 ≤ ve w q) {tol : R}
    (ht : 0 ≤ tol) :
    Fits (sys.map Prod.fst) (bounds tol (transposeMult cols sys)).1 (bounds tol (transposeMult cols sys)).2
      (sys.map Prod.snd) := by
  have hlen : (transposeMult cols sys).length = cols := by unfold transposeMult; simp
  have hr : ∀ s ∈ sys, s.2.length = s.1.rows ∧ ∀ v ∈ s.2, 0 ≤ v := by
    intro s hs
    obtain ⟨r, hs⟩ := List.mem_iff_getElem?.1 hs
    have hlt : r < sizes.length := by rw [← h.length]; exact (List.getElem?_eq_some_iff.1 hs).1
    obtain ⟨s', e1, h1, h2, h3, h4, h5⟩ := h.rank r hlt
    rw [hs] at e1
    cases e1
    rw [h2, h5]
    refine ⟨length_tab _ _, fun v hv => ?_⟩
    obtain ⟨k, hk, rfl⟩ := List.mem_map.1 hv
    have hk := List.mem_range.1 hk
    exact hw _ (Nat.mod_lt _ (Nat.pos_of_ne_zero (by rintro rfl; simp at hk)))
  have hval : ∀ c, c < cols → (((sys.map Prod.fst).zip (sys.map Prod.snd)).map fun p =>
      ∑ r ∈ range p.1.rows, cent p.1 r c * ve p.2 r).sum = ve (transposeMult cols sys) c := by
    intro c hc
    unfold transposeMult
    rw [show ∀ f : Nat → R, (List.range cols).map f = tab cols f from fun _ => rfl, ve_tab hc]
    rw [List.zip_map', List.map_map]
    rfl
  have hb : ∀ v : R, v - tol * |v| ≤ v ∧ v ≤ v + tol * |v| := fun v => by
    have := mul_nonneg ht (abs_nonneg v)
    constructor <;> linarith
  refine ⟨?_, ?_, ?_, ?_⟩
  · rw [List.map_map, List.map_map]
    exact List.map_congr_left fun s hs => (hr s hs).1
  · intro l hl v hv
    obtain ⟨s, hs, rfl⟩ := List.mem_map.1 hl
    exact (hr s hs).2 v hv
  · intro c hc
    rw [(bounds_length _ _).1, hlen] at hc
    rw [hval c hc]
    unfold bounds
    rw [ve_map _ _ (by rw [hlen]; exact hc)]
    exact (hb _).1
  · intro c hc
    rw [(bounds_length _ _).2, hlen] at hc
    rw [hval c hc]
    unfold bounds
    rw [ve_map _ _ (by rw [hlen]; exact hc)]
    exact (hb _).2

omit [IsStrictOrderedRing R] in
theorem sum_samples {ents : List Nat} {nq : Nat} {sol : List R} (F : Sample P R → R) :
    ((samplesOf ents nq sol).map F).sum = ∑ i ∈ range sol.length, if cutoff < ve sol i then
      F ⟨((ents[i / nq]?.getD 0 : Nat) : Int), ((i % nq : Nat) : Int), ve sol i, none⟩ else 0 := by
  unfold samplesOf
  show _ = ((List.range sol.length).map _).sum
  generalize List.range sol.length = l
  induction l with
  | nil => rfl
  | cons i l ih =>
    by_cases hc : cutoff < ve sol i
    · simp only [List.filterMap_cons, if_pos hc, List.map_cons, List.sum_cons, ih]
    · simp only [List.filterMap_cons, if_neg hc, List.map_cons, List.sum_cons, ih, zero_add]

/-- Dropping weights below the threshold and fitting within the tolerance. -/
theorem error_bound {n : Nat} {T s W : Nat → R} {tol thr : R}
    (hfit : |∑ i ∈ range n, T i * s i - ∑ i ∈ range n, T i * W i| ≤ tol * |∑ i ∈ range n, T i * W i|)
    (hs : ∀ i < n, 0 ≤ s i) (ht : 0 ≤ thr) :
    |(∑ i ∈ range n, if thr < s i then s i * T i else 0) - ∑ i ∈ range n, T i * W i| ≤
      tol * |∑ i ∈ range n, T i * W i| + thr * ∑ i ∈ range n, |T i| := by
  have h1 : |(∑ i ∈ range n, if thr < s i then s i * T i else 0) - ∑ i ∈ range n, T i * s i| ≤
      thr * ∑ i ∈ range n, |T i| := by
    rw [← sum_sub_distrib, mul_sum]
    refine (abs_sum_le_sum_abs _ _).trans (sum_le_sum fun i hi => ?_)
    have h0 := hs i (mem_range.1 hi)
    by_cases hc : thr < s i
    · rw [if_pos hc, mul_comm, sub_self, abs_zero]
      positivity
    · rw [if_neg hc, zero_sub, abs_neg, abs_mul, abs_of_nonneg h0, mul_comm]
      exact mul_le_mul_of_nonneg_right (not_lt.1 hc) (abs_nonneg _)
  calc _ = |((∑ i ∈ range n, if thr < s i then s i * T i else 0) - ∑ i ∈ range n, T i * s i) +
        (∑ i ∈ range n, T i * s i - ∑ i ∈ range n, T i * W i)| := by congr 1; ring
    _ ≤ _ := by
      refine (abs_add_le _ _).trans ?_
      linarith

omit [IsStrictOrderedRing R] in
/-- The sum over a trained integrator's samples, as a sum over all points. -/
theorem sum_vecTerm {sp : Space} {kind : Kind} {g : Integ P R} (hg : WeightLinear sp kind g) {b : Mat R}
    {x : List R} {nq : Nat} {sol : List R} (hl : sol.length = (entitiesOf sp kind).length * nq) (c : Nat) :
    ((samplesOf (entitiesOf sp kind) nq sol).map fun s => vecTerm sp kind g b x s c).sum =
      ∑ i ∈ range ((entitiesOf sp kind).length * nq), if cutoff < ve sol i then
        ve sol i * point sp kind g b (liftAll b x) ((entitiesOf sp kind)[i / nq]?.getD 0) (i % nq) c else 0 := by
  rw [sum_samples, hl]
  refine sum_congr rfl fun i hi => ?_
  split
  · have hd : i / nq < (entitiesOf sp kind).length :=
      Nat.div_lt_of_lt_mul (by rw [Nat.mul_comm]; exact mem_range.1 hi)
    obtain ⟨-, rows, hr⟩ := entity_ok (List.getElem?_eq_getElem hd)
    rw [List.getElem?_eq_getElem hd]
    exact vecTerm_point hg b x hr _ _ _ c
  · rfl

/-- **C48.** After training, with a solver that finds nonnegative weights within the bounds if there
are any, the hyper-reduced residual of an integrator agrees at every training snapshot that lies in
the span of the basis (`u = V x`) with the tested full-order residual `V^T F(V x)` up to the relative
tolerance, and up to `1e-12` times the absolute contributions of the quadrature points (the samples
with smaller weights are dropped). -/
theorem train_error {t : Setting R} {sp : Space} {b : Mat R} {snaps : CMat R} {w : List R} {kind : Kind}
    {e : Entry P R} {nq : Nat} (h : Trainable t sp b snaps w kind e nq) (ht : 0 ≤ t.tol)
    (hw : ∀ q < nq, 0 ≤ ve w q) (hsol : Solves t.solve) (hg : WeightLinear sp kind e.integ) :
    ∃ samples, trainEntry t sp b snaps w kind e = .ok { e with samples := some samples } ∧
      ∀ i < snaps.cols, ∀ x, (∀ r < t.vsize, cent snaps r i = liftAll b x r) → ∀ c < b.w,
        |(samples.map fun s => vecTerm sp kind e.integ b x s c).sum -
            ∑ r ∈ range b.h, ent b r c * fullVec sp kind e.integ (ve w) nq (liftAll b x) r| ≤
          allowed sp kind e.integ b nq (liftAll b x) t.tol
            (∑ r ∈ range b.h, ent b r c * fullVec sp kind e.integ (ve w) nq (liftAll b x) r) c := by
  obtain ⟨sys, h1, h2⟩ := trainEntry_eq h
  have hfit := hsol _ _ _ ⟨_, full_fits h1 hw ht⟩
  have hl := hfit.lengths
  rw [List.map_map] at hl
  obtain ⟨h3, h4⟩ := h2 _ rfl hl
  generalize t.solve _ _ _ = sols at *
  refine ⟨_, h4, fun i hi x hx c hc => ?_⟩
  have hcols : c + i * b.w < b.w * snaps.cols := by
    calc c + i * b.w < b.w + i * b.w := by omega
      _ = b.w * (i + 1) := by ring
      _ ≤ _ := Nat.mul_le_mul_left _ hi
  have hlen : (transposeMult (b.w * snaps.cols) sys).length = b.w * snaps.cols := by
    unfold transposeMult; simp
  have hT : ∀ k, target sp kind e.integ b snaps (entitiesOf sp kind) nq k (c + i * b.w) =
      point sp kind e.integ b (liftAll b x) ((entitiesOf sp kind)[k / nq]?.getD 0) (k % nq) c := by
    intro k
    unfold target
    rw [Nat.add_comm c, (divmod_add hc).1, (divmod_add hc).2]
    exact point_congr h.space hx _ _ _
  have lo := hfit.lower (c + i * b.w) (by rw [(bounds_length _ _).1, hlen]; exact hcols)
  have up := hfit.upper (c + i * b.w) (by rw [(bounds_length _ _).2, hlen]; exact hcols)
  rw [fit_sum h1 hl hcols, h.split] at lo up
  unfold bounds at lo up
  rw [ve_map _ _ (by rw [hlen]; exact hcols), transposeMult_eq h1 hcols, h.split] at lo up
  simp only [hT] at lo up
  have hfullv : ∑ r ∈ range b.h, ent b r c * fullVec sp kind e.integ (ve w) nq (liftAll b x) r =
      ∑ k ∈ range ((entitiesOf sp kind).length * nq),
        point sp kind e.integ b (liftAll b x) ((entitiesOf sp kind)[k / nq]?.getD 0) (k % nq) c *
          ve w (k % nq) := by
    rw [full_points h.space hg h.height, sum_map_index,
      sum_divmod _ _ fun a q => point sp kind e.integ b (liftAll b x)
        ((entitiesOf sp kind)[a]?.getD 0) q c * ve w q]
    refine sum_congr rfl fun a ha => ?_
    rw [List.getElem?_eq_getElem (mem_range.1 ha)]
    simp [mul_comm]
  have habs : ((entitiesOf sp kind).map fun el =>
      ∑ q ∈ range nq, |point sp kind e.integ b (liftAll b x) el q c|).sum =
      ∑ k ∈ range ((entitiesOf sp kind).length * nq),
        |point sp kind e.integ b (liftAll b x) ((entitiesOf sp kind)[k / nq]?.getD 0) (k % nq) c| := by
    rw [sum_map_index, sum_divmod _ _ fun a q => |point sp kind e.integ b (liftAll b x)
        ((entitiesOf sp kind)[a]?.getD 0) q c|]
    refine sum_congr rfl fun a ha => ?_
    rw [List.getElem?_eq_getElem (mem_range.1 ha)]
    simp
  unfold allowed
  rw [habs, hfullv, sum_vecTerm hg h3]
  refine error_bound (s := ve sols.flatten) (abs_le.2 ⟨by linarith, by linarith⟩) (fun k hk => ?_) ?_
  · have hk : k < sols.flatten.length := by rw [h3]; exact hk
    unfold ve
    rw [List.getElem?_eq_getElem hk]
    obtain ⟨l, hl, hm⟩ := List.mem_flatten.1 (List.getElem_mem hk)
    exact hfit.nonneg l hl _ hm
  · unfold cutoff; positivity

/-- A whole form is trained: it can be evaluated, and at each training snapshot `V x` its residual
`Mult(x)` is the tested full-order residual `V^T F(V x)` up to the sum of the errors allowed for the
integrators. -/
theorem train_form_error {t : Setting R} {w : Integ P R → List R} {snaps : CMat R} {f : Form P R} {b : Mat R}
    (hb : f.basis = some b) (hpos : 0 < b.w) (hh : b.w = f.height) (hwd : b.w = f.width)
    (hpre : f.precompute = false) (ht : 0 ≤ t.tol) (hsol : Solves t.solve) (hrow : t.vsize ≤ snaps.rows)
    (hmat : MatOk b)
    (h : ∀ e ∈ entries f, ∃ nq, Trainable t f.space b snaps (w e.2.integ) e.1 e.2 nq ∧
      (∀ q < nq, 0 ≤ ve (w e.2.integ) q) ∧ WeightLinear f.space e.1 e.2.integ ∧
      GradOk f.space e.1 e.2.integ) :
    ∃ f', trainForm t w snaps f = .ok f' ∧ FormOk f' b ∧
      ∀ i < snaps.cols, ∀ x, x.length = f.width →
        (∀ r < t.vsize, cent snaps r i = liftAll b x r) →
        ∀ y junk, y.length = f.height → ∃ y', f'.mult x y junk = .ok y' ∧ y'.length = f.height ∧
          ∀ c < f.height,
            |ve y' c - ((entries f).map fun e => ∑ r ∈ range b.h, ent b r c *
              fullVec f.space e.1 e.2.integ (ve (w e.2.integ)) (e.2.integ.rule.getD 0) (liftAll b x) r).sum| ≤
            ((entries f).map fun e => allowed f.space e.1 e.2.integ b (e.2.integ.rule.getD 0)
              (liftAll b x) t.tol (∑ r ∈ range b.h, ent b r c * fullVec f.space e.1 e.2.integ
                (ve (w e.2.integ)) (e.2.integ.rule.getD 0) (liftAll b x) r) c).sum := by
  -- what training does to one integrator
  let rel : Kind × Entry P R → Kind × Entry P R → Prop := fun e e' =>
    e'.1 = e.1 ∧ e'.2.integ = e.2.integ ∧ EntryOk f.space b.h e'.1 e'.2 ∧
    ∀ i < snaps.cols, ∀ x, (∀ r < t.vsize, cent snaps r i = liftAll b x r) → ∀ c < b.w,
      |((e'.2.samples.getD []).map fun s => vecTerm f.space e.1 e.2.integ b x s c).sum -
          ∑ r ∈ range b.h, ent b r c * fullVec f.space e.1 e.2.integ (ve (w e.2.integ))
            (e.2.integ.rule.getD 0) (liftAll b x) r| ≤
        allowed f.space e.1 e.2.integ b (e.2.integ.rule.getD 0) (liftAll b x) t.tol
          (∑ r ∈ range b.h, ent b r c * fullVec f.space e.1 e.2.integ (ve (w e.2.integ))
            (e.2.integ.rule.getD 0) (liftAll b x) r) c
  have one : ∀ kind (e : Entry P R), (kind, e) ∈ entries f → ∃ e',
      trainEntry t f.space b snaps (w e.integ) kind e = .ok e' ∧ rel (kind, e) (kind, e') := by
    intro kind e he
    obtain ⟨nq, h1, h2, h3, h4⟩ := h _ he
    obtain ⟨samples, h5, h6⟩ := train_error h1 ht h2 hsol h3
    have hrule : e.integ.rule.getD 0 = nq := by
      have := h1.rule
      dsimp only at this
      rw [this]; rfl
    refine ⟨_, h5, rfl, rfl, ?_, ?_⟩
    · obtain ⟨sys, g1, g2⟩ := trainEntry_eq h1
      have hfit := hsol _ _ _ ⟨_, full_fits g1 h2 ht⟩
      have hl := hfit.lengths
      rw [List.map_map] at hl
      obtain ⟨g3, g4⟩ := g2 _ rfl hl
      generalize t.solve _ _ _ = sols at *
      dsimp only at g4 h5
      rw [h5] at g4
      have g5 : samples = samplesOf (entitiesOf f.space kind) nq sols.flatten := by
        have := Except.ok.inj g4
        injection this with _ this
        exact Option.some.inj this
      subst g5
      exact entryOk_of h1 h4 (samplesOf_extracted (entitiesOf_sorted _ _) g3)
    · dsimp only
      rw [hrule]
      exact h6
  obtain ⟨d, e1, r1⟩ := Eqp.loop_push (l := f.dnfi)
    (g := fun e => trainEntry t f.space b snaps (w e.integ) .domain e)
    (rel := fun e e' => rel (.domain, e) (.domain, e')) fun e he => one _ _ (Eqp.mem_entries_dom he)
  obtain ⟨fi, e2, r2⟩ := Eqp.loop_push (l := f.fnfi)
    (g := fun e => trainEntry t f.space b snaps (w e.integ) .interior e)
    (rel := fun e e' => rel (.interior, e) (.interior, e')) fun e he => one _ _ (Eqp.mem_entries_int he)
  obtain ⟨bd, e3, r3⟩ := Eqp.loop_push (l := f.bfnfi)
    (g := fun e => (do
      let e' ← trainEntry t f.space b snaps (w e.1.integ) (.boundary e.2) e.1
      return (e', e.2) : Outcome (Entry P R × Option (List Int))))
    (rel := fun e e' => rel (.boundary e.2, e.1) (.boundary e'.2, e'.1)) fun e he => by
      obtain ⟨e', g1, g2⟩ := one _ _ (Eqp.mem_entries_bdr he)
      exact ⟨(e', e.2), by rw [g1]; rfl, g2⟩
  have hall : List.Forall₂ rel (entries f) (entries { f with dnfi := d, fnfi := fi, bfnfi := bd }) := by
    unfold entries
    refine List.rel_append (List.rel_append ?_ ?_) ?_
    · rw [List.forall₂_map_left_iff, List.forall₂_map_right_iff]; exact r1
    · rw [List.forall₂_map_left_iff, List.forall₂_map_right_iff]; exact r2
    · rw [List.forall₂_map_left_iff, List.forall₂_map_right_iff]; exact r3
  have hok : FormOk { f with dnfi := d, fnfi := fi, bfnfi := bd } b := by
    refine ⟨hb, hmat, hpos, hh, hwd, fun e' he' => ?_⟩
    obtain ⟨e, -, -, -, h3, -⟩ := Eqp.mem_forall₂ hall he'
    exact h3
  refine ⟨_, ?_, hok, ?_⟩
  · unfold trainForm
    rw [hb, show nonNull (some b) = .ok b from rfl, ok_bind,
      show (decide (t.vsize ≤ snaps.rows)) = true by simpa using hrow, require_true, ok_bind, e1, ok_bind, e2,
      ok_bind]
    simp only [bind_assoc, pure_bind] at e3 ⊢
    rw [e3]; rfl
  · intro i hi x hx hs y junk hy
    obtain ⟨y', g1, g2, g3⟩ := Eqp.mult_spec (f := { f with dnfi := d, fnfi := fi, bfnfi := bd }) hok
      (fun hp => by rw [show _ = f.precompute from rfl, hpre] at hp; cases hp) hx hy junk
    refine ⟨y', g1, g2, fun c hc => ?_⟩
    rw [g3 c hc]
    unfold formVec
    have hc' : c < b.w := by rw [hh]; exact hc
    generalize entries f = l at hall
    generalize entries { f with dnfi := d, fnfi := fi, bfnfi := bd } = l' at hall
    induction hall with
    | nil => simp
    | @cons e e' l l' hr _ ih =>
      obtain ⟨q1, q2, -, q4⟩ := hr
      simp only [List.map_cons, List.sum_cons]
      have := q4 i hi x hs c hc'
      rw [← q1, ← q2] at this ⊢
      rw [show ∀ a b c d : R, a + b - (c + d) = (a - c) + (b - d) from fun a b c d => by ring]
      refine (abs_add_le _ _).trans ?_
      exact add_le_add this ih

/-! ## The hypotheses can be met -/

omit [IsStrictOrderedRing R] in
/-- There are solvers that find weights within the bounds whenever there are any. -/
theorem exists_solver : ∃ solve : List (CMat R) → List R → List R → List (List R),
    Solves solve ∧ OneWeightPerRow solve := by
  classical
  refine ⟨fun gts lb ub => if h : ∃ sols, Fits gts lb ub sols then h.choose else
    gts.map fun g => List.replicate g.rows 0, fun gts lb ub h => ?_, fun gts lb ub => ?_⟩
  · dsimp only; rw [dif_pos h]; exact h.choose_spec
  · dsimp only
    split
    · rename_i h; exact h.choose_spec.lengths
    · rw [List.map_map]
      exact List.map_congr_left fun g _ => by simp

omit [LinearOrder R] [IsStrictOrderedRing R] in
/-- The convection integrators are linear in the weight, and their vectors and matrices have the
sizes required, on vector-valued elements. -/
theorem convection_trainable {pts : Nat → Nat → Nat → Convection.Pt R} {nq : Nat} {sp : Space}
    (hp : ∀ el q, Convection.Spec.PtOk (pts el el q))
    (hr : ∀ el rows, rowsOf sp .domain el = some rows → ∀ q,
      rows.length = (pts el el q).nd * (pts el el q).dim) :
    (WeightLinear sp .domain (Eqp.triInteg pts nq) ∧ VecOk sp .domain (Eqp.triInteg pts nq) ∧
      GradOk sp .domain (Eqp.triInteg pts nq)) ∧
    (WeightLinear sp .domain (Eqp.invInteg pts nq) ∧ VecOk sp .domain (Eqp.invInteg pts nq) ∧
      GradOk sp .domain (Eqp.invInteg pts nq)) := by
  refine ⟨⟨?_, ?_, ?_⟩, ⟨?_, ?_, ?_⟩⟩
  · intro el rows h q w u k hk
    rw [hr el rows h q] at hk
    show ve (Convection.triVec _ _ _) k = w * ve (Convection.triVec _ _ _) k
    rw [Convection.triVec_ve (hp el q) w u hk, Convection.triVec_ve (hp el q) 1 u hk]
    unfold Convection.triTerm Convection.Spec.wq
    ring
  · intro el rows h q w u
    rw [hr el rows h q]
    exact Convection.triVec_length (hp el q) w u
  · intro el rows h q w u
    rw [hr el rows h q]
    exact Eqp.triGrad_dims _ w u
  · intro el rows h q w u k hk
    rw [hr el rows h q] at hk
    show ve (Convection.invVec _ _ _) k = w * ve (Convection.invVec _ _ _) k
    rw [Convection.invVec_ve (hp el q) w u hk, Convection.invVec_ve (hp el q) 1 u hk]
    unfold Convection.invTerm Convection.Spec.wq
    ring
  · intro el rows h q w u
    rw [hr el rows h q]
    exact Convection.invVec_length _ w u
  · intro el rows h q w u
    rw [hr el rows h q]
    exact Eqp.invGrad_dims _ w u

/-- A quadratic integrator on entities with `n` degrees of freedom: the second point weighs twice as
much as the first. -/
def exInteg (n nq : Nat) : Integ Unit ℚ where
  rule := some nq
  vec _ _ qp w u := (List.range n).map fun k => w * (qp + 1) * (ve u k * ve u k)
  grad _ _ qp w u := LinAlg.Mat.of n n fun k l => if k = l then 2 * w * (qp + 1) * ve u k else 0
  fastVec _ _ _ _ _ y := .ok y
  fastGrad _ _ _ _ _ m := .ok m
  preFn _ _ _ _ := .error .abort

/-- Two elements, an interior face and marked boundary elements. -/
def exSpace : Space :=
  { elems := [[4, 0, 2, 1], [1, 3, 0, 2]], faces := [none, some (0, 1), some (1, 0)],
    bdrs := [(2, some 0), (1, some 1), (1, none), (2, some 1)] }

def exBasis : Mat ℚ := ⟨5, 2, [1, 0, 2, 0, 1, 0, 1, 0, 3, 1]⟩

/-- Snapshots with coordinates `(1, 1)` and `(2, 0)`. -/
def exSnaps : CMat ℚ := ⟨5, 2, true, [1, 2, 1, 0, 2, 4, 3, 0, 2, 2]⟩

/-- Two processes; a solver that gives all the weight to the first points. -/
def exSetting : Setting ℚ where
  vsize := 5
  split n := [n / 2, n - n / 2]
  tol := 1 / 100
  solve gts _ _ := gts.map fun g => (List.range g.rows).map fun r => if r % 2 = 0 then 5 else 0
  junk := 77

theorem exSpace_ok : SpaceOk exSpace 5 := by
  refine ⟨?_, ?_, ?_⟩
  · intro rows h
    simp only [exSpace, List.mem_cons, List.not_mem_nil, or_false] at h
    rcases h with rfl | rfl <;> exact ⟨by decide, by decide⟩
  · intro e1 e2 h
    simp only [exSpace, List.mem_cons, List.not_mem_nil, or_false, Option.some.injEq, Prod.mk.injEq,
      reduceCtorEq, false_or] at h
    rcases h with ⟨rfl, rfl⟩ | ⟨rfl, rfl⟩ <;> decide
  · intro a e h
    simp only [exSpace, List.mem_cons, List.not_mem_nil, or_false, Option.some.injEq, Prod.mk.injEq,
      reduceCtorEq, and_false, false_or] at h
    rcases h with ⟨_, rfl⟩ | ⟨_, rfl⟩ | ⟨_, rfl⟩ <;> decide

theorem exRows {kind : Kind} {n : Nat} (hk : (n = 8 ∧ kind = .interior) ∨ (n = 4 ∧ kind = .boundary (some [0, 1])))
    {el : Nat} {rows : List Int} (h : rowsOf exSpace kind el = some rows) : rows.length = n := by
  rcases hk with ⟨rfl, rfl⟩ | ⟨rfl, rfl⟩
  · match el, h with
    | 0, h => cases h
    | 1, h => cases h; rfl
    | 2, h => cases h; rfl
    | _ + 3, h => cases h
  · match el, h with
    | 0, h => cases h; rfl
    | 1, h => cases h; rfl
    | 2, h => cases h
    | 3, h => cases h; rfl
    | _ + 4, h => cases h

/-- The hypotheses of C47 and C48 for interior faces and for marked boundary elements. -/
theorem ex_trainable {kind : Kind} {n : Nat}
    (hk : (n = 8 ∧ kind = .interior) ∨ (n = 4 ∧ kind = .boundary (some [0, 1]))) :
    Trainable exSetting exSpace exBasis exSnaps [1, 2] kind ⟨exInteg n 2, none⟩ 2 ∧
    WeightLinear exSpace kind (exInteg n 2) ∧ GradOk exSpace kind (exInteg n 2) ∧
    ∀ i < 2, ∃ x : List ℚ, ∀ r < 5, cent exSnaps r i = liftAll exBasis x r := by
  refine ⟨⟨exSpace_ok, ?_, by unfold MatOk; decide, by decide, by unfold CMatOk; decide, by decide, rfl,
    by decide, ?_, ?_⟩, ?_, ?_, ?_⟩
  · rcases hk with ⟨-, rfl⟩ | ⟨-, rfl⟩
    · trivial
    · intro t ht
      simp only [exSpace, List.mem_cons, List.not_mem_nil, or_false] at ht
      rcases ht with rfl | rfl | rfl | rfl <;> decide
  · intro el rows h q w u
    rw [exRows hk h]
    simp [exInteg]
  · intro m
    show m / 2 + (m - m / 2 + 0) = m
    omega
  · intro el rows h q w u k hk'
    rw [exRows hk h] at hk'
    show ve (tab n _) k = w * ve (tab n _) k
    rw [ve_tab hk', ve_tab hk']
    ring
  · intro el rows h q w u
    rw [exRows hk h]
    exact ⟨rfl, rfl, LinAlg.of_ok _ _ _⟩
  · intro i hi
    match i, hi with
    | 0, _ => exact ⟨[1, 1], fun r hr => by
        match r, hr with
        | 0, _ => decide +kernel
        | 1, _ => decide +kernel
        | 2, _ => decide +kernel
        | 3, _ => decide +kernel
        | 4, _ => decide +kernel⟩
    | 1, _ => exact ⟨[2, 0], fun r hr => by
        match r, hr with
        | 0, _ => decide +kernel
        | 1, _ => decide +kernel
        | 2, _ => decide +kernel
        | 3, _ => decide +kernel
        | 4, _ => decide +kernel⟩

example : OneWeightPerRow exSetting.solve := by
  intro gts lb ub
  show (gts.map _).map _ = _
  rw [List.map_map]
  exact List.map_congr_left fun g _ => by simp

/-- The trained samples of the example: one point of each face, numbered as faces. -/
example : (trainEntry exSetting exSpace exBasis exSnaps [1, 2] .interior (⟨exInteg 8 2, none⟩ : Entry Unit ℚ)).map
      (fun e => e.samples.map (List.map fun s => (s.el, s.qp, s.qw))) =
    .ok (some [(1, 0, 5), (2, 0, 5)]) ∧
    (trainEntry exSetting exSpace exBasis exSnaps [1, 2] (.boundary (some [0, 1]))
      (⟨exInteg 4 2, none⟩ : Entry Unit ℚ)).map
      (fun e => e.samples.map (List.map fun s => (s.el, s.qp, s.qw))) =
    .ok (some [(0, 0, 5), (3, 0, 5)]) := by
  decide +kernel

/-- Samples at a weight of `1e-12` or below are dropped, larger ones kept. -/
example : (extract (P := Unit) (R := ℚ) 3 [0, 1, 0, 1 / 10 ^ 12, 2 / 10 ^ 12, 7]).map
      (List.map fun s => (s.el, s.qp, s.qw)) =
    .ok [(0, 1, 1), (1, 1, 2 / 10 ^ 12), (1, 2, 7)] := by
  decide +kernel

end Verif.Training
