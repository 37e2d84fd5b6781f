import Verif.Proofs.TrainItf
import Verif.Props.EqpItf
import Verif.Props.Snapshots

/-! # Training of hyper-reduced interface forms: C91 -/

namespace Verif.TrainItf

open Verif Verif.LinAlg Verif.LinAlg.Spec Verif.Blocks Verif.TrainItf.Spec Finset
open Verif.Ports (InterfaceInfo)
open Verif.InterfaceForm (Tr FMesh Space Port)
open Verif.InterfaceForm.Spec (dofsOf)
open Verif.Convection.Spec (project)
open Verif.Eqp (Sample)
open Verif.Eqp.Spec (restrict liftAll)
open Verif.EqpItf (Integ Form)
open Verif.EqpItf.Spec
open Verif.RomHandler.Spec (bent)
open Verif.Training (transposeMult trainIntegrator bounds cutoff samplesOf divmod_add SysOk RankOk
  extract_eq samplesOf_extracted bounds_length ve_map transposeMult_eq fit_sum full_fits sum_samples
  error_bound sum_divmod sum_map_index)
open Verif.Training.Spec (Extracted OneWeightPerRow Solves Fits)
open Verif.Snapshots (Store lookUpSnapshot lookUpPort)

variable {P R δ : Type} [Field R] [LinearOrder R]

/-- One integrator at one reference port: the loop body of `trainRefPort` up to the samples. -/
def trainOne (t : Setting R) (w : Integ P R δ → List R) (s1 s2 : Side R δ) (infos : List InterfaceInfo)
    (snap1 snap2 : CMat R) (pairs : List (Nat × Nat)) (nq : Nat) (g : Integ P R δ) :
    Outcome (List (Sample P R)) := do
  let sys ← setup s1 s2 g nq (w g) infos snap1 snap2 pairs t.split t.junk
  trainIntegrator nq t.tol t.solve sys.1 sys.2

/-- What training does to one integrator, in one piece. -/
theorem trainOne_eq {t : Setting R} {w : Integ P R δ → List R} {f : RefForm P R δ} {rp : RefPort}
    (hp : PortOk f rp) {g : Integ P R δ} {nq : Nat} (hg : IntegOk (asForm f) (asPort rp) g nq (w g))
    {snap1 snap2 : CMat R} {pairs : List (Nat × Nat)} (hs : SnapsOk f rp snap1 snap2 pairs)
    (hsp : ∀ m, (t.split m).sum = m) :
    ∃ sys, SysOk (target (asForm f) (asPort rp) g snap1 snap2 pairs nq) (w g) nq
        (numTests (asForm f) (asPort rp) * pairs.length) (t.split rp.infos.length) sys ∧
      ∀ sols, sols = t.solve (sys.map Prod.fst)
          (bounds t.tol (transposeMult (numTests (asForm f) (asPort rp) * pairs.length) sys)).1
          (bounds t.tol (transposeMult (numTests (asForm f) (asPort rp) * pairs.length) sys)).2 →
        sols.map List.length = sys.map (fun s => s.1.rows) →
        sols.flatten.length = rp.infos.length * nq ∧
        trainOne t w (sideRec f rp.c1) (sideRec f rp.c2) rp.infos snap1 snap2 pairs nq g =
          .ok (samplesOf (List.range rp.infos.length) nq sols.flatten) := by
  obtain ⟨sys, h1, h2⟩ := setup_sys hp hg hs hsp t.junk
  refine ⟨sys, h2, fun sols hsol hl => ?_⟩
  have hlen : sols.flatten.length = rp.infos.length * nq := by
    rw [List.length_flatten, hl, ← hsp rp.infos.length]
    rw [sum_map_index, h2.length, ← List.map_id (t.split _), sum_map_index, sum_mul, List.map_id]
    refine sum_congr rfl fun r hr => ?_
    obtain ⟨s, e1, -, h3, -⟩ := h2.rank r (mem_range.1 hr)
    rw [e1]
    simp [h3]
  refine ⟨hlen, ?_⟩
  unfold trainOne
  rw [h1, ok_bind]
  unfold trainIntegrator
  dsimp only
  rw [← hsol, if_pos hl, extract_eq hlen]

omit [LinearOrder R] in
/-- Sums over all rows of the system. -/
theorem sum_target {F : Form P R δ} {p : Port} {g : Integ P R δ} {snap1 snap2 : CMat R}
    {pairs : List (Nat × Nat)} {nq k i c n : Nat} {pr : Nat × Nat} (hk : pairs[k]? = some pr) (hi : i < 2)
    (hc : c < (basisOf F (sideOf p i)).w) (V : Nat → Nat → R → R) :
    ∑ r ∈ range (n * nq), V (r / nq) (r % nq)
        (target F p g snap1 snap2 pairs nq r (testCol F p k i c)) =
      ∑ e ∈ range n, ∑ q ∈ range nq,
        V e q (sidePoint F p g (field snap1 pr.1) (field snap2 pr.2) i e q 1 c) := by
  rw [← sum_divmod _ _ fun e q => V e q (sidePoint F p g (field snap1 pr.1) (field snap2 pr.2) i e q 1 c)]
  refine sum_congr rfl fun r hr => ?_
  have hnq : 0 < nq := Nat.pos_of_ne_zero (by rintro rfl; simp at hr)
  have := target_eq (F := F) (p := p) (g := g) (snap1 := snap1) (snap2 := snap2) (e := r / nq)
    (Nat.mod_lt r hnq) hk hi hc
  rw [show r / nq * nq + r % nq = r by rw [Nat.mul_comm]; exact Nat.div_add_mod r nq] at this
  rw [this]

omit [LinearOrder R] in
/-- The weight is a factor of a point's contribution. -/
theorem sidePoint_weight {F : Form P R δ} {p : Port} {g : Integ P R δ} {nq : Nat} {w : List R}
    (hg : IntegOk F p g nq w) (u1 u2 : Nat → R) {i : Nat} (hi : i < 2) (e q : Nat) (v : R) (c : Nat) :
    sidePoint F p g u1 u2 i e q v c = v * sidePoint F p g u1 u2 i e q 1 c := by
  unfold sidePoint
  cases hf : faceOf F p e with
  | none => simp
  | some t =>
    obtain ⟨t1, t2⟩ := t
    dsimp only
    unfold project
    rw [mul_sum]
    refine sum_congr rfl fun k hk => ?_
    have hk : k < (dofsAt F p t1 t2 i).length := by
      have := mem_range.1 hk
      unfold rowsOf at this
      rw [List.length_map] at this
      exact this
    rw [hg.linear e t1 t2 hf q v _ _ i k hi hk]
    ring

omit [LinearOrder R] in
theorem fullTest_eq {F : Form P R δ} {p : Port} {g : Integ P R δ} {snap1 snap2 : CMat R}
    {pairs : List (Nat × Nat)} {nq k i c : Nat} {pr : Nat × Nat} {w : List R} (hg : IntegOk F p g nq w)
    (hk : pairs[k]? = some pr) (hi : i < 2) (hc : c < (basisOf F (sideOf p i)).w) {sizes : List Nat}
    {sys : List (CMat R × List R)}
    (hs : SysOk (target F p g snap1 snap2 pairs nq) w nq (numTests F p * pairs.length) sizes sys)
    (hsum : sizes.sum = p.infos.length) :
    ve (transposeMult (numTests F p * pairs.length) sys) (testCol F p k i c) =
      fullTest F p g nq w (field snap1 pr.1) (field snap2 pr.2) i c := by
  have hlt := (testCol_lt (F := F) (p := p) (List.getElem?_eq_some_iff.1 hk).1 hi hc).1
  rw [transposeMult_eq hs hlt, hsum, sum_target hk hi hc (fun _ q v => v * ve w q)]
  unfold fullTest
  refine sum_congr rfl fun e _ => sum_congr rfl fun q _ => ?_
  rw [sidePoint_weight hg _ _ hi e q (ve w q), mul_comm]

/-- The loop over the integrators stores what is trained for each of them. -/
theorem trainRefPort_store {t : Setting R} {w : Integ P R δ → List R} {f : RefForm P R δ} {p : Nat}
    {rp : RefPort} (hrp : f.ports[p]? = some rp) (hp : PortOk f rp) (hslots : Slots f)
    {snap1 snap2 : CMat R} {pairs : List (Nat × Nat)} (hs : SnapsOk f rp snap1 snap2 pairs)
    (hint : ∀ g ∈ f.fnfi, ∃ g' nq, g = some g' ∧ g'.rule = some nq)
    {Q : Integ P R δ → Nat → List (Sample P R) → Prop}
    (h : ∀ (it : Nat) g nq, f.fnfi[it]? = some (some g) → g.rule = some nq → ∃ v,
      trainOne t w (sideRec f rp.c1) (sideRec f rp.c2) rp.infos snap1 snap2 pairs nq g = .ok v ∧ Q g nq v) :
    ∃ f' val, trainRefPort t w snap1 snap2 pairs p f = .ok f' ∧ Stored f f' p val ∧
      ∀ (it : Nat) g nq, f.fnfi[it]? = some (some g) → g.rule = some nq → Q g nq (val it) := by
  classical
  have hplt := (List.getElem?_eq_some_iff.1 hrp).1
  have hex : ∀ it : Nat, ∃ v, ∀ g nq, f.fnfi[it]? = some (some g) → g.rule = some nq →
      trainOne t w (sideRec f rp.c1) (sideRec f rp.c2) rp.infos snap1 snap2 pairs nq g = .ok v ∧ Q g nq v := by
    intro it
    by_cases hh : ∃ g nq, f.fnfi[it]? = some (some g) ∧ g.rule = some nq
    · obtain ⟨g, nq, h1, h2⟩ := hh
      obtain ⟨v, h3⟩ := h it g nq h1 h2
      refine ⟨v, fun g' nq' h1' h2' => ?_⟩
      rw [h1] at h1'
      cases h1'
      rw [h2] at h2'
      cases h2'
      exact h3
    · exact ⟨[], fun g nq h1 h2 => absurd ⟨g, nq, h1, h2⟩ hh⟩
  choose val hval using hex
  unfold trainRefPort
  rw [rd_eq_ok.2 hrp, ok_bind, side_eq hp.comp1, ok_bind, side_eq hp.comp2, ok_bind, hs.dist1, hs.dist2,
    Bool.and_self, require_true, ok_bind, show decide ((sideRec f rp.c1).space.vsize ≤ snap1.rows) = true from
      decide_eq_true hs.rows1, require_true, ok_bind,
    show decide ((sideRec f rp.c2).space.vsize ≤ snap2.rows) = true from decide_eq_true hs.rows2,
    require_true, ok_bind]
  obtain ⟨f', e, ⟨refs, views, rfl⟩, h2, h3, h4⟩ := loop_total (n := f.fnfi.length)
    (body := fun it fx => do
      let g ← rd fx.fnfi it
      let g ← deref g
      let nq ← nonNull g.rule
      let sys ← setup (sideRec f rp.c1) (sideRec f rp.c2) g nq (w g) rp.infos snap1 snap2 pairs t.split t.junk
      let samples ← trainIntegrator nq t.tol t.solve sys.1 sys.2
      fx.update it p samples)
    (fun n f' => (∃ refs views, f' = { f with refs := refs, views := views }) ∧ Slots f' ∧
      (∀ it q : Nat, q < f.ports.length → f'.refs[q + it * f.ports.length]? =
        if it < n ∧ q = p then some (some (val it)) else f.refs[q + it * f.ports.length]?) ∧
      ∀ (it k : Nat) ty, f.types[k]? = some ty → f'.views[k + it * f.types.length]? =
        if it < n ∧ ty = (p : Int) then some (some (val it)) else f.views[k + it * f.types.length]?)
    (s := f) ⟨⟨f.refs, f.views, rfl⟩, hslots, fun it q _ => by simp, fun it k ty _ => by simp⟩ (by
      rintro n f' hn ⟨⟨refs, views, rfl⟩, h2, h3, h4⟩
      obtain ⟨g, nq, hg, hr⟩ := hint _ (List.getElem_mem hn)
      have hgn : f.fnfi[n]? = some (some g) := by rw [List.getElem?_eq_getElem hn, hg]
      obtain ⟨hv, -⟩ := hval n g nq hgn hr
      obtain ⟨refs', views', e1, l1, l2, u1, u2⟩ := update_eq h2 (i := n) (rp := p) hn hplt (val n)
      refine ⟨_, ?_, ⟨refs', views', rfl⟩, ?_, ?_, ?_⟩
      · show (do
          let g ← rd f.fnfi n
          let g ← deref g
          let nq ← nonNull g.rule
          let sys ← setup (sideRec f rp.c1) (sideRec f rp.c2) g nq (w g) rp.infos snap1 snap2 pairs t.split t.junk
          let samples ← trainIntegrator nq t.tol t.solve sys.1 sys.2
          RefForm.update { f with refs := refs, views := views } n p samples) = _
        rw [rd_eq_ok.2 hgn, ok_bind, show deref (some g) = .ok g from rfl, ok_bind, hr,
          show nonNull (some nq) = .ok nq from rfl, ok_bind]
        unfold trainOne at hv
        rw [← bind_assoc, hv, ok_bind, e1]
      · constructor
        · show refs'.length = _
          rw [l1]; exact h2.refs
        · show views'.length = _
          rw [l2]; exact h2.views
      · intro it q hq
        show refs'[q + it * f.ports.length]? = _
        rw [u1 it q hq]
        by_cases hc : it = n ∧ q = p
        · obtain ⟨rfl, rfl⟩ := hc
          rw [if_pos ⟨rfl, rfl⟩, if_pos ⟨by omega, rfl⟩]
        · rw [if_neg hc]
          refine (h3 it q hq).trans ?_
          by_cases hc' : it < n ∧ q = p
          · rw [if_pos hc', if_pos ⟨by omega, hc'.2⟩]
          · rw [if_neg hc', if_neg]
            rintro ⟨g1, g2⟩
            have : it ≠ n := fun h => hc ⟨h, g2⟩
            exact hc' ⟨by omega, g2⟩
      · intro it k ty hk
        show views'[k + it * f.types.length]? = _
        rw [u2 it k ty hk]
        by_cases hc : it = n ∧ ty = (p : Int)
        · obtain ⟨rfl, rfl⟩ := hc
          rw [if_pos ⟨rfl, rfl⟩, if_pos ⟨by omega, rfl⟩]
        · rw [if_neg hc]
          refine (h4 it k ty hk).trans ?_
          by_cases hc' : it < n ∧ ty = (p : Int)
          · rw [if_pos hc', if_pos ⟨by omega, hc'.2⟩]
          · rw [if_neg hc', if_neg]
            rintro ⟨g1, g2⟩
            have : it ≠ n := fun h => hc ⟨h, g2⟩
            exact hc' ⟨by omega, g2⟩)
  refine ⟨_, val, e, ⟨⟨rfl, rfl, rfl, rfl, rfl, rfl⟩, h2, fun it q hit hq => ?_, fun it k ty hit hk => ?_⟩,
    fun it g nq h1 h2 => (hval it g nq h1 h2).2⟩
  · rw [h3 it q hq]; simp only [hit, true_and]
  · rw [h4 it k ty hk]; simp only [hit, true_and]

/-- **C91.** Training a reference port sets, for each integrator, exactly the samples whose weight in
the solution of the nonnegative least squares problem exceeds the threshold: pairs of an interface of
the port and a quadrature point, without repetition and in increasing order.  The rows of the problem
are the points of all interfaces, its columns the tests with all basis vectors of both sides at all
pairs of snapshots; the bounds enclose the full quadrature.  The samples are those seen by all ports of
that type; the samples of other reference ports and ports are untouched. -/
theorem train_port_samples {t : Setting R} {w : Integ P R δ → List R} {f : RefForm P R δ} {p : Nat}
    {rp : RefPort} (hrp : f.ports[p]? = some rp) (hp : PortOk f rp) (hslots : Slots f)
    {snap1 snap2 : CMat R} {pairs : List (Nat × Nat)} (hs : SnapsOk f rp snap1 snap2 pairs)
    (hint : ∀ g ∈ f.fnfi, ∃ g' nq, g = some g' ∧ IntegOk (asForm f) (asPort rp) g' nq (w g'))
    (hsp : ∀ m, (t.split m).sum = m) (hl : OneWeightPerRow t.solve) :
    ∃ f' val, trainRefPort t w snap1 snap2 pairs p f = .ok f' ∧ Stored f f' p val ∧
      ∀ (it : Nat) g nq, f.fnfi[it]? = some (some g) → g.rule = some nq →
        SamplesFrom t w f rp snap1 snap2 pairs g nq (val it) := by
  refine trainRefPort_store hrp hp hslots hs (fun g hg => ?_) fun it g nq hg hr => ?_
  · obtain ⟨g', nq, h1, h2⟩ := hint g hg
    exact ⟨g', nq, h1, h2.rule⟩
  obtain ⟨g', nq', h1, h2⟩ := hint _ (List.mem_of_getElem? hg)
  cases h1
  have := h2.rule
  rw [hr] at this
  cases this
  obtain ⟨sys, h3, h4⟩ := trainOne_eq hp h2 hs hsp
  obtain ⟨h5, h6⟩ := h4 _ rfl (by rw [hl, List.map_map]; rfl)
  have hlen : (transposeMult (numTests (asForm f) (asPort rp) * pairs.length) sys).length =
      numTests (asForm f) (asPort rp) * pairs.length := by
    unfold transposeMult; simp
  refine ⟨_, h6, _, _, _, ?_, by rw [(bounds_length _ _).1, hlen], by rw [(bounds_length _ _).2, hlen], ?_,
    samplesOf_extracted List.pairwise_lt_range (by rw [List.length_range]; exact h5)⟩
  · have hr : ∀ r gt, (sys.map Prod.fst)[r]? = some gt → ∃ s, sys[r]? = some s ∧ gt = s.1 ∧
        r < (t.split rp.infos.length).length ∧
        RankOk (target (asForm f) (asPort rp) g snap1 snap2 pairs nq) (w g) nq
          (numTests (asForm f) (asPort rp) * pairs.length) ((t.split rp.infos.length).take r).sum
          ((t.split rp.infos.length)[r]?.getD 0) s := by
      intro r gt hg
      rw [List.getElem?_map, Option.map_eq_some_iff] at hg
      obtain ⟨s, e1, e2⟩ := hg
      have hlt : r < (t.split rp.infos.length).length := by
        rw [← h3.length]; exact (List.getElem?_eq_some_iff.1 e1).1
      obtain ⟨s', e3, h5⟩ := h3.rank r hlt
      rw [e1] at e3
      cases e3
      exact ⟨s, e1, e2.symm, hlt, h5⟩
    constructor
    · apply List.ext_getElem?
      intro r
      by_cases hlt : r < (t.split rp.infos.length).length
      · obtain ⟨s, e1, h5⟩ := h3.rank r hlt
        rw [List.getElem?_map, List.getElem?_map, e1, List.getElem?_map, List.getElem?_eq_getElem hlt]
        have := h5.2.1
        rw [List.getElem?_eq_getElem hlt] at this
        simp only [Option.map_some, Option.getD_some] at this ⊢
        rw [this]
      · rw [List.getElem?_eq_none (by simp [h3.length]; omega), List.getElem?_eq_none (by simp; omega)]
    · intro gt hg
      obtain ⟨r, hg⟩ := List.mem_iff_getElem?.1 hg
      obtain ⟨s, -, rfl, -, h5⟩ := hr r gt hg
      exact h5.2.2.1
    · intro r gt hg e q k pr i c h5 hq hk hi hc
      obtain ⟨s, e1, rfl, hlt, r1, r2, r3, r4, -⟩ := hr r gt hg
      rw [r2] at h5
      rw [r4 _ _ h5 (testCol_lt (List.getElem?_eq_some_iff.1 hk).1 hi hc).1, ← Nat.add_assoc, ← Nat.add_mul]
      exact target_eq hq hk hi hc
  · rintro k pr i c hk hi hc full rfl
    have hlt : testCol (asForm f) (asPort rp) k i c <
        (transposeMult (numTests (asForm f) (asPort rp) * pairs.length) sys).length := by
      rw [hlen]; exact (testCol_lt (List.getElem?_eq_some_iff.1 hk).1 hi hc).1
    unfold bounds
    dsimp only
    rw [ve_map _ _ hlt, ve_map _ _ hlt, fullTest_eq h2 hk hi hc h3 (hsp _)]
    exact ⟨rfl, rfl⟩

variable [IsStrictOrderedRing R]

/-- **C91.** After training a reference port, with a solver that finds nonnegative weights within the
bounds if there are any: at every pair of snapshots recorded for the port, the sum over the samples
agrees, for every basis vector of both sides, with the full quadrature over all interfaces, up to the
relative tolerance and up to `1e-12` times the absolute contributions of the points. -/
theorem train_port_error {t : Setting R} {w : Integ P R δ → List R} {f : RefForm P R δ} {p : Nat}
    {rp : RefPort} (hrp : f.ports[p]? = some rp) (hp : PortOk f rp) (hslots : Slots f)
    {snap1 snap2 : CMat R} {pairs : List (Nat × Nat)} (hs : SnapsOk f rp snap1 snap2 pairs)
    (hint : ∀ g ∈ f.fnfi, ∃ g' nq, g = some g' ∧ IntegOk (asForm f) (asPort rp) g' nq (w g') ∧
      ∀ q < nq, 0 ≤ ve (w g') q)
    (hsp : ∀ m, (t.split m).sum = m) (hsol : Solves t.solve) (ht : 0 ≤ t.tol) :
    ∃ f' val, trainRefPort t w snap1 snap2 pairs p f = .ok f' ∧ Stored f f' p val ∧
      ∀ (it : Nat) g nq, f.fnfi[it]? = some (some g) → g.rule = some nq →
        (∀ s ∈ val it, ∃ e q : Nat, s.el = e ∧ e < rp.infos.length ∧ s.qp = q ∧ q < nq ∧ cutoff < s.qw) ∧
        ∀ pr ∈ pairs, ErrorAt t w (asForm f) (asPort rp) g nq (field snap1 pr.1) (field snap2 pr.2)
          (val it) := by
  refine trainRefPort_store (Q := fun g nq v =>
    (∀ s ∈ v, ∃ e q : Nat, s.el = e ∧ e < rp.infos.length ∧ s.qp = q ∧ q < nq ∧ cutoff < s.qw) ∧
    ∀ pr ∈ pairs, ErrorAt t w (asForm f) (asPort rp) g nq (field snap1 pr.1) (field snap2 pr.2) v)
    hrp hp hslots hs (fun g hg => ?_) fun it g nq hg hr => ?_
  · obtain ⟨g', nq, h1, h2, -⟩ := hint g hg
    exact ⟨g', nq, h1, h2.rule⟩
  obtain ⟨g', nq', h1, h2, hw⟩ := hint _ (List.mem_of_getElem? hg)
  cases h1
  have := h2.rule
  rw [hr] at this
  cases this
  obtain ⟨sys, h3, h4⟩ := trainOne_eq hp h2 hs hsp
  have hfit := hsol _ _ _ ⟨_, full_fits h3 hw ht⟩
  have hl := hfit.lengths
  rw [List.map_map] at hl
  obtain ⟨h5, h6⟩ := h4 _ rfl hl
  generalize t.solve _ _ _ = sols at *
  refine ⟨_, h6, ?_, ?_⟩
  · intro s hs
    obtain ⟨e, q, el, hq, g1, -, g3, g4, g5, -⟩ :=
      ((samplesOf_extracted List.pairwise_lt_range (by rw [List.length_range]; exact h5)).mem s).1 hs
    have hlt := (List.getElem?_eq_some_iff.1 g1).1
    rw [List.length_range] at hlt
    rw [List.getElem?_range hlt] at g1
    cases g1
    exact ⟨e, q, g4, hlt, g5, hq, g3⟩
  intro pr hpr i c hi hc
  obtain ⟨k, hk⟩ := List.mem_iff_getElem?.1 hpr
  have hcols := (testCol_lt (F := asForm f) (p := asPort rp) (List.getElem?_eq_some_iff.1 hk).1 hi hc).1
  have hlen : (transposeMult (numTests (asForm f) (asPort rp) * pairs.length) sys).length =
      numTests (asForm f) (asPort rp) * pairs.length := by
    unfold transposeMult; simp
  have lo := hfit.lower _ (by rw [(bounds_length _ _).1, hlen]; exact hcols)
  have up := hfit.upper _ (by rw [(bounds_length _ _).2, hlen]; exact hcols)
  rw [fit_sum h3 hl hcols, hsp] at lo up
  unfold bounds at lo up
  rw [ve_map _ _ (by rw [hlen]; exact hcols), transposeMult_eq h3 hcols, hsp] at lo up
  have hfull : fullTest (asForm f) (asPort rp) g nq (w g) (field snap1 pr.1) (field snap2 pr.2) i c =
      ∑ r ∈ range (rp.infos.length * nq), target (asForm f) (asPort rp) g snap1 snap2 pairs nq r
        (testCol (asForm f) (asPort rp) k i c) * ve (w g) (r % nq) := by
    rw [sum_target hk hi hc (fun _ q v => v * ve (w g) q)]
    unfold fullTest
    refine sum_congr rfl fun e _ => sum_congr rfl fun q _ => ?_
    rw [sidePoint_weight h2 _ _ hi e q (ve (w g) q), mul_comm]
  have habs : ∑ e ∈ range (asPort rp).infos.length, ∑ q ∈ range nq,
      |sidePoint (asForm f) (asPort rp) g (field snap1 pr.1) (field snap2 pr.2) i e q 1 c| =
      ∑ r ∈ range (rp.infos.length * nq), |target (asForm f) (asPort rp) g snap1 snap2 pairs nq r
        (testCol (asForm f) (asPort rp) k i c)| := (sum_target hk hi hc (fun _ _ v => |v|)).symm
  have hsamp : ((samplesOf (P := P) (List.range rp.infos.length) nq sols.flatten).map fun s =>
      sidePoint (asForm f) (asPort rp) g (field snap1 pr.1) (field snap2 pr.2) i s.el.toNat s.qp.toNat
        s.qw c).sum =
      ∑ r ∈ range (rp.infos.length * nq), if cutoff < ve sols.flatten r then ve sols.flatten r *
        target (asForm f) (asPort rp) g snap1 snap2 pairs nq r (testCol (asForm f) (asPort rp) k i c)
        else 0 := by
    rw [sum_samples, h5]
    refine sum_congr rfl fun r hr => ?_
    split
    · have hr := mem_range.1 hr
      have hd : r / nq < rp.infos.length := Nat.div_lt_of_lt_mul (by rw [Nat.mul_comm]; exact hr)
      have hnq : 0 < nq := Nat.pos_of_ne_zero (by rintro rfl; simp at hr)
      have := target_eq (F := asForm f) (p := asPort rp) (g := g) (snap1 := snap1) (snap2 := snap2)
        (e := r / nq) (Nat.mod_lt r hnq) hk hi hc
      rw [show r / nq * nq + r % nq = r by rw [Nat.mul_comm]; exact Nat.div_add_mod r nq] at this
      rw [this, List.getElem?_range hd]
      simp only [Option.getD_some, Int.toNat_natCast]
      exact sidePoint_weight h2 _ _ hi _ _ _ _
    · rfl
  unfold allowed
  rw [habs, hfull, hsamp]
  refine error_bound (s := ve sols.flatten) (abs_le.2 ⟨by linarith, by linarith⟩) (fun k hk => ?_) ?_
  · have hk : k < sols.flatten.length := by rw [h5]; exact hk
    unfold ve
    rw [List.getElem?_eq_getElem hk]
    obtain ⟨l, hl, hm⟩ := List.mem_flatten.1 (List.getElem_mem hk)
    exact hfit.nonneg l hl _ hm
  · unfold cutoff; positivity

end Verif.TrainItf
