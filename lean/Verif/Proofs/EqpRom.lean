import Verif.Spec.EqpRom
import Verif.Props.TensorRom
import Verif.Props.BlockMat
import Verif.Props.Eqp
import Verif.Props.EqpItf

/-! Proofs about the hyper-reduced Navier-Stokes operator. -/

namespace Verif.EqpRom

open Verif Verif.LinAlg Verif.LinAlg.Spec Verif.Convection Verif.EqpRom.Spec Finset
open Verif.Blocks (Order getBlockIndex)
open Verif.Blocks.Spec (IsOffsets)
open Verif.InterfaceForm (MatArr)
open Verif.InterfaceForm.Spec (MatsOk mget)
open Verif.TensorRom (velBlock_inj loop_acc_or Grown addStored_spec addSubStored_spec Missing sum_block sum_inBlock)
open Verif.TensorRom.Spec (velBlock start InBlock linAt Stored)
open Verif.Sampling (partialSum)

variable {R : Type} [CommRing R]

theorem tab_take_sum (n : Nat) (w : Nat → Nat) {m : Nat} (h : m ≤ n) :
    ((tab n w).take m).sum = ∑ i ∈ range m, w i := by
  induction m with
  | zero => simp
  | succ m ih =>
    rw [Blocks.take_sum_succ (tab n w) (s := w m) (by rw [getElem?_tab, if_pos (by omega)]), ih (by omega),
      sum_range_succ]

theorem tab_sum (n : Nat) (w : Nat → Nat) : (tab n w).sum = ∑ i ∈ range n, w i := by
  rw [← tab_take_sum n w le_rfl, List.take_of_length_le (by simp)]

omit [CommRing R] in
/-- The base class does not look at the tensors. -/
theorem construct_hs (linear : Sp R) (offs : List Nat) (numVar numSub : Nat) (separate : Bool) (ord : Order)
    (hs hs' : List (Option (Tensor R))) {r : TensorRom.Rom R}
    (h : TensorRom.construct linear offs numVar numSub separate ord hs = .ok r) :
    TensorRom.construct linear offs numVar numSub separate ord hs' =
      .ok ⟨r.linear, r.offs, r.midxs, r.idxs, hs'⟩ := by
  unfold TensorRom.construct at *
  obtain ⟨u, e1, h⟩ := bind_eq_ok.1 h
  obtain ⟨st, e2, h⟩ := bind_eq_ok.1 h
  cases h
  rw [e1, ok_bind, e2, ok_bind]
  rfl

/-- A consistent operator. -/
structure Wired (r : Rom R) (S : System R) : Prop where
  offs : IsOffsets r.offs S.z
  h : r.linear.h = S.z.sum
  w : r.linear.w = S.z.sum
  midxs : r.midxs = tab S.n (fun m => (S.blk m : Int))
  idxs : r.idxs = tab S.n (fun m => tab (S.w m) (fun k => ((start S.z (S.blk m) + k : Nat) : Int)))
  size : ∀ m, m < S.n → S.z[S.blk m]? = some (S.w m)
  inj : ∀ m m', S.blk m = S.blk m' → m = m'
  num : r.hs.length = S.n
  hs : ∀ m, m < S.n → ∃ d, r.hs[m]? = some (some d) ∧ DomOk d (S.w m) (S.F m) (S.G m)
  itf : ∀ i, r.itf = some i → ItfOk i S.n S.w S.I S.IG
  whole : r.separate = false → S.z = tab S.n S.w ∧ ∀ m, S.blk m = m

theorem velOffsets_ok {offs z : List Nat} {numVar n : Nat} (ho : IsOffsets offs z)
    (hl : n * numVar ≤ z.length) (hv : 0 < numVar) :
    ∃ u, velOffsets offs numVar n true = .ok u ∧
      IsOffsets u (tab n fun k => z[k * numVar]?.getD 0) := by
  unfold velOffsets
  rw [if_pos rfl]
  have e := loop_spec (n := n) (body := fun k acc => (do
      let o1 ← rd offs (1 + k * numVar)
      let o ← rd offs (k * numVar)
      return acc ++ [o1 - o] : Outcome (List Nat)))
    (fun k => 0 :: tab k fun k => z[k * numVar]?.getD 0) (s := [0]) rfl (by
      intro k hk
      have hkz : k * numVar < z.length := by
        have : (k + 1) * numVar ≤ n * numVar := Nat.mul_le_mul_right _ hk
        rw [Nat.add_mul] at this
        omega
      obtain ⟨x, h1, h2⟩ := ho.2.2 (k * numVar) _ (List.getElem?_eq_getElem hkz)
      rw [Nat.add_comm 1, rd_eq_ok.2 h2, ok_bind, rd_eq_ok.2 h1, ok_bind]
      simp only [tab, List.range_succ, List.map_append, List.map_cons, List.map_nil, List.cons_append]
      rw [List.getElem?_eq_getElem hkz, Nat.add_sub_cancel_left]; rfl)
  rw [e, ok_bind]
  exact ⟨_, rfl, Blocks.isOffsets_partialSum _⟩

theorem wired {S : System R} {linear : Sp R} {offs : List Nat} {numVar : Nat} {separate : Bool} {ord : Order}
    {hs : List (Option (Dom R))} {itf : Option (Itf R)} (h : S.Ok linear offs numVar separate ord hs itf) :
    ∃ r, construct linear offs numVar separate ord hs itf = .ok r ∧ r.linear = linear ∧ r.itf = itf ∧
      Wired r S ∧ (separate = false ∨ ord = .domain → IsOffsets r.uoffs (tab S.n S.w)) := by
  have hblk := h.blk
  obtain ⟨r, e, e1, e2, hw⟩ := TensorRom.construct_spec (linear := linear) (numVar := numVar) (numSub := S.n)
    (separate := separate) (ord := ord)
    (T := fun m => ⟨S.w m, S.w m, S.w m, List.replicate (S.w m * S.w m * S.w m) (0 : R)⟩)
    (hs := tab S.n fun m => some ⟨S.w m, S.w m, S.w m, List.replicate (S.w m * S.w m * S.w m) (0 : R)⟩)
    h.offs (by
      rw [h.offs.1, h.len]
      cases separate
      · right; simp
      · left; simp [Nat.mul_comm]) h.h h.w (fun m hm => by rw [← hblk]; exact h.size m hm) (fun _ _ => rfl)
    (fun _ _ => rfl) (fun _ _ => by unfold TensorOk; simp) (fun m hm => by rw [getElem?_tab, if_pos hm])
  rw [← hblk] at hw
  have e' := construct_hs _ _ _ _ _ _ _ [] e
  have hwhole : separate = false → S.z = tab S.n S.w ∧ ∀ m, S.blk m = m := by
    rintro rfl
    have hb : ∀ m, S.blk m = m := fun m => by rw [hblk]; cases ord <;> rfl
    refine ⟨?_, hb⟩
    have hl := h.len
    simp only [Bool.false_eq_true, if_false, Nat.mul_one] at hl
    apply List.ext_getElem?
    intro i
    rw [getElem?_tab]
    by_cases hi : i < S.n
    · rw [if_pos hi]; have := h.size i hi; rwa [hb] at this
    · rw [if_neg hi, List.getElem?_eq_none (by omega)]
  obtain ⟨u, eu, hu⟩ : ∃ u, velOffsets offs numVar S.n separate = .ok u ∧
      (separate = false ∨ ord = .domain → IsOffsets u (tab S.n S.w)) := by
    cases separate with
    | false =>
      refine ⟨offs, rfl, fun _ => ?_⟩
      rw [← (hwhole rfl).1]; exact h.offs
    | true =>
      obtain ⟨u, eu, hu⟩ := velOffsets_ok (numVar := numVar) (n := S.n) h.offs (by rw [h.len]; simp) h.vars
      refine ⟨u, eu, ?_⟩
      rintro (hc | rfl)
      · cases hc
      · have : (tab S.n fun k => S.z[k * numVar]?.getD 0) = tab S.n S.w := by
          refine List.map_congr_left fun m hm => ?_
          have := h.size m (List.mem_range.1 hm)
          rw [hblk] at this
          rw [show m * numVar = velBlock true .domain numVar m from rfl, this]; rfl
        rw [← this]; exact hu
  refine ⟨⟨linear, offs, r.midxs, r.idxs, hs, itf, separate, u⟩, ?_, rfl, rfl, ?_, hu⟩
  · unfold construct
    rw [h.num, e', ok_bind, eu, ok_bind]; rfl
  · exact ⟨h.offs, h.h, h.w, hw.midxs, hw.idxs, h.size, fun m m' hm => by
      rw [hblk] at hm; exact velBlock_inj h.vars hm, h.num, h.hs, h.itf, hwhole⟩

/-! ## Velocity views -/

omit [CommRing R] in
theorem offs_at {offs z : List Nat} (ho : IsOffsets offs z) {b s : Nat} (hb : z[b]? = some s) :
    rdI offs (b : Int) = .ok (start z b) ∧ rdI offs ((b : Int) + 1) = .ok (start z b + s) := by
  have hlt := (List.getElem?_eq_some_iff.1 hb).1
  constructor
  · rw [TensorRom.rdI_nat]; exact rd_eq_ok.2 (ho.value (by omega))
  · rw [show (b : Int) + 1 = ((b + 1 : Nat) : Int) by push_cast; rfl, TensorRom.rdI_nat,
      rd_eq_ok.2 (ho.value (i := b + 1) (by omega)), Blocks.take_sum_succ _ hb]; rfl

theorem velSeg_ok {r : Rom R} {S : System R} (h : Wired r S) {x : List R} (hx : x.length = S.z.sum) {m : Nat}
    (hm : m < S.n) : velSeg r x m = .ok (start S.z (S.blk m), S.vel (ve x) m) := by
  unfold velSeg
  obtain ⟨h1, h2⟩ := offs_at h.offs (h.size m hm)
  have hb := block_bound S.z (h.size m hm)
  rw [h.midxs, rd_tab hm, ok_bind, h1, ok_bind, h2, ok_bind, Nat.add_sub_cancel_left,
    getSeg_eq (by rw [hx]; exact hb), ok_bind]
  rfl

omit [CommRing R] in
theorem vel_length (S : System R) (x : Nat → R) (m : Nat) : (S.vel x m).length = S.w m := by
  simp [System.vel]

omit [CommRing R] in
theorem vels_take_length (S : System R) (x : Nat → R) (j : Nat) :
    ((List.range j).flatMap (S.vel x)).length = ∑ m ∈ range j, S.w m := by
  induction j with
  | zero => rfl
  | succ j ih => rw [List.range_succ, List.flatMap_append, List.length_append, ih, sum_range_succ]; simp [vel_length]

omit [CommRing R] in
theorem vels_length (S : System R) (x : Nat → R) : (S.vels x).length = ∑ m ∈ range S.n, S.w m :=
  vels_take_length S x S.n

theorem addFrom_ok {y v : List R} {o n p : Nat} (h1 : o + n ≤ y.length) (h2 : p + n ≤ v.length) :
    ∃ y', addFrom y o n v p = .ok y' ∧ y'.length = y.length ∧
      ∀ t, ve y' t = ve y t + if o ≤ t ∧ t < o + n then ve v (p + (t - o)) else 0 := by
  unfold addFrom
  obtain ⟨y', e, l, hv⟩ := loop_total (n := n) (body := fun i y => (do
      let a ← rd y (o + i)
      let b ← rd v (p + i)
      wr y (o + i) (a + b) : Outcome (List R)))
    (fun j u => u.length = y.length ∧
      ∀ t, ve u t = ve y t + if o ≤ t ∧ t < o + j then ve v (p + (t - o)) else 0) (s := y)
    ⟨rfl, fun t => by rw [if_neg (by omega), add_zero]⟩ (by
      rintro j u hj ⟨hl, hu⟩
      rw [rd_of_lt (by omega), ok_bind, rd_of_lt (by omega), ok_bind, wr_of_lt (by omega)]
      refine ⟨_, rfl, by rw [List.length_set, hl], fun t => ?_⟩
      by_cases ht : t = o + j
      · subst ht
        rw [if_pos (by omega), Nat.add_sub_cancel_left]
        unfold ve
        rw [List.getElem?_set_self (by omega), List.getElem?_eq_getElem (l := v) (by omega)]
        have := hu (o + j)
        rw [if_neg (by omega), add_zero] at this
        unfold ve at this
        rw [List.getElem?_eq_getElem (by omega)] at this
        simp only [Option.getD_some] at *
        rw [this]
      · have : ve (u.set (o + j) (u[o + j] + v[p + j])) t = ve u t := by
          unfold ve; rw [List.getElem?_set_ne (by omega)]
        rw [this, hu t]
        by_cases hin : o ≤ t ∧ t < o + j
        · rw [if_pos hin, if_pos (by omega)]
        · rw [if_neg hin, if_neg (by omega)])
  exact ⟨y', e, l, hv⟩

omit [CommRing R] in
/-- The offsets of the collected velocities. -/
theorem uoffs_at {r : Rom R} {S : System R} (hu : IsOffsets r.uoffs (tab S.n S.w)) {m : Nat} (hm : m ≤ S.n) :
    rd r.uoffs m = .ok (∑ i ∈ range m, S.w i) := by
  rw [rd_eq_ok, hu.value (by simpa using hm), tab_take_sum _ _ hm]

theorem getVel_ok {r : Rom R} {S : System R} (h : Wired r S) (hu : IsOffsets r.uoffs (tab S.n S.w))
    {x u : List R} (hx : x.length = S.z.sum) (hl : u.length = ∑ m ∈ range S.n, S.w m) :
    getVel r x u = .ok (S.vels (ve x)) := by
  unfold getVel
  cases hs : r.separate with
  | false =>
    obtain ⟨hz, hb⟩ := h.whole hs
    show Except.ok x = _
    congr 1
    have key : ∀ j, j ≤ S.n → x.take (∑ m ∈ range j, S.w m) = (List.range j).flatMap (S.vel (ve x)) := by
      intro j
      induction j with
      | zero => intro _; simp
      | succ j ih =>
        intro hj
        have hbd := block_bound S.z (h.size j (by omega))
        rw [hb] at hbd
        have e := velSeg_ok h hx (show j < S.n by omega)
        rw [sum_range_succ, List.take_add, ih (by omega), List.range_succ, List.flatMap_append]
        congr 1
        have hst : start S.z (S.blk j) = ∑ m ∈ range j, S.w m := by
          unfold start; rw [hb, hz, tab_take_sum _ _ (by omega)]
        rw [hz, tab_take_sum _ _ (by omega), ← hz] at hbd
        have := getSeg_eq (y := x) (off := ∑ m ∈ range j, S.w m) (len := S.w j) (by rw [hx]; exact hbd)
        unfold getSeg at this
        rw [if_pos (by rw [hx]; exact hbd)] at this
        rw [Except.ok.inj this]
        simp only [List.flatMap_cons, List.flatMap_nil, List.append_nil]
        unfold System.vel
        rw [hst]; rfl
    have := key S.n le_rfl
    rw [List.take_of_length_le (by rw [hx, hz, tab_sum])] at this
    exact this
  | true =>
    rw [if_pos rfl, h.num]
    obtain ⟨u', e, h1, h2⟩ := loop_total (n := S.n) (body := fun m u => getVelStep r x m u)
      (fun j v => v.length = u.length ∧
        v.take (∑ m ∈ range j, S.w m) = (List.range j).flatMap (S.vel (ve x))) (s := u) ⟨rfl, by simp⟩ (by
        rintro j v hj ⟨h1, h2⟩
        have hle : ∑ m ∈ range (j + 1), S.w m ≤ ∑ m ∈ range S.n, S.w m :=
          sum_le_sum_of_subset (range_subset_range.2 hj)
        unfold getVelStep
        rw [uoffs_at hu (by omega), ok_bind, uoffs_at hu (m := j + 1) (by omega), ok_bind, velSeg_ok h hx hj,
          ok_bind]
        dsimp only
        rw [sum_range_succ] at hle
        rw [if_pos (by rw [vel_length, sum_range_succ]; omega)]
        unfold setSeg
        rw [if_pos (by rw [vel_length]; omega)]
        refine ⟨_, rfl, ?_, ?_⟩
        · simp only [List.length_append, List.length_take, List.length_drop, vel_length]; omega
        · have hlen : (v.take (∑ m ∈ range j, S.w m) ++ S.vel (ve x) j).length = ∑ m ∈ range (j + 1), S.w m := by
            rw [List.length_append, vel_length, List.length_take, sum_range_succ]; omega
          rw [List.take_append_of_le_length (by rw [hlen]), List.take_of_length_le (by rw [hlen]), h2,
            List.range_succ, List.flatMap_append]
          simp)
    rw [e]
    rw [List.take_of_length_le (by omega)] at h2
    rw [h2]; rfl

omit [CommRing R] in
theorem last_off {r : Rom R} {S : System R} (hu : IsOffsets r.uoffs (tab S.n S.w)) :
    rd r.uoffs (r.uoffs.length - 1) = .ok (∑ m ∈ range S.n, S.w m) := by
  rw [hu.1, Nat.add_sub_cancel, length_tab]
  exact uoffs_at hu le_rfl

theorem exists_block (n : Nat) (w : Nat → Nat) {t : Nat} (h : t < ∑ m ∈ range n, w m) :
    ∃ m, m < n ∧ ∑ i ∈ range m, w i ≤ t ∧ t < ∑ i ∈ range m, w i + w m := by
  induction n with
  | zero => simp at h
  | succ n ih =>
    by_cases hn : t < ∑ m ∈ range n, w m
    · obtain ⟨m, h1, h2⟩ := ih hn; exact ⟨m, by omega, h2⟩
    · rw [sum_range_succ] at h; exact ⟨n, by omega, by omega, h⟩

theorem addVel_ok {r : Rom R} {S : System R} (h : Wired r S) (hu : IsOffsets r.uoffs (tab S.n S.w))
    {yu y : List R} (hy : y.length = S.z.sum) (hl : yu.length = ∑ m ∈ range S.n, S.w m) :
    ∃ y', addVel r yu y = .ok y' ∧ y'.length = S.z.sum ∧ ∀ t, t < S.z.sum → ve y' t = ve y t + ∑ m ∈ range S.n,
      if InBlock S.z (S.blk m) (S.w m) t then
        ve yu (∑ m' ∈ range m, S.w m' + (t - start S.z (S.blk m))) else 0 := by
  unfold addVel
  cases hs : r.separate with
  | true =>
    rw [if_pos rfl, h.num]
    obtain ⟨y', e, h1, h2⟩ := loop_acc (n := S.n) (body := fun m y => addVelStep r yu m y)
      (fun y : List R => y.length = S.z.sum) ve
      (fun m t => if InBlock S.z (S.blk m) (S.w m) t then
        ve yu (∑ m' ∈ range m, S.w m' + (t - start S.z (S.blk m))) else 0) (s := y) hy (by
        intro m v hm hv
        unfold addVelStep
        have hle : ∑ i ∈ range (m + 1), S.w i ≤ ∑ i ∈ range S.n, S.w i :=
          sum_le_sum_of_subset (range_subset_range.2 hm)
        rw [sum_range_succ] at hle
        rw [velSeg_ok h hv hm, ok_bind, uoffs_at hu hm.le, ok_bind]
        dsimp only
        rw [vel_length]
        obtain ⟨v', e, l, hv'⟩ := addFrom_ok (y := v) (v := yu) (o := start S.z (S.blk m)) (n := S.w m)
          (p := ∑ i ∈ range m, S.w i) (by rw [hv]; exact block_bound S.z (h.size m hm)) (by omega)
        refine ⟨v', e, l.trans hv, funext fun t => ?_⟩
        rw [Pi.add_apply, hv' t]
        rfl)
    refine ⟨y', e, h1, fun t _ => ?_⟩
    rw [h2, Pi.add_apply, Finset.sum_apply]
  | false =>
    obtain ⟨hz, hb⟩ := h.whole hs
    have hsum : S.z.sum = ∑ m ∈ range S.n, S.w m := by rw [hz, tab_sum]
    obtain ⟨y', e, l, hv⟩ := addFrom_ok (y := y) (v := yu) (o := 0) (n := y.length) (p := 0) (by omega)
      (by omega)
    refine ⟨y', e, l.trans hy, fun t ht => ?_⟩
    rw [hv t, if_pos ⟨by omega, by omega⟩]
    congr 1
    have hst : ∀ m, m ≤ S.n → start S.z (S.blk m) = ∑ i ∈ range m, S.w i := fun m hm => by
      unfold start; rw [hb, hz, tab_take_sum _ _ hm]
    obtain ⟨m, hm, h1, h2⟩ := exists_block S.n S.w (by rw [← hsum]; exact ht)
    rw [sum_eq_single m]
    · have hin : InBlock S.z (S.blk m) (S.w m) t := by unfold InBlock; rw [hst m hm.le]; exact ⟨h1, h2⟩
      rw [if_pos hin, hst m hm.le]
      congr 1; omega
    · intro m' hm' hne
      have hm' := mem_range.1 hm'
      rw [if_neg]
      intro hin
      obtain ⟨k, hk⟩ : ∃ k, t = start S.z (S.blk m) + k := ⟨t - start S.z (S.blk m), by rw [hst m hm.le]; omega⟩
      rw [hk] at hin
      refine block_disjoint S.z (h.size m' hm') (h.size m hm) (c := k) ?_ (fun hc => hne (h.inj _ _ hc)) hin
      rw [hst m hm.le] at hk; omega
    · intro hc; exact absurd (mem_range.2 hm) hc

/-! ## The residual -/

theorem vels_sum {r : Rom R} {S : System R} (h : Wired r S) {x : List R} (hx : x.length = S.z.sum) {m : Nat}
    {y : List R} (hm : m < S.n) (hy : y.length = S.z.sum) :
    ∃ y', multBlock r x m y = .ok y' ∧ y'.length = S.z.sum ∧ ve y' = ve y + fun t =>
      if InBlock S.z (S.blk m) (S.w m) t then S.F m (S.vel (ve x) m) (t - start S.z (S.blk m)) else 0 := by
  obtain ⟨d, hd, hok⟩ := h.hs m hm
  obtain ⟨z, e, hl, hz⟩ := hok.mult (S.vel (ve x) m) (vel_length _ _ _)
  unfold multBlock
  rw [velSeg_ok h hx hm, ok_bind, velSeg_ok h hy hm, ok_bind, rd_eq_ok.2 hd, ok_bind]
  unfold deref
  rw [ok_bind]
  dsimp only
  rw [vel_length, e, ok_bind]
  obtain ⟨y', e', l, hv⟩ := addFrom_ok (y := y) (v := z) (o := start S.z (S.blk m)) (n := S.w m) (p := 0)
    (by rw [hy]; exact block_bound S.z (h.size m hm)) (by omega)
  refine ⟨y', e', l.trans hy, funext fun t => ?_⟩
  rw [Pi.add_apply, hv t]
  congr 1
  by_cases ht : InBlock S.z (S.blk m) (S.w m) t
  · rw [if_pos ht]
    obtain ⟨h1, h2⟩ := ht
    rw [if_pos ⟨h1, h2⟩, Nat.zero_add, hz _ (by omega)]
  · rw [if_neg ht]; exact if_neg ht

theorem mult_sum {r : Rom R} {S : System R} (h : Wired r S)
    (hu : r.itf = none ∨ IsOffsets r.uoffs (tab S.n S.w))
    {x u : List R} (hx : x.length = S.z.sum) (hl : u.length = ∑ m ∈ range S.n, S.w m) :
    ∃ y, mult r x u = .ok y ∧ y.length = S.z.sum ∧ ∀ t, t < S.z.sum →
      ve y t = linAt r.linear (ve x) t + S.res r.itf.isSome (ve x) t := by
  unfold mult
  rw [Sp.addMult_eq (by rw [hx, h.w]) (by rw [vof_eq, length_tab]), ok_bind, h.num]
  obtain ⟨y, e, h1, h2⟩ := loop_acc (n := S.n) (body := fun m y => multBlock r x m y)
    (fun y : List R => y.length = S.z.sum) ve
    (fun m t => if InBlock S.z (S.blk m) (S.w m) t then
      S.F m (S.vel (ve x) m) (t - start S.z (S.blk m)) else 0)
    (s := tab r.linear.h fun r_1 => ve (vof r.linear.h fun _ => (0 : R)) r_1 + 1 * ∑ c ∈ range r.linear.w,
      r.linear.get r_1 c * ve x c) (by rw [length_tab, h.h]) (fun m y hm hy => vels_sum h hx hm hy)
  rw [e, ok_bind]
  have hbase : ∀ t, t < S.z.sum → ve y t = linAt r.linear (ve x) t + ∑ m ∈ range S.n,
      if InBlock S.z (S.blk m) (S.w m) t then S.F m (S.vel (ve x) m) (t - start S.z (S.blk m)) else 0 := by
    intro t ht
    rw [h2, Pi.add_apply, Finset.sum_apply, ve_tab (by rw [h.h]; exact ht), vof_eq,
      ve_tab (by rw [h.h]; exact ht), zero_add, one_mul]
    rfl
  cases hi : r.itf with
  | none =>
    refine ⟨y, rfl, h1, fun t ht => ?_⟩
    rw [hbase t ht]
    unfold System.res
    simp
  | some itf =>
    have hu : IsOffsets r.uoffs (tab S.n S.w) := by
      rcases hu with hc | hu
      · rw [hi] at hc; cases hc
      · exact hu
    dsimp only
    rw [getVel_ok h hu hx hl, ok_bind, last_off hu, ok_bind]
    obtain ⟨yu, e1, l1, hyu⟩ := (h.itf itf hi).addMult (S.vels (ve x))
      (vof (∑ m ∈ range S.n, S.w m) fun _ => 0) (vels_length _ _) (by rw [vof_eq, length_tab])
    rw [e1, ok_bind]
    obtain ⟨y', e2, l2, hy'⟩ := addVel_ok h hu h1 l1
    refine ⟨y', e2, l2, fun t ht => ?_⟩
    rw [hy' t ht, hbase t ht, add_assoc, ← sum_add_distrib]
    congr 1
    unfold System.res
    refine sum_congr rfl fun m hm => ?_
    have hm := mem_range.1 hm
    by_cases hin : InBlock S.z (S.blk m) (S.w m) t
    · rw [if_pos hin, if_pos hin, if_pos hin, if_pos (by rfl)]
      have hlt : t - start S.z (S.blk m) < S.w m := by obtain ⟨_, _⟩ := hin; omega
      have hle : ∑ i ∈ range (m + 1), S.w i ≤ ∑ i ∈ range S.n, S.w i :=
        sum_le_sum_of_subset (range_subset_range.2 hm)
      rw [sum_range_succ] at hle
      rw [hyu m _ hm hlt, vof_eq, ve_tab (by omega), zero_add]
    · rw [if_neg hin, if_neg hin, if_neg hin, add_zero]

/-! ## The Jacobian -/

theorem velSizes_ok {r : Rom R} {S : System R} (h : Wired r S) : velSizes r = .ok (tab S.n S.w) := by
  unfold velSizes
  rw [h.num]
  exact loop_spec (fun k => tab k S.w) rfl (by
    intro k hk
    obtain ⟨h1, h2⟩ := offs_at h.offs (h.size k hk)
    rw [h.midxs, rd_tab hk, ok_bind, h2, ok_bind, h1, ok_bind, Nat.add_sub_cancel_left]
    simp [tab, List.range_succ]; rfl)

omit [CommRing R] in
theorem newMats_ok (n : Nat) (w : Nat → Nat) : MatsOk (newMats (R := R) (tab n w)) n w w := by
  refine ⟨by simp [newMats], by simp [newMats], fun a b ha hb => ?_⟩
  refine ⟨⟨w a, w b, []⟩, ?_, rfl, rfl⟩
  unfold newMats
  simp only [getElem?_tab, if_pos ha, if_pos hb]

theorem newMats_get (s : List Nat) (a b i j : Nat) : mget (newMats (R := R) s) a b i j = 0 := by
  unfold mget newMats
  dsimp only
  split
  · simp [Sp.get]
  · rfl

/-- The blocks have the sizes of the offsets. -/
def BShapes (b : BlockMat R) (z : List Nat) : Prop :=
  ∀ i j m, b.blk i j = some m → z[i]? = some m.h ∧ z[j]? = some m.w

omit [CommRing R] in
theorem offs_diff {offs z : List Nat} (ho : IsOffsets offs z) {r : Int} {r1 r0 h : Nat}
    (h1 : rdI offs (r + 1) = .ok r1) (h0 : rdI offs r = .ok r0) (hh : (h : Int) = r1 - r0) :
    z[r.toNat]? = some h := by
  obtain ⟨k, rfl, hk⟩ : ∃ k : Nat, r = k ∧ offs[k]? = some r0 := by
    unfold rdI at h0
    split at h0
    · next hp => exact ⟨r.toNat, by omega, rd_eq_ok.1 h0⟩
    · cases h0
  rw [show ((k : Nat) : Int) + 1 = ((k + 1 : Nat) : Int) by push_cast; rfl, TensorRom.rdI_nat] at h1
  have h1 := rd_eq_ok.1 h1
  have hlt : k < z.length := by
    have := (List.getElem?_eq_some_iff.1 h1).1
    rw [ho.1] at this; omega
  have hz := List.getElem?_eq_getElem hlt
  rw [ho.value (by omega)] at h1 hk
  rw [Blocks.take_sum_succ z hz] at h1
  have e1 := Option.some.inj h1
  have e2 := Option.some.inj hk
  rw [Int.toNat_natCast, hz]
  congr 1; omega

theorem addToBlockStep_shapes {ridx cidx : List Int} {mats : MatBlocks R} {i j : Nat} {b b' : BlockMat R}
    {z : List Nat} (h : addToBlockStep ridx cidx mats i j b = .ok b') (hr : IsOffsets b.roffs z)
    (hc : IsOffsets b.coffs z) (hs : BShapes b z) :
    BShapes b' z ∧ b'.roffs = b.roffs ∧ b'.coffs = b.coffs := by
  unfold addToBlockStep at h
  cases hm : mats.mats i j with
  | none => rw [hm] at h; cases h; exact ⟨hs, rfl, rfl⟩
  | some m =>
    rw [hm] at h
    dsimp only at h
    obtain ⟨r, _, h⟩ := bind_eq_ok.1 h
    obtain ⟨c, _, h⟩ := bind_eq_ok.1 h
    obtain ⟨r1, e1, h⟩ := bind_eq_ok.1 h
    obtain ⟨r0, e2, h⟩ := bind_eq_ok.1 h
    obtain ⟨c1, e3, h⟩ := bind_eq_ok.1 h
    obtain ⟨c0, e4, h⟩ := bind_eq_ok.1 h
    obtain ⟨_, e5, h⟩ := bind_eq_ok.1 h
    cases h
    have e5 := require_eq_ok.1 e5
    simp only [Bool.and_eq_true, decide_eq_true_eq] at e5
    refine ⟨?_, rfl, rfl⟩
    intro i' j' m' hm'
    unfold BlockMat.addTo at hm'
    dsimp only at hm'
    by_cases hij : i' = r.toNat ∧ j' = c.toNat
    · rw [if_pos hij] at hm'
      cases hm'
      obtain ⟨rfl, rfl⟩ := hij
      cases hb : b.blk r.toNat c.toNat with
      | none => exact ⟨offs_diff hr e1 e2 e5.1, offs_diff hc e3 e4 e5.2⟩
      | some o => have := hs _ _ o hb; exact this
    · rw [if_neg hij] at hm'
      exact hs _ _ _ hm'

theorem addToBlockMatrix_shapes {ridx cidx : List Int} {mats : MatBlocks R} {b b' : BlockMat R}
    {z : List Nat} (h : addToBlockMatrix ridx cidx mats b = .ok b') (hr : IsOffsets b.roffs z)
    (hc : IsOffsets b.coffs z) (hs : BShapes b z) : BShapes b' z := by
  unfold addToBlockMatrix at h
  obtain ⟨_, _, h⟩ := bind_eq_ok.1 h
  obtain ⟨_, _, h⟩ := bind_eq_ok.1 h
  obtain ⟨_, _, h⟩ := bind_eq_ok.1 h
  obtain ⟨_, _, h⟩ := bind_eq_ok.1 h
  obtain ⟨_, _, h⟩ := bind_eq_ok.1 h
  obtain ⟨_, _, h⟩ := bind_eq_ok.1 h
  obtain ⟨_, _, h⟩ := bind_eq_ok.1 h
  obtain ⟨_, _, h⟩ := bind_eq_ok.1 h
  obtain ⟨_, _, h⟩ := bind_eq_ok.1 h
  refine (loop_inv (fun _ u => BShapes u z ∧ IsOffsets u.roffs z ∧ IsOffsets u.coffs z)
    ⟨hs, hr, hc⟩ ?_ h).1
  intro i u u' _ hu e
  refine loop_inv (fun _ u => BShapes u z ∧ IsOffsets u.roffs z ∧ IsOffsets u.coffs z) hu ?_ e
  rintro j v v' _ ⟨h1, h2, h3⟩ e
  obtain ⟨g1, g2, g3⟩ := addToBlockStep_shapes e h2 h3 h1
  exact ⟨g1, by rw [g2]; exact h2, by rw [g3]; exact h3⟩

/-- One position of the block matrix is not stored in `L`. -/
def Lost (L : Sp R) (b : BlockMat R) (z : List Nat) : Prop :=
  ∃ i j r c h w, z[i]? = some h ∧ z[j]? = some w ∧ r < h ∧ c < w ∧ bval b i j r c ≠ 0 ∧
    ¬ Stored L (start z i + r) (start z j + c)

theorem sum_rect {o p n m r c : Nat} (f : Nat → Nat → R) :
    (∑ k ∈ range n, ∑ l ∈ range m, if o + k = r ∧ p + l = c then f k l else 0) =
      if (o ≤ r ∧ r < o + n) ∧ p ≤ c ∧ c < p + m then f (r - o) (c - p) else 0 := by
  by_cases h : (o ≤ r ∧ r < o + n) ∧ p ≤ c ∧ c < p + m
  · rw [if_pos h, sum_eq_single (r - o), sum_eq_single (c - p)]
    · rw [if_pos (by omega)]
    · intro b _ hb; rw [if_neg (by omega)]
    · intro hb; exact absurd (mem_range.2 (by omega)) hb
    · intro b _ hb; exact sum_eq_zero fun l _ => by rw [if_neg (by omega)]
    · intro hb; exact absurd (mem_range.2 (by omega)) hb
  · rw [if_neg h]
    refine sum_eq_zero fun k hk => sum_eq_zero fun l hl => ?_
    have := mem_range.1 hk
    have := mem_range.1 hl
    rw [if_neg (by omega)]

theorem addMono_spec [DecidableEq R] {L s : Sp R} (hg : Grown L s) {b : BlockMat R} {z : List Nat}
    (hr : IsOffsets b.roffs z) (hc : IsOffsets b.coffs z) (hs : BShapes b z) (hh : L.h = z.sum)
    (hw : L.w = z.sum) :
    (∃ s', addMono b s = .ok s' ∧ Grown L s' ∧ (fun t c => s'.get t c) = (fun t c => s.get t c) +
      ∑ i ∈ range z.length, ∑ j ∈ range z.length, fun t c =>
        if InBlock z i (z[i]?.getD 0) t ∧ InBlock z j (z[j]?.getD 0) c then
          bval b i j (t - start z i) (c - start z j) else 0) ∨
    (addMono b s = .error .abort ∧ Lost L b z) := by
  unfold addMono
  rw [hr.1, hc.1, Nat.add_sub_cancel]
  refine loop_acc_or (Grown L) (fun s : Sp R => fun t c => s.get t c) _ (Lost L b z) hg ?_
  intro i s hi hg
  refine loop_acc_or (Grown L) (fun s : Sp R => fun t c => s.get t c) _ (Lost L b z) hg ?_
  intro j s hj hg
  cases hb : b.blk i j with
  | none =>
    refine Or.inl ⟨s, rfl, hg, ?_⟩
    have : ∀ p q, bval b i j p q = 0 := fun p q => by unfold bval; rw [hb]
    simp only [this, ite_self]
    exact (add_zero _).symm
  | some m =>
    obtain ⟨z1, z2⟩ := hs i j m hb
    have hv : ∀ p q, bval b i j p q = m.val p q := fun p q => by unfold bval; rw [hb]
    dsimp only
    rw [rd_eq_ok.2 (hr.value (by omega)), ok_bind, rd_eq_ok.2 (hc.value (by omega)), ok_bind]
    have b1 := block_bound z z1
    have b2 := block_bound z z2
    have key := loop_acc_or (n := m.h) (body := fun r s => loop m.w (fun c s =>
        if m.val r c = 0 then return s else
          TensorRom.addStored s ((z.take i).sum + r) ((z.take j).sum + c) (m.val r c)) s)
      (Grown L) (fun s : Sp R => fun t c => s.get t c)
      (fun r => ∑ c ∈ range m.w, fun t u => if (z.take i).sum + r = t ∧ (z.take j).sum + c = u then
        m.val r c else 0) (Lost L b z) hg (by
        intro r s hr' hg
        refine loop_acc_or (Grown L) (fun s : Sp R => fun t c => s.get t c) _ (Lost L b z) hg ?_
        intro c s hc' hg
        by_cases h0 : m.val r c = 0
        · rw [if_pos h0]
          refine Or.inl ⟨s, rfl, hg, ?_⟩
          simp only [h0, ite_self]
          exact (add_zero _).symm
        · rw [if_neg h0]
          rcases addStored_spec hg (i := (z.take i).sum + r) (j := (z.take j).sum + c) (by rw [hh]; omega)
            (by rw [hw]; omega) (m.val r c) with hok | ⟨e, hn⟩
          · exact Or.inl hok
          · exact Or.inr ⟨e, i, j, r, c, m.h, m.w, z1, z2, hr', hc', by rw [hv]; exact h0, hn⟩)
    rcases key with ⟨s', e, g, v⟩ | hbad
    · refine Or.inl ⟨s', e, g, v.trans ?_⟩
      congr 1
      funext t c
      simp only [Finset.sum_apply]
      rw [sum_rect, z1, z2]
      simp only [Option.getD_some, hv]
      rfl
    · exact Or.inr hbad

theorem rowAt_midxs (n : Nat) (blk : Nat → Nat) {m : Nat} (hm : m < n) :
    rowAt (tab n fun m => (blk m : Int)) m = blk m := by
  unfold rowAt; rw [getElem?_tab, if_pos hm]; simp

/-- Some velocity position with an interface term is not stored in the linear operator. -/
def LostVel (S : System R) (x : Nat → R) (L : Sp R) : Prop :=
  ∃ a b k l, a < S.n ∧ b < S.n ∧ k < S.w a ∧ l < S.w b ∧ S.IG (S.vels x) a b k l ≠ 0 ∧
    ¬ Stored L (start S.z (S.blk a) + k) (start S.z (S.blk b) + l)

theorem addItfGrad_spec [DecidableEq R] {r : Rom R} {S : System R} (h : Wired r S) (hn : 0 < S.n)
    (hu : IsOffsets r.uoffs (tab S.n S.w)) {itf : Itf R} (hi : r.itf = some itf) {x u : List R}
    (hx : x.length = S.z.sum) (hl : u.length = ∑ m ∈ range S.n, S.w m) :
    (∃ s', addItfGrad r itf x u r.linear = .ok s' ∧ Grown r.linear s' ∧ ∀ t c,
      s'.get t c = r.linear.get t c + ∑ a ∈ range S.n, ∑ b ∈ range S.n,
        if InBlock S.z (S.blk a) (S.w a) t ∧ InBlock S.z (S.blk b) (S.w b) c then
          S.IG (S.vels (ve x)) a b (t - start S.z (S.blk a)) (c - start S.z (S.blk b)) else 0) ∨
    (addItfGrad r itf x u r.linear = .error .abort ∧ LostVel S (ve x) r.linear) := by
  unfold addItfGrad
  rw [velSizes_ok h, ok_bind, getVel_ok h hu hx hl, ok_bind]
  obtain ⟨mats, e, hm, hval⟩ := (h.itf itf hi).gradient (S.vels (ve x)) (newMats (tab S.n S.w))
    (vels_length _ _) (newMats_ok _ _)
  rw [e, ok_bind]
  have hlen : r.midxs.length = S.n := by rw [h.midxs, length_tab]
  have hrow : ∀ a, a < S.n → rowAt r.midxs a = S.blk a := fun a ha => by rw [h.midxs]; exact rowAt_midxs _ _ ha
  have hne : r.midxs ≠ [] := by intro hc; rw [hc] at hlen; simp at hlen; omega
  have hrange : ∀ a ∈ r.midxs, 0 ≤ a ∧ a < (r.offs.length - 1 : Int) := by
    intro a ha
    rw [h.midxs] at ha
    obtain ⟨m, hm, rfl⟩ := List.mem_map.1 ha
    have := (List.getElem?_eq_some_iff.1 (h.size m (List.mem_range.1 hm))).1
    rw [h.offs.1]; push_cast; omega
  have hdiff : ∀ a, a < S.n →
      (S.w a : Int) = (r.offs[rowAt r.midxs a + 1]?.getD 0 : Int) - (r.offs[rowAt r.midxs a]?.getD 0 : Int) := by
    intro a ha
    have hlt := (List.getElem?_eq_some_iff.1 (h.size a ha)).1
    rw [hrow a ha, h.offs.value (by omega), h.offs.value (by omega), Blocks.take_sum_succ _ (h.size a ha)]
    simp
  obtain ⟨b, eb, b1, b2, _, b4⟩ := addToBlockMatrix_spec r.midxs r.midxs (toBlocks mats)
    ⟨r.offs, r.offs, true, fun _ _ => none⟩ rfl (hlen.trans hm.1.symm) (hlen.trans hm.2.1.symm) hne hne
    hrange hrange (by
      intro i j m hi hj hmm
      rw [hlen] at hi hj
      obtain ⟨s, e1, e2, e3⟩ := hm.2.2 i j hi hj
      unfold toBlocks at hmm
      dsimp only at hmm
      rw [e1] at hmm
      cases hmm
      dsimp only
      rw [e2, e3]
      exact ⟨hdiff i hi, hdiff j hj⟩)
  rw [eb, ok_bind]
  have hsh := addToBlockMatrix_shapes eb h.offs h.offs (fun i j m hc => by cases hc)
  have hmv : ∀ a c p q, mval (toBlocks mats) a c p q = mget mats a c p q := by
    intro a c p q
    unfold mval toBlocks mget
    dsimp only
    cases mats.at_ a c <;> rfl
  have hbv : ∀ i j p q, bval b i j p q = ∑ a ∈ range S.n, ∑ c ∈ range S.n,
      if i = S.blk a ∧ j = S.blk c then mget mats a c p q else 0 := by
    intro i j p q
    rw [b4, hlen, show bval (⟨r.offs, r.offs, true, fun _ _ => none⟩ : BlockMat R) i j p q = 0 from rfl, zero_add]
    refine sum_congr rfl fun a ha => sum_congr rfl fun c hc => ?_
    rw [hrow a (mem_range.1 ha), hrow c (mem_range.1 hc), hmv]
  rcases addMono_spec (L := r.linear) (s := r.linear) ⟨⟨rfl, rfl⟩, fun _ _ h => h⟩ (b := b) (z := S.z)
    (by rw [b1]; exact h.offs) (by rw [b2]; exact h.offs) hsh h.h h.w with ⟨s', e1, g, v⟩ | ⟨e1, hlost⟩
  · refine Or.inl ⟨s', e1, g, fun t c => ?_⟩
    have := congrFun (congrFun v t) c
    simp only [Pi.add_apply, Finset.sum_apply] at this
    rw [this]
    congr 1
    have hz : ∀ a, a < S.n → S.blk a ∈ range S.z.length := fun a ha =>
      mem_range.2 (List.getElem?_eq_some_iff.1 (h.size a ha)).1
    calc _ = ∑ i ∈ range S.z.length, ∑ j ∈ range S.z.length, ∑ a ∈ range S.n, ∑ d ∈ range S.n,
          if i = S.blk a ∧ j = S.blk d then
            (if InBlock S.z i (S.z[i]?.getD 0) t ∧ InBlock S.z j (S.z[j]?.getD 0) c then
              mget mats a d (t - start S.z i) (c - start S.z j) else 0) else 0 := by
            refine sum_congr rfl fun i _ => sum_congr rfl fun j _ => ?_
            rw [hbv]
            by_cases hin : InBlock S.z i (S.z[i]?.getD 0) t ∧ InBlock S.z j (S.z[j]?.getD 0) c
            · simp only [if_pos hin]
            · simp only [if_neg hin, ite_self, sum_const_zero]
      _ = ∑ a ∈ range S.n, ∑ d ∈ range S.n, ∑ i ∈ range S.z.length, ∑ j ∈ range S.z.length,
          if i = S.blk a ∧ j = S.blk d then
            (if InBlock S.z i (S.z[i]?.getD 0) t ∧ InBlock S.z j (S.z[j]?.getD 0) c then
              mget mats a d (t - start S.z i) (c - start S.z j) else 0) else 0 := by
            rw [sum_congr rfl fun i _ => sum_comm, sum_comm]
            refine sum_congr rfl fun a _ => ?_
            rw [sum_congr rfl fun i _ => sum_comm, sum_comm]
      _ = _ := by
            refine sum_congr rfl fun a ha => sum_congr rfl fun d hd => ?_
            have ha := mem_range.1 ha
            have hd := mem_range.1 hd
            rw [sum_eq_single (S.blk a), sum_eq_single (S.blk d)]
            · rw [if_pos ⟨rfl, rfl⟩, h.size a ha, h.size d hd]
              simp only [Option.getD_some]
              by_cases hin : InBlock S.z (S.blk a) (S.w a) t ∧ InBlock S.z (S.blk d) (S.w d) c
              · rw [if_pos hin, if_pos hin]
                obtain ⟨⟨i1, i2⟩, i3, i4⟩ := hin
                rw [hval a d _ _ ha hd (by omega) (by omega), newMats_get, zero_add]
              · rw [if_neg hin, if_neg hin]
            · intro j _ hj; rw [if_neg (fun hc => hj hc.2)]
            · intro hc; exact absurd (hz d hd) hc
            · intro i _ hi; exact sum_eq_zero fun j _ => if_neg fun hc => hi hc.1
            · intro hc; exact absurd (hz a ha) hc
  · obtain ⟨i, j, p, q, hh, ww, z1, z2, hp, hq, hne0, hns⟩ := hlost
    refine Or.inr ⟨e1, ?_⟩
    rw [hbv] at hne0
    obtain ⟨a, ha, hne0⟩ := exists_ne_zero_of_sum_ne_zero hne0
    obtain ⟨d, hd, hne0⟩ := exists_ne_zero_of_sum_ne_zero hne0
    have ha := mem_range.1 ha
    have hd := mem_range.1 hd
    by_cases hij : i = S.blk a ∧ j = S.blk d
    · obtain ⟨rfl, rfl⟩ := hij
      rw [h.size a ha] at z1
      rw [h.size d hd] at z2
      cases z1; cases z2
      rw [if_pos ⟨rfl, rfl⟩, hval a d _ _ ha hd hp hq, newMats_get, zero_add] at hne0
      exact ⟨a, d, p, q, ha, hd, hp, hq, hne0, hns⟩
    · rw [if_neg hij] at hne0; exact absurd rfl hne0

theorem getGradient_sum [DecidableEq R] {r : Rom R} {S : System R} (h : Wired r S) (hn : 0 < S.n)
    (hu : r.itf = none ∨ IsOffsets r.uoffs (tab S.n S.w)) {x u : List R}
    (hx : x.length = S.z.sum) (hl : u.length = ∑ m ∈ range S.n, S.w m) :
    (∃ J, getGradient r x u = .ok J ∧ J.h = S.z.sum ∧ J.w = S.z.sum ∧ ∀ t c,
      J.get t c = r.linear.get t c + S.jac r.itf.isSome (ve x) t c) ∨
    (getGradient r x u = .error .abort ∧ ∃ a b k l, a < S.n ∧ b < S.n ∧ k < S.w a ∧ l < S.w b ∧
      (a = b ∨ r.itf ≠ none ∧ S.IG (S.vels (ve x)) a b k l ≠ 0) ∧ ¬ Stored r.linear (start S.z (S.blk a) + k) (start S.z (S.blk b) + l)) := by
  have key : ∀ s0 : Sp R, Grown r.linear s0 →
      (∃ s', loop S.n (fun m jac => addDomGrad r x m jac) s0 = .ok s' ∧ Grown r.linear s' ∧
        (fun t c => s'.get t c) = (fun t c => s0.get t c) + ∑ m ∈ range S.n, fun t c =>
          if InBlock S.z (S.blk m) (S.w m) t ∧ InBlock S.z (S.blk m) (S.w m) c then
            S.G m (S.vel (ve x) m) (t - start S.z (S.blk m)) (c - start S.z (S.blk m)) else 0) ∨
      (loop S.n (fun m jac => addDomGrad r x m jac) s0 = .error .abort ∧
        ∃ m, m < S.n ∧ Missing r.linear (start S.z (S.blk m)) (S.w m)) := by
    intro s0 hg
    refine loop_acc_or (Grown r.linear) (fun s : Sp R => fun t c => s.get t c) _ _ hg ?_
    intro m s hm hs
    obtain ⟨d, hd, hok⟩ := h.hs m hm
    obtain ⟨j, ej, j1, j2, j3, j4⟩ := hok.grad (S.vel (ve x) m) (vel_length _ _ _)
    have hbd := block_bound S.z (h.size m hm)
    unfold addDomGrad
    rw [velSeg_ok h hx hm, ok_bind, rd_eq_ok.2 hd, ok_bind]
    unfold deref
    rw [ok_bind]
    dsimp only
    rw [ej, ok_bind, h.idxs, rd_tab hm, ok_bind]
    rcases addSubStored_spec hs (o := start S.z (S.blk m)) (n := S.w m) (by rw [h.h]; exact hbd)
      (by rw [h.w]; exact hbd) j1 j2 j3 with ⟨s', e1, g1, v1⟩ | ⟨e1, hmiss⟩
    · refine Or.inl ⟨s', e1, g1, ?_⟩
      rw [v1]
      congr 1
      funext t c
      simp only [Finset.sum_apply]
      rw [sum_block]
      by_cases ht : InBlock S.z (S.blk m) (S.w m) t ∧ InBlock S.z (S.blk m) (S.w m) c
      · rw [if_pos ht]
        obtain ⟨⟨i1, i2⟩, i3, i4⟩ := ht
        rw [if_pos ⟨⟨i1, i2⟩, i3, i4⟩, j4 _ _ (by omega) (by omega)]
      · rw [if_neg ht]; exact if_neg ht
    · exact Or.inr ⟨e1, m, hm, hmiss⟩
  unfold getGradient
  rw [h.num]
  cases hi : r.itf with
  | none =>
    dsimp only
    rw [ok_bind]
    rcases key r.linear ⟨⟨rfl, rfl⟩, fun _ _ h => h⟩ with ⟨J, e, g, v⟩ | ⟨e, m, hm, k, l, hk, hl, hns⟩
    · refine Or.inl ⟨J, e, g.1.1.trans h.h, g.1.2.trans h.w, fun t c => ?_⟩
      have := congrFun (congrFun v t) c
      simp only [Pi.add_apply, Finset.sum_apply] at this
      rw [this]
      congr 1
      unfold System.jac
      refine sum_congr rfl fun a ha => ?_
      rw [sum_eq_single a]
      · by_cases hin : InBlock S.z (S.blk a) (S.w a) t ∧ InBlock S.z (S.blk a) (S.w a) c
        · rw [if_pos hin, if_pos hin, if_pos rfl]; simp
        · rw [if_neg hin, if_neg hin]
      · intro b _ hb
        simp [Ne.symm hb]
      · intro hc; exact absurd ha hc
    · exact Or.inr ⟨e, m, m, k, l, hm, hm, hk, hl, Or.inl rfl, hns⟩
  | some itf =>
    have hu : IsOffsets r.uoffs (tab S.n S.w) := by
      rcases hu with hc | hu
      · rw [hi] at hc; cases hc
      · exact hu
    dsimp only
    rcases addItfGrad_spec h hn hu hi hx hl with ⟨s0, e0, g0, v0⟩ | ⟨e0, a, b, k, l, ha, hb, hk, hl', hne, hns⟩
    · rw [e0, ok_bind]
      rcases key s0 g0 with ⟨J, e, g, v⟩ | ⟨e, m, hm, k, l, hk, hl, hns⟩
      · refine Or.inl ⟨J, e, g.1.1.trans h.h, g.1.2.trans h.w, fun t c => ?_⟩
        have := congrFun (congrFun v t) c
        simp only [Pi.add_apply, Finset.sum_apply] at this
        rw [this, v0, add_assoc, ← sum_add_distrib]
        congr 1
        unfold System.jac
        refine sum_congr rfl fun a ha => ?_
        have hdiag : (if InBlock S.z (S.blk a) (S.w a) t ∧ InBlock S.z (S.blk a) (S.w a) c then
            S.G a (S.vel (ve x) a) (t - start S.z (S.blk a)) (c - start S.z (S.blk a)) else 0) =
            ∑ b ∈ range S.n, if InBlock S.z (S.blk a) (S.w a) t ∧ InBlock S.z (S.blk b) (S.w b) c then
              (if a = b then S.G a (S.vel (ve x) a) (t - start S.z (S.blk a)) (c - start S.z (S.blk a)) else 0)
              else 0 := by
          rw [sum_eq_single a]
          · simp
          · intro b _ hb; simp [Ne.symm hb]
          · intro hc; exact absurd ha hc
        rw [hdiag, ← sum_add_distrib]
        refine sum_congr rfl fun b _ => ?_
        by_cases hin : InBlock S.z (S.blk a) (S.w a) t ∧ InBlock S.z (S.blk b) (S.w b) c
        · simp only [if_pos hin, Option.isSome_some, if_true]; rw [add_comm]
        · rw [if_neg hin, if_neg hin, if_neg hin, add_zero]
      · exact Or.inr ⟨e, m, m, k, l, hm, hm, hk, hl, Or.inl rfl, hns⟩
    · rw [e0]
      exact Or.inr ⟨rfl, a, b, k, l, ha, hb, hk, hl', Or.inr ⟨by simp, hne⟩, hns⟩

end Verif.EqpRom
