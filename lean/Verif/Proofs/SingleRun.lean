import Verif.Spec.SingleRun
import Verif.Proofs.Penalty
import Verif.Proofs.PortFile
import Verif.Props.Hdf5

/-! Helper lemmas for saving, loading and comparing solutions. -/

namespace Verif.SingleRun

open Verif Verif.Hdf5 Verif.SingleRun.Spec Finset
open Verif.Blocks (BlockVector)
open Verif.RomHandler (Handler readBlock)
open Verif.LinAlg (getSeg)

theorem evalAt_eq (q : QPt ℝ) (d : Nat) (x : List ℝ) : evalAt q d x = fn q d x := Penalty.dot_eq _ _ _

theorem foldl_sum {α : Type} (g : α → ℝ) : ∀ (l : List α) (a : ℝ),
    l.foldl (fun a q => a + g q) a = a + (l.map g).sum
  | [], a => by simp
  | q :: l, a => by
    rw [List.foldl_cons, foldl_sum g l, List.map_cons, List.sum_cons, add_assoc]

theorem lpError_eq (s : Space ℝ) (x y : List ℝ) :
    lpError Real.sqrt s x y = Real.sqrt (sqDiff s x y) := by
  unfold lpError sqDiff
  rw [foldl_sum (fun q : QPt ℝ => q.w * Penalty.dot s.vdim (fun d => evalAt q d x - evalAt q d y)
      (fun d => evalAt q d x - evalAt q d y)), zero_add]
  simp only [Penalty.dot_eq, evalAt_eq, pow_two]

theorem sqDiff_nil (s : Space ℝ) (x : List ℝ) : sqDiff s x [] = sqNorm s x := by
  unfold sqDiff sqNorm
  simp [fn]

theorem sqDiff_nonneg {s : Space ℝ} (h : ∀ q ∈ s.pts, 0 ≤ q.w) (x y : List ℝ) : 0 ≤ sqDiff s x y := by
  unfold sqDiff
  refine List.sum_nonneg ?_
  intro a ha
  obtain ⟨q, hq, rfl⟩ := List.mem_map.1 ha
  exact mul_nonneg (h q hq) (sum_nonneg fun d _ => sq_nonneg _)

theorem lpError_sq {s : Space ℝ} (h : ∀ q ∈ s.pts, 0 ≤ q.w) (x y : List ℝ) :
    lpError Real.sqrt s x y * lpError Real.sqrt s x y = sqDiff s x y := by
  rw [lpError_eq, Real.mul_self_sqrt (sqDiff_nonneg h x y)]

theorem getD_replicate_zero (n v : Nat) : (List.replicate n (0 : ℝ))[v]?.getD 0 = 0 := by
  rw [List.getElem?_replicate]; split <;> rfl

/-- The relative errors of lists of blocks. -/
theorem relativeError_ok {spaces : List (Space ℝ)} {numSub numVar : Nat} {fom rom : List (List ℝ)}
    (hs : spaces.length = numSub * numVar) (hf : fom.length = numSub * numVar)
    (hr : rom.length = numSub * numVar) (hw : ∀ s ∈ spaces, ∀ q ∈ s.pts, 0 ≤ q.w)
    (N D : Nat → ℝ)
    (hN : ∀ v, N v = ∑ m ∈ range numSub, sqNorm (spaces[m * numVar + v]?.getD ⟨0, []⟩)
      (fom[m * numVar + v]?.getD []))
    (hD : ∀ v, D v = ∑ m ∈ range numSub, sqDiff (spaces[m * numVar + v]?.getD ⟨0, []⟩)
      (fom[m * numVar + v]?.getD []) (rom[m * numVar + v]?.getD [])) :
    relativeError Real.sqrt spaces numSub numVar fom rom = .ok ((List.range numVar).map fun v =>
      if N v = 0 then (if D v = 0 then .nan else .inf) else .fin (Real.sqrt (D v / N v))) := by
  have hidx : ∀ {m v}, m < numSub → v < numVar → m * numVar + v < numSub * numVar := by
    intro m v hm hv
    have := Nat.mul_le_mul_right numVar (show m + 1 ≤ numSub by omega)
    rw [Nat.succ_mul] at this; omega
  set nt : Nat → Nat → ℝ := fun m v => sqNorm (spaces[m * numVar + v]?.getD ⟨0, []⟩)
    (fom[m * numVar + v]?.getD []) with hnt
  set dt : Nat → Nat → ℝ := fun m v => sqDiff (spaces[m * numVar + v]?.getD ⟨0, []⟩)
    (fom[m * numVar + v]?.getD []) (rom[m * numVar + v]?.getD []) with hdt
  have inner : ∀ (m : Nat) (s : List ℝ × List ℝ), m < numSub → s.1.length = numVar → s.2.length = numVar →
      ∃ s', loop numVar (accStep Real.sqrt spaces numVar fom rom m) s = .ok s' ∧
        s'.1.length = numVar ∧ s'.2.length = numVar ∧
        ∀ v, v < numVar → s'.1[v]?.getD 0 = s.1[v]?.getD 0 + nt m v ∧
          s'.2[v]?.getD 0 = s.2[v]?.getD 0 + dt m v := by
    intro m s hm h1 h2
    obtain ⟨s', e, i1, i2, i3⟩ := loop_total (n := numVar)
      (body := accStep Real.sqrt spaces numVar fom rom m) (s := s)
      (fun q u => u.1.length = numVar ∧ u.2.length = numVar ∧ ∀ v, v < numVar →
        u.1[v]?.getD 0 = s.1[v]?.getD 0 + (if v < q then nt m v else 0) ∧
        u.2[v]?.getD 0 = s.2[v]?.getD 0 + (if v < q then dt m v else 0))
      ⟨h1, h2, by simp⟩ (by
      intro q u hq ⟨j1, j2, j3⟩
      have hi := hidx hm hq
      have l1 : m * numVar + q < spaces.length := by omega
      have l2 : m * numVar + q < fom.length := by omega
      have l3 : m * numVar + q < rom.length := by omega
      have hw' := hw _ (List.getElem_mem l1)
      have ent : nt m q = sqNorm spaces[m * numVar + q] fom[m * numVar + q] := by
        simp only [hnt]; rw [List.getElem?_eq_getElem l1, List.getElem?_eq_getElem l2]; rfl
      have edt : dt m q = sqDiff spaces[m * numVar + q] fom[m * numVar + q] rom[m * numVar + q] := by
        simp only [hdt]
        rw [List.getElem?_eq_getElem l1, List.getElem?_eq_getElem l2, List.getElem?_eq_getElem l3]; rfl
      refine ⟨(u.1.set q (u.1[q]'(by omega) + nt m q), u.2.set q (u.2[q]'(by omega) + dt m q)), ?_,
        by simp [j1], by simp [j2], fun v hv => ?_⟩
      · unfold accStep
        rw [rd_of_lt l1, ok_bind, rd_of_lt l2, ok_bind, rd_of_lt l3, ok_bind]
        dsimp only
        rw [lpError_sq hw', lpError_sq hw', sqDiff_nil, ← ent, ← edt, rd_of_lt (by omega), ok_bind,
          wr_of_lt (by omega), ok_bind, rd_of_lt (by omega), ok_bind, wr_of_lt (by omega), ok_bind]
        rfl
      · obtain ⟨a1, a2⟩ := j3 v hv
        by_cases ev : v = q
        · subst ev
          have b1 : v < u.1.length := by omega
          have b2 : v < u.2.length := by omega
          rw [List.getElem?_eq_getElem b1] at a1
          rw [List.getElem?_eq_getElem b2] at a2
          simp only [lt_irrefl, if_false, add_zero, Option.getD_some] at a1 a2
          rw [List.getElem?_set_self (by omega), List.getElem?_set_self (by omega),
            if_pos (by omega), if_pos (by omega)]
          simp only [Option.getD_some]
          exact ⟨by rw [a1], by rw [a2]⟩
        · rw [List.getElem?_set_ne (by omega), List.getElem?_set_ne (by omega), a1, a2]
          have : (v < q + 1) = (v < q) := by
            simp only [eq_iff_iff]; omega
          simp only [this, and_self])
    refine ⟨s', e, i1, i2, fun v hv => ?_⟩
    have := i3 v hv
    rw [if_pos hv, if_pos hv] at this
    exact this
  obtain ⟨s, e, i1, i2, i3⟩ := loop_total (n := numSub)
    (body := fun m s => loop numVar (accStep Real.sqrt spaces numVar fom rom m) s)
    (s := (List.replicate numVar (0 : ℝ), List.replicate numVar (0 : ℝ)))
    (fun q u => u.1.length = numVar ∧ u.2.length = numVar ∧ ∀ v, v < numVar →
      u.1[v]?.getD 0 = ∑ m ∈ range q, nt m v ∧ u.2[v]?.getD 0 = ∑ m ∈ range q, dt m v)
    ⟨by simp, by simp, fun v hv => by simp [getD_replicate_zero]⟩ (by
    intro q u hq ⟨j1, j2, j3⟩
    obtain ⟨s', e, k1, k2, k3⟩ := inner q u hq j1 j2
    refine ⟨s', e, k1, k2, fun v hv => ?_⟩
    rw [(k3 v hv).1, (k3 v hv).2, (j3 v hv).1, (j3 v hv).2, sum_range_succ, sum_range_succ]
    exact ⟨rfl, rfl⟩)
  have hNs : ∀ v, v < numVar → s.1[v]? = some (N v) := fun v hv => by
    have := (i3 v hv).1
    rw [List.getElem?_eq_getElem (by omega)] at this ⊢
    rw [hN v]; exact congrArg some this
  have hDs : ∀ v, v < numVar → s.2[v]? = some (D v) := fun v hv => by
    have := (i3 v hv).2
    rw [List.getElem?_eq_getElem (by omega)] at this ⊢
    rw [hD v]; exact congrArg some this
  have hnn : ∀ v, v < numVar → 0 ≤ N v ∧ 0 ≤ D v := by
    intro v hv
    rw [hN, hD]
    constructor <;> refine sum_nonneg fun m hm => ?_
    · rw [← sqDiff_nil]
      refine sqDiff_nonneg ?_ _ _
      have := hidx (mem_range.1 hm) hv
      rw [List.getElem?_eq_getElem (by omega)]
      exact hw _ (List.getElem_mem _)
    · refine sqDiff_nonneg ?_ _ _
      have := hidx (mem_range.1 hm) hv
      rw [List.getElem?_eq_getElem (by omega)]
      exact hw _ (List.getElem_mem _)
  unfold relativeError
  have c1 : (fom.length == numVar * numSub) = true := by simp [hf, Nat.mul_comm]
  have c2 : (rom.length == numVar * numSub) = true := by simp [hr, Nat.mul_comm]
  rw [c1, c2, require_true, ok_bind, ok_bind, e, ok_bind]
  have := loop_spec (n := numVar) (body := fun v l => do
      let n ← rd s.1 v
      let e ← rd s.2 v
      return l ++ [ndiv (Real.sqrt e) (Real.sqrt n)])
    (fun q => (List.range q).map fun v =>
      if N v = 0 then (if D v = 0 then Num.nan else .inf) else .fin (Real.sqrt (D v / N v)))
    (s := []) rfl (by
      intro q hq
      rw [rd_eq_ok.2 (hNs q hq), ok_bind, rd_eq_ok.2 (hDs q hq), ok_bind, List.range_succ, List.map_append]
      show Except.ok _ = Except.ok _
      congr 2
      simp only [List.map_cons, List.map_nil, List.cons.injEq, and_true]
      unfold ndiv
      simp only [Real.sqrt_eq_zero (hnn q hq).1, Real.sqrt_eq_zero (hnn q hq).2, Real.sqrt_div (hnn q hq).2])
  exact this

/-- The blocks of a solution are its slices. -/
theorem blocksOf_ok {offs : List Nat} {U : List ℝ} {n : Nat} (hl : offs.length = n + 1)
    (hm : ∀ k, k < n → offs[k]?.getD 0 ≤ offs[k + 1]?.getD 0) (hn : offs[n]?.getD 0 ≤ U.length) :
    blocksOf (⟨U, offs⟩ : BlockVector ℝ) = .ok ((List.range n).map (slice offs U)) := by
  have mono : ∀ {i j}, i ≤ j → j ≤ n → offs[i]?.getD 0 ≤ offs[j]?.getD 0 := by
    intro i j hij hj
    induction j, hij using Nat.le_induction with
    | base => exact le_rfl
    | succ j hij ih => exact (ih (by omega)).trans (hm j (by omega))
  unfold blocksOf
  have nb : (⟨U, offs⟩ : BlockVector ℝ).numBlocks = n := by
    simp [BlockVector.numBlocks, hl]
  rw [nb]
  refine loop_spec (n := n) (fun q => (List.range q).map (slice offs U)) rfl ?_
  intro q hq
  have l1 : q < offs.length := by omega
  have l2 : q + 1 < offs.length := by omega
  have e1 : offs[q]?.getD 0 = offs[q] := by rw [List.getElem?_eq_getElem l1]; rfl
  have e2 : offs[q + 1]?.getD 0 = offs[q + 1] := by rw [List.getElem?_eq_getElem l2]; rfl
  have h1 := hm q hq
  have h2 := (mono (show q + 1 ≤ n by omega) le_rfl).trans hn
  rw [e1, e2] at h1
  rw [e2] at h2
  have : readBlock (⟨U, offs⟩ : BlockVector ℝ) q = .ok (slice offs U q) := by
    unfold readBlock BlockVector.blockSize
    dsimp only
    rw [rd_of_lt l1, ok_bind, rd_of_lt l2, ok_bind, ok_bind]
    show getSeg U _ (offs[q + 1] - offs[q]) = _
    unfold getSeg
    rw [if_pos (by omega)]
    unfold slice
    rw [e1, e2]
  rw [this, ok_bind, List.range_succ, List.map_append]
  rfl

theorem sameBlocks_ok (offs : List Nat) (U V : List ℝ) :
    sameBlocks (⟨U, offs⟩ : BlockVector ℝ) ⟨V, offs⟩ = .ok () := by
  unfold sameBlocks
  have : ((⟨U, offs⟩ : BlockVector ℝ).numBlocks == (⟨V, offs⟩ : BlockVector ℝ).numBlocks) = true := by
    simp [BlockVector.numBlocks]
  rw [this, require_true, ok_bind]
  refine loop_spec (fun _ => ()) rfl ?_
  intro q hq
  have hq' : q < offs.length - 1 := hq
  unfold BlockVector.blockSize
  dsimp only
  rw [rd_of_lt (by omega), ok_bind, rd_of_lt (by omega), ok_bind]
  simp [pure, Except.pure]

theorem compare_ok {x : Ext ℝ} (h : Layout x) {U V : List ℝ} (hU : U.length = size x)
    (hV : V.length = size x) :
    compareSolution Real.sqrt x.spaces x.numSub x.numVar ⟨U, x.varOffs⟩ ⟨V, x.varOffs⟩ =
      .ok ((List.range x.numVar).map (relErr x U V)) := by
  have hsz : x.varOffs[x.numSub * x.numVar]?.getD 0 = size x := by
    unfold size; rw [h.offs]; rfl
  unfold compareSolution
  rw [sameBlocks_ok, ok_bind, blocksOf_ok h.offs h.mono (by rw [hsz, hU]), ok_bind,
    blocksOf_ok h.offs h.mono (by rw [hsz, hV]), ok_bind]
  have hidx : ∀ {m v}, m < x.numSub → v < x.numVar → m * x.numVar + v < x.numSub * x.numVar := by
    intro m v hm hv
    have := Nat.mul_le_mul_right x.numVar (show m + 1 ≤ x.numSub by omega)
    rw [Nat.succ_mul] at this; omega
  rw [relativeError_ok h.spaces (by simp) (by simp) h.weights _ _ (fun _ => rfl) (fun _ => rfl)]
  congr 1
  refine List.map_congr_left fun v hv => ?_
  have hv := List.mem_range.1 hv
  have e : ∀ (W : List ℝ) m, m ∈ range x.numSub →
      ((List.range (x.numSub * x.numVar)).map (slice x.varOffs W))[m * x.numVar + v]?.getD [] =
        slice x.varOffs W (m * x.numVar + v) := by
    intro W m hm
    rw [List.getElem?_map, List.getElem?_range (hidx (mem_range.1 hm) hv)]; rfl
  unfold relErr normOf diffOf
  have s1 := sum_congr (rfl : range x.numSub = range x.numSub) (fun m hm =>
    congrArg (sqNorm (x.spaces[m * x.numVar + v]?.getD ⟨0, []⟩)) (e U m hm))
  have s2 := sum_congr (rfl : range x.numSub = range x.numSub) (fun m hm =>
    congrArg₂ (sqDiff (x.spaces[m * x.numVar + v]?.getD ⟨0, []⟩)) (e U m hm) (e V m hm))
  rw [s1, s2]

/-- What `LoadSolution` gives for a file written by `SaveSolution`. -/
theorem save_load_solution {file : String} {U V : List ℝ} {d d' : Disk ℝ}
    (h : saveSolution true file U d = .ok d') (hl : V.length = U.length) :
    loadSolution file d' V = .ok U := by
  unfold saveSolution at h
  rw [if_pos rfl] at h
  obtain ⟨f, h1, h2⟩ := bind_eq_ok.1 h
  cases h2
  unfold loadSolution
  rw [Function.update_self]
  dsimp only
  unfold writeVector at h1
  obtain ⟨_, h0, h1⟩ := bind_eq_ok.1 h1
  have h0 : 0 < U.length := by simpa using require_eq_ok.1 h0
  obtain ⟨-, -, rfl⟩ := create_inv h1
  rw [find_cons_self]
  dsimp only
  have c : (([U.length] : List Nat).length == 1 && ([U.length] : List Nat)[0]?.getD 0 == V.length) = true := by
    simp [hl]
  rw [show decide (0 < ([U.length] : List Nat).length) = true from rfl, c, require_true, ok_bind, ok_bind]
  unfold readVector openDset
  rw [find_cons_self]
  dsimp only
  rw [show (([U.length] : List Nat).length == 1) = true from rfl, require_true, ok_bind]
  show (rd U 0 >>= _) = _
  rw [rd_of_lt h0]
  rfl

end Verif.SingleRun
