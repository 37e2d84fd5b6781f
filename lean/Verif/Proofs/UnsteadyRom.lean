import Verif.Proofs.Unsteady
import Verif.Proofs.RomAssembly

/-!
# Proofs about the reduced time step
-/

namespace Verif.Unsteady

open Verif Verif.LinAlg Verif.LinAlg.Spec Verif.Unsteady.Spec Verif.EqpRom Finset
open Verif.Blocks (BlockVector)
open Verif.Blocks.Spec (IsOffsets HasSizes)
open Verif.RomHandler Verif.RomHandler.Spec

variable {R : Type}

theorem subArr {l : List Nat} {o n : Nat} (h : o + n ≤ l.length) :
    getSeg l o n = .ok (tab n fun k => l[o + k]?.getD 0) := by
  unfold getSeg
  rw [if_pos h]
  congr 1
  apply List.ext_getElem?
  intro k
  rw [getElem?_tab, List.getElem?_take]
  by_cases hk : k < n
  · rw [if_pos hk, if_pos hk, List.getElem?_drop, List.getElem?_eq_getElem (by omega)]; rfl
  · rw [if_neg hk, if_neg hk]

theorem isOffsets_tab (n : Nat) (w : Nat → Nat) : IsOffsets (tab (n + 1) (first w)) (tab n w) := by
  refine ⟨by simp, by rw [getElem?_tab, if_pos (by omega)]; rfl, fun i s hs => ?_⟩
  rw [getElem?_tab] at hs
  split at hs
  · rename_i hi
    obtain rfl := Option.some.inj hs
    exact ⟨first w i, by rw [getElem?_tab, if_pos (by omega)],
      by rw [getElem?_tab, if_pos (by omega), first_succ]⟩
  · cases hs

theorem shift_ok (n : Nat) (f : Nat → Nat) :
    loop (n + 1) (fun i p => (do
      let a ← rd p (n - i)
      let b ← rd p 0
      wr p (n - i) (a - b) : Outcome (List Nat))) (tab (n + 1) f) = .ok (tab (n + 1) fun k => f k - f 0) := by
  refine (loop_spec (fun i => tab (n + 1) fun k => if n < k + i then f k - f 0 else f k) ?_ ?_).trans ?_
  · exact tab_congr fun k hk => by rw [if_neg (by omega)]
  · intro i hi
    rw [rd_tab (by omega), ok_bind, rd_tab (by omega), ok_bind, wr_tab (by omega)]
    congr 1
    refine tab_congr fun k hk => ?_
    rw [if_neg (show ¬ n < n - i + i by omega), if_neg (show ¬ n < 0 + i by omega)]
    by_cases h : k = n - i
    · subst h; rw [Function.update_self, if_pos (by omega)]
    · rw [Function.update_of_ne h]
      by_cases h' : n < k + i
      · rw [if_pos h', if_pos (by omega)]
      · rw [if_neg h', if_neg (by omega)]
  · congr 1
    exact tab_congr fun k hk => by rw [if_pos (by omega)]

theorem sizes_eq (P : Reduced R) : P.sizes = tab P.n P.wu ++ tab P.n P.wp := rfl

theorem romOffsets_ok {P : Reduced R} {offs : List Nat} (h : IsOffsets offs P.sizes) :
    romOffsets offs P.n =
      .ok (tab (P.n + 1) (first P.wu), tab (P.n + 1) (first P.wp), [0, P.NU, P.N]) := by
  have hl : offs.length = 2 * P.n + 1 := by rw [h.1, sizes_eq]; simp; omega
  have hls : P.sizes.length = 2 * P.n := by rw [sizes_eq]; simp; omega
  have v1 : ∀ m, m ≤ P.n → offs[m]? = some (first P.wu m) := fun m hm => by
    rw [h.value (by omega), sizes_eq, (byVar_take hm).1]
  have v2 : ∀ m, m ≤ P.n → offs[P.n + m]? = some (P.NU + first P.wp m) := fun m hm => by
    rw [h.value (by omega), sizes_eq, (byVar_take hm).2]; rfl
  unfold romOffsets
  rw [subArr (by omega), ok_bind, subArr (by omega), ok_bind, shift_ok, ok_bind, rd_eq_ok.2 (v1 P.n le_rfl),
    ok_bind, Nat.two_mul, rd_eq_ok.2 (v2 P.n le_rfl), ok_bind]
  refine congrArg Except.ok ?_
  refine Prod.ext (tab_congr fun k hk => ?_) (Prod.ext (tab_congr fun k hk => ?_) rfl)
  · rw [Nat.zero_add, v1 k (by omega)]; rfl
  · have := v2 0 (by omega)
    rw [v2 k (by omega), this]
    show P.NU + first P.wp k - (P.NU + first P.wp 0) = _
    rw [show first P.wp 0 = 0 from rfl]
    omega

section
variable [CommRing R]

theorem addOne_ok {b : BlockMat R} {z : List Nat} (ho : b.ownsBlocks = true) (hr : IsOffsets b.roffs z)
    (hc : IsOffsets b.coffs z) (hs : BShapes b z) {i : Nat} {e : Blk R} (hi : z[i]? = some e.h)
    (hw : e.w = e.h) :
    ∃ b', addToBlockMatrix [(i : Int)] [(i : Int)] (single e) b = .ok b' ∧ b'.roffs = b.roffs ∧
      b'.coffs = b.coffs ∧ b'.ownsBlocks = true ∧ BShapes b' z ∧
      ∀ a d p q, bval b' a d p q = bval b a d p q + if a = i ∧ d = i then e.val p q else 0 := by
  have li := (List.getElem?_eq_some_iff.1 hi).1
  have hrow : rowAt [(i : Int)] 0 = i := rfl
  have hval : ∀ o, IsOffsets o z → (e.h : Int) = (o[i + 1]?.getD 0 : Int) - (o[i]?.getD 0 : Int) := by
    intro o h
    obtain ⟨x, h1, h2⟩ := h.2.2 i _ hi
    rw [h1, h2]; simp
  obtain ⟨b', e1, e2, e3, e4, e5⟩ := addToBlockMatrix_spec [(i : Int)] [(i : Int)] (single e) b ho rfl rfl
    (by simp) (by simp) (by rw [hr.1]; simp; omega) (by rw [hc.1]; simp; omega) (by
      intro i' j' m h1 h2 hm
      obtain rfl : i' = 0 := by simpa using h1
      obtain rfl : j' = 0 := by simpa using h2
      obtain rfl : e = m := Option.some.inj hm
      rw [hrow, hw]
      exact ⟨hval _ hr, hval _ hc⟩)
  refine ⟨b', e1, e2, e3, e4, addToBlockMatrix_shapes e1 hr hc hs, fun a d p q => ?_⟩
  rw [e5]
  simp [hrow, mval, single]

end

section
variable [Field R]

theorem romBlock_variable {P : Reduced R} {nu np : Nat → Nat} {rom : BlockMat R}
    {comp : List (Option (Blk R))} {r : Rom R} (h : P.Ok nu np rom comp r) (m v : Nat) :
    romBlock r.h m v = v * P.n + m := by
  unfold romBlock
  rw [h.ord]
  dsimp only
  rw [h.sep, if_pos rfl, h.n]

theorem vars_two {P : Reduced R} {nu np : Nat → Nat} {rom : BlockMat R}
    {comp : List (Option (Blk R))} {r : Rom R} (h : P.Ok nu np rom comp r) : vars r.h = 2 := by
  unfold vars
  rw [h.sep, if_pos rfl, h.nv]

/-- The assembled matrices. -/
structure MatsOk (P : Reduced R) (rom : BlockMat R) (r : Rom R) : Prop where
  roffs : IsOffsets r.romMat.roffs P.sizes
  coffs : IsOffsets r.romMat.coffs P.sizes
  shapes : BShapes r.romMat P.sizes
  val : ∀ i j p q, bval r.romMat i j p q = bval rom i j p q +
    if i < P.n ∧ i = j then P.mass i p q * (1 / P.dt) else 0
  mass : Diag r.romMass P.n P.wu P.mass

theorem assemble_ok {P : Reduced R} {nu np : Nat → Nat} {rom : BlockMat R}
    {comp : List (Option (Blk R))} {r : Rom R} (h : P.Ok nu np rom comp r) :
    ∃ a, assembleROMMat r.h comp r.dt rom = .ok a ∧ MatsOk P rom { r with romMat := a.1, romMass := a.2 } := by
  have ho := h.ready.offs
  have hl : r.h.romOffs.length = 2 * P.n + 1 := by rw [ho.1, sizes_eq]; simp; omega
  have hls : P.sizes.length = 2 * P.n := by rw [sizes_eq]; simp; omega
  have hu : (tab (P.n + 1) fun k => r.h.romOffs[0 + k]?.getD 0) = tab (P.n + 1) (first P.wu) := by
    refine tab_congr fun k hk => ?_
    rw [Nat.zero_add, ho.value (by omega), sizes_eq, (byVar_take (by omega)).1]; rfl
  unfold assembleROMMat
  rw [h.ord, show (Blocks.Order.variable == Blocks.Order.variable) = true from rfl, require_true, ok_bind, h.n,
    subArr (by omega), ok_bind, hu]
  obtain ⟨a, e, ⟨a1, a2, a3, a4, a5⟩, b1, b2, b3, b4, b5⟩ := loop_total (n := P.n)
    (body := fun m s => addMassStep r.h comp r.dt m s)
    (fun m s => (s.1.ownsBlocks = true ∧ IsOffsets s.1.roffs P.sizes ∧ IsOffsets s.1.coffs P.sizes ∧
      BShapes s.1 P.sizes ∧ ∀ i j p q, bval s.1 i j p q = bval rom i j p q +
        if i < m ∧ i = j then P.mass i p q * (1 / P.dt) else 0) ∧
      s.2.ownsBlocks = true ∧ IsOffsets s.2.roffs (tab P.n P.wu) ∧ IsOffsets s.2.coffs (tab P.n P.wu) ∧
      BShapes s.2 (tab P.n P.wu) ∧ ∀ i j p q, bval s.2 i j p q =
        if i < m ∧ i = j then P.mass i p q else 0)
    (s := (rom, ⟨tab (P.n + 1) (first P.wu), tab (P.n + 1) (first P.wu), true, fun _ _ => none⟩))
    ⟨⟨h.owns, by rw [h.roffs]; exact ho, by rw [h.coffs]; exact ho, h.shape, fun i j p q => by
      rw [if_neg (by omega), add_zero]⟩, rfl, isOffsets_tab _ _, isOffsets_tab _ _, fun i j m hm => (by cases hm),
      fun i j p q => by rw [if_neg (by omega)]; rfl⟩ (by
    rintro m s hm ⟨⟨s1, s2, s3, s4, s5⟩, t1, t2, t3, t4, t5⟩
    have hty : m < r.h.meshType.length := by have := h.n; unfold Handler.numSub at this; omega
    unfold addMassStep
    rw [rd_of_lt hty, ok_bind]
    have hidx := RomAssembly.blockIndex_eq r.h (m := m) (v := 0) (by rw [vars_two h]; omega)
    rw [romBlock_variable h, Nat.zero_mul, Nat.zero_add] at hidx
    rw [show ((0 : Nat) : Int) = 0 from rfl] at hidx
    rw [hidx, ok_bind, rd_eq_ok.2 (h.mass m _ (List.getElem?_eq_getElem hty)), ok_bind]
    rw [show deref (some (⟨P.wu m, P.wu m, P.mass m⟩ : Blk R)) = .ok ⟨P.wu m, P.wu m, P.mass m⟩ from rfl, ok_bind]
    obtain ⟨y, y0, y1, y2, y3, y4, y5⟩ := addOne_ok (e := ⟨P.wu m, P.wu m, P.mass m⟩) (i := m) t1 t2 t3 t4
      (by rw [getElem?_tab, if_pos hm]) rfl
    obtain ⟨x, x0, x1, x2, x3, x4, x5⟩ := addOne_ok (e := scaleBlk (bd0 / r.dt) ⟨P.wu m, P.wu m, P.mass m⟩)
      (i := m) s1 s2 s3 s4 (by rw [sizes_eq]; exact (byVar_get hm).1) rfl
    rw [y0, ok_bind, x0, ok_bind]
    refine ⟨(x, y), rfl, ⟨x3, by rw [x1]; exact s2, by rw [x2]; exact s3, x4, fun i j p q => ?_⟩, y3,
      by rw [y1]; exact t2, by rw [y2]; exact t3, y4, fun i j p q => ?_⟩
    · rw [x5, s5]
      by_cases hi : i = m
      · subst hi
        rw [if_neg (by omega), add_zero]
        by_cases hj : j = i
        · subst hj
          rw [if_pos ⟨rfl, rfl⟩, if_pos ⟨by omega, rfl⟩]
          show _ + P.mass j p q * (bd0 / r.dt) = _
          rw [h.dt]; rfl
        · rw [if_neg (by tauto), if_neg (by tauto)]
      · rw [if_neg (show ¬ (i = m ∧ j = m) by tauto), add_zero]
        by_cases hc : i < m ∧ i = j
        · rw [if_pos hc, if_pos ⟨by omega, hc.2⟩]
        · rw [if_neg hc, if_neg (fun hh => hc ⟨by omega, hh.2⟩)]
    · rw [y5, t5]
      by_cases hi : i = m
      · subst hi
        rw [if_neg (by omega), zero_add]
        by_cases hj : j = i
        · subst hj
          rw [if_pos ⟨rfl, rfl⟩, if_pos ⟨by omega, rfl⟩]
        · rw [if_neg (by tauto), if_neg (by tauto)]
      · rw [if_neg (show ¬ (i = m ∧ j = m) by tauto), add_zero]
        by_cases hc : i < m ∧ i = j
        · rw [if_pos hc, if_pos ⟨by omega, hc.2⟩]
        · rw [if_neg hc, if_neg (fun hh => hc ⟨by omega, hh.2⟩)])
  refine ⟨a, e, a2, a3, a4, a5, b2, b3, b4, fun i j p q hi _ _ _ => ?_⟩
  rw [b5]
  by_cases hij : i = j
  · rw [if_pos ⟨hi, hij⟩, if_pos hij]
  · rw [if_neg (by tauto), if_neg hij]

/-- Rows of the assembled operator. -/
theorem rom_entry {P : Reduced R} {nu np : Nat → Nat} {rom : BlockMat R} {comp : List (Option (Blk R))}
    {r : Rom R} (h : P.Ok nu np rom comp r) (hm : MatsOk P rom r) {i j s s' k l : Nat}
    (hi : P.sizes[i]? = some s) (hj : P.sizes[j]? = some s') (hk : k < s) (hl : l < s') :
    (mono r.romMat).val ((P.sizes.take i).sum + k) ((P.sizes.take j).sum + l) =
      P.A ((P.sizes.take i).sum + k) ((P.sizes.take j).sum + l) +
        if i < P.n ∧ i = j then P.mass i k l * (1 / P.dt) else 0 := by
  rw [mono_entry hm.roffs hm.coffs hm.shapes hi hj hk hl, hm.val, h.A i j s s' k l hi hj hk hl]
  rfl

theorem velocity_entry {P : Reduced R} {nu np : Nat → Nat} {rom : BlockMat R} {comp : List (Option (Blk R))}
    {r : Rom R} (h : P.Ok nu np rom comp r) (hm : MatsOk P rom r) {m k c : Nat} (hmn : m < P.n)
    (hk : k < P.wu m) (hc : c < P.N) :
    (mono r.romMat).val (first P.wu m + k) c = P.A (first P.wu m + k) c +
      if first P.wu m ≤ c ∧ c < first P.wu m + P.wu m then P.mass m k (c - first P.wu m) * (1 / P.dt) else 0 := by
  have hi : P.sizes[m]? = some (P.wu m) := by rw [sizes_eq]; exact (byVar_get hmn).1
  have ti : (P.sizes.take m).sum = first P.wu m := by rw [sizes_eq]; exact (byVar_take (by omega)).1
  by_cases hlt : c < P.NU
  · obtain ⟨j, l, hj, hl, rfl⟩ := locate P.n P.wu hlt
    have hj' : P.sizes[j]? = some (P.wu j) := by rw [sizes_eq]; exact (byVar_get hj).1
    have tj : (P.sizes.take j).sum = first P.wu j := by rw [sizes_eq]; exact (byVar_take (by omega)).1
    have := rom_entry h hm hi hj' hk hl
    rw [ti, tj] at this
    rw [this]
    by_cases hmj : m = j
    · subst hmj
      rw [if_pos ⟨hmn, rfl⟩, if_pos (by omega), Nat.add_sub_cancel_left]
    · rw [if_neg (by tauto), if_neg (first_disjoint P.wu hmj hl)]
  · obtain ⟨j, l, hj, hl, e⟩ := locate P.n P.wp (show c - P.NU < P.NP by unfold Reduced.N at hc; omega)
    obtain rfl : c = P.NU + (first P.wp j + l) := by omega
    have hj' : P.sizes[P.n + j]? = some (P.wp j) := by rw [sizes_eq]; exact (byVar_get hj).2
    have tj : (P.sizes.take (P.n + j)).sum = P.NU + first P.wp j := by
      rw [sizes_eq]; exact (byVar_take (by omega)).2
    have := rom_entry h hm hi hj' hk hl
    rw [ti, tj, Nat.add_assoc] at this
    rw [this, if_neg (by omega), if_neg (by
      have := first_bound P.wu hmn
      unfold Reduced.NU; omega)]

theorem pressure_entry {P : Reduced R} {nu np : Nat → Nat} {rom : BlockMat R} {comp : List (Option (Blk R))}
    {r : Rom R} (h : P.Ok nu np rom comp r) (hm : MatsOk P rom r) {t c : Nat} (ht : t < P.NP) (hc : c < P.N) :
    (mono r.romMat).val (P.NU + t) c = P.A (P.NU + t) c := by
  obtain ⟨m, k, hmn, hk, rfl⟩ := locate P.n P.wp ht
  have hi : P.sizes[P.n + m]? = some (P.wp m) := by rw [sizes_eq]; exact (byVar_get hmn).2
  have ti : (P.sizes.take (P.n + m)).sum = P.NU + first P.wp m := by
    rw [sizes_eq]; exact (byVar_take (by omega)).2
  by_cases hlt : c < P.NU
  · obtain ⟨j, l, hj, hl, rfl⟩ := locate P.n P.wu hlt
    have hj' : P.sizes[j]? = some (P.wu j) := by rw [sizes_eq]; exact (byVar_get hj).1
    have tj : (P.sizes.take j).sum = first P.wu j := by rw [sizes_eq]; exact (byVar_take (by omega)).1
    have := rom_entry h hm hi hj' hk hl
    rw [ti, tj, Nat.add_assoc] at this
    rw [this, if_neg (by omega), add_zero]
  · obtain ⟨j, l, hj, hl, e⟩ := locate P.n P.wp (show c - P.NU < P.NP by unfold Reduced.N at hc; omega)
    obtain rfl : c = P.NU + (first P.wp j + l) := by omega
    have hj' : P.sizes[P.n + j]? = some (P.wp j) := by rw [sizes_eq]; exact (byVar_get hj).2
    have tj : (P.sizes.take (P.n + j)).sum = P.NU + first P.wp j := by
      rw [sizes_eq]; exact (byVar_take (by omega)).2
    have := rom_entry h hm hi hj' hk hl
    rw [ti, tj, Nat.add_assoc, Nat.add_assoc] at this
    rw [this, if_neg (by omega), add_zero]

/-- A row of the velocity equations. -/
theorem velocity_row {P : Reduced R} {nu np : Nat → Nat} {rom : BlockMat R} {comp : List (Option (Blk R))}
    {r : Rom R} (h : P.Ok nu np rom comp r) (hm : MatsOk P rom r) {m k : Nat} (hmn : m < P.n)
    (hk : k < P.wu m) (x : Nat → R) :
    ∑ c ∈ range P.N, (mono r.romMat).val (first P.wu m + k) c * x c =
      ∑ l ∈ range (P.wu m), P.mass m k l * (x (first P.wu m + l) / P.dt) +
        ∑ c ∈ range P.N, P.A (first P.wu m + k) c * x c := by
  rw [sum_congr rfl fun c hc => by rw [velocity_entry h hm hmn hk (mem_range.1 hc), add_mul, ite_mul, zero_mul],
    sum_add_distrib, add_comm]
  congr 1
  have hb := first_bound P.wu hmn
  rw [sum_shift (fun c => P.mass m k (c - first P.wu m) * (1 / P.dt) * x c) _ _ _
    (show first P.wu m + P.wu m ≤ P.N by unfold Reduced.N Reduced.NU; omega)]
  refine sum_congr rfl fun l _ => ?_
  rw [Nat.add_sub_cancel_left]
  ring

theorem pressure_row {P : Reduced R} {nu np : Nat → Nat} {rom : BlockMat R} {comp : List (Option (Blk R))}
    {r : Rom R} (h : P.Ok nu np rom comp r) (hm : MatsOk P rom r) {t : Nat} (ht : t < P.NP) (x : Nat → R) :
    ∑ c ∈ range P.N, (mono r.romMat).val (P.NU + t) c * x c = ∑ c ∈ range P.N, P.A (P.NU + t) c * x c :=
  sum_congr rfl fun c hc => by rw [pressure_entry h hm ht (mem_range.1 hc)]

theorem rom_mass_split (P : Reduced R) (m k : Nat) (u' u : Nat → R) : ∑ l ∈ range (P.wu m), P.mass m k l *
      ((u' (first P.wu m + l) - u (first P.wu m + l)) / P.dt) =
    ∑ l ∈ range (P.wu m), P.mass m k l * (u' (first P.wu m + l) / P.dt) -
      1 / P.dt * ∑ l ∈ range (P.wu m), P.mass m k l * u (first P.wu m + l) := by
  rw [mul_sum, ← sum_sub_distrib]
  exact sum_congr rfl fun l _ => by ring

/-- The rows of the assembled system are the equations of the reduced step. -/
theorem rom_rows_iff {P : Reduced R} {nu np : Nat → Nat} {rom : BlockMat R} {comp : List (Option (Blk R))}
    {r : Rom R} (h : P.Ok nu np rom comp r) (hmt : MatsOk P rom r) {t : R} {u : Nat → R} {y : List R}
    (hY : ∀ m k, m < P.n → k < P.wu m → ve y (first P.wu m + k) = P.rhs (first P.wu m + k) - P.conv t u m k +
      1 / P.dt * ∑ l ∈ range (P.wu m), P.mass m k l * u (first P.wu m + l))
    (hY' : ∀ t, t < P.NP → ve y (P.NU + t) = P.rhs (P.NU + t)) (z : Nat → R) :
    (∀ i, i < P.N → ∑ c ∈ range P.N, (mono r.romMat).val i c * z c = ve y i) ↔ P.Step t u z := by
  constructor
  · intro H
    refine ⟨fun m k hm hk => ?_, fun q hq => ?_⟩
    · have hb := first_bound P.wu hm
      have := H (first P.wu m + k) (by unfold Reduced.N Reduced.NU; omega)
      rw [velocity_row h hmt hm hk, hY m k hm hk] at this
      rw [rom_mass_split]
      linear_combination this
    · have := H (P.NU + q) (by unfold Reduced.N; omega)
      rw [pressure_row h hmt hq, hY' q hq] at this
      exact this
  · rintro ⟨H1, H2⟩ i hi
    by_cases hlt : i < P.NU
    · obtain ⟨m, k, hm, hk, rfl⟩ := locate P.n P.wu hlt
      have := H1 m k hm hk
      rw [rom_mass_split] at this
      rw [velocity_row h hmt hm hk, hY m k hm hk]
      linear_combination this
    · obtain ⟨q, rfl⟩ : ∃ q, i = P.NU + q := ⟨i - P.NU, by omega⟩
      have hq : q < P.NP := by unfold Reduced.N at hi; omega
      rw [pressure_row h hmt hq, hY' q hq]
      exact H2 q hq

theorem basis_dims {P : Reduced R} {nu np : Nat → Nat} {rom : BlockMat R} {comp : List (Option (Blk R))}
    {r : Rom R} (h : P.Ok nu np rom comp r) {m : Nat} (hm : m < P.n) :
    (basisOf r.h r.h.refBasis m 0).w = P.wu m ∧ (basisOf r.h r.h.refBasis m 1).w = P.wp m ∧
      (basisOf r.h r.h.refBasis m 0).h = nu m ∧ (basisOf r.h r.h.refBasis m 1).h = np m := by
  have h2 := vars_two h
  have hmn : m < r.h.numSub := by rw [h.n]; exact hm
  have a0 := h.ready.szR m 0 hmn (by omega)
  have a1 := h.ready.szR m 1 hmn (by omega)
  have b0 := h.ready.szF m 0 hmn (by omega)
  have b1 := h.ready.szF m 1 hmn (by omega)
  rw [romBlock_variable h, sizes_eq, Nat.zero_mul, Nat.zero_add, (byVar_get hm).1] at a0
  rw [romBlock_variable h, sizes_eq, Nat.one_mul, (byVar_get hm).2] at a1
  unfold fomBlock at b0 b1
  rw [h2, Nat.mul_comm] at b0 b1
  have c := bySub_get (a := nu) (b := np) hm
  unfold bySub at c
  rw [Nat.add_zero, c.1] at b0
  rw [c.2] at b1
  exact ⟨(Option.some.inj a0).symm, (Option.some.inj a1).symm, (Option.some.inj b0).symm, (Option.some.inj b1).symm⟩

/-- The projected constant. -/
theorem romOnes_ok {P : Reduced R} {nu np : Nat → Nat} {rom : BlockMat R} {comp : List (Option (Blk R))}
    {r : Rom R} (h : P.Ok nu np rom comp r) :
    ∃ ones, romOnes r.h r.poffs (tab (P.n + 1) (first P.wp)) r.presDbc = .ok ones ∧ ones.length = P.NP ∧
      (r.presDbc = false → ∀ m k, m < P.n → k < P.wp m → ve ones (first P.wp m + k) = onesAt r.h m k) := by
  unfold romOnes
  rw [h.n, rd_tab (by omega), ok_bind]
  dsimp only
  have hz0 : HasSizes (⟨List.replicate (first P.wp P.n) 0, tab (P.n + 1) (first P.wp)⟩ : BlockVector R)
      (tab P.n P.wp) := ⟨isOffsets_tab _ _, by rw [tab_sum]; simp [first]⟩
  cases hp : r.presDbc with
  | true => exact ⟨_, rfl, by simp [Reduced.NP], fun h => by cases h⟩
  | false =>
    rw [if_neg (by simp)]
    obtain ⟨b, e, b1, b2⟩ := loop_total (n := P.n) (body := fun m (z : BlockVector R) => (do
        let idx ← Blocks.getBlockIndex r.h.separate r.h.ord P.n r.h.numVar m 1
        let o ← rd r.poffs m
        let o1 ← rd r.poffs (m + 1)
        let k ← z.blockSize m
        let v ← r.h.projectDomain idx.toNat (List.replicate (o1 - o) 1) k
        writeBlock z m v))
      (fun m z => HasSizes z (tab P.n P.wp) ∧ ∀ i k, i < m → i < P.n → k < P.wp i → bent z i k = onesAt r.h i k)
      (s := ⟨List.replicate (first P.wp P.n) 0, tab (P.n + 1) (first P.wp)⟩) ⟨hz0, fun i k hi => by omega⟩ (by
      rintro m z hm ⟨z1, z2⟩
      have hmn : m < r.h.numSub := by rw [h.n]; exact hm
      have h2 := vars_two h
      obtain ⟨d0, d1, d2, d3⟩ := basis_dims h hm
      have hidx := RomAssembly.blockIndex_eq r.h (m := m) (v := 1) (by omega)
      rw [show ((1 : Nat) : Int) = 1 from rfl, h.n] at hidx
      have hs : (tab P.n P.wp)[m]? = some (P.wp m) := by rw [getElem?_tab, if_pos hm]
      rw [hidx, ok_bind, offs_first h.poffs (by omega), ok_bind, offs_first h.poffs (by omega), ok_bind,
        z1.blockSize hs, ok_bind, first_succ, Nat.add_sub_cancel_left, Int.toNat_natCast]
      unfold Handler.projectDomain
      rw [domainBasis_eq h.ready hmn (by omega), ok_bind, List.length_replicate, d3, d1, beq_self_eq_true,
        beq_self_eq_true, require_true, ok_bind, ok_bind]
      unfold multTranspose
      rw [if_pos (by rw [List.length_replicate, d3]), ok_bind]
      obtain ⟨z', w1, w2, w3, w4⟩ := writeBlock_spec z1 (i := m) (l := (List.range (basisOf r.h r.h.refBasis m 1).w).map
        fun c => ∑ i ∈ range (basisOf r.h r.h.refBasis m 1).h,
          (basisOf r.h r.h.refBasis m 1).data[i + c * (basisOf r.h r.h.refBasis m 1).h]?.getD 0 *
            (List.replicate (np m) (1 : R))[i]?.getD 0) (by rw [hs]; simp [d1])
      refine ⟨z', w1, w2, fun i k hi hin hk => ?_⟩
      by_cases him : i = m
      · subst him
        rw [w3 k (by simpa [d1] using hk)]
        rw [show ∀ f : Nat → R, (List.range (basisOf r.h r.h.refBasis i 1).w).map f =
          tab (basisOf r.h r.h.refBasis i 1).w f from fun _ => rfl, ve_tab (by omega)]
        unfold onesAt
        refine sum_congr rfl fun t ht => ?_
        have := mem_range.1 ht
        rw [List.getElem?_replicate, if_pos (by omega)]
        show ent _ _ _ * 1 = _
        rw [mul_one]
      · rw [w4 i _ k him (by rw [getElem?_tab, if_pos hin]) hk]
        exact z2 i k (by omega) hin hk)
    rw [e, ok_bind]
    refine ⟨b.data, rfl, by rw [b1.2, tab_sum]; rfl, fun _ m k hm hk => ?_⟩
    rw [← b2 m k hm hm hk, bent_eq b1 (by rw [getElem?_tab, if_pos hm]) hk, tab_take_sum _ _ (by omega)]
    rfl

theorem subtractOnes_ok {ones x : List R} {o n N : Nat} (h1 : ones.length = n) (h2 : x.length = o + n) :
    ∃ x', subtractOnes ones N o n x = .ok x' ∧ x'.length = o + n ∧ (∀ t, t < o → ve x' t = ve x t) ∧
      ∀ t, t < n → ve x' (o + t) = ve x (o + t) -
        (∑ q ∈ range n, ve ones q * ve x (o + q)) / (N : R) * ve ones t := by
  unfold subtractOnes
  rw [h1, getSeg_eq (by omega), ok_bind]
  have hz : (List.zipWith (fun a b => a * b) ones (tab n fun k => ve x (o + k))).sum =
      ∑ q ∈ range n, ve ones q * ve x (o + q) := by
    rw [← sum_tab]
    congr 1
    apply List.ext_getElem?
    intro k
    rw [List.getElem?_zipWith, getElem?_tab, getElem?_tab]
    by_cases hk : k < n
    · rw [if_pos hk, if_pos hk, List.getElem?_eq_getElem (by omega)]
      show some _ = some _
      congr 2
      unfold ve
      rw [List.getElem?_eq_getElem (by omega)]; rfl
    · rw [if_neg hk, if_neg hk, List.getElem?_eq_none (by omega)]
  dsimp only
  rw [hz]
  obtain ⟨x', e, l, hv⟩ := addScaled_ok (y := x) (o := o) (n := n)
    (-((∑ q ∈ range n, ve ones q * ve x (o + q)) / (N : R))) (v := ones) (by omega) (by omega)
  refine ⟨x', e, by omega, fun t ht => ?_, fun t ht => ?_⟩
  · rw [hv, if_neg (by omega), add_zero]
  · rw [hv, if_pos (by omega), Nat.add_sub_cancel_left]
    ring

theorem sum_first (n : Nat) (w : Nat → Nat) (f : Nat → R) :
    ∑ q ∈ range (first w n), f q = ∑ i ∈ range n, ∑ j ∈ range (w i), f (first w i + j) := by
  induction n with
  | zero => rfl
  | succ n ih => rw [first_succ, sum_range_add, ih, sum_range_succ]

/-- One reduced step. -/
theorem romStep_ok {P : Reduced R} {nu np : Nat → Nat} {rom : BlockMat R} {comp : List (Option (Blk R))}
    {r : Rom R} (h : P.Ok nu np rom comp r) (hmt : MatsOk P rom r) (hs : P.Solvable)
    {solver : Blk R → List R → Outcome (List R)} (hd : Direct solver) {ones : List R} (hl : ones.length = P.NP)
    (h1s : r.presDbc = false → ∀ m k, m < P.n → k < P.wp m → ve ones (first P.wp m + k) = onesAt r.h m k)
    (t : R) {x : List R} (hx : x.length = P.N) :
    ∃ x' z, romStep r (tab (P.n + 1) (first P.wu)) [0, P.NU, P.N] ones solver t x = .ok x' ∧
      x'.length = P.N ∧ P.Step t (ve x) z ∧
      if r.presDbc then ∀ c, c < P.N → ve x' c = z c else P.Normalised r.h (first np P.n) z (ve x') := by
  have hN : P.N = P.NU + P.NP := rfl
  unfold romStep
  rw [show rd [0, P.NU, P.N] 1 = .ok P.NU from rfl, ok_bind, show rd [0, P.NU, P.N] 2 = .ok P.N from rfl,
    ok_bind, getSeg_eq (by omega), ok_bind]
  set u1 := tab P.NU fun k => ve x (0 + k) with hu1
  have lu1 : u1.length = first P.wu P.n := length_tab _ _
  have vu1 : ∀ k, k < P.NU → ve u1 k = ve x k := fun k hk => by rw [hu1, ve_tab hk, Nat.zero_add]
  obtain ⟨cu, e1, l1, h1⟩ := convect_ok h.conv (isOffsets_tab P.n P.wu) t lu1
  rw [h.n, e1, ok_bind]
  obtain ⟨y, e3, l3, h3⟩ := addScaled_ok (y := r.rhs) (o := 0) (n := P.NU) (-ab1) (v := cu)
    (by rw [h.rhsLen]; omega) (by rw [l1]; exact le_rfl)
  rw [e3, ok_bind]
  obtain ⟨y', e4, l4, h4, h4'⟩ := addMass_ok hmt.mass (u := u1) (y := y) lu1 (N := P.NP)
    (by rw [l3, h.rhsLen]; rfl) (-bd1 / r.dt)
  rw [show first P.wu P.n = P.NU from rfl] at e4
  rw [e4, ok_bind]
  have l4' : y'.length = P.N := l4
  have hvec : u1 = vecOf P.NU (ve x) := List.map_congr_left fun l _ => by rw [Nat.zero_add]
  have hY : ∀ m k, m < P.n → k < P.wu m → ve y' (first P.wu m + k) =
      P.rhs (first P.wu m + k) - P.conv t (ve x) m k +
      1 / P.dt * ∑ l ∈ range (P.wu m), P.mass m k l * ve x (first P.wu m + l) := by
    intro m k hm hk'
    have hb := first_bound P.wu hm
    have hb' : first P.wu m + k < P.NU := by unfold Reduced.NU; omega
    have hpart : part P.wu (ve u1) m = part P.wu (ve x) m := by
      refine List.map_congr_left fun l hl => ?_
      have hl := List.mem_range.1 hl
      exact vu1 _ (by unfold Reduced.NU; omega)
    have hmass : ∑ l ∈ range (P.wu m), P.mass m k l * ve u1 (first P.wu m + l) =
        ∑ l ∈ range (P.wu m), P.mass m k l * ve x (first P.wu m + l) := by
      refine sum_congr rfl fun l hl => ?_
      have := mem_range.1 hl
      rw [vu1 _ (by unfold Reduced.NU; omega)]
    rw [h4 m k hm hk', h3, if_pos (by omega), Nat.sub_zero, h1 m k hm hk', h.rhs _ (by omega), hpart, hmass, hvec,
      h.dt]
    unfold Reduced.conv ab1 bd1
    rw [neg_neg]
    ring
  have hY' : ∀ t, t < P.NP → ve y' (P.NU + t) = P.rhs (P.NU + t) := by
    intro t ht
    rw [show P.NU = first P.wu P.n from rfl, h4', h3, if_neg (by unfold Reduced.NU; omega), add_zero]
    exact h.rhs _ (by unfold Reduced.N Reduced.NU; omega)
  obtain ⟨d1, d2⟩ := mono_dims hmt.roffs hmt.coffs
  have hsum : P.sizes.sum = P.N := by rw [sizes_eq, byVar_sum]; rfl
  obtain ⟨z, e5, l5, h5⟩ := hd (mono r.romMat) y' (by rw [d1, l4', hsum]) (by rw [d2, l4', hsum]) (by
    obtain ⟨x', H⟩ := hs t (ve x)
    refine ⟨x', ?_⟩
    rw [l4', rom_rows_iff h hmt hY hY']
    exact H)
  rw [l4'] at l5 h5
  rw [e5, ok_bind]
  have hst := (rom_rows_iff h hmt hY hY' _).1 h5
  cases hp : r.presDbc with
  | true =>
    rw [if_pos rfl]
    exact ⟨z, ve z, rfl, l5, hst, by rw [if_pos rfl]; exact fun _ _ => rfl⟩
  | false =>
    have hpo : r.poffs.length - 1 = P.n := by rw [h.poffs.1]; simp
    rw [if_neg (by simp), hpo, offs_first h.poffs le_rfl, ok_bind, hN, Nat.add_sub_cancel_left]
    obtain ⟨x', e6, l6, h6, h6'⟩ := subtractOnes_ok (N := first np P.n) hl l5
    refine ⟨x', ve z, e6, l6, hst, ?_⟩
    rw [if_neg (by simp)]
    refine ⟨h6, fun m k hm hk => ?_⟩
    have hb := first_bound P.wp hm
    have hst : ∀ i, P.start i 1 = P.NU + first P.wp i := fun i => if_neg (by omega)
    rw [hst, Nat.add_assoc, h6' _ (by unfold Reduced.NP; omega), h1s hp m k hm hk]
    congr 3
    rw [show P.NP = first P.wp P.n from rfl, sum_first]
    refine sum_congr rfl fun i hi => sum_congr rfl fun j hj => ?_
    rw [h1s hp i j (mem_range.1 hi) (mem_range.1 hj), hst, Nat.add_assoc]

end

end Verif.Unsteady
