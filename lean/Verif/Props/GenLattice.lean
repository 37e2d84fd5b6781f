import Verif.Props.GenConf

/-! # C108: lattices of joints and rods -/

namespace Verif.GenConf

open Verif Verif.CompSetup Verif.GenConf.Spec

variable {R : Type}

section
variable [Field R]

/-- A loop that fills a part of a table and appends to two lists. -/
theorem loop_fill2 {α β γ : Type} {N n o : Nat} {g f : Nat → α} {b : Nat → List β} {c : Nat → List γ}
    {l : List β} {k : List γ} {idx : Nat → Nat} (hidx : ∀ i, idx i = o + i) (hN : o + n ≤ N) :
    loop n (fun i (t : List α × List β × List γ) => do
      let pos ← wr t.1 (idx i) (f i)
      return ((pos, t.2.1 ++ b i, t.2.2 ++ c i) : List α × List β × List γ)) (tab N g, l, k) =
    .ok (tab N (fun x => if o ≤ x ∧ x < o + n then f (x - o) else g x),
      l ++ (List.range n).flatMap b, k ++ (List.range n).flatMap c) := by
  rw [loop_spec (n := n) (fun i => (tab N (fun x => if o ≤ x ∧ x < o + i then f (x - o) else g x),
      l ++ (List.range i).flatMap b, k ++ (List.range i).flatMap c))]
  · congr 1
    · refine tab_congr fun x _ => ?_
      rw [if_neg (by omega)]
    · simp
  · intro i hi
    rw [hidx, wr_tab (by omega), ok_bind]
    simp only [List.range_succ, List.flatMap_append, List.flatMap_cons, List.flatMap_nil, List.append_nil,
      List.append_assoc]
    congr 2
    refine tab_congr fun x _ => ?_
    by_cases hx : x = o + i
    · subst hx
      rw [Function.update_self, if_pos ⟨by omega, by omega⟩]
      congr 1
      omega
    · rw [Function.update_of_ne hx]
      by_cases h2 : o ≤ x ∧ x < o + i
      · rw [if_pos h2, if_pos ⟨h2.1, by omega⟩]
      · rw [if_neg h2, if_neg (by omega)]

/-- A loop that fills a part of a table and appends to a list. -/
theorem loop_fill1 {α β : Type} {N n o : Nat} {g f : Nat → α} {b : Nat → List β}
    {l : List β} {idx : Nat → Nat} (hidx : ∀ i, idx i = o + i) (hN : o + n ≤ N) :
    loop n (fun i (t : List α × List β) => do
      let pos ← wr t.1 (idx i) (f i)
      return ((pos, t.2 ++ b i) : List α × List β)) (tab N g, l) =
    .ok (tab N (fun x => if o ≤ x ∧ x < o + n then f (x - o) else g x),
      l ++ (List.range n).flatMap b) := by
  rw [loop_spec (n := n) (fun i => (tab N (fun x => if o ≤ x ∧ x < o + i then f (x - o) else g x),
      l ++ (List.range i).flatMap b))]
  · congr 1
    · refine tab_congr fun x _ => ?_
      rw [if_neg (by omega)]
    · simp
  · intro i hi
    rw [hidx, wr_tab (by omega), ok_bind]
    simp only [List.range_succ, List.flatMap_append, List.flatMap_cons, List.flatMap_nil, List.append_nil,
      List.append_assoc]
    congr 2
    refine tab_congr fun x _ => ?_
    by_cases hx : x = o + i
    · subst hx
      rw [Function.update_self, if_pos ⟨by omega, by omega⟩]
      congr 1
      omega
    · rw [Function.update_of_ne hx]
      by_cases h2 : o ≤ x ∧ x < o + i
      · rw [if_pos h2, if_pos ⟨h2.1, by omega⟩]
      · rw [if_neg h2, if_neg (by omega)]

/-- The lattice in closed form. -/
def latticeTable (s : Sizes R) : Layout R where
  types := List.replicate s.nJoint 0 ++ List.replicate s.nRodH 1 ++ List.replicate s.nRodV 2
  pos := tab (s.nJoint + (s.nRodH + s.nRodV)) (fun x =>
    if s.nJoint + s.nRodH ≤ x ∧ x < s.nJoint + s.nRodH + s.nRodV then rodVPos s (x - (s.nJoint + s.nRodH))
    else if s.nJoint ≤ x ∧ x < s.nJoint + s.nRodH then rodHPos s (x - s.nJoint)
    else if 0 ≤ x ∧ x < 0 + s.nJoint then jointPos s (x - 0) else (0, 0))
  bdr := [] ++ (List.range s.nJoint).flatMap (jointBdr s) ++ (List.range s.nRodH).flatMap (rodHBdr s) ++
    (List.range s.nRodV).flatMap (rodVBdr s)
  ports := [] ++ (List.range s.nJoint).flatMap (jointItf s)

theorem lattice_eq (s : Sizes R) : lattice s = .ok (latticeTable s) := by
  unfold lattice
  simp only
  rw [replicate_tab, loop_fill2 (o := 0) (idx := fun i => i) (f := jointPos s) (b := jointBdr s)
    (c := jointItf s) (fun i => by omega) (by omega), ok_bind]
  simp only
  rw [loop_fill1 (o := s.nJoint) (f := rodHPos s) (b := rodHBdr s) (fun i => rfl) (by omega), ok_bind,
    loop_fill1 (o := s.nJoint + s.nRodH) (f := rodVPos s) (b := rodVBdr s) (fun i => rfl) (by omega), ok_bind]
  rfl

/-! ## Numbers of joints and rods -/

/-- The joint in column `x` and row `y`. -/
def jIdx (s : Sizes R) (x y : Nat) : Nat := x + y * (s.nx + 1)

/-- The horizontal rod right of that joint. -/
def hIdx (s : Sizes R) (x y : Nat) : Nat := s.nJoint + (x + y * s.nx)

/-- The vertical rod above that joint. -/
def vIdx (s : Sizes R) (x y : Nat) : Nat := s.nJoint + s.nRodH + (x + y * (s.nx + 1))

theorem grid_lt {a b x y : Nat} (hx : x < a) (hy : y < b) : x + y * a < b * a := by
  have := Nat.mul_le_mul_right a (show y + 1 ≤ b from hy)
  rw [Nat.succ_mul] at this
  omega

theorem grid_mod {a x y : Nat} (hx : x < a) : (x + y * a) % a = x := by
  rw [Nat.add_mul_mod_self_right, Nat.mod_eq_of_lt hx]

theorem grid_div {a x y : Nat} (hx : x < a) : (x + y * a) / a = y := by
  rw [Nat.add_mul_div_right _ _ (by omega), Nat.div_eq_of_lt hx, Nat.zero_add]

theorem grid_split {a b i : Nat} (h : i < b * a) : ∃ x y, x < a ∧ y < b ∧ i = x + y * a := by
  have ha : 0 < a := by rcases Nat.eq_zero_or_pos a with rfl | h' <;> omega
  exact ⟨i % a, i / a, Nat.mod_lt i ha, Nat.div_lt_of_lt_mul (by rw [Nat.mul_comm]; exact h),
    by rw [Nat.mul_comm]; exact (Nat.mod_add_div i a).symm⟩

theorem nJoint_eq (s : Sizes R) : s.nJoint = (s.ny + 1) * (s.nx + 1) := Nat.mul_comm _ _
theorem nRodV_eq (s : Sizes R) : s.nRodV = s.ny * (s.nx + 1) := Nat.mul_comm _ _

theorem mod_simp (i n : Nat) : (i + n + 1) % (n + 1) = i % (n + 1) := by
  rw [Nat.add_assoc, Nat.add_mod_right]

theorem joint_lists (s : Sizes R) {x y : Nat} (hx : x ≤ s.nx) :
    jointBdr s (jIdx s x y) =
      (if x = 0 then [⟨4, jIdx s x y, 4⟩] else if x = s.nx then [⟨2, jIdx s x y, 2⟩] else []) ++
      (if y = 0 then [⟨1, jIdx s x y, 1⟩] else if y = s.ny then [⟨3, jIdx s x y, 3⟩] else []) ∧
    jointItf s (jIdx s x y) =
      (if x < s.nx then [⟨jIdx s x y, hIdx s x y, 2, 4, 0⟩] else []) ++
      (if x > 0 then [⟨jIdx s x y, hIdx s (x - 1) y, 4, 2, 1⟩] else []) ++
      (if y < s.ny then [⟨jIdx s x y, vIdx s x y, 3, 1, 2⟩] else []) ++
      (if y > 0 then [⟨jIdx s x y, vIdx s x (y - 1), 1, 3, 3⟩] else []) := by
  have h1 : (jIdx s x y + s.nx + 1) % (s.nx + 1) = x := by
    rw [mod_simp]; exact grid_mod (by omega)
  have h2 : jIdx s x y / (s.nx + 1) = y := grid_div (by omega)
  refine ⟨by unfold jointBdr; simp only [h1, h2], ?_⟩
  unfold jointItf
  simp only [h1, h2]
  congr 1
  · congr 1
    · congr 1
      · split
        · congr 2
          unfold jIdx hIdx
          push_cast
          ring
        · rfl
      · split
        · rename_i hx0
          congr 2
          unfold jIdx hIdx
          push_cast [Nat.cast_sub (show 1 ≤ x from hx0)]
          ring
        · rfl
  · split
    · rename_i hy0
      congr 2
      unfold jIdx vIdx
      push_cast [Nat.cast_sub (show 1 ≤ y from hy0)]
      ring
    · rfl

/-- The interfaces of a lattice. -/
theorem mem_latticePorts {s : Sizes R} {r : PortRow} : r ∈ (latticeTable s).ports ↔
    ∃ x y, x ≤ s.nx ∧ y ≤ s.ny ∧
      ((x < s.nx ∧ r = ⟨jIdx s x y, hIdx s x y, 2, 4, 0⟩) ∨
      (0 < x ∧ r = ⟨jIdx s x y, hIdx s (x - 1) y, 4, 2, 1⟩) ∨
      (y < s.ny ∧ r = ⟨jIdx s x y, vIdx s x y, 3, 1, 2⟩) ∨
      (0 < y ∧ r = ⟨jIdx s x y, vIdx s x (y - 1), 1, 3, 3⟩)) := by
  simp only [latticeTable, List.nil_append, List.mem_flatMap, List.mem_range]
  have key : ∀ x y, x ≤ s.nx → (r ∈ jointItf s (jIdx s x y) ↔
      ((x < s.nx ∧ r = ⟨jIdx s x y, hIdx s x y, 2, 4, 0⟩) ∨
      (0 < x ∧ r = ⟨jIdx s x y, hIdx s (x - 1) y, 4, 2, 1⟩) ∨
      (y < s.ny ∧ r = ⟨jIdx s x y, vIdx s x y, 3, 1, 2⟩) ∨
      (0 < y ∧ r = ⟨jIdx s x y, vIdx s x (y - 1), 1, 3, 3⟩))) := by
    intro x y hx
    rw [(joint_lists s hx).2]
    simp only [List.mem_append, List.mem_ite_nil_right, List.mem_singleton, gt_iff_lt, or_assoc]
  constructor
  · rintro ⟨i, hi, hr⟩
    obtain ⟨x, y, hx, hy, rfl⟩ := grid_split (by rw [nJoint_eq] at hi; exact hi)
    exact ⟨x, y, by omega, by omega, (key x y (by omega)).1 hr⟩
  · rintro ⟨x, y, hx, hy, hr⟩
    exact ⟨jIdx s x y, by rw [nJoint_eq]; exact grid_lt (by omega) (by omega), (key x y hx).2 hr⟩

theorem mem_if {α : Type} {p : Prop} [Decidable p] {a b : List α} {r : α} :
    r ∈ (if p then a else b) ↔ (p ∧ r ∈ a) ∨ (¬ p ∧ r ∈ b) := by
  split <;> simp [*]

/-- The boundary rows of a lattice. -/
theorem mem_latticeBdr {s : Sizes R} {r : BdrRow} : r ∈ (latticeTable s).bdr ↔
    (∃ x y, x ≤ s.nx ∧ y ≤ s.ny ∧ ((x = 0 ∧ r = ⟨4, jIdx s x y, 4⟩) ∨
      (x ≠ 0 ∧ x = s.nx ∧ r = ⟨2, jIdx s x y, 2⟩) ∨ (y = 0 ∧ r = ⟨1, jIdx s x y, 1⟩) ∨
      (y ≠ 0 ∧ y = s.ny ∧ r = ⟨3, jIdx s x y, 3⟩))) ∨
    (∃ x y, x < s.nx ∧ y ≤ s.ny ∧
      (r = ⟨if y = 0 then 1 else 5, hIdx s x y, 1⟩ ∨
        r = ⟨if y ≠ 0 ∧ y = s.ny then 3 else 5, hIdx s x y, 3⟩)) ∨
    (∃ x y, x ≤ s.nx ∧ y < s.ny ∧
      (r = ⟨if x = 0 then 4 else 5, vIdx s x y, 4⟩ ∨
        r = ⟨if x ≠ 0 ∧ x = s.nx then 2 else 5, vIdx s x y, 2⟩)) := by
  simp only [latticeTable, List.nil_append, List.mem_append, List.mem_flatMap, List.mem_range, or_assoc]
  have e1 : ∀ x y, x ≤ s.nx → (r ∈ jointBdr s (jIdx s x y) ↔ ((x = 0 ∧ r = ⟨4, jIdx s x y, 4⟩) ∨
      (x ≠ 0 ∧ x = s.nx ∧ r = ⟨2, jIdx s x y, 2⟩) ∨ (y = 0 ∧ r = ⟨1, jIdx s x y, 1⟩) ∨
      (y ≠ 0 ∧ y = s.ny ∧ r = ⟨3, jIdx s x y, 3⟩))) := by
    intro x y hx
    rw [(joint_lists s hx).1]
    simp only [List.mem_append, mem_if, List.mem_cons, List.not_mem_nil, or_false, and_false]
    tauto
  have e2 : ∀ x y, x < s.nx → (r ∈ rodHBdr s (x + y * s.nx) ↔
      (r = ⟨if y = 0 then 1 else 5, hIdx s x y, 1⟩ ∨
        r = ⟨if y ≠ 0 ∧ y = s.ny then 3 else 5, hIdx s x y, 3⟩)) := by
    intro x y hx
    unfold rodHBdr
    rw [grid_div hx]
    change r ∈ (if y = 0 then [(⟨5, (hIdx s x y : Nat), 3⟩ : BdrRow), ⟨1, (hIdx s x y : Nat), 1⟩]
      else if y = s.ny then [⟨3, (hIdx s x y : Nat), 3⟩, ⟨5, (hIdx s x y : Nat), 1⟩]
      else [⟨5, (hIdx s x y : Nat), 1⟩, ⟨5, (hIdx s x y : Nat), 3⟩]) ↔ _
    split_ifs <;> simp only [List.mem_cons, List.not_mem_nil, or_false] <;> tauto
  have e3 : ∀ x y, x ≤ s.nx → (r ∈ rodVBdr s (x + y * (s.nx + 1)) ↔
      (r = ⟨if x = 0 then 4 else 5, vIdx s x y, 4⟩ ∨
        r = ⟨if x ≠ 0 ∧ x = s.nx then 2 else 5, vIdx s x y, 2⟩)) := by
    intro x y hx
    unfold rodVBdr
    rw [mod_simp, grid_mod (show x < s.nx + 1 by omega)]
    change r ∈ (if x = 0 then [(⟨4, (vIdx s x y : Nat), 4⟩ : BdrRow), ⟨5, (vIdx s x y : Nat), 2⟩]
      else if x = s.nx then [⟨2, (vIdx s x y : Nat), 2⟩, ⟨5, (vIdx s x y : Nat), 4⟩]
      else [⟨5, (vIdx s x y : Nat), 2⟩, ⟨5, (vIdx s x y : Nat), 4⟩]) ↔ _
    split_ifs <;> simp only [List.mem_cons, List.not_mem_nil, or_false] <;> tauto
  refine or_congr ?_ (or_congr ?_ ?_)
  · constructor
    · rintro ⟨i, hi, hr⟩
      obtain ⟨x, y, hx, hy, rfl⟩ := grid_split (by rw [nJoint_eq] at hi; exact hi)
      exact ⟨x, y, by omega, by omega, (e1 x y (by omega)).1 hr⟩
    · rintro ⟨x, y, hx, hy, hr⟩
      exact ⟨jIdx s x y, by rw [nJoint_eq]; exact grid_lt (by omega) (by omega), (e1 x y hx).2 hr⟩
  · constructor
    · rintro ⟨i, hi, hr⟩
      obtain ⟨x, y, hx, hy, rfl⟩ := grid_split hi
      exact ⟨x, y, hx, by omega, (e2 x y hx).1 hr⟩
    · rintro ⟨x, y, hx, hy, hr⟩
      exact ⟨x + y * s.nx, grid_lt hx (by omega), (e2 x y hx).2 hr⟩
  · constructor
    · rintro ⟨i, hi, hr⟩
      obtain ⟨x, y, hx, hy, rfl⟩ := grid_split (by rw [nRodV_eq] at hi; exact hi)
      exact ⟨x, y, by omega, hy, (e3 x y (by omega)).1 hr⟩
    · rintro ⟨x, y, hx, hy, hr⟩
      exact ⟨x + y * (s.nx + 1), by rw [nRodV_eq]; exact grid_lt (by omega) hy, (e3 x y hx).2 hr⟩

/-! ## Coverage -/

theorem sum_grid (g : Nat → Nat → Nat) (a : Nat) : ∀ b, ((List.range (b * a)).map
    (fun i => g (i % a) (i / a))).sum = ((List.range b).map
      (fun y => ((List.range a).map (fun x => g x y)).sum)).sum
  | 0 => by simp
  | b + 1 => by
    rw [Nat.succ_mul, List.range_add, List.map_append, List.sum_append, sum_grid g a b, List.range_succ,
      List.map_append, List.sum_append, List.map_map]
    congr 1
    simp only [List.map_cons, List.map_nil, List.sum_cons, List.sum_nil, Nat.add_zero]
    congr 1
    refine List.map_congr_left fun x hx => ?_
    have hx := List.mem_range.1 hx
    simp only [Function.comp]
    rw [Nat.add_comm (b * a) x, grid_mod hx, grid_div hx]

theorem sum_lt (a : Nat) : ((List.range (a + 1)).map (fun x => if x < a then 1 else 0)).sum = a := by
  rw [List.range_succ, List.map_append, List.sum_append]
  have : (List.range a).map (fun x => if x < a then 1 else 0) = (List.range a).map (fun _ => 1) :=
    List.map_congr_left fun x hx => if_pos (List.mem_range.1 hx)
  rw [this]
  simp

theorem sum_pos : ∀ a : Nat, ((List.range (a + 1)).map (fun x => if x > 0 then 1 else 0)).sum = a
  | 0 => rfl
  | a + 1 => by
    rw [List.range_succ, List.map_append, List.sum_append, sum_pos a]
    simp

theorem ports_length (s : Sizes R) : (latticeTable s).ports.length = 2 * (s.nRodH + s.nRodV) := by
  simp only [latticeTable, List.nil_append]
  rw [List.length_flatMap, nJoint_eq]
  have h : (List.range ((s.ny + 1) * (s.nx + 1))).map (fun i => (jointItf s i).length) =
      (List.range ((s.ny + 1) * (s.nx + 1))).map (fun i => (fun x y =>
        (if x < s.nx then 1 else 0) + (if x > 0 then 1 else 0) + (if y < s.ny then 1 else 0) +
          (if y > 0 then 1 else 0)) (i % (s.nx + 1)) (i / (s.nx + 1))) := by
    refine List.map_congr_left fun i hi => ?_
    obtain ⟨x, y, hx, hy, rfl⟩ := grid_split (List.mem_range.1 hi)
    rw [show x + y * (s.nx + 1) = jIdx s x y from rfl, (joint_lists s (by omega)).2]
    unfold jIdx
    rw [grid_mod hx, grid_div hx]
    simp only [List.length_append, apply_ite List.length, List.length_cons, List.length_nil]
  rw [h, sum_grid (fun x y => (if x < s.nx then 1 else 0) + (if x > 0 then 1 else 0) +
    (if y < s.ny then 1 else 0) + (if y > 0 then 1 else 0)) (s.nx + 1) (s.ny + 1)]
  have h2 : (fun y => ((List.range (s.nx + 1)).map (fun x =>
        (if x < s.nx then 1 else 0) + (if x > 0 then 1 else 0) + (if y < s.ny then 1 else 0) +
          (if y > 0 then 1 else 0))).sum) =
      fun y => 2 * s.nx + (s.nx + 1) * (if y < s.ny then 1 else 0) + (s.nx + 1) * (if y > 0 then 1 else 0) := by
    funext y
    rw [List.sum_map_add, List.sum_map_add, List.sum_map_add, sum_lt, sum_pos]
    simp only [List.map_const', List.sum_replicate, List.length_range, smul_eq_mul]
    ring
  rw [h2, List.sum_map_add, List.sum_map_add,
    List.sum_map_mul_left (r := s.nx + 1) (f := fun y => if y < s.ny then 1 else 0),
    List.sum_map_mul_left (r := s.nx + 1) (f := fun y => if y > 0 then 1 else 0), sum_lt, sum_pos]
  simp only [List.map_const', List.sum_replicate, List.length_range, smul_eq_mul, Sizes.nRodH, Sizes.nRodV]
  ring

theorem bdr_length (s : Sizes R) (hx0 : 0 < s.nx) (hy0 : 0 < s.ny) :
    (latticeTable s).bdr.length + (latticeTable s).ports.length = 4 * s.nJoint + 2 * (s.nRodH + s.nRodV) := by
  simp only [latticeTable, List.nil_append, List.length_append, List.length_flatMap]
  have h1 : ((List.range s.nJoint).map (fun i => (jointBdr s i).length)).sum +
      ((List.range s.nJoint).map (fun i => (jointItf s i).length)).sum = 4 * s.nJoint := by
    rw [← List.sum_map_add]
    have : (List.range s.nJoint).map (fun i => (jointBdr s i).length + (jointItf s i).length) =
        (List.range s.nJoint).map (fun _ => 4) := by
      refine List.map_congr_left fun i hi => ?_
      obtain ⟨x, y, hx, hy, rfl⟩ := grid_split (by rw [← nJoint_eq s]; exact List.mem_range.1 hi)
      rw [show x + y * (s.nx + 1) = jIdx s x y from rfl, (joint_lists s (by omega)).1,
        (joint_lists s (by omega)).2]
      simp only [List.length_append, apply_ite List.length, List.length_cons, List.length_nil]
      split_ifs <;> omega
    rw [this]
    simp [Nat.mul_comm]
  have h2 : (List.range s.nRodH).map (fun i => (rodHBdr s i).length) = (List.range s.nRodH).map (fun _ => 2) := by
    refine List.map_congr_left fun i _ => ?_
    unfold rodHBdr
    simp only
    split_ifs <;> rfl
  have h3 : (List.range s.nRodV).map (fun i => (rodVBdr s i).length) = (List.range s.nRodV).map (fun _ => 2) := by
    refine List.map_congr_left fun i _ => ?_
    unfold rodVBdr
    simp only
    split_ifs <;> rfl
  rw [h2, h3]
  simp only [List.map_const', List.sum_replicate, List.length_range, smul_eq_mul]
  omega

/-- A mesh is a joint, a horizontal rod or a vertical rod. -/
theorem mesh_cases {s : Sizes R} {k : Nat} (hk : k < s.nJoint + (s.nRodH + s.nRodV)) :
    (∃ x y, x ≤ s.nx ∧ y ≤ s.ny ∧ k = jIdx s x y) ∨ (∃ x y, x < s.nx ∧ y ≤ s.ny ∧ k = hIdx s x y) ∨
    (∃ x y, x ≤ s.nx ∧ y < s.ny ∧ k = vIdx s x y) := by
  by_cases h1 : k < s.nJoint
  · obtain ⟨x, y, hx, hy, e⟩ := grid_split (by rw [nJoint_eq] at h1; exact h1)
    exact .inl ⟨x, y, by omega, by omega, e⟩
  · by_cases h2 : k < s.nJoint + s.nRodH
    · obtain ⟨x, y, hx, hy, e⟩ := grid_split (show k - s.nJoint < (s.ny + 1) * s.nx by
        have : s.nRodH = (s.ny + 1) * s.nx := rfl
        omega)
      exact .inr (.inl ⟨x, y, hx, by omega, by unfold hIdx; omega⟩)
    · obtain ⟨x, y, hx, hy, e⟩ := grid_split (show k - s.nJoint - s.nRodH < s.ny * (s.nx + 1) by
        have := nRodV_eq s
        omega)
      exact .inr (.inr ⟨x, y, by omega, hy, by unfold vIdx; omega⟩)

theorem types_length (s : Sizes R) : (latticeTable s).types.length = s.nJoint + (s.nRodH + s.nRodV) := by
  simp [latticeTable, Nat.add_assoc]

/-- **C108** (lattice, coverage): for at least one cell in both directions, every face of every joint and
rod appears exactly once. -/
theorem lattice_covers (s : Sizes R) (hx0 : 0 < s.nx) (hy0 : 0 < s.ny) : ∃ L, lattice s = .ok L ∧
    L.types = List.replicate s.nJoint 0 ++ List.replicate s.nRodH 1 ++ List.replicate s.nRodV 2 ∧
    Covers fourFaces L := by
  refine ⟨_, lattice_eq s, rfl, covers_of ?_ ?_⟩
  · have h1 := ports_length s
    have h2 := bdr_length s hx0 hy0
    rw [types_length]
    omega
  · intro k a hk ha
    rw [types_length] at hk
    simp only [List.mem_cons, List.not_mem_nil, or_false] at ha
    rcases mesh_cases hk with ⟨x, y, hx, hy, rfl⟩ | ⟨x, y, hx, hy, rfl⟩ | ⟨x, y, hx, hy, rfl⟩
    · rcases ha with rfl | rfl | rfl | rfl
      · by_cases h : y = 0
        · exact .inl ⟨_, mem_latticeBdr.2 (.inl ⟨x, y, hx, hy, .inr (.inr (.inl ⟨h, rfl⟩))⟩), rfl, rfl⟩
        · exact .inr ⟨_, mem_latticePorts.2 ⟨x, y, hx, hy, .inr (.inr (.inr ⟨by omega, rfl⟩))⟩,
            .inl ⟨rfl, rfl⟩⟩
      · by_cases h : x = s.nx
        · exact .inl ⟨_, mem_latticeBdr.2 (.inl ⟨x, y, hx, hy, .inr (.inl ⟨by omega, h, rfl⟩)⟩), rfl, rfl⟩
        · exact .inr ⟨_, mem_latticePorts.2 ⟨x, y, hx, hy, .inl ⟨by omega, rfl⟩⟩, .inl ⟨rfl, rfl⟩⟩
      · by_cases h : y = s.ny
        · exact .inl ⟨_, mem_latticeBdr.2 (.inl ⟨x, y, hx, hy, .inr (.inr (.inr ⟨by omega, h, rfl⟩))⟩), rfl, rfl⟩
        · exact .inr ⟨_, mem_latticePorts.2 ⟨x, y, hx, hy, .inr (.inr (.inl ⟨by omega, rfl⟩))⟩,
            .inl ⟨rfl, rfl⟩⟩
      · by_cases h : x = 0
        · exact .inl ⟨_, mem_latticeBdr.2 (.inl ⟨x, y, hx, hy, .inl ⟨h, rfl⟩⟩), rfl, rfl⟩
        · exact .inr ⟨_, mem_latticePorts.2 ⟨x, y, hx, hy, .inr (.inl ⟨by omega, rfl⟩)⟩, .inl ⟨rfl, rfl⟩⟩
    · rcases ha with rfl | rfl | rfl | rfl
      · exact .inl ⟨_, mem_latticeBdr.2 (.inr (.inl ⟨x, y, hx, hy, .inl rfl⟩)), rfl, rfl⟩
      · exact .inr ⟨_, mem_latticePorts.2 ⟨x + 1, y, hx, hy, .inr (.inl ⟨by omega, rfl⟩)⟩, .inr ⟨rfl, rfl⟩⟩
      · exact .inl ⟨_, mem_latticeBdr.2 (.inr (.inl ⟨x, y, hx, hy, .inr rfl⟩)), rfl, rfl⟩
      · exact .inr ⟨_, mem_latticePorts.2 ⟨x, y, by omega, hy, .inl ⟨hx, rfl⟩⟩, .inr ⟨rfl, rfl⟩⟩
    · rcases ha with rfl | rfl | rfl | rfl
      · exact .inr ⟨_, mem_latticePorts.2 ⟨x, y, hx, by omega, .inr (.inr (.inl ⟨hy, rfl⟩))⟩, .inr ⟨rfl, rfl⟩⟩
      · exact .inl ⟨_, mem_latticeBdr.2 (.inr (.inr ⟨x, y, hx, hy, .inr rfl⟩)), rfl, rfl⟩
      · exact .inr ⟨_, mem_latticePorts.2 ⟨x, y + 1, hx, hy, .inr (.inr (.inr ⟨by omega, rfl⟩))⟩, .inr ⟨rfl, rfl⟩⟩
      · exact .inl ⟨_, mem_latticeBdr.2 (.inr (.inr ⟨x, y, hx, hy, .inl rfl⟩)), rfl, rfl⟩

/-! ## Geometry -/

/-- The place of every mesh. -/
theorem lattice_at (s : Sizes R) :
    (∀ {x y}, x ≤ s.nx → y ≤ s.ny → (latticeTable s).types[jIdx s x y]? = some 0 ∧
      (latticeTable s).pos[jIdx s x y]? = some ((x : R) * (s.lh + s.wv), (y : R) * (s.lv + s.wh))) ∧
    (∀ {x y}, x < s.nx → y ≤ s.ny → (latticeTable s).types[hIdx s x y]? = some 1 ∧
      (latticeTable s).pos[hIdx s x y]? = some ((x : R) * (s.lh + s.wv) + s.wv, (y : R) * (s.lv + s.wh))) ∧
    (∀ {x y}, x ≤ s.nx → y < s.ny → (latticeTable s).types[vIdx s x y]? = some 2 ∧
      (latticeTable s).pos[vIdx s x y]? = some ((x : R) * (s.lh + s.wv), (y : R) * (s.lv + s.wh) + s.wh)) := by
  refine ⟨?_, ?_, ?_⟩
  · intro x y hx hy
    have hlt : jIdx s x y < s.nJoint := by rw [nJoint_eq]; exact grid_lt (by omega) (by omega)
    constructor
    · simp only [latticeTable]
      rw [List.append_assoc, List.getElem?_append_left (by rw [List.length_replicate]; exact hlt),
        List.getElem?_replicate, if_pos hlt]
    · simp only [latticeTable]
      rw [getElem?_tab, if_pos (by omega), if_neg (by omega), if_neg (by omega), if_pos (by omega), Nat.sub_zero]
      unfold jointPos
      rw [mod_simp]
      unfold jIdx
      rw [grid_mod (by omega), grid_div (by omega)]
  · intro x y hx hy
    have hlt : x + y * s.nx < s.nRodH := grid_lt hx (by omega)
    constructor
    · simp only [latticeTable, hIdx]
      rw [List.append_assoc, List.getElem?_append_right (by rw [List.length_replicate]; omega),
        List.length_replicate, Nat.add_sub_cancel_left,
        List.getElem?_append_left (by rw [List.length_replicate]; exact hlt), List.getElem?_replicate, if_pos hlt]
    · simp only [latticeTable, hIdx]
      rw [getElem?_tab, if_pos (by omega), if_neg (by omega), if_pos (by omega), Nat.add_sub_cancel_left]
      unfold rodHPos
      rw [Nat.add_mod_right, grid_mod hx, grid_div hx]
  · intro x y hx hy
    have hlt : x + y * (s.nx + 1) < s.nRodV := by rw [nRodV_eq]; exact grid_lt (by omega) hy
    constructor
    · simp only [latticeTable, vIdx]
      rw [List.getElem?_append_right (by simp), List.length_append, List.length_replicate, List.length_replicate,
        Nat.add_sub_cancel_left, List.getElem?_replicate, if_pos hlt]
    · simp only [latticeTable, vIdx]
      rw [getElem?_tab, if_pos (by omega), if_pos (by omega), Nat.add_sub_cancel_left]
      unfold rodVPos
      rw [mod_simp, grid_mod (by omega), grid_div (by omega)]

/-- Where a mesh is. -/
theorem lattice_inv {s : Sizes R} {m : Int} {p t : R × R} (h : Placed (latticeSize s) (latticeTable s) m p t) :
    (∃ x y, x ≤ s.nx ∧ y ≤ s.ny ∧ m = jIdx s x y ∧
      p = ((x : R) * (s.lh + s.wv), (y : R) * (s.lv + s.wh)) ∧ t = (s.wv, s.wh)) ∨
    (∃ x y, x < s.nx ∧ y ≤ s.ny ∧ m = hIdx s x y ∧
      p = ((x : R) * (s.lh + s.wv) + s.wv, (y : R) * (s.lv + s.wh)) ∧ t = (s.lh, s.wh)) ∨
    (∃ x y, x ≤ s.nx ∧ y < s.ny ∧ m = vIdx s x y ∧
      p = ((x : R) * (s.lh + s.wv), (y : R) * (s.lv + s.wh) + s.wh) ∧ t = (s.wv, s.lv)) := by
  obtain ⟨k, c, rfl, hc, hp, rfl⟩ := h
  have hk := (List.getElem?_eq_some_iff.1 hc).1
  rw [types_length] at hk
  rcases mesh_cases hk with ⟨x, y, hx, hy, rfl⟩ | ⟨x, y, hx, hy, rfl⟩ | ⟨x, y, hx, hy, rfl⟩
  · obtain ⟨e1, e2⟩ := (lattice_at s).1 hx hy
    obtain rfl := Option.some.inj (e1.symm.trans hc)
    exact .inl ⟨x, y, hx, hy, rfl, (Option.some.inj (e2.symm.trans hp)).symm, rfl⟩
  · obtain ⟨e1, e2⟩ := (lattice_at s).2.1 hx hy
    obtain rfl := Option.some.inj (e1.symm.trans hc)
    exact .inr (.inl ⟨x, y, hx, hy, rfl, (Option.some.inj (e2.symm.trans hp)).symm, rfl⟩)
  · obtain ⟨e1, e2⟩ := (lattice_at s).2.2 hx hy
    obtain rfl := Option.some.inj (e1.symm.trans hc)
    exact .inr (.inr ⟨x, y, hx, hy, rfl, (Option.some.inj (e2.symm.trans hp)).symm, rfl⟩)

theorem placed_j {s : Sizes R} {x y : Nat} (hx : x ≤ s.nx) (hy : y ≤ s.ny) :
    Placed (latticeSize s) (latticeTable s) (jIdx s x y)
      ((x : R) * (s.lh + s.wv), (y : R) * (s.lv + s.wh)) (s.wv, s.wh) :=
  ⟨_, 0, rfl, ((lattice_at s).1 hx hy).1, ((lattice_at s).1 hx hy).2, rfl⟩

theorem placed_h {s : Sizes R} {x y : Nat} (hx : x < s.nx) (hy : y ≤ s.ny) :
    Placed (latticeSize s) (latticeTable s) (hIdx s x y)
      ((x : R) * (s.lh + s.wv) + s.wv, (y : R) * (s.lv + s.wh)) (s.lh, s.wh) :=
  ⟨_, 1, rfl, ((lattice_at s).2.1 hx hy).1, ((lattice_at s).2.1 hx hy).2, rfl⟩

theorem placed_v {s : Sizes R} {x y : Nat} (hx : x ≤ s.nx) (hy : y < s.ny) :
    Placed (latticeSize s) (latticeTable s) (vIdx s x y)
      ((x : R) * (s.lh + s.wv), (y : R) * (s.lv + s.wh) + s.wh) (s.wv, s.lv) :=
  ⟨_, 2, rfl, ((lattice_at s).2.2 hx hy).1, ((lattice_at s).2.2 hx hy).2, rfl⟩

variable [LinearOrder R] [IsStrictOrderedRing R]

theorem mul_inj {S : R} (hS : 0 < S) {a b : Nat} (h : (a : R) * S = (b : R) * S) : a = b := by
  exact_mod_cast mul_right_cancel₀ hS.ne' h

theorem no_off {S w : R} (hw : 0 < w) (hS : w < S) {a b : Nat} (h : (a : R) * S + w = (b : R) * S) : False := by
  rcases Nat.lt_or_ge a b with hab | hab
  · have h1 : ((a : R) + 1) * S ≤ (b : R) * S :=
      mul_le_mul_of_nonneg_right (by exact_mod_cast hab) (hw.trans hS).le
    linarith
  · have h1 : (b : R) * S ≤ (a : R) * S :=
      mul_le_mul_of_nonneg_right (by exact_mod_cast hab) (hw.trans hS).le
    linarith

/-- The widths and lengths of a lattice are positive. -/
structure Spec.Positive (s : Sizes R) : Prop where
  wh : 0 < s.wh
  wv : 0 < s.wv
  lh : 0 < s.lh
  lv : 0 < s.lv

/-- Faces `2` and `4` at the same place are joined. -/
theorem complete_x {s : Sizes R} (hs : Spec.Positive s) {m n : Int} {p u q t : R × R}
    (h1 : Placed (latticeSize s) (latticeTable s) m p u) (h2 : Placed (latticeSize s) (latticeTable s) n q t)
    (e : p.1 + u.1 = q.1) (e' : p.2 = q.2) :
    (∃ k, (⟨m, n, 2, 4, k⟩ : PortRow) ∈ (latticeTable s).ports) ∨
      (∃ k, (⟨n, m, 4, 2, k⟩ : PortRow) ∈ (latticeTable s).ports) := by
  have hS : 0 < s.lh + s.wv := add_pos hs.lh hs.wv
  have hT : 0 < s.lv + s.wh := add_pos hs.lv hs.wh
  have hwS : s.wv < s.lh + s.wv := lt_add_of_pos_left _ hs.lh
  have hwT : s.wh < s.lv + s.wh := lt_add_of_pos_left _ hs.lv
  rcases lattice_inv h1 with ⟨x, y, hx, hy, rfl, rfl, rfl⟩ | ⟨x, y, hx, hy, rfl, rfl, rfl⟩ |
    ⟨x, y, hx, hy, rfl, rfl, rfl⟩ <;>
  rcases lattice_inv h2 with ⟨x', y', hx', hy', rfl, rfl, rfl⟩ | ⟨x', y', hx', hy', rfl, rfl, rfl⟩ |
    ⟨x', y', hx', hy', rfl, rfl, rfl⟩ <;> dsimp only at e e'
  · exact (no_off hs.wv hwS e).elim
  · obtain rfl := mul_inj hS (add_right_cancel e)
    obtain rfl := mul_inj hT e'
    exact .inl ⟨0, mem_latticePorts.2 ⟨x, y, hx, hy, .inl ⟨hx', rfl⟩⟩⟩
  · exact (no_off hs.wv hwS e).elim
  · obtain rfl := mul_inj (a := x + 1) (b := x') hS (by push_cast; linarith)
    obtain rfl := mul_inj hT e'
    exact .inr ⟨1, mem_latticePorts.2 ⟨x + 1, y, hx', hy, .inr (.inl ⟨by omega, rfl⟩)⟩⟩
  · exact (no_off (a := x') (b := x + 1) hs.wv hwS (by push_cast; linarith)).elim
  · exact (no_off hs.wh hwT e'.symm).elim
  · exact (no_off hs.wv hwS e).elim
  · exact (no_off hs.wh hwT e').elim
  · exact (no_off hs.wv hwS e).elim

/-- Faces `3` and `1` at the same place are joined. -/
theorem complete_y {s : Sizes R} (hs : Spec.Positive s) {m n : Int} {p u q t : R × R}
    (h1 : Placed (latticeSize s) (latticeTable s) m p u) (h2 : Placed (latticeSize s) (latticeTable s) n q t)
    (e : p.2 + u.2 = q.2) (e' : p.1 = q.1) :
    (∃ k, (⟨m, n, 3, 1, k⟩ : PortRow) ∈ (latticeTable s).ports) ∨
      (∃ k, (⟨n, m, 1, 3, k⟩ : PortRow) ∈ (latticeTable s).ports) := by
  have hS : 0 < s.lh + s.wv := add_pos hs.lh hs.wv
  have hT : 0 < s.lv + s.wh := add_pos hs.lv hs.wh
  have hwS : s.wv < s.lh + s.wv := lt_add_of_pos_left _ hs.lh
  have hwT : s.wh < s.lv + s.wh := lt_add_of_pos_left _ hs.lv
  rcases lattice_inv h1 with ⟨x, y, hx, hy, rfl, rfl, rfl⟩ | ⟨x, y, hx, hy, rfl, rfl, rfl⟩ |
    ⟨x, y, hx, hy, rfl, rfl, rfl⟩ <;>
  rcases lattice_inv h2 with ⟨x', y', hx', hy', rfl, rfl, rfl⟩ | ⟨x', y', hx', hy', rfl, rfl, rfl⟩ |
    ⟨x', y', hx', hy', rfl, rfl, rfl⟩ <;> dsimp only at e e'
  · exact (no_off hs.wh hwT e).elim
  · exact (no_off hs.wh hwT e).elim
  · obtain rfl := mul_inj hT (add_right_cancel e)
    obtain rfl := mul_inj hS e'
    exact .inl ⟨2, mem_latticePorts.2 ⟨x, y, hx, hy, .inr (.inr (.inl ⟨hy', rfl⟩))⟩⟩
  · exact (no_off hs.wh hwT e).elim
  · exact (no_off hs.wh hwT e).elim
  · exact (no_off hs.wv hwS e').elim
  · obtain rfl := mul_inj (a := y + 1) (b := y') hT (by push_cast; linarith)
    obtain rfl := mul_inj hS e'
    exact .inr ⟨3, mem_latticePorts.2 ⟨x, y + 1, hx, hy', .inr (.inr (.inr ⟨by omega, rfl⟩))⟩⟩
  · exact (no_off hs.wv hwS e'.symm).elim
  · exact (no_off (a := y') (b := y + 1) hs.wh hwT (by push_cast; linarith)).elim

/-- **C108** (lattice, geometry): for positive widths and lengths, the joints and rods lie in
`[0, nx (lh + wv) + wv] × [0, ny (lv + wh) + wh]`; interfaces join exactly the faces at the same place,
through the reference port with the right components, faces and shift; a boundary row has the attribute of
the side it lies on, and `5` for the faces around the holes. -/
theorem lattice_geometry (s : Sizes R) (hs : Spec.Positive s) (hx0 : 0 < s.nx) (hy0 : 0 < s.ny) : ∃ L, lattice s = .ok L ∧
    Geometry (latticeSize s) (latticeRefs s) (s.nx * (s.lh + s.wv) + s.wv) (s.ny * (s.lv + s.wh) + s.wh) L := by
  have hS : 0 < s.lh + s.wv := add_pos hs.lh hs.wv
  have hT : 0 < s.lv + s.wh := add_pos hs.lv hs.wh
  refine ⟨_, lattice_eq s, ?_, ?_, ?_, ?_, ?_⟩
  · rw [types_length]; simp [latticeTable]
  · intro r hr
    obtain ⟨x, y, hx, hy, hr⟩ := mem_latticePorts.1 hr
    rcases hr with ⟨h, rfl⟩ | ⟨h, rfl⟩ | ⟨h, rfl⟩ | ⟨h, rfl⟩
    · exact ⟨_, _, _, _, placed_j hx hy, placed_h h hy, .inl ⟨rfl, rfl, rfl, rfl, rfl⟩⟩
    · refine ⟨_, _, _, _, placed_j hx hy, placed_h (by omega) hy, .inr (.inl ⟨rfl, rfl, ?_, rfl, rfl⟩)⟩
      rw [Nat.cast_sub h]; push_cast; ring
    · exact ⟨_, _, _, _, placed_j hx hy, placed_v hx h, .inr (.inr (.inl ⟨rfl, rfl, rfl, rfl, rfl⟩))⟩
    · refine ⟨_, _, _, _, placed_j hx hy, placed_v hx (by omega), .inr (.inr (.inr ⟨rfl, rfl, ?_, rfl, rfl⟩))⟩
      rw [Nat.cast_sub h]; push_cast; ring
  · intro r hr
    obtain ⟨x, y, hx, hy, hr⟩ := mem_latticePorts.1 hr
    have hj := (lattice_at s).1 hx hy
    have hlt : jIdx s x y < s.nJoint := by rw [nJoint_eq]; exact grid_lt (by omega) (by omega)
    rcases hr with ⟨h, rfl⟩ | ⟨h, rfl⟩ | ⟨h, rfl⟩ | ⟨h, rfl⟩
    · have hh := (lattice_at s).2.1 h hy
      refine ⟨0, _, _, _, _, _, rfl, rfl, rfl, by unfold hIdx; omega, rfl, hj.1, hh.1, rfl, rfl, hj.2, hh.2, ?_⟩
      simp
    · have hh := (lattice_at s).2.1 (x := x - 1) (by omega) hy
      refine ⟨1, _, _, _, _, _, rfl, rfl, rfl, by unfold hIdx; omega, rfl, hj.1, hh.1, rfl, rfl, hj.2, hh.2, ?_⟩
      ext
      · simp only [Prod.fst_sub]; rw [Nat.cast_sub h]; push_cast; ring
      · simp
    · have hh := (lattice_at s).2.2 hx h
      refine ⟨2, _, _, _, _, _, rfl, rfl, rfl, by unfold vIdx; omega, rfl, hj.1, hh.1, rfl, rfl, hj.2, hh.2, ?_⟩
      simp
    · have hh := (lattice_at s).2.2 (y := y - 1) hx (by omega)
      refine ⟨3, _, _, _, _, _, rfl, rfl, rfl, by unfold vIdx; omega, rfl, hj.1, hh.1, rfl, rfl, hj.2, hh.2, ?_⟩
      ext
      · simp
      · simp only [Prod.snd_sub]; rw [Nat.cast_sub h]; push_cast; ring
  · intro m n p u q t a b h1 h2 ht
    rcases ht with ⟨rfl, rfl, e, e', -⟩ | ⟨rfl, rfl, e, e', -⟩ | ⟨rfl, rfl, e, e', -⟩ | ⟨rfl, rfl, e, e', -⟩
    · exact complete_x hs h1 h2 e e'
    · exact (complete_x hs h2 h1 e e'.symm).symm
    · exact complete_y hs h1 h2 e e'
    · exact (complete_y hs h2 h1 e e'.symm).symm
  · intro r hr
    have z1 : ∀ {S : R}, 0 < S → ∀ {a : Nat}, (a : R) * S = 0 → a = 0 := by
      intro S hS a h
      exact mul_inj hS (b := 0) (by rw [h]; simp)
    rcases mem_latticeBdr.1 hr with ⟨x, y, hx, hy, hr⟩ | ⟨x, y, hx, hy, hr⟩ | ⟨x, y, hx, hy, hr⟩
    · refine ⟨((x : R) * (s.lh + s.wv), (y : R) * (s.lv + s.wh)), (s.wv, s.wh), ?_, ?_⟩
      · rcases hr with ⟨rfl, rfl⟩ | ⟨-, rfl, rfl⟩ | ⟨rfl, rfl⟩ | ⟨-, rfl, rfl⟩ <;> exact placed_j hx hy
      · rcases hr with ⟨rfl, rfl⟩ | ⟨-, rfl, rfl⟩ | ⟨rfl, rfl⟩ | ⟨-, rfl, rfl⟩ <;> simp [sideOf]
    · refine ⟨((x : R) * (s.lh + s.wv) + s.wv, (y : R) * (s.lv + s.wh)), (s.lh, s.wh), ?_, ?_⟩
      · rcases hr with rfl | rfl <;> exact placed_h hx hy
      · rcases hr with rfl | rfl
        · by_cases h : y = 0
          · simp [sideOf, h]
          · have : ¬ ((y : R) * (s.lv + s.wh) = 0) := fun e => h (z1 hT e)
            simp [sideOf, h, this]
        · by_cases h : y = s.ny
          · have h0 : ¬ s.ny = 0 := by omega
            simp [sideOf, h, h0]
          · have : ¬ ((y : R) * (s.lv + s.wh) + s.wh = s.ny * (s.lv + s.wh) + s.wh) :=
              fun e => h (mul_inj hT (add_right_cancel e))
            simp [sideOf, h, this]
    · refine ⟨((x : R) * (s.lh + s.wv), (y : R) * (s.lv + s.wh) + s.wh), (s.wv, s.lv), ?_, ?_⟩
      · rcases hr with rfl | rfl <;> exact placed_v hx hy
      · rcases hr with rfl | rfl
        · by_cases h : x = 0
          · simp [sideOf, h]
          · have : ¬ ((x : R) * (s.lh + s.wv) = 0) := fun e => h (z1 hS e)
            simp [sideOf, h, this]
        · by_cases h : x = s.nx
          · have h0 : ¬ s.nx = 0 := by omega
            simp [sideOf, h, h0]
          · have : ¬ ((x : R) * (s.lh + s.wv) + s.wv = s.nx * (s.lh + s.wv) + s.wv) :=
              fun e => h (mul_inj hS (add_right_cancel e))
            simp [sideOf, h, this]

/-- **C108** (lattice, reading): a program that knows the joint, the two rods and the four ports accepts the
tables. -/
theorem lattice_accepted {s : Sizes R} (hs : Spec.Positive s) (hx0 : 0 < s.nx) (hy0 : 0 < s.ny) {L : Layout R}
    (h : lattice s = .ok L) {comps : List Comp}
    {refPorts : List Ports.PortData} {refItfs : List (List Ports.InterfaceInfo)}
    (hr : Spec.Reader fourFaces (latticeRefs s) L comps refPorts refItfs) :
    ∃ t, setup comps L.types L.bdr L.ports refPorts refItfs = .ok t := by
  obtain ⟨L', h', ht, hc⟩ := lattice_covers s hx0 hy0
  obtain ⟨L'', h'', hG⟩ := lattice_geometry s hs hx0 hy0
  obtain rfl := Except.ok.inj (h'.symm.trans h)
  obtain rfl := Except.ok.inj (h''.symm.trans h)
  have hb : (⟨4, (jIdx s 0 0 : Nat), 4⟩ : BdrRow) ∈ L''.bdr := by
    rw [← Except.ok.inj ((lattice_eq s).symm.trans h)]
    exact mem_latticeBdr.2 (.inl ⟨0, 0, by omega, by omega, .inl ⟨rfl, rfl⟩⟩)
  refine accepted hr hc (by simp [latticeRefs]) ?_ (List.ne_nil_of_mem hb) ?_ ?_
  · rw [ht]
    simp only [List.length_append, List.length_replicate]
    have : 0 < s.nJoint := Nat.mul_pos (by omega) (by omega)
    omega
  · intro r hr
    obtain ⟨p, u, -, e⟩ := hG.sides r hr
    rw [e]
    unfold sideOf
    split_ifs <;> decide
  · intro r hr
    obtain ⟨k, m1, m2, f, p, q, h1, h2, h3, h4, h5, h6, h7, h8, h9, -⟩ := hG.ports r hr
    exact ⟨k, m1, m2, f, h1, h2, h3, h4, h5, h6, h7, h8, h9⟩

end

section
variable [Field R]

/-- Cells are needed in both directions: otherwise a face of the first joint is missing. -/
theorem lattice_needs_cells (s : Sizes R) (h0 : s.nx = 0 ∨ s.ny = 0) : ∃ L, lattice s = .ok L ∧
    ¬ Covers fourFaces L := by
  refine ⟨_, lattice_eq s, fun hc => ?_⟩
  have hJ : 0 < s.nJoint := Nat.mul_pos (by omega) (by omega)
  have h00 : (latticeTable s).types[0]? = some 0 := by
    have := ((lattice_at s).1 (x := 0) (y := 0) (by omega) (by omega)).1
    simpa [jIdx] using this
  have hv : ∀ x y, vIdx s x y ≠ 0 := fun x y => by unfold vIdx; omega
  have hh : ∀ x y, hIdx s x y ≠ 0 := fun x y => by unfold hIdx; omega
  have hj : ∀ {x y}, ((jIdx s x y : Nat) : Int) = 0 → x = 0 ∧ y = 0 := by
    intro x y e
    have e : x + y * (s.nx + 1) = 0 := by exact_mod_cast e
    have e2 : y * (s.nx + 1) = 0 := by omega
    exact ⟨by omega, by simpa using e2⟩
  rcases h0 with h0 | h0
  · have hm := hc.mem_iff.2 (mem_allFaces.2 ⟨0, 0, rfl, h00, show (2 : Int) ∈ fourFaces 0 by decide⟩)
    rcases mem_mentioned.1 hm with ⟨r, hr, e1, e2⟩ | ⟨r, hr, e⟩
    · rcases mem_latticeBdr.1 hr with ⟨x, y, hx, hy, hr⟩ | ⟨x, y, hx, hy, hr⟩ | ⟨x, y, hx, hy, hr⟩
      · rcases hr with ⟨h, rfl⟩ | ⟨h, h', rfl⟩ | ⟨h, rfl⟩ | ⟨h, h', rfl⟩ <;> simp at e1 e2 <;> omega
      · omega
      · rcases hr with rfl | rfl <;> dsimp only at e1 <;> exact hv x y (by exact_mod_cast e1)
    · obtain ⟨x, y, hx, hy, hr⟩ := mem_latticePorts.1 hr
      rcases hr with ⟨h, rfl⟩ | ⟨h, rfl⟩ | ⟨h, rfl⟩ | ⟨h, rfl⟩
      · omega
      · omega
      · rcases e with ⟨_, e⟩ | ⟨_, e⟩ <;> simp at e
      · rcases e with ⟨_, e⟩ | ⟨_, e⟩ <;> simp at e
  · have hm := hc.mem_iff.2 (mem_allFaces.2 ⟨0, 0, rfl, h00, show (3 : Int) ∈ fourFaces 0 by decide⟩)
    rcases mem_mentioned.1 hm with ⟨r, hr, e1, e2⟩ | ⟨r, hr, e⟩
    · rcases mem_latticeBdr.1 hr with ⟨x, y, hx, hy, hr⟩ | ⟨x, y, hx, hy, hr⟩ | ⟨x, y, hx, hy, hr⟩
      · rcases hr with ⟨h, rfl⟩ | ⟨h, h', rfl⟩ | ⟨h, rfl⟩ | ⟨h, h', rfl⟩ <;> simp at e1 e2 <;> omega
      · rcases hr with rfl | rfl <;> dsimp only at e1 <;> exact hh x y (by exact_mod_cast e1)
      · omega
    · obtain ⟨x, y, hx, hy, hr⟩ := mem_latticePorts.1 hr
      rcases hr with ⟨h, rfl⟩ | ⟨h, rfl⟩ | ⟨h, rfl⟩ | ⟨h, rfl⟩
      · rcases e with ⟨_, e⟩ | ⟨_, e⟩ <;> simp at e
      · rcases e with ⟨_, e⟩ | ⟨_, e⟩ <;> simp at e
      · omega
      · omega

/-! ## The single cell -/

/-- The numbers the general lattice gives to the meshes of the single cell. -/
def Spec.oneCell : List Nat := [0, 4, 1, 6, 7, 2, 5, 3]

/-- **C108** (single cell): the table written by hand is that of the lattice with one cell, with the meshes
in another order. -/
theorem single_cell (wh wv lh lv : R) : ∃ L, lattice ⟨1, 1, wh, wv, lh, lv⟩ = .ok L ∧
    L.types.length = 8 ∧
    (∀ k, k < 8 → ∃ j, Spec.oneCell[k]? = some j ∧
      L.types[j]? = (lattice1x1 ⟨1, 1, wh, wv, lh, lv⟩).types[k]? ∧
      L.pos[j]? = (lattice1x1 ⟨1, 1, wh, wv, lh, lv⟩).pos[k]?) ∧
    ((lattice1x1 ⟨1, 1, wh, wv, lh, lv⟩).bdr.map
      (fun r => { r with mesh := ((Spec.oneCell.getD r.mesh.toNat 0 : Nat) : Int) })).Perm L.bdr ∧
    ((lattice1x1 ⟨1, 1, wh, wv, lh, lv⟩).ports.map
      (fun r => { r with mesh1 := ((Spec.oneCell.getD r.mesh1.toNat 0 : Nat) : Int),
                         mesh2 := ((Spec.oneCell.getD r.mesh2.toNat 0 : Nat) : Int) })).Perm L.ports := by
  refine ⟨_, lattice_eq _, rfl, ?_, ?_, ?_⟩
  · have hJ := fun x y hx hy => ((lattice_at (⟨1, 1, wh, wv, lh, lv⟩ : Sizes R)).1 (x := x) (y := y) hx hy).2
    have hH := fun x y hx hy => ((lattice_at (⟨1, 1, wh, wv, lh, lv⟩ : Sizes R)).2.1 (x := x) (y := y) hx hy).2
    have hV := fun x y hx hy => ((lattice_at (⟨1, 1, wh, wv, lh, lv⟩ : Sizes R)).2.2 (x := x) (y := y) hx hy).2
    intro k hk
    rcases k with _ | _ | _ | _ | _ | _ | _ | _ | k
    · exact ⟨0, rfl, rfl, (hJ 0 0 (by simp) (by simp)).trans (by simp [lattice1x1])⟩
    · exact ⟨4, rfl, rfl, (hH 0 0 (by simp) (by simp)).trans (by simp [lattice1x1])⟩
    · exact ⟨1, rfl, rfl, (hJ 1 0 (by simp) (by simp)).trans (by simp [lattice1x1, add_comm])⟩
    · exact ⟨6, rfl, rfl, (hV 0 0 (by simp) (by simp)).trans (by simp [lattice1x1])⟩
    · exact ⟨7, rfl, rfl, (hV 1 0 (by simp) (by simp)).trans (by simp [lattice1x1, add_comm])⟩
    · exact ⟨2, rfl, rfl, (hJ 0 1 (by simp) (by simp)).trans (by simp [lattice1x1, add_comm])⟩
    · exact ⟨5, rfl, rfl, (hH 0 1 (by simp) (by simp)).trans (by simp [lattice1x1, add_comm])⟩
    · exact ⟨3, rfl, rfl, (hJ 1 1 (by simp) (by simp)).trans (by simp [lattice1x1, add_comm])⟩
    · omega
  · have e : (latticeTable (⟨1, 1, wh, wv, lh, lv⟩ : Sizes R)).bdr =
        (latticeTable (⟨1, 1, 1, 1, 1, 1⟩ : Sizes ℚ)).bdr := rfl
    have e' : (lattice1x1 (⟨1, 1, wh, wv, lh, lv⟩ : Sizes R)).bdr =
        (lattice1x1 (⟨1, 1, 1, 1, 1, 1⟩ : Sizes ℚ)).bdr := rfl
    rw [e, e']
    decide +kernel
  · have e : (latticeTable (⟨1, 1, wh, wv, lh, lv⟩ : Sizes R)).ports =
        (latticeTable (⟨1, 1, 1, 1, 1, 1⟩ : Sizes ℚ)).ports := rfl
    have e' : (lattice1x1 (⟨1, 1, wh, wv, lh, lv⟩ : Sizes R)).ports =
        (lattice1x1 (⟨1, 1, 1, 1, 1, 1⟩ : Sizes ℚ)).ports := rfl
    rw [e, e']
    decide +kernel

/-- The sizes given to the script of the cantilever lattice do not matter: it always writes two cells in both
directions, twenty-one meshes. -/
theorem cantilever_size_ignored (nx ny : Nat) :
    (latticeCantilever nx ny : Outcome (Layout R)) = latticeCantilever 2 2 ∧
    ∃ L : Layout R, latticeCantilever nx ny = .ok L ∧ L.types.length = 21 := by
  refine ⟨rfl, _, lattice_eq _, ?_⟩
  rw [types_length]
  rfl

end

/-! ## Rotated attributes -/

/-- Attributes `1` to `4` rotated by `j` places. -/
def Spec.rotate (j : Nat) (g : Int) : Int := if g < 5 then (g - 1 - j) % 4 + 1 else g

/-- **C108** (training variants): the four variants rotate the attributes of the sides and change nothing
else. -/
theorem permute_spec {rows : List BdrRow} {j : Nat} (hj : j < 4) (h : ∀ r ∈ rows, 1 ≤ r.gattr) :
    permuteBdr rows j = .ok (rows.map fun r => { r with gattr := Spec.rotate j r.gattr }) := by
  have key : ∀ g : Int, 1 ≤ g → g < 5 → ∃ l, battrMap[j]? = some l ∧
      rdI l (g - 1) = .ok (Spec.rotate j g) := by
    intro g h1 h2
    have hg : g = 1 ∨ g = 2 ∨ g = 3 ∨ g = 4 := by omega
    rcases j with _ | _ | _ | _ | j
    · rcases hg with rfl | rfl | rfl | rfl <;> exact ⟨_, rfl, rfl⟩
    · rcases hg with rfl | rfl | rfl | rfl <;> exact ⟨_, rfl, rfl⟩
    · rcases hg with rfl | rfl | rfl | rfl <;> exact ⟨_, rfl, rfl⟩
    · rcases hg with rfl | rfl | rfl | rfl <;> exact ⟨_, rfl, rfl⟩
    · omega
  unfold permuteBdr
  rw [loop_spec (n := rows.length) (fun i => (rows.take i).map (fun r => { r with
    gattr := Spec.rotate j r.gattr }) ++ rows.drop i)]
  · simp
  · simp
  · intro i hi
    have hd : rows.drop i = rows[i] :: rows.drop (i + 1) := List.drop_eq_getElem_cons hi
    have hlen : ((rows.take i).map (fun r => ({ r with gattr := Spec.rotate j r.gattr } : BdrRow))).length = i := by
      rw [List.length_map, List.length_take]; omega
    have hr : rd ((rows.take i).map (fun r => ({ r with gattr := Spec.rotate j r.gattr } : BdrRow)) ++
        rows.drop i) i = .ok rows[i] := by
      rw [rd_eq_ok, List.getElem?_append_right (by omega), hlen, Nat.sub_self, hd]
      rfl
    rw [hr, ok_bind]
    have hnext : (rows.take (i + 1)).map (fun r => ({ r with gattr := Spec.rotate j r.gattr } : BdrRow)) ++
        rows.drop (i + 1) =
        (rows.take i).map (fun r => ({ r with gattr := Spec.rotate j r.gattr } : BdrRow)) ++
        ({ rows[i] with gattr := Spec.rotate j rows[i].gattr } : BdrRow) :: rows.drop (i + 1) := by
      rw [List.take_succ_eq_append_getElem hi, List.map_append, List.append_assoc]
      rfl
    rw [hnext]
    by_cases hg : rows[i].gattr < 5
    · obtain ⟨l, hl, hv⟩ := key _ (h _ (List.getElem_mem hi)) hg
      rw [if_pos hg, rd_eq_ok.2 hl, ok_bind, hv, ok_bind, wr_of_lt (by
        rw [List.length_append, hlen, List.length_drop]; omega)]
      rw [List.set_append_right _ _ (by omega), hlen, Nat.sub_self, hd, List.set_cons_zero]
    · rw [if_neg hg]
      have : Spec.rotate j rows[i].gattr = rows[i].gattr := if_neg hg
      rw [this, hd]

/-- Over the four variants every side gets every attribute once, and the attribute of free faces stays. -/
theorem rotate_latin (g g' : Int) (hg : 1 ≤ g ∧ g ≤ 4) (hg' : 1 ≤ g' ∧ g' ≤ 4) :
    ∃ j, j < 4 ∧ Spec.rotate j g = g' ∧ ∀ i, i < 4 → Spec.rotate i g = g' → i = j := by
  refine ⟨((g - g') % 4).toNat, by omega, ?_, fun i hi h => ?_⟩
  · unfold Spec.rotate
    rw [if_pos (by omega)]
    omega
  · unfold Spec.rotate at h
    rw [if_pos (by omega)] at h
    omega

/-- Rotating keeps the coverage of a layout. -/
theorem rotate_covers {L : Layout R} (hc : Covers fourFaces L) (j : Nat) :
    Covers fourFaces { L with bdr := L.bdr.map fun r => { r with gattr := Spec.rotate j r.gattr } } := by
  have : mentioned { L with bdr := L.bdr.map fun r => { r with gattr := Spec.rotate j r.gattr } } =
      mentioned L := by
    unfold mentioned
    rw [List.map_map]
    rfl
  unfold Covers
  rw [this]
  exact hc

/-- Non-vacuity: a lattice of two cells by one, and a program that can read it. -/
example : ∃ (s : Sizes ℚ) (L : Layout ℚ), Spec.Positive s ∧ 0 < s.nx ∧ 0 < s.ny ∧ lattice s = .ok L ∧
    L.types.length = 13 ∧ (⟨0, 6, 2, 4, 0⟩ : PortRow) ∈ L.ports ∧ (⟨5, 6, 3⟩ : BdrRow) ∈ L.bdr ∧
    Spec.Reader fourFaces (latticeRefs s) L (List.replicate 3 ⟨[1, 2, 3, 4], [1, 2, 3, 4]⟩)
      [⟨0, 1, 2, 4, [], []⟩, ⟨0, 1, 4, 2, [], []⟩, ⟨0, 2, 3, 1, [], []⟩, ⟨0, 2, 1, 3, [], []⟩]
      [[], [], [], []] := by
  refine ⟨⟨2, 1, 1, 1, 4, 4⟩, _, ⟨by decide, by decide, by decide, by decide⟩, by decide, by decide, lattice_eq _,
    rfl, by decide +kernel, by decide +kernel, ?_, ?_, ?_, rfl, rfl⟩
  · intro k comp h
    have := List.eq_of_mem_replicate (List.mem_of_getElem? h)
    subst this
    exact ⟨fun a => Iff.rfl, fun a ha => ha⟩
  · intro comp h
    rw [List.eq_of_mem_replicate h]
    simp
  · intro c hc
    have : c ∈ [(0 : Int), 1, 2] := by
      have h : ∀ c ∈ (latticeTable (⟨2, 1, 1, 1, 4, 4⟩ : Sizes ℚ)).types, c ∈ [(0 : Int), 1, 2] := by
        decide +kernel
      exact h c hc
    simp only [List.mem_cons, List.not_mem_nil, or_false] at this
    rcases this with rfl | rfl | rfl
    · exact ⟨0, rfl, by decide⟩
    · exact ⟨1, rfl, by decide⟩
    · exact ⟨2, rfl, by decide⟩

end Verif.GenConf
