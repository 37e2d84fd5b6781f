import Verif.Spec.LinAlg
import Verif.Proofs.Blocks
import Mathlib.Algebra.BigOperators.Group.Finset.Basic
import Mathlib.Algebra.BigOperators.Ring.Finset
import Mathlib.Algebra.BigOperators.Group.Finset.Sigma
import Mathlib.Tactic.Ring
import Mathlib.Tactic.Tauto
import Mathlib.Tactic.Linarith

/-! Helper lemmas for the dense kernels. -/

namespace Verif.LinAlg

open Verif Spec Finset

variable {R : Type} [CommRing R]

theorem rd_ve {b : List R} {i : Nat} (h : i < b.length) : rd b i = .ok (ve b i) := by
  rw [rd_of_lt h]; simp [ve, h]

theorem rdI_ve {b : List R} {i : Nat} (h : i < b.length) : rdI b (i : Int) = .ok (ve b i) := by
  unfold rdI; rw [if_pos (by omega), Int.toNat_natCast, rd_ve h]

theorem ve_tab {n : Nat} {f : Nat → R} {i : Nat} (h : i < n) : ve (tab n f) i = f i := by
  unfold ve; rw [getElem?_tab, if_pos h]; rfl

theorem list_eq_tab (b : List R) : b = tab b.length (ve b) := (tab_getD b 0).symm

theorem list_eq_tab' {b : List R} {n : Nat} (h : b.length = n) : b = tab n (ve b) := by
  subst h; exact list_eq_tab b

/-- Update of a table entry. -/
theorem upd_tab {n : Nat} {f : Nat → R} {i : Nat} {g : R → R} (h : i < n) :
    upd (tab n f) i g = .ok (tab n (Function.update f i (g (f i)))) := by
  unfold upd; rw [rd_tab h, ok_bind, wr_tab h]

theorem upd_of_lt {b : List R} {i : Nat} {g : R → R} (h : i < b.length) :
    upd b i g = .ok (b.set i (g (ve b i))) := by
  unfold upd; rw [rd_ve h, ok_bind, wr_of_lt h]

theorem ve_set {b : List R} {i j : Nat} {v : R} (h : i < b.length) :
    ve (b.set i v) j = if i = j then v else ve b j := by
  unfold ve
  rw [List.getElem?_set]
  by_cases hij : i = j
  · subst hij; simp [h]
  · simp [hij]

/-- A loop summing into an accumulator. -/
theorem loop_sum {n : Nat} {body : Nat → R → Outcome R} (g : Nat → R) (a : R)
    (h : ∀ k acc, k < n → body k acc = .ok (acc + g k)) :
    loop n body a = .ok (a + ∑ k ∈ range n, g k) := by
  have := loop_spec (n := n) (body := body) (fun k => a + ∑ r ∈ range k, g r) (s := a) (by simp)
    (fun k hk => by rw [h k _ hk, sum_range_succ, add_assoc])
  exact this

/-- A loop updating entries `0 .. n-1` of a buffer one after the other. -/
theorem loop_tab_map {n m : Nat} {body : Nat → List R → Outcome (List R)} (f : Nat → R)
    (g : Nat → R → R) (hn : n ≤ m)
    (h : ∀ r (f' : Nat → R), r < n → body r (tab m f') =
      .ok (tab m (Function.update f' r (g r (f' r))))) :
    loop n body (tab m f) = .ok (tab m (fun r => if r < n then g r (f r) else f r)) := by
  have := loop_spec (n := n) (body := body)
    (fun k => tab m (fun r => if r < k then g r (f r) else f r)) (s := tab m f)
    (tab_congr (fun i _ => by simp)) (fun k hk => by
      rw [h k _ hk]
      congr 1
      refine tab_congr fun i _ => ?_
      by_cases hik : i = k
      · subst hik; simp
      · rw [Function.update_of_ne hik]
        by_cases h2 : i < k
        · rw [if_pos h2, if_pos (by omega)]
        · rw [if_neg h2, if_neg (by omega)])
  exact this

/-- Loop updating distinct entries in place. -/
theorem loop_update {n : Nat} {body : Nat → List R → Outcome (List R)} (idx : Nat → Nat)
    (g : Nat → R → R) (buf : List R)
    (hinj : ∀ i j, i < n → j < n → idx i = idx j → i = j) (hlt : ∀ i, i < n → idx i < buf.length)
    (h : ∀ i b, i < n → idx i < b.length → body i b = .ok (b.set (idx i) (g i (ve b (idx i))))) :
    ∃ r, loop n body buf = .ok r ∧ r.length = buf.length ∧
      (∀ i, i < n → ve r (idx i) = g i (ve buf (idx i))) ∧
      (∀ t, (∀ i, i < n → idx i ≠ t) → r[t]? = buf[t]?) := by
  obtain ⟨r, hr, h1, h2, h3⟩ := loop_total (n := n) (body := body)
    (fun k r => r.length = buf.length ∧ (∀ i, i < k → ve r (idx i) = g i (ve buf (idx i))) ∧
      (∀ t, (∀ i, i < k → idx i ≠ t) → r[t]? = buf[t]?)) (s := buf)
    ⟨rfl, by intro i hi; omega, fun _ _ => rfl⟩ (by
      rintro k u hk ⟨i1, i2, i3⟩
      have hl : idx k < u.length := by rw [i1]; exact hlt k hk
      refine ⟨_, h k u hk hl, by simp [i1], ?_, ?_⟩
      · intro i hi
        rw [ve_set hl]
        by_cases hik : i = k
        · subst hik
          rw [if_pos rfl]
          have : u[idx i]? = buf[idx i]? :=
            i3 _ (fun j hj e => by have := hinj j i (by omega) hk e; omega)
          unfold ve; rw [this]
        · rw [if_neg (fun e => hik (hinj i k (by omega) hk e.symm)), i2 i (by omega)]
      · intro t ht
        rw [List.getElem?_set, if_neg (ht k (by omega)), i3 t (fun i hi => ht i (by omega))])
  exact ⟨r, hr, h1, h2, h3⟩

/-- Nested version. -/
theorem loop2_update {a b : Nat} {body : Nat → Nat → List R → Outcome (List R)}
    (idx : Nat → Nat → Nat) (g : Nat → Nat → R → R) (buf : List R)
    (hinj : ∀ i j i' j', i < a → j < b → i' < a → j' < b → idx i j = idx i' j' → i = i' ∧ j = j')
    (hlt : ∀ i j, i < a → j < b → idx i j < buf.length)
    (h : ∀ i j c, i < a → j < b → idx i j < c.length →
      body i j c = .ok (c.set (idx i j) (g i j (ve c (idx i j))))) :
    ∃ r, loop a (fun i st => loop b (fun j st => body i j st) st) buf = .ok r ∧
      r.length = buf.length ∧
      (∀ i j, i < a → j < b → ve r (idx i j) = g i j (ve buf (idx i j))) ∧
      (∀ t, (∀ i j, i < a → j < b → idx i j ≠ t) → r[t]? = buf[t]?) := by
  obtain ⟨r, hr, h1, h2, h3⟩ := loop_total (n := a)
    (body := fun i st => loop b (fun j st => body i j st) st)
    (fun k r => r.length = buf.length ∧
      (∀ i j, i < k → j < b → ve r (idx i j) = g i j (ve buf (idx i j))) ∧
      (∀ t, (∀ i j, i < k → j < b → idx i j ≠ t) → r[t]? = buf[t]?)) (s := buf)
    ⟨rfl, by intro i j hi; omega, fun _ _ => rfl⟩ (by
      rintro k u hk ⟨i1, i2, i3⟩
      obtain ⟨r, hr, r1, r2, r3⟩ := loop_update (n := b) (body := fun j st => body k j st) (idx k)
        (g k) u (fun i j hi hj e => (hinj k i k j hk hi hk hj e).2)
        (fun i hi => by rw [i1]; exact hlt k i hk hi) (fun j c hj hl => h k j c hk hj hl)
      refine ⟨r, hr, by rw [r1, i1], ?_, ?_⟩
      · intro i j hi hj
        by_cases hik : i = k
        · subst hik
          rw [r2 j hj]
          have : u[idx i j]? = buf[idx i j]? :=
            i3 _ (fun i' j' hi' hj' e => by
              have := (hinj i' j' i j (by omega) hj' hk hj e).1; omega)
          unfold ve; rw [this]
        · have : r[idx i j]? = u[idx i j]? :=
            r3 _ (fun j' hj' e => hik (hinj k j' i j hk hj' (by omega) hj e).1.symm)
          have e2 := i2 i j (by omega) hj
          unfold ve at *; rw [this, e2]
      · intro t ht
        rw [r3 t (fun j hj => ht k j (by omega) hj), i3 t (fun i j hi hj => ht i j (by omega) hj)])
  exact ⟨r, hr, h1, h2, h3⟩

/-! ### Matrix columns and dot products -/

theorem idx_lt {h w i j : Nat} (hi : i < h) (hj : j < w) : i + j * h < h * w := by
  have := Nat.mul_le_mul_right h (show j + 1 ≤ w by omega)
  rw [Nat.add_mul, Nat.mul_comm w] at this; omega

theorem idx_inj {h i j i' j' : Nat} (hi : i < h) (hi' : i' < h) (e : i + j * h = i' + j' * h) :
    i = i' ∧ j = j' := by
  have hn : 0 < h := by omega
  have a1 : (i + j * h) / h = j := by rw [Nat.add_mul_div_right _ _ hn, Nat.div_eq_of_lt hi]; omega
  have a2 : (i' + j' * h) / h = j' := by
    rw [Nat.add_mul_div_right _ _ hn, Nat.div_eq_of_lt hi']; omega
  have : j = j' := by rw [← a1, ← a2, e]
  subst this; omega

theorem col_eq {m : Mat R} (hm : MatOk m) {c : Nat} (hc : c < m.w) :
    m.col c = .ok (tab m.h (fun r => ent m r c)) := by
  have hle : (c + 1) * m.h ≤ m.data.length := by
    refine Nat.le_trans ?_ hm
    rw [Nat.mul_comm]; exact Nat.mul_le_mul_left _ hc
  unfold Mat.col
  rw [if_pos hle]
  congr 1
  have hle' : c * m.h + m.h ≤ m.data.length := by rw [Nat.add_mul] at hle; omega
  apply List.ext_getElem?
  intro i
  rw [getElem?_tab, List.getElem?_take, List.getElem?_drop]
  by_cases hi : i < m.h
  · rw [if_pos hi, if_pos hi]
    unfold ent ve
    rw [Nat.add_comm (c * m.h) i]
    simp [show i + c * m.h < m.data.length by omega]
  · rw [if_neg hi, if_neg hi]

theorem dot_eq {x y : List R} (h : x.length ≤ y.length) :
    dot x y = .ok (∑ k ∈ range x.length, ve x k * ve y k) := by
  unfold dot
  rw [loop_sum (fun k => ve x k * ve y k) 0 (fun k acc hk => by
    rw [rd_ve hk, rd_ve (show k < y.length by omega)]; rfl), zero_add]

theorem setSize_ok (m : Mat R) (hm : MatOk m) (h w : Nat) :
    (m.setSize h w).h = h ∧ (m.setSize h w).w = w ∧ MatOk (m.setSize h w) := by
  unfold Mat.setSize
  split
  · rename_i e; exact ⟨e.1, e.2, hm⟩
  · split
    · exact ⟨rfl, rfl, by simp [MatOk]⟩
    · exact ⟨rfl, rfl, by simp [MatOk]; omega⟩

/-! ### Row checks -/

theorem foldl_min_le (l : List Int) : ∀ x : Int, l.foldl min x ≤ x ∧ ∀ y ∈ l, l.foldl min x ≤ y := by
  induction l with
  | nil => intro x; simp
  | cons a l ih =>
    intro x
    obtain ⟨h1, h2⟩ := ih (min x a)
    rw [List.foldl_cons]
    refine ⟨by omega, ?_⟩
    intro y hy
    rcases List.mem_cons.1 hy with rfl | hy
    · omega
    · exact h2 y hy

theorem foldl_min_mem (l : List Int) : ∀ x : Int, l.foldl min x ∈ x :: l := by
  induction l with
  | nil => intro x; simp
  | cons a l ih =>
    intro x
    have := ih (min x a)
    rw [List.foldl_cons]
    rcases List.mem_cons.1 this with h | h
    · rw [h]
      rcases Int.le_total x a with h' | h'
      · simp [h']
      · simp [Int.min_eq_right h']
    · simp [h]

theorem foldl_max_le (l : List Int) : ∀ x : Int, x ≤ l.foldl max x ∧ ∀ y ∈ l, y ≤ l.foldl max x := by
  induction l with
  | nil => intro x; simp
  | cons a l ih =>
    intro x
    obtain ⟨h1, h2⟩ := ih (max x a)
    rw [List.foldl_cons]
    refine ⟨by omega, ?_⟩
    intro y hy
    rcases List.mem_cons.1 hy with rfl | hy
    · omega
    · exact h2 y hy

theorem foldl_max_mem (l : List Int) : ∀ x : Int, l.foldl max x ∈ x :: l := by
  induction l with
  | nil => intro x; simp
  | cons a l ih =>
    intro x
    have := ih (max x a)
    rw [List.foldl_cons]
    rcases List.mem_cons.1 this with h | h
    · rw [h]
      rcases Int.le_total x a with h' | h'
      · simp [Int.max_eq_right h']
      · simp [Int.max_eq_left h']
    · simp [h]

theorem arrMin_spec {l : List Int} (hne : l ≠ []) :
    ∃ m, arrMin l = .ok m ∧ m ∈ l ∧ ∀ y ∈ l, m ≤ y := by
  cases l with
  | nil => exact absurd rfl hne
  | cons x xs =>
    refine ⟨_, rfl, foldl_min_mem xs x, ?_⟩
    intro y hy
    obtain ⟨h1, h2⟩ := foldl_min_le xs x
    rcases List.mem_cons.1 hy with rfl | hy
    · exact h1
    · exact h2 y hy

theorem arrMax_spec {l : List Int} (hne : l ≠ []) :
    ∃ m, arrMax l = .ok m ∧ m ∈ l ∧ ∀ y ∈ l, y ≤ m := by
  cases l with
  | nil => exact absurd rfl hne
  | cons x xs =>
    refine ⟨_, rfl, foldl_max_mem xs x, ?_⟩
    intro y hy
    obtain ⟨h1, h2⟩ := foldl_max_le xs x
    rcases List.mem_cons.1 hy with rfl | hy
    · exact h1
    · exact h2 y hy

theorem checkRows_ok {rows : List Int} {h : Nat} (hr : RowsOk rows h) : checkRows rows h = .ok () := by
  obtain ⟨hne, hb⟩ := hr
  obtain ⟨a, ha, ham, _⟩ := arrMin_spec hne
  obtain ⟨b, hb', hbm, _⟩ := arrMax_spec hne
  have h1 := hb a ham
  have h2 := hb b hbm
  unfold checkRows
  rw [ha, hb']
  simp [h1, h2]

theorem checkRows_abort {rows : List Int} {h : Nat} (hne : rows ≠ [])
    (hb : ¬ ∀ r ∈ rows, 0 ≤ r ∧ r < h) : checkRows rows h = .error .abort := by
  obtain ⟨a, ha, ham, hal⟩ := arrMin_spec hne
  obtain ⟨b, hb', hbm, hbl⟩ := arrMax_spec hne
  unfold checkRows
  rw [ha, hb']
  simp only [ok_bind]
  by_cases h1 : 0 ≤ a ∧ a < h
  · have h2 : ¬ (0 ≤ b ∧ b < h) := by
      intro h2
      apply hb
      intro r hr
      have := hal r hr; have := hbl r hr
      omega
    have e1 : (decide (0 ≤ a) && decide (a < (h : Int))) = true := by simp [h1]
    have e2 : (decide (0 ≤ b) && decide (b < (h : Int))) = false := by
      simp only [Bool.and_eq_false_iff, decide_eq_false_iff_not]; omega
    rw [e1, e2]; rfl
  · have e1 : (decide (0 ≤ a) && decide (a < (h : Int))) = false := by
      simp only [Bool.and_eq_false_iff, decide_eq_false_iff_not]; omega
    rw [e1]; rfl

theorem rowAt_lt {rows : List Int} {h k : Nat} (hr : RowsOk rows h) (hk : k < rows.length) :
    rowAt rows k < h ∧ rd rows k = .ok (rowAt rows k : Int) := by
  have := hr.2 rows[k] (List.getElem_mem hk)
  have e : rows[k]? = some rows[k] := by simp [hk]
  unfold rowAt
  rw [e, rd_of_lt hk]
  constructor
  · simp; omega
  · simp; omega

/-! ### Sequential accumulation -/

/-- A loop accumulating into one entry, carrying a pointer. -/
theorem loop_acc_at {n cap d : Nat} {body : Nat → List R × Nat → Outcome (List R × Nat)}
    (f : Nat → R) (ptr : Nat → Nat) (g : Nat → R)
    (h : ∀ a f', a < n → body a (tab cap f', ptr a) =
      .ok (tab cap (Function.update f' d (f' d + g a)), ptr (a + 1))) :
    loop n body (tab cap f, ptr 0) =
      .ok (tab cap (Function.update f d (f d + ∑ a ∈ range n, g a)), ptr n) := by
  have := loop_spec (n := n) (body := body)
    (fun a => (tab cap (Function.update f d (f d + ∑ a' ∈ range a, g a')), ptr a))
    (s := (tab cap f, ptr 0)) (by simp) (fun a ha => by
      rw [h a _ ha]
      simp only [Function.update_self, Function.update_idem, sum_range_succ, add_assoc])
  exact this

/-- A nested loop accumulating into consecutive entries. -/
theorem loop2_seq {a b cap : Nat} {body : Nat → Nat → List R × Nat → Outcome (List R × Nat)}
    (f : Nat → R) (G : Nat → Nat → R)
    (h : ∀ i j f', i < a → j < b → body i j (tab cap f', i * b + j) =
      .ok (tab cap (Function.update f' (i * b + j) (f' (i * b + j) + G i j)), i * b + j + 1)) :
    loop a (fun i st => loop b (fun j st => body i j st) st) (tab cap f, 0) =
      .ok (tab cap (fun t => if t < a * b then f t + G (t / b) (t % b) else f t), a * b) := by
  have key := loop_spec (n := a) (body := fun i st => loop b (fun j st => body i j st) st)
    (fun i => (tab cap (fun t => if t < i * b then f t + G (t / b) (t % b) else f t), i * b))
    (s := (tab cap f, 0)) (by simp) (fun i hi => by
      have := loop_spec (n := b) (body := fun j st => body i j st)
        (fun j => (tab cap (fun t => if t < i * b + j then f t + G (t / b) (t % b) else f t),
          i * b + j))
        (s := (tab cap (fun t => if t < i * b then f t + G (t / b) (t % b) else f t), i * b))
        (by simp) (fun j hj => by
          rw [h i j _ hi hj]
          congr 2
          refine tab_congr fun t _ => ?_
          by_cases ht : t = i * b + j
          · subst ht
            have hb : 0 < b := by omega
            have e1 : (i * b + j) / b = i := by
              rw [Nat.mul_comm, Nat.mul_add_div hb, Nat.div_eq_of_lt hj]; omega
            have e2 : (i * b + j) % b = j := by
              rw [Nat.mul_comm, Nat.mul_add_mod, Nat.mod_eq_of_lt hj]
            rw [Function.update_self, if_neg (by omega), if_pos (by omega), e1, e2]
          · rw [Function.update_of_ne ht]
            by_cases h2 : t < i * b + j
            · rw [if_pos h2, if_pos (by omega)]
            · rw [if_neg h2, if_neg (by omega)])
      rw [this, Nat.add_mul, Nat.one_mul])
  exact key

theorem seq_entry {a b i j : Nat} (hi : i < a) (hj : j < b) :
    i * b + j < a * b ∧ (i * b + j) / b = i ∧ (i * b + j) % b = j := by
  have hb : 0 < b := by omega
  refine ⟨?_, ?_, ?_⟩
  · have := Nat.mul_le_mul_right b (show i + 1 ≤ a by omega)
    rw [Nat.add_mul] at this; omega
  · rw [Nat.mul_comm, Nat.mul_add_div hb, Nat.div_eq_of_lt hj]; omega
  · rw [Nat.mul_comm, Nat.mul_add_mod, Nat.mod_eq_of_lt hj]

theorem tensor_idx {t : Tensor R} (ht : TensorOk t) {i j k : Nat} (hi : i < t.nI) (hj : j < t.nJ)
    (hk : k < t.nK) : k * (t.nI * t.nJ) + (i + j * t.nI) < t.data.length := by
  have h1 := idx_lt hi hj
  have h2 := Nat.mul_le_mul_right (t.nI * t.nJ) (show k + 1 ≤ t.nK by omega)
  rw [Nat.add_mul] at h2
  have h3 := ht; unfold TensorOk at h3
  rw [Nat.mul_comm] at h3
  omega

theorem rd_tensor {t : Tensor R} (ht : TensorOk t) {i j k : Nat} (hi : i < t.nI) (hj : j < t.nJ)
    (hk : k < t.nK) : rd t.data (k * (t.nI * t.nJ) + (i + j * t.nI)) = .ok (tent t i j k) := by
  rw [rd_ve (tensor_idx ht hi hj hk)]
  unfold tent; rw [Nat.add_comm]

theorem contractSlice_eq {t : Tensor R} (ht : TensorOk t) {w : R} {xi xj : List R}
    (hi : xi.length = t.nI) (hj : xj.length = t.nJ) (y : R) {k : Nat} (hk : k < t.nK) :
    contractSlice t w xi xj y (k * (t.nI * t.nJ)) =
      .ok (y + ∑ j ∈ range t.nJ, ∑ i ∈ range t.nI, w * tent t i j k * ve xi i * ve xj j,
        (k + 1) * (t.nI * t.nJ)) := by
  unfold contractSlice
  have key := loop_spec (n := t.nJ)
    (body := fun j (st : R × Nat) => loop t.nI (fun i (st : R × Nat) => (do
      let (acc, td) := st
      let v ← rd t.data td
      let a ← rd xi i
      let b ← rd xj j
      return (acc + w * v * a * b, td + 1) : Outcome (R × Nat))) st)
    (fun j => (y + ∑ j' ∈ range j, ∑ i ∈ range t.nI, w * tent t i j' k * ve xi i * ve xj j',
      k * (t.nI * t.nJ) + j * t.nI)) (s := (y, k * (t.nI * t.nJ))) (by simp) (fun j hjl => by
      have := loop_spec (n := t.nI)
        (body := fun i (st : R × Nat) => (do
          let (acc, td) := st
          let v ← rd t.data td
          let a ← rd xi i
          let b ← rd xj j
          return (acc + w * v * a * b, td + 1) : Outcome (R × Nat)))
        (fun i => ((y + ∑ j' ∈ range j, ∑ i ∈ range t.nI, w * tent t i j' k * ve xi i * ve xj j')
          + ∑ i' ∈ range i, w * tent t i' j k * ve xi i' * ve xj j, k * (t.nI * t.nJ) + (i + j * t.nI)))
        (s := (y + ∑ j' ∈ range j, ∑ i ∈ range t.nI, w * tent t i j' k * ve xi i * ve xj j',
          k * (t.nI * t.nJ) + j * t.nI)) (by simp) (fun i hil => by
          dsimp only
          rw [rd_tensor ht hil hjl hk, ok_bind, rd_ve (by omega), ok_bind, rd_ve (by omega), ok_bind]
          show Except.ok _ = Except.ok _
          rw [sum_range_succ _ i, ← add_assoc]
          congr 2
          · ring
          · omega)
      dsimp only
      rw [this, sum_range_succ _ j, ← add_assoc, Nat.add_mul j 1]
      congr 2
      all_goals first | rfl | ring | omega)
  rw [key]
  congr 2
  rw [Nat.add_mul k 1, Nat.mul_comm t.nJ]; omega

end Verif.LinAlg
