import Verif.Model.Sampling
import Verif.Proofs.Basic
import Mathlib.Tactic.Ring
import Mathlib.Tactic.Linarith

/-! Helper lemmas for the sampling model. -/

namespace Verif.Sampling

open Verif

theorem partialSumFrom_range' {α : Type _} [Add α] (f F : Nat → α)
    (hF : ∀ i, F (i + 1) = F i + f (i + 1)) :
    ∀ n s, partialSumFrom (F s) ((List.range' (s + 1) n).map f)
      = (List.range' (s + 1) n).map F := by
  intro n
  induction n with
  | zero => intro s; rfl
  | succ n ih =>
    intro s
    rw [List.range'_succ]
    simp only [List.map_cons, partialSumFrom]
    rw [← hF s, ih (s + 1)]

/-- Partial sums of a table. -/
theorem partialSum_tab {α : Type _} [Add α] (n : Nat) (f F : Nat → α) (h0 : F 0 = f 0)
    (hF : ∀ i, F (i + 1) = F i + f (i + 1)) : partialSum (tab n f) = tab n F := by
  cases n with
  | zero => rfl
  | succ n =>
    unfold tab
    rw [List.range_eq_range', List.range'_succ]
    simp only [List.map_cons, partialSum]
    rw [← h0, partialSumFrom_range' f F hF n 0]

/-- Closed form of the sample offsets. -/
def offs (total n k : Nat) : Nat := k * (total / n) + min k (total % n)

theorem replicate_eq_tab {α : Type _} (n : Nat) (v : α) : List.replicate n v = tab n (fun _ => v) := by
  apply List.ext_getElem?
  intro i
  rw [getElem?_tab, List.getElem?_replicate]

theorem distributeSamples_eq (total n : Nat) (hn : 0 < n) :
    distributeSamples total n = .ok (tab (n + 1) (offs total n)) := by
  unfold distributeSamples
  rw [if_neg (by omega)]
  dsimp only
  rw [replicate_eq_tab, wr_tab (by omega)]
  simp only [ok_bind]
  have hr : total % n < n := Nat.mod_lt _ hn
  rw [loop_spec (n := total % n) (fun r => tab (n + 1)
      (fun k => if k = 0 then 0 else if k ≤ r then total / n + 1 else total / n))]
  · simp only [ok_bind]
    rw [partialSum_tab (n + 1) _ (offs total n)]
    · rw [rd_tab (by omega), rd_tab (by omega)]
      have e1 : offs total n 0 = 0 := by simp [offs]
      have e2 : offs total n n = total := by
        unfold offs
        rw [Nat.min_eq_right (Nat.le_of_lt hr)]
        exact Nat.div_add_mod total n
      simp [e1, e2]
    · simp [offs]
    · intro i
      unfold offs
      simp only [Nat.succ_ne_zero, if_false]
      rw [Nat.add_mul, Nat.one_mul]
      split <;> omega
  · apply tab_congr
    intro i hi
    by_cases h : i = 0
    · subst h; simp
    · simp [h]
  · intro i hi
    rw [rd_tab (by omega)]
    simp only [ok_bind]
    rw [wr_tab (by omega)]
    congr 1
    apply tab_congr
    intro k hk
    by_cases h : k = 1 + i
    · subst h; simp; omega
    · rw [Function.update_of_ne h]
      by_cases h2 : k = 0
      · simp [h2]
      · simp only [h2, if_false]
        by_cases h3 : k ≤ i
        · rw [if_pos h3, if_pos (by omega)]
        · rw [if_neg h3, if_neg (by omega)]

theorem offs_mono (total n : Nat) {a b : Nat} (h : a ≤ b) : offs total n a ≤ offs total n b := by
  unfold offs
  have := Nat.mul_le_mul_right (total / n) h
  omega

theorem offs_succ (total n k : Nat) :
    offs total n (k + 1) = offs total n k + total / n + (if k < total % n then 1 else 0) := by
  unfold offs
  rw [Nat.add_mul, Nat.one_mul]
  split <;> omega

theorem offs_zero (total n : Nat) : offs total n 0 = 0 := by simp [offs]

theorem offs_last (total n : Nat) (hn : 0 < n) : offs total n n = total := by
  have hr : total % n < n := Nat.mod_lt _ hn
  unfold offs
  rw [Nat.min_eq_right (Nat.le_of_lt hr)]
  exact Nat.div_add_mod total n

theorem isMyJob_offs (total n rank idx : Nat) (h : rank < n) :
    isMyJob (tab (n + 1) (offs total n)) rank idx =
      .ok (decide (offs total n rank ≤ idx) && decide (idx < offs total n (rank + 1))) := by
  unfold isMyJob
  rw [rd_tab (by omega), rd_tab (by omega)]
  rfl

theorem exists_owner (F : Nat → Nat) (h0 : F 0 = 0) :
    ∀ n idx, idx < F n → ∃ r, r < n ∧ F r ≤ idx ∧ idx < F (r + 1) := by
  intro n
  induction n with
  | zero => intro idx h; omega
  | succ n ih =>
    intro idx h
    by_cases h' : idx < F n
    · obtain ⟨r, a, b, c⟩ := ih idx h'
      exact ⟨r, by omega, b, c⟩
    · exact ⟨n, by omega, by omega, h⟩

/-! ### Mixed radix -/

/-- Recursive row-major value. -/
def rm : List Int → List Int → Int
  | _ :: ss, i :: is => i * ss.prod + rm ss is
  | _, _ => 0

theorem horner_foldl (ss is : List Int) (h : is.length = ss.length) (g : Int) :
    (List.range ss.length).foldl (fun g k => g * ss[k]?.getD 0 + is[k]?.getD 0) g
      = g * ss.prod + rm ss is := by
  induction ss generalizing is g with
  | nil => simp [rm]
  | cons s ss ih =>
    cases is with
    | nil => simp at h
    | cons i is =>
      rw [List.length_cons, List.range_succ_eq_map, List.foldl_cons, List.foldl_map]
      simp only [List.getElem?_cons_succ, List.getElem?_cons_zero, Option.getD_some]
      rw [ih is (by simpa using h)]
      simp only [rm, List.prod_cons]
      ring

theorem getSampleIndexFlat_eq (s : Int) (ss : List Int) (total : Int) (i : Int) (is : List Int)
    (h : is.length = ss.length) :
    getSampleIndexFlat (s :: ss) total (i :: is) =
      if 0 ≤ rm (s :: ss) (i :: is) ∧ rm (s :: ss) (i :: is) < total
      then .ok (rm (s :: ss) (i :: is)) else .error .abort := by
  unfold getSampleIndexFlat
  have hl : ((i :: is).length == (s :: ss).length) = true := by simp [h]
  rw [hl]
  simp only [require_true, ok_bind]
  rw [rd_of_lt (by simp)]
  simp only [ok_bind, List.length_cons, Nat.add_sub_cancel, List.getElem_cons_zero]
  have : loop ss.length (fun k (g : Int) => (do
      let sz ← rd (s :: ss) (k + 1)
      let ip ← rd (i :: is) (k + 1)
      return g * sz + ip : Outcome Int)) i = .ok (rm (s :: ss) (i :: is)) := by
    have e := loop_spec (n := ss.length) (body := fun k (g : Int) => (do
        let sz ← rd (s :: ss) (k + 1)
        let ip ← rd (i :: is) (k + 1)
        return g * sz + ip : Outcome Int))
      (fun m => (List.range m).foldl (fun g k => g * ss[k]?.getD 0 + is[k]?.getD 0) i)
      (s := i) rfl (by
        intro k hk
        have h1 : rd (s :: ss) (k + 1) = .ok (ss[k]?.getD 0) := by
          rw [rd_of_lt (by simpa using hk)]; simp [hk]
        have h2 : rd (i :: is) (k + 1) = .ok (is[k]?.getD 0) := by
          rw [rd_of_lt (by simpa [h] using hk)]; simp [h, hk]
        rw [h1, h2, List.range_succ, List.foldl_append]
        rfl)
    rw [e, horner_foldl ss is h]
    simp [rm]
  rw [this]
  simp only [ok_bind]
  by_cases hc : 0 ≤ rm (s :: ss) (i :: is) ∧ rm (s :: ss) (i :: is) < total
  · rw [if_pos hc]; simp [hc.1, hc.2]
  · rw [if_neg hc]
    have : (decide (rm (s :: ss) (i :: is) ≥ 0) && decide (rm (s :: ss) (i :: is) < total)) = false := by
      by_contra hh
      apply hc
      simpa using hh
    rw [this]; rfl

/-- Recursive mixed-radix digits. -/
def digits : List Int → Int → List Int
  | [], _ => []
  | s :: ss, x => (x / ss.prod) % s :: digits ss x

theorem length_digits (ss : List Int) (x : Int) : (digits ss x).length = ss.length := by
  induction ss with
  | nil => rfl
  | cons s ss ih => simp [digits, ih]

theorem digits_getElem? (ss : List Int) (x : Int) (p : Nat) (hp : p < ss.length) :
    (digits ss x)[p]? = some ((x / (ss.drop (p + 1)).prod) % ss[p]) := by
  induction ss generalizing p with
  | nil => simp at hp
  | cons s ss ih =>
    cases p with
    | zero => simp [digits]
    | succ p =>
      simp only [digits, List.getElem?_cons_succ, List.drop_succ_cons, List.getElem_cons_succ]
      exact ih p (by simpa using hp)

theorem prod_pos (ss : List Int) (h : ∀ s ∈ ss, 0 < s) : 0 < ss.prod := by
  induction ss with
  | nil => simp
  | cons s ss ih =>
    rw [List.prod_cons]
    exact mul_pos (h s (by simp)) (ih (fun t ht => h t (by simp [ht])))

theorem getSampleIndexNested_eq (ss : List Int) (hpos : ∀ s ∈ ss, 0 < s) (x : Int) (hx : 0 ≤ x) :
    getSampleIndexNested ss x = .ok (digits ss x) := by
  unfold getSampleIndexNested
  dsimp only
  have hdrop : ∀ k, 0 < (ss.drop k).prod := fun k =>
    prod_pos _ (fun s hs => hpos s (List.mem_of_mem_drop hs))
  rw [loop_spec (n := ss.length) (fun k =>
      (tab ss.length (fun p => if ss.length - k ≤ p then (digits ss x)[p]?.getD 0 else 0),
       x / (ss.drop (ss.length - k)).prod))]
  · simp only [ok_bind]
    show Except.ok _ = Except.ok _
    congr 1
    rw [Nat.sub_self]
    simp only [Nat.zero_le, if_true]
    have := tab_getD (digits ss x) 0
    rwa [length_digits] at this
  · rw [replicate_eq_tab]
    simp only [Nat.sub_zero, List.drop_length, List.prod_nil, Int.ediv_one]
    congr 1
    apply tab_congr
    intro i hi
    rw [if_neg (by omega)]
  · intro k hk
    have hp : ss.length - 1 - k < ss.length := by omega
    generalize hpd : ss.length - 1 - k = p at hp
    have e1 : ss.length - k = p + 1 := by omega
    have e2 : ss.length - (k + 1) = p := by omega
    rw [e1, e2]
    dsimp only
    rw [rd_of_lt hp]
    simp only [ok_bind]
    have hs : 0 < ss[p] := hpos _ (List.getElem_mem hp)
    rw [if_neg (by omega)]
    generalize ht : x / (ss.drop (p + 1)).prod = t
    have ht0 : 0 ≤ t := by rw [← ht]; exact Int.ediv_nonneg hx (le_of_lt (hdrop _))
    have hmod : t.tmod ss[p] = t % ss[p] := Int.tmod_eq_emod_of_nonneg ht0
    rw [hmod]
    have hm0 : 0 ≤ t % ss[p] := Int.emod_nonneg _ (by omega)
    have hm1 : t % ss[p] < ss[p] := Int.emod_lt_of_pos _ hs
    have hreq : (decide (t % ss[p] ≥ 0) && decide (t % ss[p] < ss[p])) = true := by
      simp [hm0, hm1]
    rw [hreq]
    simp only [require_true, ok_bind]
    rw [wr_tab hp]
    simp only [ok_bind]
    show Except.ok _ = Except.ok _
    congr 2
    · apply tab_congr
      intro q hq
      by_cases hqp : q = p
      · subst hqp
        rw [Function.update_self, if_pos (Nat.le_refl _), digits_getElem? ss x q hp, ht]
        rfl
      · rw [Function.update_of_ne hqp]
        by_cases h3 : p + 1 ≤ q
        · rw [if_pos h3, if_pos (by omega)]
        · rw [if_neg h3, if_neg (by omega)]
    · have hsub : 0 ≤ t - t % ss[p] := by
        have := Int.mul_ediv_add_emod t ss[p]
        have h6 := mul_nonneg (le_of_lt hs) (Int.ediv_nonneg ht0 (le_of_lt hs))
        omega
      rw [Int.tdiv_eq_ediv_of_nonneg hsub]
      have h5 : (t - t % ss[p]) / ss[p] = t / ss[p] := by
        have := Int.mul_ediv_add_emod t ss[p]
        have h6 : t - t % ss[p] = ss[p] * (t / ss[p]) := by omega
        rw [h6, Int.mul_ediv_cancel_left _ (by omega)]
      rw [h5, ← ht, Int.ediv_ediv_of_nonneg (le_of_lt (hdrop _))]
      congr 1
      rw [List.drop_eq_getElem_cons hp, List.prod_cons]
      ring

theorem rm_digits (ss : List Int) (hpos : ∀ s ∈ ss, 0 < s) (x : Int) :
    rm ss (digits ss x) = x % ss.prod := by
  induction ss with
  | nil => simp [rm]
  | cons s ss ih =>
    have hP := prod_pos ss (fun t ht => hpos t (by simp [ht]))
    have hs := hpos s (by simp)
    simp only [digits, rm, List.prod_cons]
    rw [ih (fun t ht => hpos t (by simp [ht]))]
    have e1 := Int.mul_ediv_add_emod x ss.prod
    have e2 := Int.mul_ediv_add_emod (x / ss.prod) s
    have e3 : x / ss.prod / s = x / (s * ss.prod) := by
      rw [Int.ediv_ediv_of_nonneg (le_of_lt hP), mul_comm]
    have e4 := Int.mul_ediv_add_emod x (s * ss.prod)
    rw [e3] at e2
    have : ss.prod * (x / ss.prod) = ss.prod * (s * (x / (s * ss.prod)) + x / ss.prod % s) := by
      rw [e2]
    nlinarith [this, e1, e4]

theorem rm_range (ss is : List Int) (h : List.Forall₂ (fun s i => 0 ≤ i ∧ i < s) ss is) :
    0 ≤ rm ss is ∧ rm ss is < ss.prod := by
  induction h with
  | nil => simp [rm]
  | @cons s i ss is h1 _ ih =>
    simp only [rm, List.prod_cons]
    constructor
    · have : 0 ≤ i * ss.prod := mul_nonneg h1.1 (by omega)
      omega
    · have : (i + 1) * ss.prod ≤ s * ss.prod := mul_le_mul_of_nonneg_right (by omega) (by omega)
      rw [add_mul] at this
      omega

theorem digits_rm (ss is : List Int) (h : List.Forall₂ (fun s i => 0 ≤ i ∧ i < s) ss is) (m : Int) :
    digits ss (rm ss is + m * ss.prod) = is := by
  induction h generalizing m with
  | nil => rfl
  | @cons s i ss is h1 h2 ih =>
    obtain ⟨hr0, hr1⟩ := rm_range ss is h2
    have hP : 0 < ss.prod := by omega
    simp only [digits, rm, List.prod_cons]
    have e : i * ss.prod + rm ss is + m * (s * ss.prod) = rm ss is + (i + m * s) * ss.prod := by ring
    rw [e, ih]
    congr 1
    rw [Int.add_mul_ediv_right _ _ (by omega), Int.ediv_eq_zero_of_lt hr0 hr1, zero_add,
      Int.add_mul_emod_self_right]
    exact Int.emod_eq_of_lt h1.1 h1.2

theorem digits_range (ss : List Int) (hpos : ∀ s ∈ ss, 0 < s) (x : Int) :
    List.Forall₂ (fun s i => 0 ≤ i ∧ i < s) ss (digits ss x) := by
  induction ss with
  | nil => exact .nil
  | cons s ss ih =>
    have hs := hpos s (by simp)
    exact .cons ⟨Int.emod_nonneg _ (by omega), Int.emod_lt_of_pos _ hs⟩
      (ih (fun t ht => hpos t (by simp [ht])))

theorem totalSamples_eq (ss : List Int) (hne : ss ≠ []) (hpos : ∀ s ∈ ss, 0 < s) :
    totalSamples ss = .ok ss.prod := by
  unfold totalSamples
  have h0 : decide (0 < ss.length) = true := by
    simpa using List.length_pos_iff.mpr hne
  rw [h0]
  simp only [require_true, ok_bind]
  rw [loop_spec (n := ss.length) (fun _ => ()) rfl]
  · simp only [ok_bind]
    rw [loop_spec (n := ss.length) (fun k => (ss.take k).prod) (by simp)]
    · rw [List.take_length]
    · intro i hi
      rw [rd_of_lt hi, List.take_add_one, List.getElem?_eq_getElem hi]
      simp only [ok_bind, Option.toList_some, List.prod_append, List.prod_cons, List.prod_nil, mul_one]
      rfl
  · intro i hi
    rw [rd_of_lt hi]
    have : decide (ss[i] > 0) = true := by simpa using hpos _ (List.getElem_mem hi)
    simp only [ok_bind, this, require_true]

end Verif.Sampling
