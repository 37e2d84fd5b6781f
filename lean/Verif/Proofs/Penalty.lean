import Verif.Spec.Penalty
import Verif.Proofs.InterfaceForm
import Mathlib.Tactic.Ring
import Mathlib.Tactic.FieldSimp
import Mathlib.Data.Fintype.BigOperators
import Mathlib.Algebra.BigOperators.Field

/-!
# Proofs about the interior-penalty and normal-flux integrators
-/

namespace Verif.Penalty

open Verif Verif.LinAlg Verif.Spec.Penalty Finset

variable {R : Type} [Field R] [DecidableEq R]

/-! ## Adding to a matrix -/

/-- `m'` is `m` plus `t`. -/
def Added (m m' : Blk R) (t : Nat → Nat → R) : Prop :=
  m'.h = m.h ∧ m'.w = m.w ∧ m'.val = m.val + t

omit [DecidableEq R] in
theorem Added.zero (m : Blk R) : Added m m 0 := ⟨rfl, rfl, by simp⟩

omit [DecidableEq R] in
theorem Added.congr {m m' : Blk R} {t t' : Nat → Nat → R} (h : Added m m' t) (e : t = t') : Added m m' t' := e ▸ h

omit [DecidableEq R] in
theorem Added.trans {m m' m'' : Blk R} {t t' : Nat → Nat → R} (h : Added m m' t) (h' : Added m' m'' t') :
    Added m m'' (t + t') :=
  ⟨h'.1.trans h.1, h'.2.1.trans h.2.1, by rw [h'.2.2, h.2.2, add_assoc]⟩

omit [DecidableEq R] in
theorem addAt_ok {m : Blk R} {i j : Nat} (x : R) (hi : i < m.h) (hj : j < m.w) :
    ∃ m', addAt m i j x = .ok m' ∧ Added m m' (fun a b => if a = i ∧ b = j then x else 0) := by
  refine ⟨{ m with val := fun a b => if a = i ∧ b = j then m.val i j + x else m.val a b }, ?_, rfl, rfl, ?_⟩
  · rw [addAt, get, if_pos ⟨hi, hj⟩, ok_bind, set, if_pos ⟨hi, hj⟩]
  funext a b
  simp only [Pi.add_apply]
  by_cases h : a = i ∧ b = j
  · obtain ⟨rfl, rfl⟩ := h; simp
  · simp [h]

omit [DecidableEq R] in
theorem loop_added {n : Nat} {body : Nat → Blk R → Outcome (Blk R)} {m : Blk R} (t : Nat → Nat → Nat → R)
    (hs : ∀ k m', k < n → m'.h = m.h → m'.w = m.w → ∃ m'', body k m' = .ok m'' ∧ Added m' m'' (t k)) :
    ∃ m', loop n body m = .ok m' ∧ Added m m' (∑ k ∈ range n, t k) := by
  obtain ⟨m', e, ⟨h1, h2⟩, h3⟩ := loop_acc (n := n) (body := body) (fun m' => m'.h = m.h ∧ m'.w = m.w)
    (fun m => m.val) t (s := m) ⟨rfl, rfl⟩ (by
      rintro k m' hk ⟨a, b⟩
      obtain ⟨m'', e, c1, c2, c3⟩ := hs k m' hk a b
      exact ⟨m'', e, ⟨c1.trans a, c2.trans b⟩, c3⟩)
  exact ⟨m', e, h1, h2, h3⟩

/-! ## Sums that pick one entry -/

omit [DecidableEq R] in
theorem sel1 (n c a : Nat) (f : Nat → R) :
    (∑ k ∈ range n, if a = c + k then f k else 0) = if c ≤ a ∧ a < c + n then f (a - c) else 0 := by
  by_cases h : c ≤ a ∧ a < c + n
  · rw [if_pos h, sum_eq_single (a - c)]
    · rw [if_pos (by omega)]
    · intro k _ hk; rw [if_neg (by omega)]
    · intro hk; simp at hk; omega
  · rw [if_neg h]
    refine sum_eq_zero fun k hk => if_neg ?_
    simp at hk; omega

theorem unflat {n d k : Nat} (hk : k < n) : (d * n + k) / n = d ∧ (d * n + k) % n = k := by
  constructor
  · rw [Nat.mul_comm, Nat.mul_add_div (by omega), Nat.div_eq_of_lt hk, Nat.add_zero]
  · rw [Nat.mul_comm, Nat.mul_add_mod, Nat.mod_eq_of_lt hk]

theorem flat_lt {n dim d k : Nat} (hd : d < dim) (hk : k < n) : d * n + k < dim * n := by
  have : (d + 1) * n ≤ dim * n := Nat.mul_le_mul_right _ hd
  rw [Nat.add_mul] at this; omega

theorem flat_of_lt {n dim a : Nat} (h : a < dim * n) : a / n < dim ∧ a % n < n ∧ a / n * n + a % n = a := by
  have hn : 0 < n := by rcases Nat.eq_zero_or_pos n with rfl | h'; · simp at h
                        exact h'
  exact ⟨Nat.div_lt_of_lt_mul (by rwa [Nat.mul_comm]), Nat.mod_lt _ hn, Nat.div_add_mod' a n⟩

omit [DecidableEq R] in
theorem sel2 (dim n c b : Nat) (g : Nat → Nat → R) :
    (∑ d ∈ range dim, ∑ j ∈ range n, if b = c + d * n + j then g d j else 0) =
      if c ≤ b ∧ b < c + dim * n then g ((b - c) / n) ((b - c) % n) else 0 := by
  by_cases h : c ≤ b ∧ b < c + dim * n
  · rw [if_pos h]
    obtain ⟨h1, h2, h3⟩ := flat_of_lt (a := b - c) (n := n) (dim := dim) (by omega)
    rw [sum_eq_single ((b - c) / n), sum_eq_single ((b - c) % n)]
    · rw [if_pos (by omega)]
    · intro j hj hne
      rw [if_neg]; intro hb
      exact hne (by omega)
    · intro hk; exact absurd (mem_range.2 h2) hk
    · intro d hd hne
      refine sum_eq_zero fun j hj => if_neg fun hb => hne ?_
      have := (unflat (d := d) (mem_range.1 hj)).1
      rw [← this]; congr 1; omega
    · intro hk; exact absurd (mem_range.2 h1) hk
  · rw [if_neg h]
    refine sum_eq_zero fun d hd => sum_eq_zero fun j hj => if_neg fun hb => h ?_
    have := flat_lt (mem_range.1 hd) (mem_range.1 hj)
    omega

/-! ## The accumulation loops -/

omit [DecidableEq R] in
theorem addAll_ok {nr nc : Nat} (f : Nat → Nat → R) {m : Blk R} (hr : nr ≤ m.h) (hc : nc ≤ m.w) :
    ∃ m', addAll nr nc f m = .ok m' ∧ Added m m' (fun a b => if a < nr ∧ b < nc then f a b else 0) := by
  obtain ⟨m', e, h⟩ := loop_added (n := nr) (m := m)
    (body := fun i m => loop nc (fun j m => addAt m i j (f i j)) m)
    (fun i => ∑ j ∈ range nc, fun a b => if a = i ∧ b = j then f i j else 0) (by
      intro i m' hi h1 h2
      exact loop_added (m := m') (n := nc) (body := fun j m => addAt m i j (f i j))
        (fun j a b => if a = i ∧ b = j then f i j else 0)
        (fun j m'' hj h3 h4 => addAt_ok _ (by omega) (by omega)))
  refine ⟨m', e, h.congr ?_⟩
  funext a b
  simp only [Finset.sum_apply]
  have : ∀ i, (∑ j ∈ range nc, if a = i ∧ b = j then f i j else 0) =
      if a = 0 + i then (if b < nc then f i b else 0) else 0 := by
    intro i
    by_cases h : a = i
    · simp [h]
    · simp [h]
  simp only [this]
  rw [sel1]
  by_cases h1 : a < nr <;> by_cases h2 : b < nc <;> simp [h1, h2]

omit [DecidableEq R] in
theorem addTri_ok {n : Nat} (f : Nat → Nat → R) {m : Blk R} (hr : n ≤ m.h) (hc : n ≤ m.w) :
    ∃ m', addTri n f m = .ok m' ∧ Added m m' (fun a b => if a < n ∧ b ≤ a then f a b else 0) := by
  obtain ⟨m', e, h⟩ := loop_added (n := n) (m := m)
    (body := fun i m => loop (i + 1) (fun j m => addAt m i j (f i j)) m)
    (fun i => ∑ j ∈ range (i + 1), fun a b => if a = i ∧ b = j then f i j else 0) (by
      intro i m' hi h1 h2
      exact loop_added (m := m') (n := i + 1) (body := fun j m => addAt m i j (f i j))
        (fun j a b => if a = i ∧ b = j then f i j else 0)
        (fun j m'' hj h3 h4 => addAt_ok _ (by omega) (by omega)))
  refine ⟨m', e, h.congr ?_⟩
  funext a b
  simp only [Finset.sum_apply]
  have : ∀ i, (∑ j ∈ range (i + 1), if a = i ∧ b = j then f i j else 0) =
      if a = 0 + i then (if b ≤ i then f i b else 0) else 0 := by
    intro i
    by_cases h : a = i
    · simp [h]
    · simp [h]
  simp only [this]
  rw [sel1]
  by_cases h1 : a < n <;> by_cases h2 : b ≤ a <;> simp [h1, h2]

omit [DecidableEq R] in
theorem addDiag_ok {dim nr nc ro co : Nat} (f : Nat → Nat → R) {m : Blk R}
    (hr : ro + dim * nr ≤ m.h) (hc : co + dim * nc ≤ m.w) :
    ∃ m', addDiag dim nr nc ro co f m = .ok m' ∧ Added m m' (fun a b =>
      if co ≤ b ∧ b < co + dim * nc then
        if ro + (b - co) / nc * nr ≤ a ∧ a < ro + (b - co) / nc * nr + nr then
          f (a - (ro + (b - co) / nc * nr)) ((b - co) % nc) else 0
      else 0) := by
  obtain ⟨m', e, h⟩ := loop_added (n := dim) (m := m)
    (body := fun d m => loop nc (fun jd m => loop nr (fun id m =>
      addAt m (ro + d * nr + id) (co + d * nc + jd) (f id jd)) m) m)
    (fun d => ∑ jd ∈ range nc, ∑ id ∈ range nr, fun a b =>
      if a = ro + d * nr + id ∧ b = co + d * nc + jd then f id jd else 0) (by
      intro d m1 hd h1 h2
      refine loop_added (m := m1) (n := nc) _ ?_
      intro jd m2 hj h3 h4
      refine loop_added (m := m2) (n := nr) _ ?_
      intro id m3 hi h5 h6
      have := flat_lt hd hi
      have := flat_lt hd hj
      exact addAt_ok _ (by omega) (by omega))
  refine ⟨m', e, h.congr ?_⟩
  funext a b
  simp only [Finset.sum_apply]
  have : ∀ d jd, (∑ id ∈ range nr, if a = ro + d * nr + id ∧ b = co + d * nc + jd then f id jd else 0) =
      if b = co + d * nc + jd then
        (if ro + d * nr ≤ a ∧ a < ro + d * nr + nr then f (a - (ro + d * nr)) jd else 0) else 0 := by
    intro d jd
    by_cases h : b = co + d * nc + jd
    · simp only [h, and_true, if_true]; exact sel1 nr (ro + d * nr) a (fun id => f id jd)
    · simp [h]
  simp only [this]
  rw [sel2]

omit [DecidableEq R] in
theorem addFrom_ok {nr io i0 j : Nat} (f : Nat → R) {m : Blk R} (h0 : io ≤ i0) (hr : io + nr ≤ m.h)
    (hj : j < m.w) :
    ∃ m', addFrom nr io i0 j f m = .ok m' ∧ Added m m' (fun a b =>
      if b = j then (if i0 ≤ a ∧ a < io + nr then f (a - io) else 0) else 0) := by
  obtain ⟨m', e, h⟩ := loop_added (n := nr - (i0 - io)) (m := m)
    (body := fun k m => addAt m (i0 + k) j (f (i0 + k - io)))
    (fun k a b => if a = i0 + k ∧ b = j then f (i0 + k - io) else 0) (by
      intro k m1 hk h1 h2
      exact addAt_ok _ (by omega) (by omega))
  refine ⟨m', by rw [addFrom, if_neg (by omega)]; exact e, h.congr ?_⟩
  funext a b
  simp only [Finset.sum_apply]
  by_cases hb : b = j
  · simp only [hb, and_true, if_true]
    rw [sel1 (nr - (i0 - io)) i0 a (fun k => f (i0 + k - io))]
    by_cases hc : i0 ≤ a ∧ a < io + nr
    · rw [if_pos (by omega), if_pos hc]; congr 1; omega
    · rw [if_neg (by omega), if_neg hc]
  · simp [hb]

theorem addPen_ok {dim nr nc ro co : Nat} (jc : R) (rs cs : Nat → R) {m : Blk R}
    (hst : jc ≠ 0 → ∀ d jd, d < dim → jd < nc → d * nr + ro ≤ d * nc + jd + co → d * nr ≤ d * nc + jd)
    (hr : jc ≠ 0 → dim * nr ≤ m.h) (hc : jc ≠ 0 → dim * nc ≤ m.w) :
    ∃ m', addPen dim nr nc ro co jc rs cs m = .ok m' ∧ Added m m' (fun a b =>
      if b < dim * nc then
        if (if b / nc * nr + ro > b + co then b / nc * nr else b) ≤ a ∧ a < b / nc * nr + nr then
          rs (a - b / nc * nr) * (jc * cs (b % nc)) else 0
      else 0) := by
  by_cases h0 : jc = 0
  · subst h0
    refine ⟨m, by simp [addPen], (Added.zero m).congr ?_⟩
    funext a b; simp
  · obtain ⟨m', e, h⟩ := loop_added (n := dim) (m := m)
      (body := fun d m => loop nc (fun jd m =>
        addFrom nr (d * nr) (if d * nr + ro > d * nc + jd + co then d * nr else d * nc + jd) (d * nc + jd)
          (fun id => rs id * (jc * cs jd)) m) m)
      (fun d => ∑ jd ∈ range nc, fun a b => if b = d * nc + jd then
        (if (if d * nr + ro > d * nc + jd + co then d * nr else d * nc + jd) ≤ a ∧ a < d * nr + nr then
          rs (a - d * nr) * (jc * cs jd) else 0) else 0) (by
        intro d m1 hd h1 h2
        refine loop_added (m := m1) (n := nc) _ ?_
        intro jd m2 hj h3 h4
        have e1 : d * nr + nr ≤ dim * nr := by
          have := Nat.mul_le_mul_right nr (show d + 1 ≤ dim by omega)
          rwa [Nat.add_mul, Nat.one_mul] at this
        have e2 := flat_lt hd hj
        have := hr h0
        have := hc h0
        refine addFrom_ok (fun id => rs id * (jc * cs jd)) ?_ (by omega) (by omega)
        split
        · exact Nat.le_refl _
        · exact hst h0 d jd hd hj (by omega))
    refine ⟨m', by rw [addPen, if_neg h0]; exact e, h.congr ?_⟩
    funext a b
    simp only [Finset.sum_apply]
    have := sel2 dim nc 0 b (fun d jd =>
      if (if d * nr + ro > d * nc + jd + co then d * nr else d * nc + jd) ≤ a ∧ a < d * nr + nr then
          rs (a - d * nr) * (jc * cs jd) else 0)
    simp only [Nat.zero_add, Nat.zero_le, true_and, Nat.sub_zero] at this
    rw [this]
    by_cases hb : b < dim * nc
    · rw [if_pos hb, if_pos hb, (flat_of_lt hb).2.2]
    · rw [if_neg hb, if_neg hb]

theorem addPenFace_ok {dim nr nc ro co : Nat} (jc : R) (rs cs : Nat → R) {m : Blk R}
    (hr : jc ≠ 0 → ro + dim * nr ≤ m.h) (hc : jc ≠ 0 → co + dim * nc ≤ m.w) :
    ∃ m', addPenFace dim nr nc ro co jc rs cs m = .ok m' ∧ Added m m' (fun a b =>
      if co ≤ b ∧ b < co + dim * nc then
        if max (ro + (b - co) / nc * nr) b ≤ a ∧ a < ro + (b - co) / nc * nr + nr then
          rs (a - (ro + (b - co) / nc * nr)) * (jc * cs ((b - co) % nc)) else 0
      else 0) := by
  by_cases h0 : jc = 0
  · subst h0
    refine ⟨m, by simp [addPenFace], (Added.zero m).congr ?_⟩
    funext a b; simp
  · obtain ⟨m', e, h⟩ := loop_added (n := dim) (m := m)
      (body := fun d m => loop nc (fun jd m =>
        addFrom nr (ro + d * nr) (max (ro + d * nr) (co + d * nc + jd)) (co + d * nc + jd)
          (fun id => rs id * (jc * cs jd)) m) m)
      (fun d => ∑ jd ∈ range nc, fun a b => if b = co + d * nc + jd then
        (if max (ro + d * nr) (co + d * nc + jd) ≤ a ∧ a < ro + d * nr + nr then
          rs (a - (ro + d * nr)) * (jc * cs jd) else 0) else 0) (by
        intro d m1 hd h1 h2
        refine loop_added (m := m1) (n := nc) _ ?_
        intro jd m2 hj h3 h4
        have e1 : d * nr + nr ≤ dim * nr := by
          have := Nat.mul_le_mul_right nr (show d + 1 ≤ dim by omega)
          rwa [Nat.add_mul, Nat.one_mul] at this
        have e2 := flat_lt hd hj
        have := hr h0
        have := hc h0
        exact addFrom_ok (fun id => rs id * (jc * cs jd)) (Nat.le_max_left _ _) (by omega) (by omega))
    refine ⟨m', by rw [addPenFace, if_neg h0]; exact e, h.congr ?_⟩
    funext a b
    simp only [Finset.sum_apply]
    rw [sel2 dim nc co b (fun d jd =>
      if max (ro + d * nr) (co + d * nc + jd) ≤ a ∧ a < ro + d * nr + nr then
          rs (a - (ro + d * nr)) * (jc * cs jd) else 0)]
    by_cases hb : co ≤ b ∧ b < co + dim * nc
    · rw [if_pos hb, if_pos hb]
      have := (flat_of_lt (a := b - co) (n := nc) (dim := dim) (by omega)).2.2
      rw [show co + (b - co) / nc * nc + (b - co) % nc = b by omega]
    · rw [if_neg hb, if_neg hb]

omit [DecidableEq R] in
theorem addEl_ok {dim nr nc : Nat} (rs : Nat → R) (cf : Flux R) {m : Blk R}
    (hr : dim * nr ≤ m.h) (hc : dim * nc ≤ m.w) :
    ∃ m', addEl dim nr nc rs cf m = .ok m' ∧ Added m m' (fun a b =>
      if b < dim * nc then
        if a < dim * nr then rs (a % nr) * traction cf (b / nc) (b % nc) (a / nr) else 0
      else 0) := by
  obtain ⟨m', e, h⟩ := loop_added (n := dim) (m := m)
    (body := fun jm m => loop nc (fun jd m => loop dim (fun im m => loop nr (fun id m =>
      addAt m (im * nr + id) (jm * nc + jd) (rs id * traction cf jm jd im)) m) m) m)
    (fun jm => ∑ jd ∈ range nc, ∑ im ∈ range dim, ∑ id ∈ range nr, fun a b =>
      if a = im * nr + id ∧ b = jm * nc + jd then rs id * traction cf jm jd im else 0) (by
      intro jm m1 hjm h1 h2
      refine loop_added (m := m1) (n := nc) _ ?_
      intro jd m2 hj h3 h4
      refine loop_added (m := m2) (n := dim) _ ?_
      intro im m3 him h5 h6
      refine loop_added (m := m3) (n := nr) _ ?_
      intro id m4 hi h7 h8
      have := flat_lt him hi
      have := flat_lt hjm hj
      exact addAt_ok _ (by omega) (by omega))
  refine ⟨m', e, h.congr ?_⟩
  funext a b
  simp only [Finset.sum_apply]
  have : ∀ jm jd, (∑ im ∈ range dim, ∑ id ∈ range nr,
      if a = im * nr + id ∧ b = jm * nc + jd then rs id * traction cf jm jd im else 0) =
      if b = 0 + jm * nc + jd then
        (if a < dim * nr then rs (a % nr) * traction cf jm jd (a / nr) else 0) else 0 := by
    intro jm jd
    by_cases h : b = jm * nc + jd
    · simp only [h, and_true, if_true, Nat.zero_add]
      have := sel2 dim nr 0 a (fun im id => rs id * traction cf jm jd im)
      simpa only [Nat.zero_add, Nat.zero_le, true_and, Nat.sub_zero] using this
    · simp [h]
  simp only [this]
  rw [sel2]
  simp

omit [DecidableEq R] in
theorem addMixed_ok {dim nte ntr ro co : Nat} (f : Nat → Nat → Nat → R) {m : Blk R}
    (hr : ro + nte ≤ m.h) (hc : co + dim * ntr ≤ m.w) :
    ∃ m', addMixed dim nte ntr ro co f m = .ok m' ∧ Added m m' (fun a b =>
      if co ≤ b ∧ b < co + dim * ntr then
        if ro ≤ a ∧ a < ro + nte then f ((b - co) / ntr) (a - ro) ((b - co) % ntr) else 0
      else 0) := by
  obtain ⟨m', e, h⟩ := loop_added (n := dim) (m := m)
    (body := fun jm m => loop ntr (fun jd m => loop nte (fun id m =>
      addAt m (ro + id) (co + jm * ntr + jd) (f jm id jd)) m) m)
    (fun jm => ∑ jd ∈ range ntr, ∑ id ∈ range nte, fun a b =>
      if a = ro + id ∧ b = co + jm * ntr + jd then f jm id jd else 0) (by
      intro jm m1 hjm h1 h2
      refine loop_added (m := m1) (n := ntr) _ ?_
      intro jd m2 hj h3 h4
      refine loop_added (m := m2) (n := nte) _ ?_
      intro id m3 hi h5 h6
      have := flat_lt hjm hj
      exact addAt_ok _ (by omega) (by omega))
  refine ⟨m', e, h.congr ?_⟩
  funext a b
  simp only [Finset.sum_apply]
  have : ∀ jm jd, (∑ id ∈ range nte, if a = ro + id ∧ b = co + jm * ntr + jd then f jm id jd else 0) =
      if b = co + jm * ntr + jd then
        (if ro ≤ a ∧ a < ro + nte then f jm (a - ro) jd else 0) else 0 := by
    intro jm jd
    by_cases h : b = co + jm * ntr + jd
    · simp only [h, and_true, if_true]; exact sel1 nte ro a (fun id => f jm id jd)
    · simp [h]
  simp only [this]
  rw [sel2]

/-! ## The final transformation -/

/-- The penalty entry a final loop reads. -/
def pen (withJ : Bool) (jm : Blk R) (a b : Nat) : R := if withJ then jm.val (max a b) (min a b) else 0

omit [Field R] [DecidableEq R] in
theorem set_ok {m : Blk R} {i j : Nat} (x : R) (hi : i < m.h) (hj : j < m.w) :
    set m i j x = .ok { m with val := fun a b => if a = i ∧ b = j then x else m.val a b } := by
  rw [set, if_pos ⟨hi, hj⟩]

omit [Field R] [DecidableEq R] in
theorem get_ok {m : Blk R} {i j : Nat} (hi : i < m.h) (hj : j < m.w) : get m i j = .ok (m.val i j) := by
  rw [get, if_pos ⟨hi, hj⟩]

omit [DecidableEq R] in
theorem getJ_ok {withJ : Bool} {jm : Blk R} {n i j : Nat} (hj : withJ = true → jm.h = n ∧ jm.w = n)
    (hi : i < n) (hji : j ≤ i) : getJ withJ jm i j = .ok (pen withJ jm i j) := by
  cases withJ with
  | false => simp [pen, getJ]
  | true =>
    obtain ⟨a, b⟩ := hj rfl
    simp only [if_true, pen, getJ]
    rw [get_ok (by omega) (by omega), Nat.max_eq_left hji, Nat.min_eq_right hji]

omit [DecidableEq R] in
theorem pen_comm (withJ : Bool) (jm : Blk R) (a b : Nat) : pen withJ jm a b = pen withJ jm b a := by
  simp [pen, Nat.max_comm, Nat.min_comm]

omit [DecidableEq R] in
theorem finishSquare_ok {withJ : Bool} {sigma : R} {n : Nat} {jm e : Blk R} (he : e.h = n) (hw : e.w = n)
    (hj : withJ = true → jm.h = n ∧ jm.w = n) :
    ∃ e', finishSquare withJ sigma n jm e = .ok e' ∧ e'.h = n ∧ e'.w = n ∧
      ∀ a b, a < n → b < n → e'.val a b = sigma * e.val b a - e.val a b + pen withJ jm a b := by
  obtain ⟨e', h1, h2, h3, h4⟩ := loop_total (n := n)
    (body := fun i e => do
      let e ← loop i (fun j e => pairUp withJ sigma i j jm e) e
      diagUp withJ sigma i jm e)
    (fun i e' => e'.h = n ∧ e'.w = n ∧ ∀ a b, a < n → b < n → e'.val a b =
      if a < i ∧ b < i then sigma * e.val b a - e.val a b + pen withJ jm a b else e.val a b)
    (s := e) ⟨he, hw, by simp⟩ (by
      rintro i u hi ⟨g1, g2, g3⟩
      obtain ⟨v, k1, k2, k3, k4⟩ := loop_total (n := i) (body := fun j e => pairUp withJ sigma i j jm e)
        (fun j e' => e'.h = n ∧ e'.w = n ∧ ∀ a b, a < n → b < n → e'.val a b =
          if (a < i ∧ b < i) ∨ (a = i ∧ b < j) ∨ (b = i ∧ a < j) then
            sigma * e.val b a - e.val a b + pen withJ jm a b else e.val a b)
        (s := u) ⟨g1, g2, fun a b ha hb => by
          rw [g3 a b ha hb]; simp⟩ (by
          rintro j x hji ⟨p1, p2, p3⟩
          refine ⟨{ x with val := fun a b => if a = j ∧ b = i then
              sigma * e.val i j - e.val j i + pen withJ jm i j else
              if a = i ∧ b = j then sigma * e.val j i - e.val i j + pen withJ jm i j else x.val a b }, ?_, p1, p2, ?_⟩
          · rw [pairUp, get_ok (by omega) (by omega), ok_bind, get_ok (by omega) (by omega), ok_bind,
              getJ_ok hj hi (by omega), ok_bind, set_ok _ (by omega) (by omega), ok_bind,
              set_ok _ (by simp only; omega) (by simp only; omega)]
            rw [p3 i j hi (by omega), p3 j i (by omega) hi, if_neg (by omega), if_neg (by omega)]
          · intro a b ha hb
            simp only
            by_cases c1 : a = j ∧ b = i
            · rw [if_pos c1, if_pos (by omega)]
              obtain ⟨rfl, rfl⟩ := c1
              rw [pen_comm withJ jm a b]
            · rw [if_neg c1]
              by_cases c2 : a = i ∧ b = j
              · rw [if_pos c2, if_pos (by omega)]
                obtain ⟨rfl, rfl⟩ := c2
                rfl
              · rw [if_neg c2, p3 a b ha hb]
                by_cases c3 : (a < i ∧ b < i) ∨ (a = i ∧ b < j) ∨ (b = i ∧ a < j)
                · rw [if_pos c3, if_pos (by omega)]
                · rw [if_neg c3, if_neg (by omega)])
      refine ⟨{ v with val := fun a b => if a = i ∧ b = i then
          (sigma - 1) * e.val i i + pen withJ jm i i else v.val a b }, ?_, k2, k3, ?_⟩
      · rw [k1, ok_bind, diagUp, get_ok (by omega) (by omega), ok_bind, getJ_ok hj hi (Nat.le_refl _), ok_bind,
          set_ok _ (by omega) (by omega), k4 i i hi hi, if_neg (by omega)]
      · intro a b ha hb
        simp only
        by_cases c1 : a = i ∧ b = i
        · obtain ⟨rfl, rfl⟩ := c1
          rw [if_pos ⟨rfl, rfl⟩, if_pos (by omega)]
          ring
        · rw [if_neg c1, k4 a b ha hb]
          by_cases c3 : (a < i ∧ b < i) ∨ (a = i ∧ b < i) ∨ (b = i ∧ a < i)
          · rw [if_pos c3, if_pos (by omega)]
          · rw [if_neg c3, if_neg (by omega)])
  exact ⟨e', h1, h2, h3, fun a b ha hb => by rw [h4 a b ha hb, if_pos ⟨ha, hb⟩]⟩

/-- The entry of the lower-left penalty block. -/
def pen10 (withJ : Bool) (jm : Blk R) (a b : Nat) : R := if withJ then jm.val a b else 0

omit [DecidableEq R] in
theorem cross_ok {withJ : Bool} {sigma : R} {h1 h2 : Nat} {jm e10 e01 : Blk R} (he : e10.h = h2) (hw : e10.w = h1)
    (he' : e01.h = h1) (hw' : e01.w = h2) (hj : withJ = true → jm.h = h2 ∧ jm.w = h1) :
    ∃ x, loop h2 (fun i x => loop h1 (fun j x => crossUp withJ sigma i j jm x) x) (e10, e01) = .ok x ∧
      (x.1.h = h2 ∧ x.1.w = h1) ∧ (x.2.h = h1 ∧ x.2.w = h2) ∧
      ∀ a b, a < h2 → b < h1 →
        x.1.val a b = sigma * e01.val b a - e10.val a b + pen10 withJ jm a b ∧
        x.2.val b a = sigma * e10.val a b - e01.val b a + pen10 withJ jm a b := by
  obtain ⟨x, g1, g2, g3, g4⟩ := loop_total (n := h2)
    (body := fun i x => loop h1 (fun j x => crossUp withJ sigma i j jm x) x)
    (fun i x => (x.1.h = h2 ∧ x.1.w = h1) ∧ (x.2.h = h1 ∧ x.2.w = h2) ∧
      ∀ a b, a < h2 → b < h1 →
        x.1.val a b = (if a < i then sigma * e01.val b a - e10.val a b + pen10 withJ jm a b else e10.val a b) ∧
        x.2.val b a = (if a < i then sigma * e10.val a b - e01.val b a + pen10 withJ jm a b else e01.val b a))
    (s := (e10, e01)) ⟨⟨he, hw⟩, ⟨he', hw'⟩, by simp⟩ (by
      rintro i u hi ⟨g1, g2, g3⟩
      obtain ⟨v, k1, k2, k3, k4⟩ := loop_total (n := h1) (body := fun j x => crossUp withJ sigma i j jm x)
        (fun j x => (x.1.h = h2 ∧ x.1.w = h1) ∧ (x.2.h = h1 ∧ x.2.w = h2) ∧
          ∀ a b, a < h2 → b < h1 →
            x.1.val a b = (if a < i ∨ (a = i ∧ b < j) then
              sigma * e01.val b a - e10.val a b + pen10 withJ jm a b else e10.val a b) ∧
            x.2.val b a = (if a < i ∨ (a = i ∧ b < j) then
              sigma * e10.val a b - e01.val b a + pen10 withJ jm a b else e01.val b a))
        (s := u) ⟨g1, g2, fun a b ha hb => by simpa using g3 a b ha hb⟩ (by
          rintro j x hji ⟨p1, p2, p3⟩
          have hq : getJ withJ jm i j = .ok (pen10 withJ jm i j) := by
            cases withJ with
            | false => simp [pen10, getJ]
            | true =>
              obtain ⟨a, b⟩ := hj rfl
              simp only [if_true, pen10, getJ]
              rw [get_ok (by omega) (by omega)]
          refine ⟨(Blk.mk x.1.h x.1.w (fun a b => if a = i ∧ b = j then
              (sigma * e01.val j i - e10.val i j + pen10 withJ jm i j) else x.1.val a b),
            Blk.mk x.2.h x.2.w (fun a b => if a = j ∧ b = i then
              (sigma * e10.val i j - e01.val j i + pen10 withJ jm i j) else x.2.val a b)), ?_, p1, p2, ?_⟩
          · rw [crossUp, get_ok (by omega) (by omega), ok_bind, get_ok (by omega) (by omega), ok_bind,
              hq, ok_bind, set_ok _ (by omega) (by omega), ok_bind,
              set_ok _ (by omega) (by omega), ok_bind]
            rw [(p3 i j hi (by omega)).1, (p3 i j hi (by omega)).2, if_neg (by omega), if_neg (by omega)]
          · intro a b ha hb
            obtain ⟨q1, q2⟩ := p3 a b ha hb
            simp only
            by_cases c1 : a = i ∧ b = j
            · obtain ⟨rfl, rfl⟩ := c1
              simp
            · rw [if_neg c1, if_neg (show ¬ (b = j ∧ a = i) by omega), q1, q2]
              by_cases c3 : a < i ∨ (a = i ∧ b < j)
              · rw [if_pos c3, if_pos c3, if_pos (by omega), if_pos (by omega)]; exact ⟨rfl, rfl⟩
              · rw [if_neg c3, if_neg c3, if_neg (by omega), if_neg (by omega)]; exact ⟨rfl, rfl⟩)
      refine ⟨v, k1, k2, k3, fun a b ha hb => ?_⟩
      obtain ⟨q1, q2⟩ := k4 a b ha hb
      rw [q1, q2]
      by_cases c3 : a < i ∨ (a = i ∧ b < h1)
      · rw [if_pos c3, if_pos c3, if_pos (by omega), if_pos (by omega)]; exact ⟨rfl, rfl⟩
      · rw [if_neg c3, if_neg c3, if_neg (by omega), if_neg (by omega)]; exact ⟨rfl, rfl⟩)
  exact ⟨x, g1, g2, g3, fun a b ha hb => by simpa [ha] using g4 a b ha hb⟩

/-! ## Points -/

/-- `x'` is `x` plus what one point (or several) adds to the blocks. -/
def WAdded (x x' : Work R) (tE tJ : Bool → Bool → Nat → Nat → R) : Prop :=
  ∀ I J, Added (blk x.e I J) (blk x'.e I J) (tE I J) ∧ Added (blk x.j I J) (blk x'.j I J) (tJ I J)

/-- The sizes during assembly. -/
def WSized (kappa : R) (h : Bool → Nat) (x : Work R) : Prop :=
  Sized x.e h h ∧ (kappa ≠ 0 → ∀ I J, (I, J) ≠ (false, true) → (blk x.j I J).h = h I ∧ (blk x.j I J).w = h J)

omit [DecidableEq R] in
theorem WAdded.sized {kappa : R} {h : Bool → Nat} {x x' : Work R} {tE tJ : Bool → Bool → Nat → Nat → R}
    (a : WAdded x x' tE tJ) (s : WSized kappa h x) : WSized kappa h x' :=
  ⟨fun I J => ⟨(a I J).1.1.trans (s.1 I J).1, (a I J).1.2.1.trans (s.1 I J).2⟩,
    fun hk I J hne => ⟨(a I J).2.1.trans (s.2 hk I J hne).1, (a I J).2.2.1.trans (s.2 hk I J hne).2⟩⟩

theorem sum_getElem {α V : Type} [AddCommMonoid V] (l : List α) (t : α → V) :
    (∑ k ∈ range l.length, (l[k]?).elim 0 t) = (l.map t).sum := by
  induction l with
  | nil => simp
  | cons a l ih => simp [sum_range_succ', ih, add_comm]

omit [DecidableEq R] in
theorem sum_fst {α : Type} (l : List α) (f g : α → Bool → Bool → Nat → Nat → R) (I J : Bool) (a b : Nat) :
    (l.map fun p => (f p, g p)).sum.1 I J a b = (l.map fun p => f p I J a b).sum := by
  induction l with
  | nil => rfl
  | cons p l ih => rw [List.map_cons, List.sum_cons, List.map_cons, List.sum_cons, ← ih]; rfl

omit [DecidableEq R] in
theorem sum_snd {α : Type} (l : List α) (f g : α → Bool → Bool → Nat → Nat → R) (I J : Bool) (a b : Nat) :
    (l.map fun p => (f p, g p)).sum.2 I J a b = (l.map fun p => g p I J a b).sum := by
  induction l with
  | nil => rfl
  | cons p l ih => rw [List.map_cons, List.sum_cons, List.map_cons, List.sum_cons, ← ih]; rfl

omit [DecidableEq R] in
theorem overPts_ok {kappa : R} {h : Bool → Nat} {pts : List (Pt R)} {body : Pt R → Work R → Outcome (Work R)}
    (tE tJ : Pt R → Bool → Bool → Nat → Nat → R)
    (hs : ∀ p ∈ pts, ∀ x, WSized kappa h x → ∃ x', body p x = .ok x' ∧ WAdded x x' (tE p) (tJ p))
    {x : Work R} (hx : WSized kappa h x) :
    ∃ x', overPts pts body x = .ok x' ∧ WSized kappa h x' ∧
      (∀ I J a b, (blk x'.e I J).val a b = (blk x.e I J).val a b + (pts.map fun p => tE p I J a b).sum) ∧
      (∀ I J a b, (blk x'.j I J).val a b = (blk x.j I J).val a b + (pts.map fun p => tJ p I J a b).sum) := by
  obtain ⟨x', e, h1, h2⟩ := loop_acc (n := pts.length)
    (body := fun k s => do let p ← rd pts k; body p s)
    (WSized kappa h) (fun x => ((fun I J => (blk x.e I J).val), (fun I J => (blk x.j I J).val)))
    (fun k => (pts[k]?).elim 0 (fun p => (tE p, tJ p))) (s := x) hx (by
      intro k x hk hx
      obtain ⟨x', e, a⟩ := hs pts[k] (List.getElem_mem hk) x hx
      refine ⟨x', ?_, a.sized hx, ?_⟩
      · rw [rd_eq_ok.2 (List.getElem?_eq_getElem hk), ok_bind, e]
      · rw [List.getElem?_eq_getElem hk]
        refine Prod.ext (funext fun I => funext fun J => (a I J).1.2.2) (funext fun I => funext fun J => (a I J).2.2.2))
  rw [sum_getElem] at h2
  refine ⟨x', e, h1, fun I J a b => ?_, fun I J a b => ?_⟩
  · have := congrFun (congrFun (congrFun (congrFun (congrArg Prod.fst h2) I) J) a) b
    simp only at this
    rw [this, ← sum_fst (g := tJ)]
    rfl
  · have := congrFun (congrFun (congrFun (congrFun (congrArg Prod.snd h2) I) J) a) b
    simp only at this
    rw [this, ← sum_snd (f := tE)]
    rfl

/-- What the finished blocks get from `jmats`. -/
def penAll (kappa : R) (j : Four R) : Bool → Bool → Nat → Nat → R
  | false, false, r, c => pen (decide (kappa ≠ 0)) j.a00 r c
  | true, true, r, c => pen (decide (kappa ≠ 0)) j.a11 r c
  | true, false, r, c => pen10 (decide (kappa ≠ 0)) j.a10 r c
  | false, true, r, c => pen10 (decide (kappa ≠ 0)) j.a10 c r

theorem finish_ok {kappa sigma : R} {h : Bool → Nat} {x : Work R} (hx : WSized kappa h x) :
    ∃ m, finish kappa sigma (h false) (h true) x = .ok m ∧ Sized m h h ∧
      ∀ I J r c, r < h I → c < h J → (blk m I J).val r c =
        sigma * (blk x.e J I).val c r - (blk x.e I J).val r c + penAll kappa x.j I J r c := by
  have hk : decide (kappa ≠ 0) = true → kappa ≠ 0 := fun h => of_decide_eq_true h
  obtain ⟨a00, e1, s1, s2, v1⟩ := finishSquare_ok (withJ := decide (kappa ≠ 0)) (sigma := sigma) (jm := x.j.a00)
    (hx.1 false false).1 (hx.1 false false).2 (fun h => hx.2 (hk h) false false (by simp))
  obtain ⟨a11, e2, s3, s4, v2⟩ := finishSquare_ok (withJ := decide (kappa ≠ 0)) (sigma := sigma) (jm := x.j.a11)
    (hx.1 true true).1 (hx.1 true true).2 (fun h => hx.2 (hk h) true true (by simp))
  obtain ⟨y, e3, s5, s6, v3⟩ := cross_ok (withJ := decide (kappa ≠ 0)) (sigma := sigma) (jm := x.j.a10)
    (hx.1 true false).1 (hx.1 true false).2 (hx.1 false true).1 (hx.1 false true).2
    (fun h => hx.2 (hk h) true false (by simp))
  refine ⟨{ a00 := a00, a01 := y.2, a10 := y.1, a11 := a11 }, ?_, ?_, ?_⟩
  · simp only [blk] at e1 e2 e3
    simp only [finish, e1, e2, e3, ok_bind]
  · intro I J
    cases I <;> cases J
    · exact ⟨s1, s2⟩
    · exact s6
    · exact s5
    · exact ⟨s3, s4⟩
  · intro I J r c hr hc
    cases I <;> cases J
    · exact v1 r c hr hc
    · exact (v3 c r hc hr).2
    · exact (v3 r c hr hc).1
    · exact v2 r c hr hc

theorem start_sized (h : Bool → Nat) (kappa : R) : WSized kappa h (start (h false) (h true) kappa) := by
  refine ⟨fun I J => ?_, fun hk I J hne => ?_⟩
  · cases I <;> cases J <;> exact ⟨rfl, rfl⟩
  · simp only [start, if_neg hk]
    cases I <;> cases J <;> first | exact ⟨rfl, rfl⟩ | exact absurd rfl hne

theorem start_zero (h1 h2 : Nat) (kappa : R) (I J : Bool) (a b : Nat) :
    (blk (start h1 h2 kappa).e I J).val a b = 0 ∧ (blk (start h1 h2 kappa).j I J).val a b = 0 := by
  by_cases hk : kappa = 0 <;> cases I <;> cases J <;> simp [start, hk, blk, zeros, nullMat]

/-- Assembling and finishing: the four blocks in terms of what each point adds. -/
theorem assemble_ok {kappa sigma : R} {h : Bool → Nat} {pts : List (Pt R)}
    {body : Pt R → Work R → Outcome (Work R)} (tE tJ A M : Pt R → Bool → Bool → Nat → Nat → R)
    (hs : ∀ p ∈ pts, ∀ x, WSized kappa h x → ∃ x', body p x = .ok x' ∧ WAdded x x' (tE p) (tJ p))
    (hA : ∀ p ∈ pts, ∀ I J r c, r < h I → c < h J → tE p I J r c = A p I J r c)
    (hM : ∀ p ∈ pts, ∀ I r c, r < h I → c ≤ r → tJ p I I r c = M p I I r c)
    (hM' : ∀ p ∈ pts, ∀ r c, r < h true → c < h false → tJ p true false r c = M p true false r c)
    (hsym : ∀ p ∈ pts, ∀ I J r c, M p I J r c = M p J I c r)
    (h0 : kappa = 0 → ∀ p ∈ pts, ∀ I J r c, M p I J r c = 0) :
    ∃ m, (do
        let w ← overPts pts body (start (h false) (h true) kappa)
        finish kappa sigma (h false) (h true) w) = .ok m ∧ Sized m h h ∧
      ∀ I J r c, r < h I → c < h J → (blk m I J).val r c =
        (pts.map fun p => sigma * A p J I c r - A p I J r c + M p I J r c).sum := by
  obtain ⟨x, e, hx, vE, vJ⟩ := overPts_ok tE tJ hs (start_sized h kappa)
  obtain ⟨m, e', hm, v⟩ := finish_ok (sigma := sigma) hx
  refine ⟨m, by rw [e, ok_bind, e'], hm, ?_⟩
  intro I J r c hr hc
  rw [v I J r c hr hc, vE, vE, (start_zero _ _ _ _ _ _ _).1, (start_zero _ _ _ _ _ _ _).1, zero_add, zero_add]
  have e1 : (pts.map fun p => tE p J I c r).sum = (pts.map fun p => A p J I c r).sum :=
    congrArg _ (List.map_congr_left fun p hp => hA p hp J I c r hc hr)
  have e2 : (pts.map fun p => tE p I J r c).sum = (pts.map fun p => A p I J r c).sum :=
    congrArg _ (List.map_congr_left fun p hp => hA p hp I J r c hr hc)
  have e3 : penAll kappa x.j I J r c = (pts.map fun p => M p I J r c).sum := by
    by_cases hk : kappa = 0
    · rw [List.sum_eq_zero (by
        intro y hy
        obtain ⟨p, hp, rfl⟩ := List.mem_map.1 hy
        exact h0 hk p hp I J r c)]
      cases I <;> cases J <;> simp [penAll, pen, pen10, hk]
    · have key : ∀ K a b, a < h K → b ≤ a → (blk x.j K K).val a b = (pts.map fun p => M p K K a b).sum := by
        intro K a b ha hb
        rw [vJ, (start_zero _ _ _ _ _ _ _).2, zero_add]
        exact congrArg _ (List.map_congr_left fun p hp => hM p hp K a b ha hb)
      have key' : ∀ a b, a < h true → b < h false →
          (blk x.j true false).val a b = (pts.map fun p => M p true false a b).sum := by
        intro a b ha hb
        rw [vJ, (start_zero _ _ _ _ _ _ _).2, zero_add]
        exact congrArg _ (List.map_congr_left fun p hp => hM' p hp a b ha hb)
      have diag : ∀ K a b, a < h K → b < h K →
          (blk x.j K K).val (max a b) (min a b) = (pts.map fun p => M p K K a b).sum := by
        intro K a b ha hb
        rw [key K _ _ (by omega) (by omega)]
        rcases Nat.le_total b a with hab | hab
        · rw [Nat.max_eq_left hab, Nat.min_eq_right hab]
        · rw [Nat.max_eq_right hab, Nat.min_eq_left hab]
          exact congrArg _ (List.map_congr_left fun p hp => hsym p hp K K b a)
      cases I <;> cases J
      · simpa [penAll, pen, hk, blk] using diag false r c hr hc
      · have := key' c r hc hr
        simp only [penAll, pen10, hk, ne_eq, not_false_eq_true, decide_true, if_true]
        rw [show x.j.a10 = blk x.j true false from rfl, this]
        exact congrArg _ (List.map_congr_left fun p hp => hsym p hp true false c r)
      · simpa [penAll, pen10, hk, blk] using key' r c hr hc
      · simpa [penAll, pen, hk, blk] using diag true r c hr hc
  rw [e1, e2, e3]
  clear * -
  induction pts with
  | nil => simp
  | cons p pts ih =>
    simp only [List.map_cons, List.sum_cons, ← ih]
    ring

/-! ## The bilinear form of such blocks -/

omit [DecidableEq R] in
theorem pairing_congr {h w : Bool → Nat} {E E' : Bool → Bool → Nat → Nat → R} {v u : Bool → Nat → R}
    (he : ∀ I J r c, r < h I → c < w J → E I J r c = E' I J r c) : pairing h w E v u = pairing h w E' v u := by
  unfold pairing
  refine sum_congr rfl fun I _ => sum_congr rfl fun r hr => sum_congr rfl fun J _ => sum_congr rfl fun c hc => ?_
  rw [he I J r c (mem_range.1 hr) (mem_range.1 hc)]

omit [DecidableEq R] in
theorem pairing_list {α : Type} {h w : Bool → Nat} (l : List α) (f : α → Bool → Bool → Nat → Nat → R)
    (v u : Bool → Nat → R) :
    pairing h w (fun I J r c => (l.map fun p => f p I J r c).sum) v u = (l.map fun p => pairing h w (f p) v u).sum := by
  induction l with
  | nil => simp [pairing]
  | cons p l ih =>
    rw [List.map_cons, List.sum_cons, ← ih]
    simp only [pairing, List.map_cons, List.sum_cons, mul_add, add_mul, sum_add_distrib]

/-- The functional of a vector of weights. -/
def total (h : Bool → Nat) (t : Bool → Nat → R) (u : Bool → Nat → R) : R :=
  ∑ I : Bool, ∑ r ∈ range (h I), u I r * t I r

omit [DecidableEq R] in
theorem pairing_rank {h : Bool → Nat} (K : Nat) (sigma m : R) (τ δ : Nat → Bool → Nat → R) (v u : Bool → Nat → R) :
    pairing h h (fun I J r c => sigma * (∑ k ∈ range K, τ k J c * δ k I r) - ∑ k ∈ range K, τ k I r * δ k J c
        + ∑ k ∈ range K, m * τ k I r * τ k J c) v u =
      ∑ k ∈ range K, (-(total h (δ k) u * total h (τ k) v) + sigma * (total h (τ k) u * total h (δ k) v)
        + m * total h (τ k) u * total h (τ k) v) := by
  have prod : ∀ (a b : Bool → Nat → R), total h a u * total h b v =
      ∑ I : Bool, ∑ r ∈ range (h I), ∑ J : Bool, ∑ c ∈ range (h J), v I r * b I r * (a J c * u J c) := by
    intro a b
    unfold total
    rw [mul_comm]
    rw [sum_mul]
    refine sum_congr rfl fun I _ => ?_
    rw [sum_mul]
    refine sum_congr rfl fun r _ => ?_
    rw [mul_sum]
    refine sum_congr rfl fun J _ => ?_
    rw [mul_sum]
    refine sum_congr rfl fun c _ => ?_
    ring
  have : ∀ k, -(total h (δ k) u * total h (τ k) v) + sigma * (total h (τ k) u * total h (δ k) v)
        + m * total h (τ k) u * total h (τ k) v =
      pairing h h (fun I J r c => sigma * (τ k J c * δ k I r) - τ k I r * δ k J c + m * τ k I r * τ k J c) v u := by
    intro k
    rw [mul_assoc m, prod, prod, prod]
    unfold pairing
    simp only [mul_sum, ← sum_neg_distrib, ← sum_add_distrib]
    refine sum_congr rfl fun I _ => sum_congr rfl fun r _ => sum_congr rfl fun J _ => sum_congr rfl fun c _ => ?_
    ring
  simp only [this]
  clear this prod
  induction K with
  | zero => simp [pairing]
  | succ K ih =>
    rw [sum_range_succ, ← ih]
    simp only [pairing, sum_range_succ, ← sum_add_distrib]
    refine sum_congr rfl fun I _ => sum_congr rfl fun r _ => sum_congr rfl fun J _ => sum_congr rfl fun c _ => ?_
    ring

/-! ## Dense products as sums -/

omit [DecidableEq R] in
theorem fold_sum (n : Nat) (f : Nat → R) : (List.range n).foldl (fun s k => s + f k) 0 = ∑ k ∈ range n, f k := by
  induction n with
  | zero => rfl
  | succ n ih => rw [List.range_succ, List.foldl_append, ih, sum_range_succ]; rfl

omit [DecidableEq R] in
theorem mulVec_eq (n : Nat) (m : Nat → Nat → R) (x : Nat → R) (i : Nat) :
    mulVec n m x i = ∑ k ∈ range n, m i k * x k := fold_sum n _

omit [DecidableEq R] in
theorem mulTVec_eq (n : Nat) (m : Nat → Nat → R) (x : Nat → R) (i : Nat) :
    mulTVec n m x i = ∑ k ∈ range n, m k i * x k := fold_sum n _

omit [DecidableEq R] in
theorem dot_eq (n : Nat) (x y : Nat → R) : dot n x y = ∑ k ∈ range n, x k * y k := fold_sum n _

omit [DecidableEq R] in
theorem mulMat_eq (n : Nat) (a b : Nat → Nat → R) (i j : Nat) :
    mulMat n a b i j = ∑ k ∈ range n, a i k * b k j := fold_sum n _

/-! ## Scalar diffusion -/

/-- The conormal `Q' n` of a side. -/
def conor (dim : Nat) (nor : Nat → R) (c : Coef R) (b : Nat) : R :=
  match c with
  | .one => nor b
  | .scalar q => q * nor b
  | .matrix m => ∑ a ∈ range dim, m a b * nor a

omit [DecidableEq R] in
theorem conormal_eq (dim : Nat) (w : R) (nor : Nat → R) (c : Coef R) (b : Nat) :
    conormal dim w nor c b = w * conor dim nor c b := by
  cases c with
  | one => rfl
  | scalar q => simp only [conormal, conor]; ring
  | matrix m =>
    simp only [conormal, conor, mulTVec_eq, mul_sum]
    exact sum_congr rfl fun a _ => by ring

omit [DecidableEq R] in
theorem sum_apply_conor (dim : Nat) (nor g : Nat → R) (c : Coef R) :
    ∑ a ∈ range dim, nor a * apply dim c g a = ∑ b ∈ range dim, conor dim nor c b * g b := by
  cases c with
  | one => rfl
  | scalar q => simp only [apply, conor]; exact sum_congr rfl fun a _ => by ring
  | matrix m =>
    simp only [apply, conor, mul_sum, sum_mul]
    rw [sum_comm]
    exact sum_congr rfl fun b _ => sum_congr rfl fun a _ => by ring

omit [DecidableEq R] in
theorem sum_dn (dim n : Nat) (w : R) (nor u : Nat → R) (s : Side R) (c : Coef R) :
    ∑ j ∈ range n, u j * dshapeDn dim s (conormal dim (w / s.det) nor c) j =
      w * ∑ a ∈ range dim, nor a * apply dim c (grad dim n s u) a := by
  rw [sum_apply_conor]
  simp only [dshapeDn, mulVec_eq, conormal_eq, grad, mul_sum]
  rw [sum_congr rfl (fun j _ => sum_comm), sum_comm]
  refine sum_congr rfl fun b _ => sum_congr rfl fun j _ => sum_congr rfl fun a _ => ?_
  simp only [div_eq_mul_inv]
  ring

/-- Shape functions with the sign they have in the jump. -/
def tau (p : Pt R) : Bool → Nat → R
  | false => p.s1.shape
  | true => fun r => -p.s2.shape r

omit [DecidableEq R] in
theorem total_tau (d : Dims) (p : Pt R) (u : Bool → Nat → R) : total (nd d) (tau p) u = jump d p u := by
  simp only [total, Fintype.sum_bool, tau, jump, value, nd]
  simp only [mul_neg, sum_neg_distrib]
  ring

/-- Conormal derivatives, with half the weight of the point. -/
def delta (d : Dims) (p : Pt R) (I : Bool) : Nat → R :=
  dshapeDn d.dim (side p I) (conormal d.dim (p.wt / 2 / (side p I).det) p.nor (side p I).coef)

omit [DecidableEq R] in
theorem total_delta (d : Dims) (p : Pt R) (u : Bool → Nat → R) :
    total (nd d) (delta d p) u = p.wt * avgFlux d (·.coef) p u := by
  simp only [total, Fintype.sum_bool, delta, sum_dn, avgFlux, flux]
  ring

/-- The penalty weight of a point. -/
def penW (d : Dims) (p : Pt R) : R :=
  dot d.dim (conormal d.dim (p.wt / 2 / p.s1.det) p.nor p.s1.coef) p.nor +
    dot d.dim (conormal d.dim (p.wt / 2 / p.s2.det) p.nor p.s2.coef) p.nor

omit [DecidableEq R] in
theorem penW_eq (d : Dims) (p : Pt R) : penW d p = p.wt * penalty d (·.coef) p := by
  have : ∀ s : Side R, dot d.dim (conormal d.dim (p.wt / 2 / s.det) p.nor s.coef) p.nor =
      p.wt / 2 * ∑ a ∈ range d.dim, p.nor a * apply d.dim s.coef p.nor a / s.det := by
    intro s
    rw [← sum_div, sum_apply_conor, dot_eq]
    simp only [conormal_eq, mul_assoc, ← mul_sum]
    simp only [div_eq_mul_inv]
    ring
  rw [penW, this, this, penalty]
  ring

omit [DecidableEq R] in
theorem addSecond_ok {n1 n2 : Nat} (wq : R) (s1 s2 : Nat → R) {j10 j11 : Blk R} (h1 : j10.h = n2) (h2 : j10.w = n1)
    (h3 : j11.h = n2) (h4 : j11.w = n2) :
    ∃ x, addSecond n1 n2 wq s1 s2 j10 j11 = .ok x ∧
      Added j10 x.1 (fun a b => if a < n2 ∧ b < n1 then -((wq * s2 a) * s1 b) else 0) ∧
      Added j11 x.2 (fun a b => if a < n2 ∧ b ≤ a then (wq * s2 a) * s2 b else 0) := by
  obtain ⟨x, e, ⟨g1, g2, g3, g4⟩, g5⟩ := loop_acc (n := n2)
    (body := fun i x => do
      let wsi := wq * s2 i
      let j10 ← loop n1 (fun j m => addAt m i j (-(wsi * s1 j))) x.1
      let j11 ← loop (i + 1) (fun j m => addAt m i j (wsi * s2 j)) x.2
      Except.ok (j10, j11))
    (fun x : Blk R × Blk R => x.1.h = n2 ∧ x.1.w = n1 ∧ x.2.h = n2 ∧ x.2.w = n2) (fun x => (x.1.val, x.2.val))
    (fun i => ((∑ j ∈ range n1, fun a b => if a = i ∧ b = j then -((wq * s2 i) * s1 j) else 0),
      (∑ j ∈ range (i + 1), fun a b => if a = i ∧ b = j then (wq * s2 i) * s2 j else 0)))
    (s := (j10, j11)) ⟨h1, h2, h3, h4⟩ (by
      rintro i x hi ⟨a1, a2, a3, a4⟩
      obtain ⟨y, e1, b1, b2, b3⟩ := loop_added (m := x.1) (n := n1)
        (body := fun j m => addAt m i j (-((wq * s2 i) * s1 j)))
        (fun j a b => if a = i ∧ b = j then -((wq * s2 i) * s1 j) else 0)
        (fun j m'' hj h3 h4 => addAt_ok _ (by omega) (by omega))
      obtain ⟨z, e2, c1, c2, c3⟩ := loop_added (m := x.2) (n := i + 1)
        (body := fun j m => addAt m i j ((wq * s2 i) * s2 j))
        (fun j a b => if a = i ∧ b = j then (wq * s2 i) * s2 j else 0)
        (fun j m'' hj h3 h4 => addAt_ok _ (by omega) (by omega))
      refine ⟨(y, z), ?_, ⟨b1.trans a1, b2.trans a2, c1.trans a3, c2.trans a4⟩, Prod.ext b3 c3⟩
      dsimp only
      rw [e1, ok_bind, e2, ok_bind])
  refine ⟨x, e, ⟨g1.trans h1.symm, g2.trans h2.symm, ?_⟩, ⟨g3.trans h3.symm, g4.trans h4.symm, ?_⟩⟩
  · have := congrArg Prod.fst g5
    simp only [Prod.fst_add, Prod.fst_sum] at this
    rw [this]
    congr 1
    funext a b
    simp only [Finset.sum_apply]
    have : ∀ i, (∑ j ∈ range n1, if a = i ∧ b = j then -((wq * s2 i) * s1 j) else 0) =
        if a = 0 + i then (if b < n1 then -((wq * s2 i) * s1 b) else 0) else 0 := by
      intro i
      by_cases h : a = i
      · simp [h]
      · simp [h]
    simp only [this]
    rw [sel1]
    by_cases h1 : a < n2 <;> by_cases h2 : b < n1 <;> simp [h1, h2]
  · have := congrArg Prod.snd g5
    simp only [Prod.snd_add, Prod.snd_sum] at this
    rw [this]
    congr 1
    funext a b
    simp only [Finset.sum_apply]
    have : ∀ i, (∑ j ∈ range (i + 1), if a = i ∧ b = j then (wq * s2 i) * s2 j else 0) =
        if a = 0 + i then (if b ≤ i then (wq * s2 i) * s2 b else 0) else 0 := by
      intro i
      by_cases h : a = i
      · simp [h]
      · simp [h]
    simp only [this]
    rw [sel1]
    by_cases h1 : a < n2 <;> by_cases h2 : b ≤ a <;> simp [h1, h2]

/-- What a point of the scalar diffusion integrator adds to `elmats`. -/
def dE (d : Dims) (p : Pt R) (I J : Bool) (r c : Nat) : R :=
  if r < nd d I ∧ c < nd d J then tau p I r * delta d p J c else 0

/-- What a point of the scalar diffusion integrator adds to `jmats`. -/
def dJ (d : Dims) (kappa : R) (p : Pt R) : Bool → Bool → Nat → Nat → R
  | false, false, r, c => if r < d.n1 ∧ c ≤ r then penW d p * kappa * p.s1.shape r * p.s1.shape c else 0
  | false, true, _, _ => 0
  | true, false, r, c => if r < d.n2 ∧ c < d.n1 then -(penW d p * kappa * p.s2.shape r * p.s1.shape c) else 0
  | true, true, r, c => if r < d.n2 ∧ c ≤ r then penW d p * kappa * p.s2.shape r * p.s2.shape c else 0

theorem diffJump_ok {d : Dims} {kappa : R} {p : Pt R} {x : Work R} (hx : WSized kappa (nd d) x) :
    ∃ j, diffJump d kappa (penW d p) p x.j = .ok j ∧ ∀ I J, Added (blk x.j I J) (blk j I J) (dJ d kappa p I J) := by
  by_cases hk : kappa = 0
  · refine ⟨x.j, by simp [diffJump, hk], fun I J => (Added.zero _).congr ?_⟩
    funext a b
    cases I <;> cases J <;> simp [dJ, hk]
  · have s00 := hx.2 hk false false (by simp)
    have s10 := hx.2 hk true false (by simp)
    have s11 := hx.2 hk true true (by simp)
    simp only [blk, nd] at s00 s10 s11
    obtain ⟨j00, e1, a1⟩ := addTri_ok (n := d.n1) (m := x.j.a00)
      (fun a b => (penW d p * kappa * p.s1.shape a) * p.s1.shape b) (by omega) (by omega)
    obtain ⟨y, e2, a2, a3⟩ := addSecond_ok (n1 := d.n1) (n2 := d.n2) (penW d p * kappa) p.s1.shape p.s2.shape
      s10.1 s10.2 s11.1 s11.2
    refine ⟨{ x.j with a00 := j00, a10 := y.1, a11 := y.2 }, ?_, ?_⟩
    · rw [diffJump, if_pos hk]
      dsimp only
      rw [e1, ok_bind, e2, ok_bind]
    · intro I J
      cases I <;> cases J
      · exact a1
      · exact Added.zero _
      · exact a2
      · exact a3

theorem diffPt_ok {d : Dims} {kappa : R} {p : Pt R} (hp : p.s1.det ≠ 0 ∧ p.s2.det ≠ 0) {x : Work R}
    (hx : WSized kappa (nd d) x) :
    ∃ x', diffPt d kappa p x = .ok x' ∧ WAdded x x' (dE d p) (dJ d kappa p) := by
  have s := hx.1
  have e0 : p.wt / p.s1.det / 2 = p.wt / 2 / p.s1.det := div_right_comm _ _ _
  have d1 : dshapeDn d.dim p.s1 (conormal d.dim (p.wt / 2 / p.s1.det) p.nor p.s1.coef) = delta d p false := rfl
  have d2 : dshapeDn d.dim p.s2 (conormal d.dim (p.wt / 2 / p.s2.det) p.nor p.s2.coef) = delta d p true := rfl
  have d3 : dot d.dim (conormal d.dim (p.wt / 2 / p.s1.det) p.nor p.s1.coef) p.nor +
    dot d.dim (conormal d.dim (p.wt / 2 / p.s2.det) p.nor p.s2.coef) p.nor = penW d p := rfl
  have sz : ∀ I J, nd d I ≤ (blk x.e I J).h ∧ nd d J ≤ (blk x.e I J).w := fun I J =>
    ⟨Nat.le_of_eq (s I J).1.symm, Nat.le_of_eq (s I J).2.symm⟩
  obtain ⟨m00, e1, a1⟩ := addAll_ok (fun i j => p.s1.shape i * delta d p false j) (sz false false).1 (sz false false).2
  obtain ⟨m01, e2, a2⟩ := addAll_ok (fun i j => p.s1.shape i * delta d p true j) (sz false true).1 (sz false true).2
  obtain ⟨m10, e3, a3⟩ := addAll_ok (fun i j => -(p.s2.shape i * delta d p false j)) (sz true false).1 (sz true false).2
  obtain ⟨m11, e4, a4⟩ := addAll_ok (fun i j => -(p.s2.shape i * delta d p true j)) (sz true true).1 (sz true true).2
  obtain ⟨j, e5, a5⟩ := diffJump_ok (p := p) hx
  simp only [nd, blk] at e1 e2 e3 e4
  refine ⟨{ e := { a00 := m00, a01 := m01, a10 := m10, a11 := m11 }, j := j }, ?_, ?_⟩
  · simp only [diffPt, fdiv, if_neg hp.1, if_neg hp.2, ok_bind, e0, d1, d2, d3, e1, e2, e3, e4, e5]
  · intro I J
    refine ⟨?_, a5 I J⟩
    cases I <;> cases J
    · exact a1
    · exact a2
    · refine a3.congr ?_
      funext r c; simp only [dE, tau, neg_mul]
    · refine a4.congr ?_
      funext r c; simp only [dE, tau, neg_mul]

theorem diffusion_ok {d : Dims} {sigma kappa : R} {pts : List (Pt R)} (hp : Regular pts) :
    ∃ m, diffusion d sigma kappa pts = .ok m ∧ Sized m (nd d) (nd d) ∧
      ∀ v u, pairing (nd d) (nd d) (fun I J => (blk m I J).val) v u = ipForm d (·.coef) sigma kappa pts v u := by
  obtain ⟨m, e, hm, v⟩ := assemble_ok (sigma := sigma) (h := nd d) (dE d) (dJ d kappa)
    (fun p I J r c => tau p I r * delta d p J c)
    (fun p I J r c => penW d p * kappa * tau p I r * tau p J c)
    (fun p hp' x hx => diffPt_ok (hp p hp') hx)
    (fun p _ I J r c hr hc => by rw [dE, if_pos ⟨hr, hc⟩])
    (fun p _ I r c hr hc => by
      cases I
      · simp only [dJ, tau]; rw [if_pos ⟨hr, hc⟩]
      · simp only [dJ, tau]; rw [if_pos ⟨hr, hc⟩]; ring)
    (fun p _ r c hr hc => by simp only [dJ, tau]; rw [if_pos ⟨hr, hc⟩]; ring)
    (fun p _ I J r c => by ring)
    (fun hk p _ I J r c => by rw [hk]; ring)
  refine ⟨m, e, hm, fun v' u => ?_⟩
  rw [pairing_congr v, pairing_list, ipForm]
  refine congrArg _ (List.map_congr_left fun p _ => ?_)
  have := pairing_rank (h := nd d) 1 sigma (penW d p * kappa) (fun _ => tau p) (fun _ => delta d p) v' u
  simp only [sum_range_one] at this
  rw [this, total_tau, total_tau, total_delta, total_delta, penW_eq]
  ring

/-! ## Vector diffusion and elasticity -/

theorem near {n q a : Nat} (hn : 0 < n) : (q * n ≤ a ∧ a < q * n + n) ↔ a / n = q := by
  rw [Nat.div_eq_iff hn]; omega

theorem near_mod {n q a : Nat} (h : a / n = q) : a - q * n = a % n := by
  subst h; have := Nat.div_add_mod' a n; omega

/-- The weights of component `k`: shape function `r % n` of component `r / n`. -/
def pick (n k : Nat) (f : Nat → R) (r : Nat) : R := if r / n = k then f (r % n) else 0

omit [DecidableEq R] in
theorem sum_pick {dim n n' r c : Nat} (hr : r < dim * n) (f g : Nat → R) :
    ∑ k ∈ range dim, pick n k f r * pick n' k g c = if c / n' = r / n then f (r % n) * g (c % n') else 0 := by
  rw [sum_eq_single (r / n)]
  · simp only [pick, if_true]
    split <;> simp
  · intro k _ hk
    simp only [pick]
    rw [if_neg (fun h => hk h.symm), zero_mul]
  · intro h
    exact absurd (mem_range.2 (flat_of_lt hr).1) h

omit [DecidableEq R] in
theorem sum_pick_left {dim n r : Nat} (hr : r < dim * n) (f : Nat → R) (g : Nat → R) :
    ∑ k ∈ range dim, pick n k f r * g k = f (r % n) * g (r / n) := by
  rw [sum_eq_single (r / n)]
  · simp only [pick, if_true]
  · intro k _ hk
    simp only [pick]
    rw [if_neg (fun h => hk h.symm), zero_mul]
  · intro h
    exact absurd (mem_range.2 (flat_of_lt hr).1) h

omit [DecidableEq R] in
theorem sum_flat (dim n : Nat) (f : Nat → R) :
    ∑ r ∈ range (dim * n), f r = ∑ d ∈ range dim, ∑ j ∈ range n, f (d * n + j) := by
  induction dim with
  | zero => simp
  | succ dim ih => rw [Nat.add_mul, Nat.one_mul, sum_range_add, ih, sum_range_succ]

omit [DecidableEq R] in
theorem sum_pick_flat {dim n k : Nat} (hk : k < dim) (f u : Nat → R) :
    ∑ r ∈ range (dim * n), u r * pick n k f r = ∑ j ∈ range n, u (k * n + j) * f j := by
  rw [sum_flat, sum_eq_single k]
  · refine sum_congr rfl fun j hj => ?_
    obtain ⟨h1, h2⟩ := unflat (d := k) (mem_range.1 hj)
    rw [pick, h1, h2, if_pos rfl]
  · intro d _ hd
    refine sum_eq_zero fun j hj => ?_
    rw [pick, (unflat (mem_range.1 hj)).1, if_neg hd, mul_zero]
  · intro h; exact absurd (mem_range.2 hk) h

/-- The flux block of one pair of sides, entry by entry: rows `rs`, columns `D`. -/
def bE (dim nr : Nat) (rs : Nat → R) (D : Nat → Nat → R) (r c : Nat) : R :=
  ∑ k ∈ range dim, pick nr k rs r * D k c

/-- The penalty block as `addPen` fills it. -/
def bJ (dim nr nc ro co : Nat) (jc : R) (rs cs : Nat → R) (a b : Nat) : R :=
  if b < dim * nc then
    if (if b / nc * nr + ro > b + co then b / nc * nr else b) ≤ a ∧ a < b / nc * nr + nr then
      rs (a - b / nc * nr) * (jc * cs (b % nc)) else 0
  else 0

omit [DecidableEq R] in
theorem bJ_eq {dim nr nc ro co : Nat} (jc : R) (rs cs : Nat → R) {a b : Nat} (ha : a < dim * nr) (hb : b < dim * nc)
    (hlow : (if b / nc * nr + ro > b + co then b / nc * nr else b) ≤ a ↔ b / nc * nr ≤ a) :
    bJ dim nr nc ro co jc rs cs a b = ∑ k ∈ range dim, jc * pick nr k rs a * pick nc k cs b := by
  have hn : 0 < nr := by rcases Nat.eq_zero_or_pos nr with rfl | h'; · simp at ha
                         exact h'
  have : ∀ k, jc * pick nr k rs a * pick nc k cs b = jc * (pick nr k rs a * pick nc k cs b) := fun k => by ring
  simp only [this]
  rw [← mul_sum, sum_pick ha, bJ, if_pos hb]
  by_cases h : a / nr = b / nc
  · rw [if_pos (by rw [hlow]; exact (near hn).2 h), if_pos h.symm, near_mod h]
    ring
  · rw [if_neg (fun h' => h ((near hn).1 ⟨hlow.1 h'.1, h'.2⟩)), if_neg (fun h' => h h'.symm), mul_zero]

omit [DecidableEq R] in
theorem bJ_zero (dim nr nc ro co : Nat) (rs cs : Nat → R) : bJ dim nr nc ro co 0 rs cs = 0 := by
  funext a b; simp [bJ]

/-- What a block assembly must do. -/
def BlockOk (block : Nat → Nat → Nat → Nat → Nat → R → (Nat → R) → (Nat → R) → Flux R → Blk R × Blk R →
      Outcome (Blk R × Blk R)) (D : Nat → Flux R → Nat → Nat → R)
      (T : Nat → Nat → Nat → (Nat → R) → Flux R → Nat → Nat → R) : Prop :=
  (∀ dim nr nc rs cf r c, r < dim * nr → c < dim * nc → T dim nr nc rs cf r c = bE dim nr rs (D nc cf) r c) ∧
  ∀ dim nr nc ro co jc rs cs cf (x : Blk R × Blk R), x.1.h = dim * nr → x.1.w = dim * nc →
    (jc ≠ 0 → x.2.h = dim * nr ∧ x.2.w = dim * nc) →
    (jc ≠ 0 → ∀ d jd, d < dim → jd < nc → d * nr + ro ≤ d * nc + jd + co → d * nr ≤ d * nc + jd) →
    ∃ y, block dim nr nc ro co jc rs cs cf x = .ok y ∧ Added x.1 y.1 (T dim nr nc rs cf) ∧
      Added x.2 y.2 (bJ dim nr nc ro co jc rs cs)

theorem vecBlock_ok : BlockOk (R := R) vecBlock (fun nc cf k => pick nc k cf.dnM)
    (fun dim nr nc rs cf a b =>
      if 0 ≤ b ∧ b < 0 + dim * nc then
        if 0 + (b - 0) / nc * nr ≤ a ∧ a < 0 + (b - 0) / nc * nr + nr then
          rs (a - (0 + (b - 0) / nc * nr)) * cf.dnM ((b - 0) % nc) else 0
      else 0) := by
  refine ⟨?_, ?_⟩
  · intro dim nr nc rs cf r c hr hc
    have hn : 0 < nr := by rcases Nat.eq_zero_or_pos nr with rfl | h'; · simp at hr
                           exact h'
    simp only [Nat.zero_le, true_and, Nat.zero_add, Nat.sub_zero, bE]
    rw [if_pos hc, sum_pick hr]
    by_cases h : r / nr = c / nc
    · rw [if_pos ((near hn).2 h), if_pos h.symm, near_mod h]
    · rw [if_neg (fun h' => h ((near hn).1 h')), if_neg (fun h' => h h'.symm)]
  intro dim nr nc ro co jc rs cs cf x h1 h2 h3 h4
  obtain ⟨y1, e1, a1⟩ := addDiag_ok (dim := dim) (nr := nr) (nc := nc) (ro := 0) (co := 0)
    (fun id jd => rs id * cf.dnM jd) (m := x.1) (by omega) (by omega)
  obtain ⟨y2, e2, a2⟩ := addPen_ok (m := x.2) jc rs cs h4 (fun h => Nat.le_of_eq (h3 h).1.symm)
    (fun h => Nat.le_of_eq (h3 h).2.symm)
  exact ⟨(y1, y2), by rw [vecBlock, e1, ok_bind, e2, ok_bind], a1, a2⟩

theorem elBlock_ok : BlockOk (R := R) elBlock (fun nc cf k c => traction cf (c / nc) (c % nc) k)
    (fun dim nr nc rs cf a b => if b < dim * nc then
        if a < dim * nr then rs (a % nr) * traction cf (b / nc) (b % nc) (a / nr) else 0
      else 0) := by
  refine ⟨?_, ?_⟩
  · intro dim nr nc rs cf r c hr hc
    simp only [bE]
    rw [if_pos hc, if_pos hr, sum_pick_left hr]
  intro dim nr nc ro co jc rs cs cf x h1 h2 h3 h4
  obtain ⟨y1, e1, a1⟩ := addEl_ok (dim := dim) (nr := nr) (nc := nc) rs cf (m := x.1) (by omega) (by omega)
  obtain ⟨y2, e2, a2⟩ := addPen_ok (m := x.2) jc rs cs h4 (fun h => Nat.le_of_eq (h3 h).1.symm)
    (fun h => Nat.le_of_eq (h3 h).2.symm)
  exact ⟨(y1, y2), by rw [elBlock, e1, ok_bind, e2, ok_bind], a1, a2⟩

/-- The coefficient `jmatcoef`. -/
def jcoef (d : Dims) (kappa : R) (Fl : Nat → R → (Nat → R) → Side R → Flux R) (p : Pt R) : R :=
  kappa * dot d.dim p.nor p.nor * ((Fl d.dim (p.wt / 2) p.nor p.s2).wLM + (Fl d.dim (p.wt / 2) p.nor p.s1).wLM)

/-- The column weights of direction `k` on one side. -/
def colW (d : Dims) (Fl : Nat → R → (Nat → R) → Side R → Flux R) (D : Nat → Flux R → Nat → Nat → R) (p : Pt R)
    (k : Nat) (I : Bool) : Nat → R := D (nd d I) (Fl d.dim (p.wt / 2) p.nor (side p I)) k

/-- The row weights of direction `k` on one side. -/
def rowW (d : Dims) (p : Pt R) (k : Nat) (I : Bool) : Nat → R := pick (nd d I) k (tau p I)

omit [DecidableEq R] in
theorem total_rowW (d : Dims) (p : Pt R) {k : Nat} (hk : k < d.dim) (u : Bool → Nat → R) :
    total (nv d) (rowW d p k) u = jump d p (comp d k u) := by
  rw [← total_tau]
  simp only [total, nv, rowW, sum_pick_flat hk, comp]

/-- What a point of a vector integrator adds to `jmats`. -/
def vJ (d : Dims) (kappa : R) (Fl : Nat → R → (Nat → R) → Side R → Flux R) (p : Pt R) : Bool → Bool → Nat → Nat → R
  | false, true => 0
  | I, J => bJ d.dim (nd d I) (nd d J) (roff d I) (roff d J) (jcoef d kappa Fl p) (tau p I) (tau p J)

/-- What a point of a vector integrator adds to `elmats`. -/
def vE (d : Dims) (Fl : Nat → R → (Nat → R) → Side R → Flux R)
    (T : Nat → Nat → Nat → (Nat → R) → Flux R → Nat → Nat → R) (p : Pt R) (I J : Bool) : Nat → Nat → R :=
  T d.dim (nd d I) (nd d J) (tau p I) (Fl d.dim (p.wt / 2) p.nor (side p J))

omit [DecidableEq R] in
theorem vecPt_ok {flux : Nat → R → (Nat → R) → Side R → Outcome (Flux R)}
    {block : Nat → Nat → Nat → Nat → Nat → R → (Nat → R) → (Nat → R) → Flux R → Blk R × Blk R →
      Outcome (Blk R × Blk R)} {Fl : Nat → R → (Nat → R) → Side R → Flux R} {D : Nat → Flux R → Nat → Nat → R}
    {T : Nat → Nat → Nat → (Nat → R) → Flux R → Nat → Nat → R}
    (hF : ∀ dim w nor s, s.det ≠ 0 → flux dim w nor s = .ok (Fl dim w nor s)) (hB : BlockOk block D T)
    {d : Dims} {kappa : R} {p : Pt R} (hp : p.s1.det ≠ 0 ∧ p.s2.det ≠ 0) {x : Work R} (hx : WSized kappa (nv d) x) :
    ∃ x', vecPt flux block d kappa p x = .ok x' ∧ WAdded x x' (vE d Fl T p) (vJ d kappa Fl p) := by
  have s := hx.1
  have hj : jcoef d kappa Fl p ≠ 0 → kappa ≠ 0 := fun h hk => h (by simp [jcoef, hk])
  have sj := fun h I J hne => hx.2 (hj h) I J hne
  obtain ⟨y00, e1, a1, c1⟩ := hB.2 d.dim d.n1 d.n1 0 0 (jcoef d kappa Fl p) p.s1.shape p.s1.shape
    (Fl d.dim (p.wt / 2) p.nor p.s1) (x.e.a00, x.j.a00) (s false false).1 (s false false).2
    (fun h => sj h false false (by simp)) (fun _ d jd _ _ h => h)
  obtain ⟨y01, e2, a2, c2⟩ := hB.2 d.dim d.n1 d.n2 0 (d.dim * d.n1) 0 p.s1.shape (fun i => -p.s2.shape i)
    (Fl d.dim (p.wt / 2) p.nor p.s2) (x.e.a01, x.j.a01) (s false true).1 (s false true).2
    (fun h => absurd rfl h) (fun h => absurd rfl h)
  obtain ⟨y10, e3, a3, c3⟩ := hB.2 d.dim d.n2 d.n1 (d.dim * d.n1) 0 (jcoef d kappa Fl p)
    (fun i => -p.s2.shape i) p.s1.shape
    (Fl d.dim (p.wt / 2) p.nor p.s1) (x.e.a10, x.j.a10) (s true false).1 (s true false).2
    (fun h => sj h true false (by simp)) (fun _ e jd he hjd h => by have := flat_lt he hjd; omega)
  obtain ⟨y11, e4, a4, c4⟩ := hB.2 d.dim d.n2 d.n2 (d.dim * d.n1) (d.dim * d.n1) (jcoef d kappa Fl p)
    (fun i => -p.s2.shape i) (fun i => -p.s2.shape i)
    (Fl d.dim (p.wt / 2) p.nor p.s2) (x.e.a11, x.j.a11) (s true true).1 (s true true).2
    (fun h => sj h true true (by simp)) (fun _ e jd _ _ h => by omega)
  refine ⟨{ e := { a00 := y00.1, a01 := y01.1, a10 := y10.1, a11 := y11.1 }
            j := { a00 := y00.2, a01 := y01.2, a10 := y10.2, a11 := y11.2 } }, ?_, ?_⟩
  · simp only [vecPt, hF _ _ _ _ hp.1, hF _ _ _ _ hp.2, ok_bind]
    simp only [jcoef] at e1 e3 e4
    simp only [e1, e2, e3, e4, ok_bind]
  · intro I J
    cases I <;> cases J
    · exact ⟨a1, c1⟩
    · exact ⟨a2, c2.congr (bJ_zero _ _ _ _ _ _ _)⟩
    · exact ⟨a3, c3⟩
    · exact ⟨a4, c4⟩

theorem vec_ok {flux : Nat → R → (Nat → R) → Side R → Outcome (Flux R)}
    {block : Nat → Nat → Nat → Nat → Nat → R → (Nat → R) → (Nat → R) → Flux R → Blk R × Blk R →
      Outcome (Blk R × Blk R)} {Fl : Nat → R → (Nat → R) → Side R → Flux R} {D : Nat → Flux R → Nat → Nat → R}
    {T : Nat → Nat → Nat → (Nat → R) → Flux R → Nat → Nat → R}
    (hF : ∀ dim w nor s, s.det ≠ 0 → flux dim w nor s = .ok (Fl dim w nor s)) (hB : BlockOk block D T)
    {d : Dims} {alpha kappa : R} {pts : List (Pt R)} (hp : Regular pts) :
    ∃ m, (do
        let w ← overPts pts (vecPt flux block d kappa) (start (d.dim * d.n1) (d.dim * d.n2) kappa)
        finish kappa alpha (d.dim * d.n1) (d.dim * d.n2) w) = .ok m ∧ Sized m (nv d) (nv d) ∧
      (∀ I J r c, r < nv d I → c < nv d J → (blk m I J).val r c =
        (pts.map fun p => alpha * (∑ k ∈ range d.dim, rowW d p k J c * colW d Fl D p k I r)
          - ∑ k ∈ range d.dim, rowW d p k I r * colW d Fl D p k J c
          + ∑ k ∈ range d.dim, jcoef d kappa Fl p * rowW d p k I r * rowW d p k J c).sum) ∧
      ∀ v u, pairing (nv d) (nv d) (fun I J => (blk m I J).val) v u =
        (pts.map fun p => ∑ k ∈ range d.dim,
          (-(total (nv d) (colW d Fl D p k) u * jump d p (comp d k v))
            + alpha * (jump d p (comp d k u) * total (nv d) (colW d Fl D p k) v)
            + jcoef d kappa Fl p * jump d p (comp d k u) * jump d p (comp d k v))).sum := by
  obtain ⟨m, e, hm, v⟩ := assemble_ok (sigma := alpha) (h := nv d) (vE d Fl T) (vJ d kappa Fl)
    (fun p I J r c => ∑ k ∈ range d.dim, rowW d p k I r * colW d Fl D p k J c)
    (fun p I J r c => ∑ k ∈ range d.dim, jcoef d kappa Fl p * rowW d p k I r * rowW d p k J c)
    (fun p hp' x hx => vecPt_ok hF hB (hp p hp') hx)
    (fun p _ I J r c hr hc => hB.1 d.dim (nd d I) (nd d J) (tau p I) _ r c hr hc)
    (fun p _ I r c hr hc => by
      have : vJ d kappa Fl p I I r c =
          bJ d.dim (nd d I) (nd d I) (roff d I) (roff d I) (jcoef d kappa Fl p) (tau p I) (tau p I) r c := by
        cases I <;> rfl
      rw [this, bJ_eq _ _ _ hr (Nat.lt_of_le_of_lt hc hr)]
      · rfl
      · have := Nat.div_mul_le_self c (nd d I)
        rw [if_neg (by omega)]
        exact ⟨fun _ => by omega, fun _ => hc⟩)
    (fun p _ r c hr hc => by
      have : vJ d kappa Fl p true false r c =
          bJ d.dim (nd d true) (nd d false) (d.dim * d.n1) 0 (jcoef d kappa Fl p) (tau p true) (tau p false) r c := rfl
      rw [this, bJ_eq _ _ _ hr hc]
      · rfl
      · simp only [nv, nd] at hc
        rw [if_pos (by omega)])
    (fun p _ I J r c => sum_congr rfl fun k _ => by ring)
    (fun hk p _ I J r c => by simp [jcoef, hk])
  refine ⟨m, e, hm, v, fun v' u => ?_⟩
  rw [pairing_congr v, pairing_list]
  refine congrArg _ (List.map_congr_left fun p _ => ?_)
  rw [pairing_rank (h := nv d) d.dim alpha (jcoef d kappa Fl p) (rowW d p) (colW d Fl D p) v' u]
  refine sum_congr rfl fun k hk => ?_
  rw [total_rowW d p (mem_range.1 hk), total_rowW d p (mem_range.1 hk)]

omit [DecidableEq R] in
theorem sum_list_comm {α : Type} (l : List α) (s : Finset Nat) (f : α → Nat → R) :
    (l.map fun p => ∑ k ∈ s, f p k).sum = ∑ k ∈ s, (l.map fun p => f p k).sum := by
  induction l with
  | nil => simp
  | cons p l ih => simp only [List.map_cons, List.sum_cons, ih, sum_add_distrib]

/-- The side data of the vector diffusion integrator. -/
def vfl (dim : Nat) (w : R) (nor : Nat → R) (s : Side R) : Flux R :=
  { ps := mulMat dim s.dshape s.adj, nL := fun _ => 0, nM := fun b => w / s.det * s.mu * nor b
    dnM := mulVec dim (mulMat dim s.dshape s.adj) (fun b => w / s.det * s.mu * nor b), wLM := w / s.det * s.mu }

theorem vecFlux_eq (dim : Nat) (w : R) (nor : Nat → R) (s : Side R) (hs : s.det ≠ 0) :
    vecFlux dim w nor s = .ok (vfl dim w nor s) := by
  simp only [vecFlux, fdiv, if_neg hs, ok_bind]; rfl

/-- The side data of the elasticity integrator. -/
def efl (dim : Nat) (w : R) (nor : Nat → R) (s : Side R) : Flux R :=
  { ps := mulMat dim s.dshape s.adj, nL := fun b => w / s.det * s.lam * nor b
    nM := fun b => w / s.det * s.mu * nor b
    dnM := mulVec dim (mulMat dim s.dshape s.adj) (fun b => w / s.det * s.mu * nor b)
    wLM := w / s.det * s.lam + 2 * (w / s.det * s.mu) }

theorem elFlux_eq (dim : Nat) (w : R) (nor : Nat → R) (s : Side R) (hs : s.det ≠ 0) :
    elFlux dim w nor s = .ok (efl dim w nor s) := by
  simp only [elFlux, fdiv, if_neg hs, ok_bind]; rfl

omit [DecidableEq R] in
theorem grad_eq (dim n : Nat) (s : Side R) (u : Nat → R) (b : Nat) :
    grad dim n s u b = (∑ j ∈ range n, u j * mulMat dim s.dshape s.adj j b) / s.det := by
  simp only [grad, mulMat_eq, sum_div]
  refine sum_congr rfl fun j _ => ?_
  rw [mul_div_assoc, sum_div]
  congr 1
  exact sum_congr rfl fun a _ => by rw [mul_div_assoc]

omit [DecidableEq R] in
theorem sum_dnM (dim n : Nat) (w mu : R) (nor u : Nat → R) (s : Side R) :
    ∑ j ∈ range n, u j * mulVec dim (mulMat dim s.dshape s.adj) (fun b => w / s.det * mu * nor b) j =
      w * mu * ∑ b ∈ range dim, grad dim n s u b * nor b := by
  simp only [mulVec_eq, grad_eq, mul_sum]
  rw [sum_comm]
  refine sum_congr rfl fun b _ => ?_
  rw [sum_div, sum_mul, mul_sum]
  exact sum_congr rfl fun j _ => by simp only [div_eq_mul_inv]; ring

omit [DecidableEq R] in
theorem total_vec (d : Dims) (p : Pt R) {k : Nat} (hk : k < d.dim) (u : Bool → Nat → R) :
    total (nv d) (colW d vfl (fun nc cf k => pick nc k cf.dnM) p k) u =
      p.wt * avgFlux d (fun s => .scalar s.mu) p (comp d k u) := by
  have : ∀ I, ∑ r ∈ range (nv d I), u I r * colW d vfl (fun nc cf k => pick nc k cf.dnM) p k I r =
      p.wt / 2 * flux d (fun s => .scalar s.mu) p I (comp d k u I) := by
    intro I
    simp only [colW, nv]
    rw [sum_pick_flat hk]
    simp only [vfl]
    rw [sum_dnM d.dim (nd d I) (p.wt / 2) (side p I).mu p.nor (fun j => u I (k * nd d I + j)), flux, mul_assoc, mul_sum]
    congr 1
    have : comp d k u I = fun j => u I (k * nd d I + j) := rfl
    rw [this]
    exact sum_congr rfl fun a _ => by simp only [apply]; ring
  simp only [total, this, Fintype.sum_bool, avgFlux]
  ring

omit [DecidableEq R] in
theorem jcoef_vec (d : Dims) (kappa : R) (p : Pt R) :
    jcoef d kappa vfl p = p.wt * (kappa * penalty d (fun s => .scalar s.mu) p) := by
  simp only [jcoef, vfl, dot_eq, penalty, apply]
  have : ∀ s : Side R, ∑ a ∈ range d.dim, p.nor a * (s.mu * p.nor a) / s.det =
      s.mu / s.det * ∑ a ∈ range d.dim, p.nor a * p.nor a := by
    intro s
    rw [mul_sum]
    exact sum_congr rfl fun a _ => by simp only [div_eq_mul_inv]; ring
  rw [this, this]
  simp only [div_eq_mul_inv]
  ring

theorem vecDiffusion_ok {d : Dims} {alpha kappa : R} {pts : List (Pt R)} (hp : Regular pts) :
    ∃ m, vecDiffusion d alpha kappa pts = .ok m ∧ Sized m (nv d) (nv d) ∧
      ∀ v u, pairing (nv d) (nv d) (fun I J => (blk m I J).val) v u = vecForm d alpha kappa pts v u := by
  obtain ⟨m, e, hm, _, v⟩ := vec_ok (alpha := alpha) (kappa := kappa) (d := d) vecFlux_eq vecBlock_ok hp
  refine ⟨m, e, hm, fun v' u => ?_⟩
  rw [v]
  simp only [vecForm, ipForm]
  rw [← sum_list_comm]
  refine congrArg _ (List.map_congr_left fun p _ => sum_congr rfl fun k hk => ?_)
  rw [total_vec d p (mem_range.1 hk), total_vec d p (mem_range.1 hk), jcoef_vec]
  ring

omit [DecidableEq R] in
theorem total_el (d : Dims) (p : Pt R) {k : Nat} (hk : k < d.dim) (u : Bool → Nat → R) :
    total (nv d) (colW d efl (fun nc cf k c => traction cf (c / nc) (c % nc) k) p k) u =
      p.wt * avgTraction d p u k := by
  have : ∀ I, ∑ r ∈ range (nv d I), u I r * colW d efl (fun nc cf k c => traction cf (c / nc) (c % nc) k) p k I r =
      p.wt / 2 * ∑ b ∈ range d.dim, stress d p I u k b * p.nor b := by
    intro I
    simp only [colW, nv]
    rw [sum_flat]
    have h1 : ∀ c, ∑ j ∈ range (nd d I), u I (c * nd d I + j) *
        traction (efl d.dim (p.wt / 2) p.nor (side p I)) ((c * nd d I + j) / nd d I) ((c * nd d I + j) % nd d I) k =
        p.wt / 2 * ((side p I).lam * p.nor k * grad d.dim (nd d I) (side p I) (comp d c u I) c
          + (if k = c then (side p I).mu * ∑ b ∈ range d.dim, grad d.dim (nd d I) (side p I) (comp d c u I) b * p.nor b
            else 0)
          + (side p I).mu * p.nor c * grad d.dim (nd d I) (side p I) (comp d c u I) k) := by
      intro c
      have : ∀ j ∈ range (nd d I), u I (c * nd d I + j) *
        traction (efl d.dim (p.wt / 2) p.nor (side p I)) ((c * nd d I + j) / nd d I) ((c * nd d I + j) % nd d I) k =
          p.wt / 2 * (side p I).lam * p.nor k *
              (comp d c u I j * mulMat d.dim (side p I).dshape (side p I).adj j c / (side p I).det)
            + (if k = c then comp d c u I j * mulVec d.dim (mulMat d.dim (side p I).dshape (side p I).adj)
                (fun b => p.wt / 2 / (side p I).det * (side p I).mu * p.nor b) j else 0)
            + p.wt / 2 * (side p I).mu * p.nor c *
              (comp d c u I j * mulMat d.dim (side p I).dshape (side p I).adj j k / (side p I).det) := by
        intro j hj
        rw [(unflat (d := c) (mem_range.1 hj)).1, (unflat (d := c) (mem_range.1 hj)).2]
        simp only [traction, efl, comp, div_eq_mul_inv]
        by_cases h : k = c
        · simp only [h, if_true]; ring
        · simp only [h, if_false]; ring
      rw [sum_congr rfl this, sum_add_distrib, sum_add_distrib, ← mul_sum, ← mul_sum, ← sum_div, ← sum_div,
        ← grad_eq, ← grad_eq]
      by_cases h : k = c
      · simp only [h, if_true]
        rw [sum_dnM]
        ring
      · simp only [h, if_false, sum_const_zero]
        ring
    rw [sum_congr rfl fun c _ => h1 c, ← mul_sum]
    congr 1
    simp only [sum_add_distrib, stress, add_mul, mul_add, ite_mul, zero_mul, sum_ite_eq, mem_range, hk, if_true]
    have a1 : ∑ x ∈ range d.dim, (side p I).lam * p.nor k * grad d.dim (nd d I) (side p I) (comp d x u I) x =
        ((side p I).lam * ∑ x ∈ range d.dim, grad d.dim (nd d I) (side p I) (comp d x u I) x) * p.nor k := by
      rw [mul_sum, sum_mul]
      exact sum_congr rfl fun x _ => by ring
    rw [a1, add_assoc]
    congr 1
    rw [mul_sum]
    congr 1
    · exact sum_congr rfl fun x _ => by ring
    · exact sum_congr rfl fun x _ => by ring
  simp only [total, this, Fintype.sum_bool, avgTraction]
  ring

omit [DecidableEq R] in
theorem jcoef_el (d : Dims) (kappa : R) (p : Pt R) :
    jcoef d kappa efl p = p.wt * (kappa * elPenalty d p) := by
  simp only [jcoef, efl, dot_eq, elPenalty]
  simp only [div_eq_mul_inv]
  ring

theorem elasticity_ok {d : Dims} {alpha kappa : R} {pts : List (Pt R)} (hp : Regular pts) :
    ∃ m, elasticity d alpha kappa pts = .ok m ∧ Sized m (nv d) (nv d) ∧
      ∀ v u, pairing (nv d) (nv d) (fun I J => (blk m I J).val) v u = elForm d alpha kappa pts v u := by
  obtain ⟨m, e, hm, _, v⟩ := vec_ok (alpha := alpha) (kappa := kappa) (d := d) elFlux_eq elBlock_ok hp
  refine ⟨m, e, hm, fun v' u => ?_⟩
  rw [v]
  simp only [elForm]
  refine congrArg _ (List.map_congr_left fun p _ => ?_)
  rw [mul_sum]
  refine sum_congr rfl fun k hk => ?_
  rw [total_el d p (mem_range.1 hk), total_el d p (mem_range.1 hk), jcoef_el]
  ring

/-! ## The single-mesh version -/

omit [DecidableEq R] in
theorem sum_pair {α : Type} (l : List α) (f g : α → Nat → Nat → R) (a b : Nat) :
    (l.map fun p => (f p, g p)).sum.1 a b = (l.map fun p => f p a b).sum ∧
    (l.map fun p => (f p, g p)).sum.2 a b = (l.map fun p => g p a b).sum := by
  induction l with
  | nil => exact ⟨rfl, rfl⟩
  | cons p l ih =>
    simp only [List.map_cons, List.sum_cons, ← ih.1, ← ih.2]
    exact ⟨rfl, rfl⟩

omit [DecidableEq R] in
theorem overPair_ok {pts : List (Pt R)} {body : Pt R → Blk R × Blk R → Outcome (Blk R × Blk R)}
    (S : Blk R × Blk R → Prop) (hS : ∀ x y : Blk R × Blk R, y.1.h = x.1.h → y.1.w = x.1.w → y.2.h = x.2.h → y.2.w = x.2.w →
      S x → S y) (tE tJ : Pt R → Nat → Nat → R)
    (hs : ∀ p ∈ pts, ∀ x, S x → ∃ y, body p x = .ok y ∧ Added x.1 y.1 (tE p) ∧ Added x.2 y.2 (tJ p))
    {x : Blk R × Blk R} (hx : S x) :
    ∃ y, overPts pts body x = .ok y ∧ S y ∧
      (∀ a b, y.1.val a b = x.1.val a b + (pts.map fun p => tE p a b).sum) ∧
      (∀ a b, y.2.val a b = x.2.val a b + (pts.map fun p => tJ p a b).sum) := by
  obtain ⟨y, e, h1, h2⟩ := loop_acc (n := pts.length)
    (body := fun k s => do let p ← rd pts k; body p s)
    S (fun x => (x.1.val, x.2.val))
    (fun k => (pts[k]?).elim 0 (fun p => (tE p, tJ p))) (s := x) hx (by
      intro k x hk hx
      obtain ⟨y, e, a, a'⟩ := hs pts[k] (List.getElem_mem hk) x hx
      refine ⟨y, ?_, hS x y a.1 a.2.1 a'.1 a'.2.1 hx, ?_⟩
      · rw [rd_eq_ok.2 (List.getElem?_eq_getElem hk), ok_bind, e]
      · rw [List.getElem?_eq_getElem hk]
        exact Prod.ext a.2.2 a'.2.2)
  rw [sum_getElem] at h2
  refine ⟨y, e, h1, fun a b => ?_, fun a b => ?_⟩
  · have := congrFun (congrFun (congrArg Prod.fst h2) a) b
    simp only at this
    rw [this, ← (sum_pair pts tE tJ a b).1]
    rfl
  · have := congrFun (congrFun (congrArg Prod.snd h2) a) b
    simp only at this
    rw [this, ← (sum_pair pts tE tJ a b).2]
    rfl

/-- What `faceBlock` adds to `elmat`. -/
def fE (dim nr nc ro co : Nat) (rs : Nat → R) (cf : Flux R) (a b : Nat) : R :=
  if co ≤ b ∧ b < co + dim * nc then
    if ro + (b - co) / nc * nr ≤ a ∧ a < ro + (b - co) / nc * nr + nr then
      rs (a - (ro + (b - co) / nc * nr)) * cf.dnM ((b - co) % nc) else 0
  else 0

/-- What `faceBlock` adds to `jmat`. -/
def fJ (dim nr nc ro co : Nat) (jc : R) (rs cs : Nat → R) (a b : Nat) : R :=
  if co ≤ b ∧ b < co + dim * nc then
    if max (ro + (b - co) / nc * nr) b ≤ a ∧ a < ro + (b - co) / nc * nr + nr then
      rs (a - (ro + (b - co) / nc * nr)) * (jc * cs ((b - co) % nc)) else 0
  else 0

theorem faceBlock_ok {dim nr nc ro co : Nat} (jc : R) (rs cs : Nat → R) (cf : Flux R) {x : Blk R × Blk R}
    (h1 : ro + dim * nr ≤ x.1.h) (h2 : co + dim * nc ≤ x.1.w)
    (h3 : jc ≠ 0 → ro + dim * nr ≤ x.2.h) (h4 : jc ≠ 0 → co + dim * nc ≤ x.2.w) :
    ∃ y, faceBlock dim nr nc ro co jc rs cs cf x = .ok y ∧ Added x.1 y.1 (fE dim nr nc ro co rs cf) ∧
      Added x.2 y.2 (fJ dim nr nc ro co jc rs cs) := by
  obtain ⟨y1, e1, a1⟩ := addDiag_ok (fun id jd => rs id * cf.dnM jd) h1 h2
  obtain ⟨y2, e2, a2⟩ := addPenFace_ok jc rs cs h3 h4
  exact ⟨(y1, y2), by rw [faceBlock, e1, ok_bind, e2, ok_bind], a1, a2⟩

theorem mul_step {q dim n : Nat} (h : q < dim) : q * n + n ≤ dim * n := by
  have := Nat.mul_le_mul_right n (show q + 1 ≤ dim by omega)
  rwa [Nat.add_mul, Nat.one_mul] at this

omit [DecidableEq R] in
theorem fE_in {dim nr nc ro co r c : Nat} (rs : Nat → R) (cf : Flux R) (hr : r < dim * nr) (hc : c < dim * nc) :
    fE dim nr nc ro co rs cf (ro + r) (co + c) = bE dim nr rs (fun k => pick nc k cf.dnM) r c := by
  have hn : 0 < nr := by rcases Nat.eq_zero_or_pos nr with rfl | h'; · simp at hr
                         exact h'
  rw [fE, if_pos (by omega), Nat.add_sub_cancel_left, bE, sum_pick hr]
  by_cases h : r / nr = c / nc
  · have := (near hn).2 h
    rw [if_pos (by omega), if_pos h.symm, show ro + r - (ro + c / nc * nr) = r - c / nc * nr by omega, near_mod h]
  · rw [if_neg (fun h' => h ((near hn).1 (by omega))), if_neg (fun h' => h h'.symm)]

omit [DecidableEq R] in
theorem fE_out {dim nr nc ro co a b : Nat} (rs : Nat → R) (cf : Flux R)
    (h : (a < ro ∨ ro + dim * nr ≤ a) ∨ (b < co ∨ co + dim * nc ≤ b)) :
    fE dim nr nc ro co rs cf a b = 0 := by
  rw [fE]
  by_cases hb : co ≤ b ∧ b < co + dim * nc
  · have h1 := (flat_of_lt (a := b - co) (n := nc) (dim := dim) (by omega)).1
    have h2 := mul_step (n := nr) h1
    rw [if_pos hb, if_neg (by omega)]
  · rw [if_neg hb]

omit [DecidableEq R] in
theorem fJ_in {dim nr nc ro co r c : Nat} (jc : R) (rs cs : Nat → R) (hr : r < dim * nr) (hc : c < dim * nc)
    (hle : co + c ≤ ro + r) :
    fJ dim nr nc ro co jc rs cs (ro + r) (co + c) = ∑ k ∈ range dim, jc * pick nr k rs r * pick nc k cs c := by
  have hn : 0 < nr := by rcases Nat.eq_zero_or_pos nr with rfl | h'; · simp at hr
                         exact h'
  have : ∀ k, jc * pick nr k rs r * pick nc k cs c = jc * (pick nr k rs r * pick nc k cs c) := fun k => by ring
  simp only [this]
  rw [← mul_sum, sum_pick hr, fJ, if_pos (by omega), Nat.add_sub_cancel_left]
  by_cases h : r / nr = c / nc
  · have := (near hn).2 h
    rw [if_pos (by omega), if_pos h.symm, show ro + r - (ro + c / nc * nr) = r - c / nc * nr by omega, near_mod h]
    ring
  · rw [if_neg (fun h' => h ((near hn).1 (by omega))), if_neg (fun h' => h h'.symm), mul_zero]

omit [DecidableEq R] in
theorem fJ_out {dim nr nc ro co a b : Nat} (jc : R) (rs cs : Nat → R)
    (h : (a < ro ∨ ro + dim * nr ≤ a) ∨ (b < co ∨ co + dim * nc ≤ b)) :
    fJ dim nr nc ro co jc rs cs a b = 0 := by
  rw [fJ]
  by_cases hb : co ≤ b ∧ b < co + dim * nc
  · have h1 := (flat_of_lt (a := b - co) (n := nc) (dim := dim) (by omega)).1
    have h2 := mul_step (n := nr) h1
    rw [if_pos hb, if_neg (by omega)]
  · rw [if_neg hb]

/-- Sizes of the single matrices. -/
def FSized (kappa : R) (n : Nat) (x : Blk R × Blk R) : Prop :=
  (x.1.h = n ∧ x.1.w = n) ∧ (kappa ≠ 0 → x.2.h = n ∧ x.2.w = n)

omit [DecidableEq R] in
theorem FSized.mono {kappa : R} {n : Nat} (x y : Blk R × Blk R) (h1 : y.1.h = x.1.h) (h2 : y.1.w = x.1.w)
    (h3 : y.2.h = x.2.h) (h4 : y.2.w = x.2.w) (h : FSized kappa n x) : FSized kappa n y :=
  ⟨⟨h1.trans h.1.1, h2.trans h.1.2⟩, fun hk => ⟨h3.trans (h.2 hk).1, h4.trans (h.2 hk).2⟩⟩

/-- What a point of the single-mesh integrator adds to `elmat`. -/
def ptE (d : Dims) (p : Pt R) : Nat → Nat → R :=
  let f := fun I J => fE d.dim (nd d I) (nd d J) (roff d I) (roff d J) (tau p I) (vfl d.dim (p.wt / 2) p.nor (side p J))
  f false false + (f false true + f true false + f true true)

/-- What a point of the single-mesh integrator adds to `jmat`. -/
def ptJ (d : Dims) (kappa : R) (p : Pt R) : Nat → Nat → R :=
  let f := fun I J => fJ d.dim (nd d I) (nd d J) (roff d I) (roff d J) (jcoef d kappa vfl p) (tau p I) (tau p J)
  f false false + (f false true + f true false + f true true)

theorem facePt_ok {d : Dims} {kappa : R} {p : Pt R} (hn : d.n2 ≠ 0) (hp : p.s1.det ≠ 0 ∧ p.s2.det ≠ 0)
    {x : Blk R × Blk R} (hx : FSized kappa (d.dim * (d.n1 + d.n2)) x) :
    ∃ y, facePt d kappa p x = .ok y ∧ Added x.1 y.1 (ptE d p) ∧ Added x.2 y.2 (ptJ d kappa p) := by
  have hj : jcoef d kappa vfl p ≠ 0 → kappa ≠ 0 := fun h hk => h (by simp [jcoef, hk])
  have hd : d.dim * (d.n1 + d.n2) = d.dim * d.n1 + d.dim * d.n2 := Nat.mul_add _ _ _
  rw [hd] at hx
  obtain ⟨y0, e0, a0, b0⟩ := faceBlock_ok (dim := d.dim) (nr := d.n1) (nc := d.n1) (ro := 0) (co := 0)
    (jcoef d kappa vfl p) p.s1.shape p.s1.shape (vfl d.dim (p.wt / 2) p.nor p.s1) (x := x)
    (by have := hx.1; omega) (by have := hx.1; omega) (fun h => by have := hx.2 (hj h); omega)
    (fun h => by have := hx.2 (hj h); omega)
  have hx0 := hx.mono _ y0 a0.1 a0.2.1 b0.1 b0.2.1
  obtain ⟨y1, e1, a1, b1⟩ := faceBlock_ok (dim := d.dim) (nr := d.n1) (nc := d.n2) (ro := 0) (co := d.dim * d.n1)
    (jcoef d kappa vfl p) p.s1.shape (fun i => -p.s2.shape i) (vfl d.dim (p.wt / 2) p.nor p.s2) (x := y0)
    (by have := hx0.1; omega) (by have := hx0.1; omega) (fun h => by have := hx0.2 (hj h); omega)
    (fun h => by have := hx0.2 (hj h); omega)
  have hx1 := hx0.mono _ y1 a1.1 a1.2.1 b1.1 b1.2.1
  obtain ⟨y2, e2, a2, b2⟩ := faceBlock_ok (dim := d.dim) (nr := d.n2) (nc := d.n1) (ro := d.dim * d.n1) (co := 0)
    (jcoef d kappa vfl p) (fun i => -p.s2.shape i) p.s1.shape (vfl d.dim (p.wt / 2) p.nor p.s1) (x := y1)
    (by have := hx1.1; omega) (by have := hx1.1; omega) (fun h => by have := hx1.2 (hj h); omega)
    (fun h => by have := hx1.2 (hj h); omega)
  have hx2 := hx1.mono _ y2 a2.1 a2.2.1 b2.1 b2.2.1
  obtain ⟨y3, e3, a3, b3⟩ := faceBlock_ok (dim := d.dim) (nr := d.n2) (nc := d.n2) (ro := d.dim * d.n1)
    (co := d.dim * d.n1)
    (jcoef d kappa vfl p) (fun i => -p.s2.shape i) (fun i => -p.s2.shape i) (vfl d.dim (p.wt / 2) p.nor p.s2) (x := y2)
    (by have := hx2.1; omega) (by have := hx2.1; omega) (fun h => by have := hx2.2 (hj h); omega)
    (fun h => by have := hx2.2 (hj h); omega)
  refine ⟨y3, ?_, a0.trans ((a1.trans a2).trans a3), b0.trans ((b1.trans b2).trans b3)⟩
  simp only [facePt, if_neg hn, vecFlux_eq _ _ _ _ hp.1, vecFlux_eq _ _ _ _ hp.2, ok_bind]
  simp only [jcoef] at e0 e1 e2 e3
  simp only [e0, ok_bind, facePt2, e1, e2, e3]

omit [DecidableEq R] in
theorem ptE_eq {d : Dims} {p : Pt R} {I J : Bool} {r c : Nat} (hr : r < nv d I) (hc : c < nv d J) :
    ptE d p (roff d I + r) (roff d J + c) =
      ∑ k ∈ range d.dim, rowW d p k I r * colW d vfl (fun nc cf k => pick nc k cf.dnM) p k J c := by
  have key := fE_in (ro := roff d I) (co := roff d J) (tau p I) (vfl d.dim (p.wt / 2) p.nor (side p J)) hr hc
  have out : ∀ I' J', (I', J') ≠ (I, J) →
      fE d.dim (nd d I') (nd d J') (roff d I') (roff d J') (tau p I') (vfl d.dim (p.wt / 2) p.nor (side p J'))
        (roff d I + r) (roff d J + c) = 0 := by
    intro I' J' hne
    refine fE_out _ _ ?_
    cases I <;> cases I' <;> cases J <;> cases J' <;> simp only [roff, nd, nv] at * <;>
      first | omega | (exact absurd rfl hne)
  simp only [ptE, Pi.add_apply]
  cases I <;> cases J
  · rw [key, out false true (by simp), out true false (by simp), out true true (by simp)]; simp only [add_zero]; rfl
  · rw [key, out false false (by simp), out true false (by simp), out true true (by simp)]; simp only [add_zero, zero_add]; rfl
  · rw [key, out false true (by simp), out false false (by simp), out true true (by simp)]; simp only [add_zero, zero_add]; rfl
  · rw [key, out false true (by simp), out true false (by simp), out false false (by simp)]; simp only [add_zero, zero_add]; rfl

omit [DecidableEq R] in
theorem ptJ_eq {d : Dims} {kappa : R} {p : Pt R} {I J : Bool} {r c : Nat} (hr : r < nv d I) (hc : c < nv d J)
    (hle : roff d J + c ≤ roff d I + r) :
    ptJ d kappa p (roff d I + r) (roff d J + c) =
      ∑ k ∈ range d.dim, jcoef d kappa vfl p * rowW d p k I r * rowW d p k J c := by
  have key := fJ_in (jcoef d kappa vfl p) (tau p I) (tau p J) hr hc hle
  have out : ∀ I' J', (I', J') ≠ (I, J) →
      fJ d.dim (nd d I') (nd d J') (roff d I') (roff d J') (jcoef d kappa vfl p) (tau p I') (tau p J')
        (roff d I + r) (roff d J + c) = 0 := by
    intro I' J' hne
    refine fJ_out _ _ _ ?_
    clear key
    cases I <;> cases I' <;> cases J <;> cases J' <;> simp only [roff, nd, nv] at * <;>
      first | omega | (exact absurd rfl hne)
  simp only [ptJ, Pi.add_apply]
  cases I <;> cases J
  · rw [key, out false true (by simp), out true false (by simp), out true true (by simp)]; simp only [add_zero]; rfl
  · rw [key, out false false (by simp), out true false (by simp), out true true (by simp)]; simp only [add_zero, zero_add]; rfl
  · rw [key, out false true (by simp), out false false (by simp), out true true (by simp)]; simp only [add_zero, zero_add]; rfl
  · rw [key, out false true (by simp), out true false (by simp), out false false (by simp)]; simp only [add_zero, zero_add]; rfl

theorem start_fsized (kappa : R) (n : Nat) :
    FSized kappa n (zeros n n, if kappa = 0 then nullMat else zeros n n) :=
  ⟨⟨rfl, rfl⟩, fun hk => by rw [if_neg hk]; exact ⟨rfl, rfl⟩⟩

/-- From what the points add to the entries of the single-mesh matrix. -/
theorem square_ok {kappa alpha : R} {n : Nat} {pts : List (Pt R)} {body : Pt R → Blk R × Blk R → Outcome (Blk R × Blk R)}
    (tE tJ : Pt R → Nat → Nat → R)
    (hs : ∀ p ∈ pts, ∀ x, FSized kappa n x → ∃ y, body p x = .ok y ∧ Added x.1 y.1 (tE p) ∧ Added x.2 y.2 (tJ p)) :
    ∃ E, (do
        let x ← overPts pts body (zeros n n, if kappa = 0 then nullMat else zeros n n)
        finishSquare (decide (kappa ≠ 0)) alpha n x.2 x.1) = .ok E ∧ E.h = n ∧ E.w = n ∧
      ∀ a b, a < n → b < n → E.val a b = alpha * (pts.map fun p => tE p b a).sum - (pts.map fun p => tE p a b).sum
        + if kappa = 0 then 0 else (pts.map fun p => tJ p (max a b) (min a b)).sum := by
  obtain ⟨y, e, hy, vE, vJ⟩ := overPair_ok (FSized kappa n) (fun x y => FSized.mono x y) tE tJ hs (start_fsized kappa n)
  obtain ⟨E, e', h1, h2, v⟩ := finishSquare_ok (withJ := decide (kappa ≠ 0)) (sigma := alpha) (jm := y.2) hy.1.1 hy.1.2
    (fun h => hy.2 (of_decide_eq_true h))
  refine ⟨E, by rw [e, ok_bind, e'], h1, h2, fun a b ha hb => ?_⟩
  rw [v a b ha hb, vE, vE]
  by_cases hk : kappa = 0
  · simp [pen, hk, zeros]
  · simp [pen, hk, zeros, vJ]

theorem vecFace_ok {d : Dims} {alpha kappa : R} {pts : List (Pt R)} (hn : d.n2 ≠ 0) (hp : Regular pts) :
    ∃ E, vecFace d alpha kappa pts = .ok E ∧ E.h = nv d false + nv d true ∧ E.w = nv d false + nv d true ∧
      ∀ I J r c, r < nv d I → c < nv d J → E.val (roff d I + r) (roff d J + c) =
        (pts.map fun p => alpha * (∑ k ∈ range d.dim, rowW d p k J c *
            colW d vfl (fun nc cf k => pick nc k cf.dnM) p k I r)
          - ∑ k ∈ range d.dim, rowW d p k I r * colW d vfl (fun nc cf k => pick nc k cf.dnM) p k J c
          + ∑ k ∈ range d.dim, jcoef d kappa vfl p * rowW d p k I r * rowW d p k J c).sum := by
  obtain ⟨E, e, h1, h2, v⟩ := square_ok (alpha := alpha) (ptE d) (ptJ d kappa)
    (fun p hp' x hx => facePt_ok hn (hp p hp') hx)
  have hd : d.dim * (d.n1 + d.n2) = nv d false + nv d true := Nat.mul_add _ _ _
  refine ⟨E, e, h1.trans hd, h2.trans hd, ?_⟩
  intro I J r c hr hc
  have bd : ∀ {I r}, r < nv d I → roff d I + r < d.dim * (d.n1 + d.n2) := by
    intro I r h
    rw [hd]
    cases I <;> simp only [roff, nv, nd] at * <;> omega
  rw [v _ _ (bd hr) (bd hc)]
  have e1 : (pts.map fun p => ptE d p (roff d J + c) (roff d I + r)).sum = _ :=
    congrArg List.sum (List.map_congr_left fun p _ => ptE_eq hc hr)
  have e2 : (pts.map fun p => ptE d p (roff d I + r) (roff d J + c)).sum = _ :=
    congrArg List.sum (List.map_congr_left fun p _ => ptE_eq hr hc)
  have e3 : (if kappa = 0 then 0 else
      (pts.map fun p => ptJ d kappa p (max (roff d I + r) (roff d J + c)) (min (roff d I + r) (roff d J + c))).sum) =
      (pts.map fun p => ∑ k ∈ range d.dim, jcoef d kappa vfl p * rowW d p k I r * rowW d p k J c).sum := by
    by_cases hk : kappa = 0
    · rw [if_pos hk]
      symm
      refine List.sum_eq_zero fun y hy => ?_
      obtain ⟨p, _, rfl⟩ := List.mem_map.1 hy
      simp [jcoef, hk]
    · rw [if_neg hk]
      refine congrArg List.sum (List.map_congr_left fun p _ => ?_)
      rcases Nat.le_total (roff d J + c) (roff d I + r) with h | h
      · rw [Nat.max_eq_left h, Nat.min_eq_right h, ptJ_eq hr hc h]
      · rw [Nat.max_eq_right h, Nat.min_eq_left h, ptJ_eq hc hr h]
        exact sum_congr rfl fun k _ => by ring
  rw [e1, e2, e3]
  clear * -
  induction pts with
  | nil => simp
  | cons p pts ih =>
    simp only [List.map_cons, List.sum_cons, ← ih]
    ring

/-- The boundary face. -/
theorem vecBdr_ok {d : Dims} {alpha kappa : R} {pts : List (Pt R)} (hn : d.n2 = 0) (hp : ∀ p ∈ pts, p.s1.det ≠ 0) :
    ∃ E, vecFace d alpha kappa pts = .ok E ∧ E.h = d.dim * d.n1 ∧ E.w = d.dim * d.n1 ∧
      ∀ v u : Nat → R, ∑ r ∈ range (d.dim * d.n1), ∑ c ∈ range (d.dim * d.n1), v r * E.val r c * u c =
        bdrForm d alpha kappa pts v u := by
  have hd : d.dim * (d.n1 + d.n2) = d.dim * d.n1 := by rw [hn, Nat.add_zero]
  obtain ⟨E, e, h1, h2, v⟩ := square_ok (alpha := alpha) (kappa := kappa) (n := d.dim * d.n1) (pts := pts)
    (body := facePt d kappa)
    (fun p => fE d.dim d.n1 d.n1 0 0 p.s1.shape (vfl d.dim p.wt p.nor p.s1))
    (fun p => fJ d.dim d.n1 d.n1 0 0 (kappa * dot d.dim p.nor p.nor * (vfl d.dim p.wt p.nor p.s1).wLM)
      p.s1.shape p.s1.shape)
    (fun p hp' x hx => by
      obtain ⟨y, e, a, b⟩ := faceBlock_ok (dim := d.dim) (nr := d.n1) (nc := d.n1) (ro := 0) (co := 0)
        (kappa * dot d.dim p.nor p.nor * (vfl d.dim p.wt p.nor p.s1).wLM)
        p.s1.shape p.s1.shape (vfl d.dim p.wt p.nor p.s1) (x := x)
        (by have := hx.1; omega) (by have := hx.1; omega)
        (fun h => by have := hx.2 (fun hk => h (by simp [hk])); omega)
        (fun h => by have := hx.2 (fun hk => h (by simp [hk])); omega)
      refine ⟨y, ?_, a, b⟩
      simp only [facePt, if_pos hn, vecFlux_eq _ _ _ _ (hp p hp'), ok_bind, zero_add]
      exact e)
  refine ⟨E, by rw [vecFace, hd]; exact e, h1, h2, fun v' u => ?_⟩
  let h : Bool → Nat := fun I => if I then 0 else d.dim * d.n1
  have hsum : ∑ r ∈ range (d.dim * d.n1), ∑ c ∈ range (d.dim * d.n1), v' r * E.val r c * u c =
      pairing h h (fun _ _ => E.val) (fun _ => v') (fun _ => u) := by
    simp [pairing, h]
  let m := fun p : Pt R => kappa * dot d.dim p.nor p.nor * (vfl d.dim p.wt p.nor p.s1).wLM
  have key : ∀ I J : Bool, ∀ r c, r < h I → c < h J → E.val r c =
      (pts.map fun p => alpha * (∑ k ∈ range d.dim, pick d.n1 k p.s1.shape c *
            pick d.n1 k (vfl d.dim p.wt p.nor p.s1).dnM r)
          - ∑ k ∈ range d.dim, pick d.n1 k p.s1.shape r * pick d.n1 k (vfl d.dim p.wt p.nor p.s1).dnM c
          + ∑ k ∈ range d.dim, m p * pick d.n1 k p.s1.shape r * pick d.n1 k p.s1.shape c).sum := by
    intro I J r c hr hc
    have hI : ∀ {I : Bool} {r : Nat}, r < h I → r < d.dim * d.n1 := by
      intro I r hr
      cases I <;> simp [h] at hr
      exact hr
    have hr := hI hr
    have hc := hI hc
    rw [v r c hr hc]
    have e1 : ∀ {a b}, a < d.dim * d.n1 → b < d.dim * d.n1 →
        (pts.map fun p => fE d.dim d.n1 d.n1 0 0 p.s1.shape (vfl d.dim p.wt p.nor p.s1) a b).sum =
        (pts.map fun p => ∑ k ∈ range d.dim, pick d.n1 k p.s1.shape a *
          pick d.n1 k (vfl d.dim p.wt p.nor p.s1).dnM b).sum := by
      intro a b ha hb
      refine congrArg List.sum (List.map_congr_left fun p _ => ?_)
      have := fE_in (ro := 0) (co := 0) p.s1.shape (vfl d.dim p.wt p.nor p.s1) ha hb
      simp only [zero_add] at this
      exact this
    have e3 : (if kappa = 0 then 0 else (pts.map fun p => fJ d.dim d.n1 d.n1 0 0 (m p) p.s1.shape p.s1.shape
        (max r c) (min r c)).sum) =
        (pts.map fun p => ∑ k ∈ range d.dim, m p * pick d.n1 k p.s1.shape r * pick d.n1 k p.s1.shape c).sum := by
      by_cases hk : kappa = 0
      · rw [if_pos hk]
        symm
        refine List.sum_eq_zero fun y hy => ?_
        obtain ⟨p, _, rfl⟩ := List.mem_map.1 hy
        simp [m, hk]
      · rw [if_neg hk]
        refine congrArg List.sum (List.map_congr_left fun p _ => ?_)
        rcases Nat.le_total c r with h' | h'
        · rw [Nat.max_eq_left h', Nat.min_eq_right h']
          have := fJ_in (ro := 0) (co := 0) (m p) p.s1.shape p.s1.shape hr hc (by omega)
          simpa only [zero_add] using this
        · rw [Nat.max_eq_right h', Nat.min_eq_left h']
          have := fJ_in (ro := 0) (co := 0) (m p) p.s1.shape p.s1.shape hc hr (by omega)
          simp only [zero_add] at this
          rw [this]
          exact sum_congr rfl fun k _ => by ring
    rw [e1 hc hr, e1 hr hc, e3]
    clear * -
    induction pts with
    | nil => simp
    | cons p pts ih =>
      simp only [List.map_cons, List.sum_cons, ← ih]
      ring
  rw [hsum, pairing_congr key, pairing_list, bdrForm, ← sum_list_comm]
  refine congrArg _ (List.map_congr_left fun p _ => ?_)
  rw [pairing_rank (h := h) d.dim alpha (m p) (fun k _ => pick d.n1 k p.s1.shape)
    (fun k _ => pick d.n1 k (vfl d.dim p.wt p.nor p.s1).dnM)]
  refine sum_congr rfl fun k hk => ?_
  have t1 : ∀ (f w : Nat → R), total h (fun _ => pick d.n1 k f) (fun _ => w) =
      ∑ j ∈ range d.n1, w (k * d.n1 + j) * f j := by
    intro f w
    simp only [total, Fintype.sum_bool, h]
    simp only [if_true, range_zero, sum_empty, zero_add, Bool.false_eq_true, if_false]
    exact sum_pick_flat (mem_range.1 hk) f w
  simp only [t1]
  have t2 : ∀ w : Nat → R, ∑ j ∈ range d.n1, w (k * d.n1 + j) * (vfl d.dim p.wt p.nor p.s1).dnM j =
      p.wt * flux d (fun s => .scalar s.mu) p false (fun j => w (k * d.n1 + j)) := by
    intro w
    simp only [vfl]
    rw [sum_dnM d.dim d.n1 p.wt p.s1.mu p.nor (fun j => w (k * d.n1 + j)), flux, mul_assoc, mul_sum]
    congr 1
    exact sum_congr rfl fun a _ => by simp only [apply, side, nd]; ring
  have t3 : m p = p.wt * (kappa * ∑ a ∈ range d.dim, p.nor a * (p.s1.mu * p.nor a) / p.s1.det) := by
    have : ∑ a ∈ range d.dim, p.nor a * (p.s1.mu * p.nor a) / p.s1.det =
        p.s1.mu / p.s1.det * ∑ a ∈ range d.dim, p.nor a * p.nor a := by
      rw [mul_sum]
      exact sum_congr rfl fun a _ => by simp only [div_eq_mul_inv]; ring
    rw [this]
    simp only [m, vfl, dot_eq, div_eq_mul_inv]
    ring
  simp only [t2, t3, value]
  ring

/-! ## Normal flux -/

/-- What `addMixed` adds. -/
def mixT (dim nte ntr ro co : Nat) (f : Nat → Nat → Nat → R) (a b : Nat) : R :=
  if co ≤ b ∧ b < co + dim * ntr then
    if ro ≤ a ∧ a < ro + nte then f ((b - co) / ntr) (a - ro) ((b - co) % ntr) else 0
  else 0

/-- Test and trial functions on each side. -/
def teF (p : MPt R) : Bool → Nat → R
  | false => p.te1
  | true => p.te2

def trF (p : MPt R) : Bool → Nat → R
  | false => p.tr1
  | true => fun j => -p.tr2 j

/-- One entry of the normal flux block `(I, J)`. -/
def fluxE (d : MDims) (w : R) (p : MPt R) (I J : Bool) (r c : Nat) : R :=
  w * p.nor (c / trN d J) * teF p I r * trF p J (c % trN d J)

omit [DecidableEq R] in
theorem mixT_in {dim nte ntr ro co r c : Nat} (f : Nat → Nat → Nat → R) (hr : r < nte) (hc : c < dim * ntr) :
    mixT dim nte ntr ro co f (ro + r) (co + c) = f (c / ntr) r (c % ntr) := by
  rw [mixT, if_pos (by omega), if_pos (by omega), Nat.add_sub_cancel_left, Nat.add_sub_cancel_left]

omit [DecidableEq R] in
theorem mixT_out {dim nte ntr ro co a b : Nat} (f : Nat → Nat → Nat → R)
    (h : (a < ro ∨ ro + nte ≤ a) ∨ (b < co ∨ co + dim * ntr ≤ b)) : mixT dim nte ntr ro co f a b = 0 := by
  rw [mixT]
  by_cases hb : co ≤ b ∧ b < co + dim * ntr
  · rw [if_pos hb, if_neg (by omega)]
  · rw [if_neg hb]

omit [DecidableEq R] in
theorem neg_flux (w n a b : R) : -(w * n * a * b) = w * n * a * -b := by ring

omit [DecidableEq R] in
theorem normalFlux_ok (d : MDims) (pts : List (MPt R)) :
    ∃ m, normalFlux d pts = .ok m ∧ Sized m (teN d) (tw d) ∧
      ∀ I J r c, r < teN d I → c < tw d J → (blk m I J).val r c =
        (pts.map fun p => fluxE d (p.wt * (1 / 2)) p I J r c).sum := by
  let t : MPt R → Bool → Bool → Nat → Nat → R := fun p I J =>
    mixT d.dim (teN d I) (trN d J) 0 0 (fun jm i j => p.wt * (1 / 2) * p.nor jm * teF p I i * trF p J j)
  obtain ⟨m, e, h1, h2⟩ := loop_acc (n := pts.length)
    (body := fun k e => do let p ← rd pts k; fluxPt d p e)
    (fun m => Sized m (teN d) (tw d)) (fun m I J => (blk m I J).val)
    (fun k => (pts[k]?).elim 0 t)
    (s := { a00 := zeros d.te1 (d.dim * d.tr1), a01 := zeros d.te1 (d.dim * d.tr2)
            a10 := zeros d.te2 (d.dim * d.tr1), a11 := zeros d.te2 (d.dim * d.tr2) })
    (by intro I J; cases I <;> cases J <;> exact ⟨rfl, rfl⟩) (by
      intro k x hk hx
      let p := pts[k]
      have s00 := hx false false
      have s01 := hx false true
      have s10 := hx true false
      have s11 := hx true true
      simp only [blk, teN, tw, trN] at s00 s01 s10 s11
      obtain ⟨y00, e00, a00⟩ := addMixed_ok (dim := d.dim) (nte := d.te1) (ntr := d.tr1) (ro := 0) (co := 0)
        (fun jm i j => p.wt * (1 / 2) * p.nor jm * p.te1 i * p.tr1 j) (m := x.a00) (by omega) (by omega)
      obtain ⟨y10, e10, a10⟩ := addMixed_ok (dim := d.dim) (nte := d.te2) (ntr := d.tr1) (ro := 0) (co := 0)
        (fun jm i j => p.wt * (1 / 2) * p.nor jm * p.te2 i * p.tr1 j) (m := x.a10) (by omega) (by omega)
      obtain ⟨y11, e11, a11⟩ := addMixed_ok (dim := d.dim) (nte := d.te2) (ntr := d.tr2) (ro := 0) (co := 0)
        (fun jm i j => -(p.wt * (1 / 2) * p.nor jm * p.te2 i * p.tr2 j)) (m := x.a11) (by omega) (by omega)
      obtain ⟨y01, e01, a01⟩ := addMixed_ok (dim := d.dim) (nte := d.te1) (ntr := d.tr2) (ro := 0) (co := 0)
        (fun jm i j => -(p.wt * (1 / 2) * p.nor jm * p.te1 i * p.tr2 j)) (m := x.a01) (by omega) (by omega)
      refine ⟨{ a00 := y00, a01 := y01, a10 := y10, a11 := y11 }, ?_, ?_, ?_⟩
      · rw [rd_eq_ok.2 (List.getElem?_eq_getElem hk), ok_bind]
        simp only [fluxPt]
        rw [e00, ok_bind, e10, ok_bind, e11, ok_bind, e01, ok_bind]
      · intro I J
        cases I <;> cases J
        · exact ⟨a00.1.trans s00.1, a00.2.1.trans s00.2⟩
        · exact ⟨a01.1.trans s01.1, a01.2.1.trans s01.2⟩
        · exact ⟨a10.1.trans s10.1, a10.2.1.trans s10.2⟩
        · exact ⟨a11.1.trans s11.1, a11.2.1.trans s11.2⟩
      · rw [List.getElem?_eq_getElem hk]
        funext I J
        cases I <;> cases J
        · exact a00.2.2
        · refine a01.2.2.trans ?_
          simp only [neg_flux]
          rfl
        · exact a10.2.2
        · refine a11.2.2.trans ?_
          simp only [neg_flux]
          rfl)
  rw [sum_getElem] at h2
  refine ⟨m, e, h1, fun I J r c hr hc => ?_⟩
  have h3 := congrFun (congrFun (congrFun (congrFun h2 I) J) r) c
  have h4 : ∀ l : List (MPt R), (l.map t).sum I J r c = (l.map fun p => t p I J r c).sum := by
    intro l
    induction l with
    | nil => rfl
    | cons p l ih => simp only [List.map_cons, List.sum_cons, ← ih]; rfl
  rw [show (blk m I J).val r c = _ from h3]
  simp only [Pi.add_apply, h4]
  rw [show (blk _ I J).val r c = (0 : R) by cases I <;> cases J <;> rfl, zero_add]
  refine congrArg List.sum (List.map_congr_left fun p _ => ?_)
  have := mixT_in (ro := 0) (co := 0)
    (fun jm i j => p.wt * (1 / 2) * p.nor jm * teF p I i * trF p J j) hr (c := c) hc
  simp only [zero_add] at this
  exact this

omit [DecidableEq R] in
/-- Sums of products of a row and a column weight. -/
theorem pairing_flux (d : MDims) (w : R) (p : MPt R) (q u : Bool → Nat → R) :
    pairing (teN d) (tw d) (fluxE d w p) q u =
      w * ((∑ I : Bool, ∑ r ∈ range (teN d I), q I r * teF p I r) *
        ∑ a ∈ range d.dim, p.nor a * ∑ J : Bool, ∑ j ∈ range (trN d J), u J (a * trN d J + j) * trF p J j) := by
  have h1 : ∑ a ∈ range d.dim, p.nor a * ∑ J : Bool, ∑ j ∈ range (trN d J), u J (a * trN d J + j) * trF p J j =
      ∑ J : Bool, ∑ c ∈ range (tw d J), p.nor (c / trN d J) * (u J c * trF p J (c % trN d J)) := by
    simp only [mul_sum]
    rw [sum_comm]
    refine sum_congr rfl fun J _ => ?_
    rw [tw, sum_flat]
    refine sum_congr rfl fun a _ => sum_congr rfl fun j hj => ?_
    rw [(unflat (d := a) (mem_range.1 hj)).1, (unflat (d := a) (mem_range.1 hj)).2]
  rw [h1]
  unfold pairing fluxE
  rw [sum_mul, mul_sum]
  refine sum_congr rfl fun I _ => ?_
  rw [sum_mul, mul_sum]
  refine sum_congr rfl fun r _ => ?_
  rw [mul_sum, mul_sum]
  refine sum_congr rfl fun J _ => ?_
  rw [mul_sum, mul_sum]
  refine sum_congr rfl fun c _ => ?_
  ring

omit [DecidableEq R] in
theorem sum_neg_shape (n : Nat) (f u : Nat → R) : ∑ j ∈ range n, u j * -f j = -value n f u := by
  simp [value]

theorem normalFlux_pairing (d : MDims) (pts : List (MPt R)) :
    ∃ m, normalFlux d pts = .ok m ∧ Sized m (teN d) (tw d) ∧
      ∀ q u, pairing (teN d) (tw d) (fun I J => (blk m I J).val) q u = fluxForm d pts q u := by
  obtain ⟨m, e, hm, v⟩ := normalFlux_ok d pts
  refine ⟨m, e, hm, fun q u => ?_⟩
  rw [pairing_congr v, pairing_list, fluxForm]
  refine congrArg _ (List.map_congr_left fun p _ => ?_)
  have := pairing_flux d (p.wt * (1 / 2)) p q u
  rw [show pairing (teN d) (tw d) (fun I J r c => fluxE d (p.wt * (1 / 2)) p I J r c) q u = _ from this]
  have e1 : ∀ a, ∑ J : Bool, ∑ j ∈ range (trN d J), u J (a * trN d J + j) * trF p J j =
      value d.tr1 p.tr1 (fun j => u false (a * d.tr1 + j)) - value d.tr2 p.tr2 (fun j => u true (a * d.tr2 + j)) := by
    intro a
    simp only [Fintype.sum_bool, trN, trF]
    rw [sum_neg_shape d.tr2 p.tr2 (fun j => u true (a * d.tr2 + j))]
    simp only [value]
    ring
  simp only [e1, Fintype.sum_bool, teN, teF]
  rw [show (∑ r ∈ range d.te2, q true r * p.te2 r) = value d.te2 p.te2 (q true) from rfl,
    show (∑ r ∈ range d.te1, q false r * p.te1 r) = value d.te1 p.te1 (q false) from rfl]
  simp only [div_eq_mul_inv]
  ring

omit [DecidableEq R] in
theorem fluxFace_ok {d : MDims} (hn : d.tr2 ≠ 0) (pts : List (MPt R)) :
    ∃ E, fluxFace d pts = .ok E ∧ E.h = d.te1 + d.te2 ∧ E.w = d.dim * d.tr1 + d.dim * d.tr2 ∧
      ∀ I J r c, r < teN d I → c < tw d J → E.val (teOff d I + r) (trOff d J + c) =
        (pts.map fun p => fluxE d (p.wt * (1 / 2)) p I J r c).sum := by
  let t : MPt R → Bool → Bool → Nat → Nat → R := fun p I J =>
    mixT d.dim (teN d I) (trN d J) (teOff d I) (trOff d J)
      (fun jm i j => p.wt * (1 / 2) * p.nor jm * teF p I i * trF p J j)
  let tt : MPt R → Nat → Nat → R := fun p => t p false false + (t p true false + (t p true true + t p false true))
  obtain ⟨E, e, ⟨h1, h1'⟩, h2⟩ := loop_acc (n := pts.length)
    (body := fun k e => do let p ← rd pts k; fluxFacePt d p e)
    (fun m => m.h = d.te1 + d.te2 ∧ m.w = d.dim * d.tr1 + d.dim * d.tr2) (fun m => m.val)
    (fun k => (pts[k]?).elim 0 tt) (s := zeros (d.te1 + d.te2) (d.dim * d.tr1 + d.dim * d.tr2)) ⟨rfl, rfl⟩ (by
      rintro k x hk ⟨hx, hx'⟩
      let p := pts[k]
      obtain ⟨y0, e0, a0⟩ := addMixed_ok (dim := d.dim) (nte := d.te1) (ntr := d.tr1) (ro := 0) (co := 0)
        (fun jm i j => p.wt * (1 / 2) * p.nor jm * p.te1 i * p.tr1 j) (m := x) (by omega) (by omega)
      have := a0.1; have := a0.2.1
      obtain ⟨y1, e1, a1⟩ := addMixed_ok (dim := d.dim) (nte := d.te2) (ntr := d.tr1) (ro := d.te1) (co := 0)
        (fun jm i j => p.wt * (1 / 2) * p.nor jm * p.te2 i * p.tr1 j) (m := y0) (by omega) (by omega)
      have := a1.1; have := a1.2.1
      obtain ⟨y2, e2, a2⟩ := addMixed_ok (dim := d.dim) (nte := d.te2) (ntr := d.tr2) (ro := d.te1) (co := d.dim * d.tr1)
        (fun jm i j => -(p.wt * (1 / 2) * p.nor jm * p.te2 i * p.tr2 j)) (m := y1) (by omega) (by omega)
      have := a2.1; have := a2.2.1
      obtain ⟨y3, e3, a3⟩ := addMixed_ok (dim := d.dim) (nte := d.te1) (ntr := d.tr2) (ro := 0) (co := d.dim * d.tr1)
        (fun jm i j => -(p.wt * (1 / 2) * p.nor jm * p.te1 i * p.tr2 j)) (m := y2) (by omega) (by omega)
      have := a3.1; have := a3.2.1
      refine ⟨y3, ?_, ⟨by omega, by omega⟩, ?_⟩
      · rw [rd_eq_ok.2 (List.getElem?_eq_getElem hk), ok_bind]
        simp only [fluxFacePt, if_neg hn]
        rw [e0, ok_bind]
        simp only [fluxFacePt2]
        rw [e1, ok_bind, e2, ok_bind, e3]
      · rw [List.getElem?_eq_getElem hk]
        refine (a0.trans (a1.trans (a2.trans a3))).2.2.trans ?_
        simp only [neg_flux]
        rfl)
  rw [sum_getElem] at h2
  refine ⟨E, e, h1, h1', fun I J r c hr hc => ?_⟩
  have h3 := congrFun (congrFun h2 (teOff d I + r)) (trOff d J + c)
  have h4 : ∀ (l : List (MPt R)) a b, (l.map tt).sum a b = (l.map fun p => tt p a b).sum := by
    intro l a b
    induction l with
    | nil => rfl
    | cons p l ih => simp only [List.map_cons, List.sum_cons, ← ih]; rfl
  rw [h3]
  simp only [Pi.add_apply, h4]
  rw [show (zeros (d.te1 + d.te2) (d.dim * d.tr1 + d.dim * d.tr2) : Blk R).val (teOff d I + r) (trOff d J + c) = 0 from rfl,
    zero_add]
  refine congrArg List.sum (List.map_congr_left fun p _ => ?_)
  have key : t p I J (teOff d I + r) (trOff d J + c) = fluxE d (p.wt * (1 / 2)) p I J r c := mixT_in _ hr hc
  have out : ∀ I' J', (I', J') ≠ (I, J) → t p I' J' (teOff d I + r) (trOff d J + c) = 0 := by
    intro I' J' hne
    refine mixT_out _ ?_
    clear key
    cases I <;> cases I' <;> cases J <;> cases J' <;> simp only [teOff, trOff, teN, trN, tw] at * <;>
      first | omega | (exact absurd rfl hne)
  simp only [tt, Pi.add_apply]
  cases I <;> cases J
  · rw [key, out false true (by simp), out true false (by simp), out true true (by simp)]; simp only [add_zero]
  · rw [key, out false false (by simp), out true false (by simp), out true true (by simp)]; simp only [zero_add]
  · rw [key, out false true (by simp), out false false (by simp), out true true (by simp)]; simp only [add_zero, zero_add]
  · rw [key, out false true (by simp), out true false (by simp), out false false (by simp)]; simp only [add_zero, zero_add]

omit [DecidableEq R] in
theorem fluxBdr_ok {d : MDims} (hn : d.tr2 = 0) (hn' : d.te2 = 0) (pts : List (MPt R)) :
    ∃ E, fluxFace d pts = .ok E ∧ E.h = d.te1 ∧ E.w = d.dim * d.tr1 ∧
      ∀ q u : Nat → R, ∑ r ∈ range d.te1, ∑ c ∈ range (d.dim * d.tr1), q r * E.val r c * u c = bdrFluxForm d pts q u := by
  let tt : MPt R → Nat → Nat → R := fun p => mixT d.dim d.te1 d.tr1 0 0
      (fun jm i j => p.wt * p.nor jm * p.te1 i * p.tr1 j)
  obtain ⟨E, e, ⟨h1, h1'⟩, h2⟩ := loop_acc (n := pts.length)
    (body := fun k e => do let p ← rd pts k; fluxFacePt d p e)
    (fun m => m.h = d.te1 + d.te2 ∧ m.w = d.dim * d.tr1 + d.dim * d.tr2) (fun m => m.val)
    (fun k => (pts[k]?).elim 0 tt) (s := zeros (d.te1 + d.te2) (d.dim * d.tr1 + d.dim * d.tr2)) ⟨rfl, rfl⟩ (by
      rintro k x hk ⟨hx, hx'⟩
      let p := pts[k]
      obtain ⟨y0, e0, a0⟩ := addMixed_ok (dim := d.dim) (nte := d.te1) (ntr := d.tr1) (ro := 0) (co := 0)
        (fun jm i j => p.wt * p.nor jm * p.te1 i * p.tr1 j) (m := x) (by omega) (by omega)
      have := a0.1; have := a0.2.1
      refine ⟨y0, ?_, ⟨by omega, by omega⟩, ?_⟩
      · rw [rd_eq_ok.2 (List.getElem?_eq_getElem hk), ok_bind]
        simp only [fluxFacePt, if_pos hn]
        rw [e0, ok_bind]
      · rw [List.getElem?_eq_getElem hk]
        exact a0.2.2)
  rw [sum_getElem] at h2
  refine ⟨E, e, by omega, by rw [h1', hn]; omega, fun q u => ?_⟩
  have h4 : ∀ (l : List (MPt R)) a b, (l.map tt).sum a b = (l.map fun p => tt p a b).sum := by
    intro l a b
    induction l with
    | nil => rfl
    | cons p l ih => simp only [List.map_cons, List.sum_cons, ← ih]; rfl
  have hv : ∀ r c, r < d.te1 → c < d.dim * d.tr1 → E.val r c =
      (pts.map fun p => p.wt * p.nor (c / d.tr1) * p.te1 r * p.tr1 (c % d.tr1)).sum := by
    intro r c hr hc
    have h3 := congrFun (congrFun h2 r) c
    rw [h3]
    simp only [Pi.add_apply, h4]
    rw [show (zeros (d.te1 + d.te2) (d.dim * d.tr1 + d.dim * d.tr2) : Blk R).val r c = 0 from rfl, zero_add]
    refine congrArg List.sum (List.map_congr_left fun p _ => ?_)
    have := mixT_in (ro := 0) (co := 0) (fun jm i j => p.wt * p.nor jm * p.te1 i * p.tr1 j) hr hc
    simpa only [zero_add] using this
  have h5 : ∑ r ∈ range d.te1, ∑ c ∈ range (d.dim * d.tr1), q r * E.val r c * u c =
      pairing (teN d) (tw d) (fun I J r c => (pts.map fun p => fluxE d p.wt p I J r c).sum) (fun _ => q) (fun _ => u) := by
    simp only [pairing, Fintype.sum_bool, teN, tw, trN, hn, hn', Nat.mul_zero, range_zero, sum_empty, zero_add]
    refine sum_congr rfl fun r hr => sum_congr rfl fun c hc => ?_
    rw [hv r c (mem_range.1 hr) (mem_range.1 hc)]
    rfl
  rw [h5, pairing_list, bdrFluxForm]
  refine congrArg _ (List.map_congr_left fun p _ => ?_)
  have := pairing_flux d p.wt p (fun _ => q) (fun _ => u)
  rw [show pairing (teN d) (tw d) (fun I J r c => fluxE d p.wt p I J r c) (fun _ => q) (fun _ => u) = _ from this]
  simp only [Fintype.sum_bool, teN, trN, hn, hn', range_zero, sum_empty, zero_add, teF, trF, value]

end Verif.Penalty
