import Verif.Spec.Blocks
import Verif.Proofs.Basic
import Verif.Proofs.Sampling
import Mathlib.Algebra.BigOperators.Group.List.Basic

/-! Helper lemmas about offsets and block vectors. -/

namespace Verif

theorem loopFrom_congr {σ : Type _} {f g : Nat → σ → Outcome σ} :
    ∀ (k i : Nat) (s : σ), (∀ j s, i ≤ j → j < i + k → f j s = g j s) →
      loopFrom f i k s = loopFrom g i k s
  | 0, _, _, _ => rfl
  | k + 1, i, s, h => by
    rw [loopFrom, loopFrom, h i s (Nat.le_refl _) (by omega)]
    cases g i s with
    | error e => rfl
    | ok s' => exact loopFrom_congr k (i + 1) s' (fun j s a b => h j s (by omega) (by omega))

theorem loop_congr {σ : Type _} {f g : Nat → σ → Outcome σ} {n : Nat} {s : σ}
    (h : ∀ j s, j < n → f j s = g j s) : loop n f s = loop n g s :=
  loopFrom_congr n 0 s (fun j s _ b => h j s (by omega))

/-- A loop writing distinct entries of a buffer. -/
theorem loop_fill {α : Type _} {n : Nat} (idx : Nat → Nat) (g : Nat → α) (buf : List α)
    (hinj : ∀ i j, i < n → j < n → idx i = idx j → i = j) (hlt : ∀ i, i < n → idx i < buf.length) :
    ∃ r, loop n (fun i st => wr st (idx i) (g i)) buf = .ok r ∧ r.length = buf.length ∧
      (∀ i, i < n → r[idx i]? = some (g i)) ∧
      (∀ t, (∀ i, i < n → idx i ≠ t) → r[t]? = buf[t]?) := by
  obtain ⟨r, hr, h1, h2, h3⟩ := loop_total (n := n) (body := fun i st => wr st (idx i) (g i))
    (fun k r => r.length = buf.length ∧ (∀ i, i < k → r[idx i]? = some (g i)) ∧
      (∀ t, (∀ i, i < k → idx i ≠ t) → r[t]? = buf[t]?)) (s := buf)
    ⟨rfl, by intro i hi; omega, fun _ _ => rfl⟩ (by
      rintro k u hk ⟨i1, i2, i3⟩
      have hl : idx k < u.length := by rw [i1]; exact hlt k hk
      refine ⟨_, wr_of_lt hl, by simp [i1], ?_, ?_⟩
      · intro i hi
        rw [List.getElem?_set]
        by_cases hik : i = k
        · subst hik; simp [hl]
        · rw [if_neg (fun e => hik (hinj i k (by omega) hk e.symm)), i2 i (by omega)]
      · intro t ht
        rw [List.getElem?_set, if_neg (ht k (by omega)), i3 t (fun i hi => ht i (by omega))])
  exact ⟨r, hr, h1, h2, h3⟩

/-- A doubly nested loop writing distinct entries of a buffer. -/
theorem loop2_fill {α : Type _} {a b : Nat} (idx : Nat → Nat → Nat) (g : Nat → Nat → α)
    (buf : List α)
    (hinj : ∀ i j i' j', i < a → j < b → i' < a → j' < b → idx i j = idx i' j' → i = i' ∧ j = j')
    (hlt : ∀ i j, i < a → j < b → idx i j < buf.length) :
    ∃ r, loop a (fun i st => loop b (fun j st => wr st (idx i j) (g i j)) st) buf = .ok r ∧
      r.length = buf.length ∧
      (∀ i j, i < a → j < b → r[idx i j]? = some (g i j)) ∧
      (∀ t, (∀ i j, i < a → j < b → idx i j ≠ t) → r[t]? = buf[t]?) := by
  obtain ⟨r, hr, h1, h2, h3⟩ := loop_total (n := a)
    (body := fun i st => loop b (fun j st => wr st (idx i j) (g i j)) st)
    (fun k r => r.length = buf.length ∧ (∀ i j, i < k → j < b → r[idx i j]? = some (g i j)) ∧
      (∀ t, (∀ i j, i < k → j < b → idx i j ≠ t) → r[t]? = buf[t]?)) (s := buf)
    ⟨rfl, by intro i j hi; omega, fun _ _ => rfl⟩ (by
      rintro k u hk ⟨i1, i2, i3⟩
      obtain ⟨r, hr, r1, r2, r3⟩ := loop_fill (n := b) (idx k) (g k) u
        (fun i j hi hj e => (hinj k i k j hk hi hk hj e).2)
        (fun i hi => by rw [i1]; exact hlt k i hk hi)
      refine ⟨r, hr, by rw [r1, i1], ?_, ?_⟩
      · intro i j hi hj
        by_cases hik : i = k
        · subst hik; exact r2 j hj
        · rw [r3 _ (fun j' hj' e => hik (hinj k j' i j hk hj' (by omega) hj e).1.symm),
            i2 i j (by omega) hj]
      · intro t ht
        rw [r3 t (fun j hj => ht k j (by omega) hj), i3 t (fun i j hi hj => ht i j (by omega) hj)])
  exact ⟨r, hr, h1, h2, h3⟩

end Verif

namespace Verif.Blocks

open Verif Spec
open Verif.Sampling (partialSum partialSumFrom)

theorem partialSumFrom_offsets (sizes : List Nat) : ∀ acc : Nat,
    (partialSumFrom acc sizes).length = sizes.length ∧
    ∀ (i s : Nat), sizes[i]? = some s →
      ∃ x, (acc :: partialSumFrom acc sizes)[i]? = some x ∧
        (acc :: partialSumFrom acc sizes)[i + 1]? = some (x + s) := by
  induction sizes with
  | nil => intro acc; simp [partialSumFrom]
  | cons s ss ih =>
    intro acc
    obtain ⟨h1, h2⟩ := ih (acc + s)
    refine ⟨by simp [partialSumFrom, h1], ?_⟩
    intro i t hi
    cases i with
    | zero => simp at hi; subst hi; exact ⟨acc, by simp [partialSumFrom]⟩
    | succ i =>
      simp only [List.getElem?_cons_succ] at hi
      obtain ⟨x, hx1, hx2⟩ := h2 i t hi
      exact ⟨x, by simpa [partialSumFrom] using hx1, by simpa [partialSumFrom] using hx2⟩

/-- `PartialSum` of an array `0, s₀, s₁, ...` gives the offsets of blocks of sizes `s₀, s₁, ...`. -/
theorem isOffsets_partialSum (sizes : List Nat) : IsOffsets (partialSum (0 :: sizes)) sizes := by
  obtain ⟨h1, h2⟩ := partialSumFrom_offsets sizes 0
  exact ⟨by simp [partialSum, h1], by simp [partialSum], h2⟩

theorem isOffsets_partialSum' {r sizes : List Nat} (h : r = 0 :: sizes) :
    IsOffsets (partialSum r) sizes := by subst h; exact isOffsets_partialSum sizes

theorem getElem?_ext_zero {r sizes : List Nat} (hl : r.length = sizes.length + 1)
    (h0 : r[0]? = some 0) (h : ∀ i, i < sizes.length → r[i + 1]? = sizes[i]?) : r = 0 :: sizes := by
  apply List.ext_getElem?
  intro i
  cases i with
  | zero => simpa using h0
  | succ i =>
    rw [List.getElem?_cons_succ]
    by_cases hi : i < sizes.length
    · exact h i hi
    · rw [List.getElem?_eq_none (by omega), List.getElem?_eq_none (by omega)]

/-- Offset values as partial sums. -/
theorem Spec.IsOffsets.value {offs sizes : List Nat} (h : IsOffsets offs sizes) {i : Nat}
    (hi : i ≤ sizes.length) : offs[i]? = some (sizes.take i).sum := by
  obtain ⟨h1, h2, h3⟩ := h
  induction i with
  | zero => simpa using h2
  | succ i ih =>
    have hs : sizes[i]? = some sizes[i] := by simp [show i < sizes.length by omega]
    obtain ⟨x, hx1, hx2⟩ := h3 i _ hs
    rw [ih (by omega)] at hx1
    cases hx1
    rw [hx2, List.take_add_one, hs, List.sum_append]; simp

theorem Spec.IsOffsets.last {offs sizes : List Nat} (h : IsOffsets offs sizes) :
    offs[sizes.length]? = some sizes.sum := by
  have := h.value (i := sizes.length) (Nat.le_refl _)
  rwa [List.take_length] at this

theorem take_sum_mono (sizes : List Nat) {i j : Nat} (h : i ≤ j) :
    (sizes.take i).sum ≤ (sizes.take j).sum := by
  obtain ⟨d, rfl⟩ := Nat.exists_eq_add_of_le h
  rw [List.take_add, List.sum_append]; omega

theorem take_sum_succ (sizes : List Nat) {i s : Nat} (h : sizes[i]? = some s) :
    (sizes.take (i + 1)).sum = (sizes.take i).sum + s := by
  rw [List.take_add_one, h, List.sum_append]; simp

theorem Spec.IsOffsets.unique {a b sizes : List Nat} (ha : IsOffsets a sizes) (hb : IsOffsets b sizes) :
    a = b := by
  apply List.ext_getElem?
  intro i
  by_cases hi : i ≤ sizes.length
  · rw [ha.value hi, hb.value hi]
  · rw [List.getElem?_eq_none (by rw [ha.1]; omega), List.getElem?_eq_none (by rw [hb.1]; omega)]

section BV
variable {R : Type}

theorem Spec.HasSizes.numBlocks {b : BlockVector R} {sizes : List Nat} (h : HasSizes b sizes) :
    b.numBlocks = sizes.length := by
  unfold BlockVector.numBlocks; rw [h.1.1]; rfl

theorem Spec.HasSizes.blockSize {b : BlockVector R} {sizes : List Nat} (h : HasSizes b sizes) {i s : Nat}
    (hs : sizes[i]? = some s) : b.blockSize i = .ok s := by
  have hi := (List.getElem?_eq_some_iff.1 hs).1
  unfold BlockVector.blockSize
  rw [rd_eq_ok.2 (h.1.value (i := i + 1) hi), rd_eq_ok.2 (h.1.value (i := i) (by omega))]
  simp only [ok_bind, pure, Except.pure]
  rw [take_sum_succ sizes hs]; congr 1; omega

theorem blockOf_getElem? {b : BlockVector R} {sizes : List Nat} (h : HasSizes b sizes) {i s : Nat}
    (hs : sizes[i]? = some s) (k : Nat) :
    (blockOf b i)[k]? = if k < s then b.data[(sizes.take i).sum + k]? else none := by
  have hi := (List.getElem?_eq_some_iff.1 hs).1
  unfold blockOf
  rw [h.1.value (i := i + 1) hi, h.1.value (i := i) (by omega)]
  simp only [Option.getD_some]
  rw [take_sum_succ sizes hs, List.getElem?_take, Nat.add_sub_cancel_left, List.getElem?_drop]

theorem length_blockOf {b : BlockVector R} {sizes : List Nat} (h : HasSizes b sizes) {i s : Nat}
    (hs : sizes[i]? = some s) : (blockOf b i).length = s := by
  have hi := (List.getElem?_eq_some_iff.1 hs).1
  unfold blockOf
  rw [h.1.value (i := i + 1) hi, h.1.value (i := i) (by omega)]
  simp only [Option.getD_some]
  rw [List.length_take, List.length_drop, h.2, take_sum_succ sizes hs]
  have : (sizes.take (i + 1)).sum ≤ sizes.sum := by
    have := take_sum_mono sizes (i := i + 1) (j := sizes.length) (by omega)
    rwa [List.take_length] at this
  rw [take_sum_succ sizes hs] at this
  omega

/-- A block vector is determined by its blocks. -/
theorem blocks_ext {a b : BlockVector R} {sizes : List Nat} (ha : HasSizes a sizes)
    (hb : HasSizes b sizes) (h : ∀ i, i < sizes.length → blockOf a i = blockOf b i) : a = b := by
  have ho : a.offsets = b.offsets := ha.1.unique hb.1
  have hd : a.data = b.data := by
    apply List.ext_getElem?
    intro t
    by_cases ht : t < sizes.sum
    · -- find the block containing t
      have : ∃ i, i < sizes.length ∧ (sizes.take i).sum ≤ t ∧ t < (sizes.take (i + 1)).sum := by
        by_contra hno
        push Not at hno
        have : ∀ i, i ≤ sizes.length → (sizes.take i).sum ≤ t := by
          intro i
          induction i with
          | zero => intro _; simp
          | succ i ih => intro hi; exact hno i (by omega) (ih (by omega))
        have := this sizes.length (Nat.le_refl _)
        rw [List.take_length] at this
        omega
      obtain ⟨i, hi, h1, h2⟩ := this
      have hs : sizes[i]? = some sizes[i] := by simp [hi]
      rw [take_sum_succ sizes hs] at h2
      have e := congrArg (fun l => l[t - (sizes.take i).sum]?) (h i hi)
      simp only [blockOf_getElem? ha hs, blockOf_getElem? hb hs] at e
      rw [if_pos (by omega), if_pos (by omega), Nat.add_sub_cancel' h1] at e
      exact e
    · rw [List.getElem?_eq_none (by rw [ha.2]; omega), List.getElem?_eq_none (by rw [hb.2]; omega)]
  cases a; cases b; simp_all

theorem copyBlock_spec {dst src : BlockVector R} {zd zs : List Nat} (hd : HasSizes dst zd)
    (hs : HasSizes src zs) {d s n : Nat} (h1 : zd[d]? = some n) (h2 : zs[s]? = some n) :
    ∃ dst', copyBlock dst d src s = .ok dst' ∧ HasSizes dst' zd ∧ blockOf dst' d = blockOf src s ∧
      ∀ i, i < zd.length → i ≠ d → blockOf dst' i = blockOf dst i := by
  have hdl := (List.getElem?_eq_some_iff.1 h1).1
  have hsl := (List.getElem?_eq_some_iff.1 h2).1
  have bd : (zd.take d).sum + n ≤ dst.data.length := by
    rw [hd.2, ← take_sum_succ zd h1]
    have := take_sum_mono zd (i := d + 1) (j := zd.length) (by omega)
    rwa [List.take_length] at this
  have bs : (zs.take s).sum + n ≤ src.data.length := by
    rw [hs.2, ← take_sum_succ zs h2]
    have := take_sum_mono zs (i := s + 1) (j := zs.length) (by omega)
    rwa [List.take_length] at this
  obtain ⟨r, hr, r1, r2, r3⟩ := loop_total (n := n)
    (body := fun k data => (do
      let x ← rd src.data ((zs.take s).sum + k)
      wr data ((zd.take d).sum + k) x : Outcome (List R)))
    (fun k r => r.length = dst.data.length ∧
      (∀ i, i < k → r[(zd.take d).sum + i]? = src.data[(zs.take s).sum + i]?) ∧
      (∀ t, (∀ i, i < k → (zd.take d).sum + i ≠ t) → r[t]? = dst.data[t]?)) (s := dst.data)
    ⟨rfl, by intro i hi; omega, fun _ _ => rfl⟩ (by
      rintro k u hk ⟨i1, i2, i3⟩
      have hx : src.data[(zs.take s).sum + k]? = some src.data[(zs.take s).sum + k] := by
        simp [show (zs.take s).sum + k < src.data.length by omega]
      have hl : (zd.take d).sum + k < u.length := by rw [i1]; omega
      refine ⟨u.set ((zd.take d).sum + k) src.data[(zs.take s).sum + k],
        by rw [rd_eq_ok.2 hx]; exact wr_of_lt hl, by simp [i1], ?_, ?_⟩
      · intro i hi
        rw [List.getElem?_set]
        by_cases hik : i = k
        · subst hik; rw [if_pos rfl, if_pos hl, hx]
        · rw [if_neg (by omega), i2 i (by omega)]
      · intro t ht
        rw [List.getElem?_set, if_neg (ht k (by omega)), i3 t (fun i hi => ht i (by omega))])
  have hsz : HasSizes ({ dst with data := r } : BlockVector R) zd := ⟨hd.1, by rw [← hd.2]; exact r1⟩
  refine ⟨{ dst with data := r }, ?_, hsz, ?_, ?_⟩
  · unfold copyBlock
    rw [hd.blockSize h1, hs.blockSize h2]
    simp only [ok_bind, beq_self_eq_true, require_true]
    rw [rd_eq_ok.2 (hd.1.value (i := d) (by omega)), rd_eq_ok.2 (hs.1.value (i := s) (by omega))]
    simp only [ok_bind]
    rw [hr]
    rfl
  · apply List.ext_getElem?
    intro k
    rw [blockOf_getElem? hsz h1, blockOf_getElem? hs h2]
    by_cases hk : k < n
    · rw [if_pos hk, if_pos hk]; exact r2 k hk
    · rw [if_neg hk, if_neg hk]
  · intro i hi hne
    have hsi : zd[i]? = some zd[i] := by simp [hi]
    apply List.ext_getElem?
    intro k
    rw [blockOf_getElem? hsz hsi, blockOf_getElem? hd hsi]
    by_cases hk : k < zd[i]
    · rw [if_pos hk, if_pos hk]
      refine r3 _ ?_
      intro j hj heq
      rcases Nat.lt_or_gt_of_ne hne with hlt | hgt
      · have h3 := take_sum_mono zd (i := i + 1) (j := d) (by omega)
        rw [take_sum_succ zd hsi] at h3
        omega
      · have h3 := take_sum_mono zd (i := d + 1) (j := i) (by omega)
        rw [take_sum_succ zd h1] at h3
        omega
    · rw [if_neg hk, if_neg hk]

theorem copyBlock_mismatch {dst src : BlockVector R} {zd zs : List Nat} (hd : HasSizes dst zd)
    (hs : HasSizes src zs) {d s n n' : Nat} (h1 : zd[d]? = some n) (h2 : zs[s]? = some n')
    (hne : n ≠ n') : copyBlock dst d src s = .error .abort := by
  unfold copyBlock
  rw [hd.blockSize h1, hs.blockSize h2]
  have e : (n == n') = false := by simp [hne]
  simp only [ok_bind, e, require_false, error_bind]

/-- A loop copying into distinct blocks. -/
theorem loop_copy {src dst : BlockVector R} {zd zs : List Nat} (hd : HasSizes dst zd)
    (hs : HasSizes src zs) {n : Nat} (D S : Nat → Nat)
    (hinj : ∀ i j, i < n → j < n → D i = D j → i = j)
    (hsz : ∀ i, i < n → ∃ z, zd[D i]? = some z ∧ zs[S i]? = some z) :
    ∃ r, loop n (fun i dst => copyBlock dst (D i) src (S i)) dst = .ok r ∧ HasSizes r zd ∧
      (∀ i, i < n → blockOf r (D i) = blockOf src (S i)) ∧
      (∀ t, t < zd.length → (∀ i, i < n → D i ≠ t) → blockOf r t = blockOf dst t) := by
  obtain ⟨r, hr, h1, h2, h3⟩ := loop_total (n := n)
    (body := fun i dst => copyBlock dst (D i) src (S i))
    (fun k r => HasSizes r zd ∧ (∀ i, i < k → blockOf r (D i) = blockOf src (S i)) ∧
      (∀ t, t < zd.length → (∀ i, i < k → D i ≠ t) → blockOf r t = blockOf dst t)) (s := dst)
    ⟨hd, by intro i hi; omega, fun _ _ _ => rfl⟩ (by
      rintro k u hk ⟨i1, i2, i3⟩
      obtain ⟨z, hz1, hz2⟩ := hsz k hk
      obtain ⟨u', hu', j1, j2, j3⟩ := copyBlock_spec i1 hs hz1 hz2
      refine ⟨u', hu', j1, ?_, ?_⟩
      · intro i hi
        by_cases hik : i = k
        · subst hik; exact j2
        · obtain ⟨z', hz', _⟩ := hsz i (by omega)
          rw [j3 _ (List.getElem?_eq_some_iff.1 hz').1
            (fun e => hik (hinj i k (by omega) hk e)), i2 i (by omega)]
      · intro t ht hne
        rw [j3 t ht (fun e => hne k (by omega) e.symm), i3 t ht (fun i hi => hne i (by omega))])
  exact ⟨r, hr, h1, h2, h3⟩

/-- A nested loop copying into distinct blocks. -/
theorem loop2_copy {src dst : BlockVector R} {zd zs : List Nat} (hd : HasSizes dst zd)
    (hs : HasSizes src zs) {a b : Nat} (D S : Nat → Nat → Nat)
    (hinj : ∀ i j i' j', i < a → j < b → i' < a → j' < b → D i j = D i' j' → i = i' ∧ j = j')
    (hsz : ∀ i j, i < a → j < b → ∃ z, zd[D i j]? = some z ∧ zs[S i j]? = some z) :
    ∃ r, loop a (fun i dst => loop b (fun j dst => copyBlock dst (D i j) src (S i j)) dst) dst
        = .ok r ∧ HasSizes r zd ∧
      (∀ i j, i < a → j < b → blockOf r (D i j) = blockOf src (S i j)) := by
  obtain ⟨r, hr, h1, h2⟩ := loop_total (n := a)
    (body := fun i dst => loop b (fun j dst => copyBlock dst (D i j) src (S i j)) dst)
    (fun k r => HasSizes r zd ∧
      (∀ i j, i < k → j < b → blockOf r (D i j) = blockOf src (S i j))) (s := dst)
    ⟨hd, by intro i j hi; omega⟩ (by
      rintro k u hk ⟨i1, i2⟩
      obtain ⟨u', hu', j1, j2, j3⟩ := loop_copy i1 hs (n := b) (D k) (S k)
        (fun i j hi hj e => (hinj k i k j hk hi hk hj e).2) (fun j hj => hsz k j hk hj)
      refine ⟨u', hu', j1, ?_⟩
      intro i j hi hj
      by_cases hik : i = k
      · subst hik; exact j2 j hj
      · obtain ⟨z', hz', _⟩ := hsz i j (by omega) hj
        rw [j3 _ (List.getElem?_eq_some_iff.1 hz').1
          (fun j' hj' e => hik (hinj k j' i j hk hj' (by omega) hj e).1.symm), i2 i j (by omega) hj])
  exact ⟨r, hr, h1, h2⟩

end BV

/-! ### Sequential fills -/

theorem wr_seq {pre : List Nat} {n i : Nat} {x : Nat} (hi : i = pre.length) :
    wr (pre ++ List.replicate (n + 1) 0) i x = .ok (pre ++ [x] ++ List.replicate n 0) := by
  subst hi
  rw [wr_of_lt (by simp)]
  simp [List.replicate_succ]

theorem loop_seq {pre : List Nat} {d n base x : Nat} (hb : base = pre.length) :
    loop d (fun j st => wr st (base + j) x) (pre ++ List.replicate (d + n) 0) =
      .ok (pre ++ List.replicate d x ++ List.replicate n 0) := by
  obtain ⟨r, hr, h1⟩ := loop_total (n := d) (body := fun j st => wr st (base + j) x)
    (fun k r => r = pre ++ List.replicate k x ++ List.replicate (d - k + n) 0)
    (s := pre ++ List.replicate (d + n) 0) (by simp) (by
      rintro k u hk rfl
      refine ⟨_, ?_, rfl⟩
      rw [show d - k + n = (d - (k + 1) + n) + 1 by omega, wr_seq (by simp [hb])]
      simp [List.replicate_succ'])
  rw [hr, h1]; simp

theorem flatMap_take_succ {α β : Type _} (l : List α) (f : α → List β) {k : Nat} {a : α}
    (h : l[k]? = some a) : (l.take (k + 1)).flatMap f = (l.take k).flatMap f ++ f a := by
  rw [List.take_add_one, h]; simp

theorem length_flatMap_const {α β : Type _} (l : List α) (f : α → List β) (n : Nat)
    (h : ∀ a, (f a).length = n) : (l.flatMap f).length = l.length * n := by
  induction l with
  | nil => simp
  | cons a l ih => simp [h, ih, Nat.add_mul, Nat.add_comm]

theorem getElem?_flatMap_const {α β : Type _} (l : List α) (f : α → List β) (n : Nat)
    (h : ∀ a, (f a).length = n) {m v : Nat} {a : α} (hm : l[m]? = some a) (hv : v < n) :
    (l.flatMap f)[n * m + v]? = (f a)[v]? := by
  induction l generalizing m with
  | nil => simp at hm
  | cons b l ih =>
    rw [List.flatMap_cons]
    cases m with
    | zero =>
      simp at hm; subst hm
      rw [List.getElem?_append_left (by rw [h]; omega)]; simp
    | succ m =>
      simp only [List.getElem?_cons_succ] at hm
      have e : n * (m + 1) = n * m + n := Nat.mul_succ n m
      rw [List.getElem?_append_right (by rw [h]; omega), h, ← ih hm]
      congr 1; omega

theorem isOffsets_of_value {offs sizes : List Nat} (hl : offs.length = sizes.length + 1)
    (h : ∀ t, t ≤ sizes.length → offs[t]? = some (sizes.take t).sum) : IsOffsets offs sizes := by
  refine ⟨hl, by simpa using h 0 (by omega), ?_⟩
  intro i s hs
  have hi := (List.getElem?_eq_some_iff.1 hs).1
  exact ⟨_, h i (by omega), by rw [h (i + 1) hi, take_sum_succ sizes hs]⟩

end Verif.Blocks
