import Verif.Proofs.LaxF

namespace Verif.LaxF

open Verif Verif.LinAlg Verif.LinAlg.Spec Verif.LaxF.Spec Verif.Convection Finset

variable {R : Type} [Field R] [LinearOrder R]

/-- What `AddMatrix` adds to one entry. -/
def blkTerm (a : R) (blk : Mat R) (r c i j : Nat) : R :=
  if r ≤ i ∧ i < r + blk.h ∧ c ≤ j ∧ j < c + blk.w then a * ent blk (i - r) (j - c) else 0

omit [LinearOrder R] in
theorem ent_addBlock' {m blk : Mat R} {a : R} {r c i j : Nat} (hi : i < m.h) (hj : j < m.w) :
    ent (m.addBlock a blk r c) i j = ent m i j + blkTerm a blk r c i j := ent_addBlock hi hj

omit [LinearOrder R] in
/-- The blocks of a grid of `n` by `m` blocks at `(r0, c0)`, at an entry of the grid. -/
theorem sum_hit {dim n m r0 c0 k l d e : Nat} {a : Nat → Nat → R} {blk : Mat R} (hh : blk.h = n)
    (hw : blk.w = m) (hk : k < n) (hl : l < m) (hd : d < dim) (he : e < dim) :
    ∑ di ∈ range dim, ∑ dj ∈ range dim,
      blkTerm (a di dj) blk (di * n + r0) (dj * m + c0) (r0 + (k + d * n)) (c0 + (l + e * m)) =
    a d e * ent blk k l := by
  have key : ∀ (q r s x : Nat), r < q → (s * q + 0 ≤ r + x * q ∧ r + x * q < s * q + q ↔ s = x) := by
    intro q r s x hr
    constructor
    · rintro ⟨h1, h2⟩
      rcases Nat.lt_trichotomy s x with h | h | h
      · have : (s + 1) * q ≤ x * q := Nat.mul_le_mul_right q h
        rw [Nat.succ_mul] at this; omega
      · exact h
      · have : (x + 1) * q ≤ s * q := Nat.mul_le_mul_right q h
        rw [Nat.succ_mul] at this; omega
    · rintro rfl; omega
  have hcond : ∀ di dj : Nat, (di * n + r0 ≤ r0 + (k + d * n) ∧ r0 + (k + d * n) < di * n + r0 + blk.h ∧
      dj * m + c0 ≤ c0 + (l + e * m) ∧ c0 + (l + e * m) < dj * m + c0 + blk.w) ↔ (di = d ∧ dj = e) := by
    intro di dj
    rw [← key n k di d hk, ← key m l dj e hl, hh, hw]
    omega
  rw [sum_eq_single_of_mem d (mem_range.2 hd), sum_eq_single_of_mem e (mem_range.2 he)]
  · unfold blkTerm
    rw [if_pos ((hcond d e).2 ⟨rfl, rfl⟩)]
    congr 2 <;> omega
  · intro dj _ hne
    unfold blkTerm
    rw [if_neg (by rw [hcond]; exact fun h => hne h.2)]
  · intro di _ hne
    refine sum_eq_zero fun dj _ => ?_
    unfold blkTerm
    rw [if_neg (by rw [hcond]; exact fun h => hne h.1)]

omit [LinearOrder R] in
/-- The same, at an entry outside of the grid. -/
theorem sum_miss {dim n m r0 c0 i j : Nat} {a : Nat → Nat → R} {blk : Mat R} (hh : blk.h = n)
    (hw : blk.w = m) (h : i < r0 ∨ r0 + dim * n ≤ i ∨ j < c0 ∨ c0 + dim * m ≤ j) :
    ∑ di ∈ range dim, ∑ dj ∈ range dim, blkTerm (a di dj) blk (di * n + r0) (dj * m + c0) i j = 0 := by
  refine sum_eq_zero fun di hdi => sum_eq_zero fun dj hdj => ?_
  have h1 : (di + 1) * n ≤ dim * n := Nat.mul_le_mul_right n (mem_range.1 hdi)
  have h2 : (dj + 1) * m ≤ dim * m := Nat.mul_le_mul_right m (mem_range.1 hdj)
  rw [Nat.succ_mul] at h1 h2
  unfold blkTerm
  rw [if_neg (by rw [hh, hw]; omega)]

omit [LinearOrder R] in
/-- A double loop that adds terms to an entry. -/
theorem iter2_acc {σ : Type} {dim : Nat} {body : Nat → Nat → σ → σ} (Inv : σ → Prop) (val : σ → R)
    (term : Nat → Nat → R) {s : σ} (h0 : Inv s)
    (hstep : ∀ di dj s, di < dim → dj < dim → Inv s →
      Inv (body di dj s) ∧ val (body di dj s) = val s + term di dj) :
    Inv (iter dim (fun di s => iter dim (fun dj s => body di dj s) s) s) ∧
    val (iter dim (fun di s => iter dim (fun dj s => body di dj s) s) s) =
      val s + ∑ di ∈ range dim, ∑ dj ∈ range dim, term di dj :=
  iter_acc Inv val (fun di => ∑ dj ∈ range dim, term di dj) h0 fun di s hdi hs =>
    iter_acc Inv val (term di) hs fun dj s hdj hs => hstep di dj s hdi hdj hs

/-- Shape functions, velocity gradient and sign that belong to a side. -/
def sideShape (p : FPt R) (i : Nat) : List R := if i = 0 then p.shape1 else p.shape2
def sideGrad (g : Mat R × Mat R) (j : Nat) : Mat R := if j = 0 then g.1 else g.2
def sideSign (i : Nat) : R := if i = 0 then -1 else 1
def sideN (f : Face) (i : Nat) : Nat := if i = 0 then f.nd1 else f.n2

/-- The contribution of a point to the block of sides `i` and `j`. -/
def gterm (p : FPt R) (w : R) (g : Mat R × Mat R) (i j k d l e : Nat) : R :=
  sideSign i * w * ent (sideGrad g j) d e * (ve (sideShape p i) k * ve (sideShape p j) l)

/-- The position of component `d` of shape function `k` of side `i` in a face vector. -/
def pos (f : Face) (i k d : Nat) : Nat := (if i = 0 then 0 else f.dim * f.nd1) + (k + d * sideN f i)

theorem pos_lt {f : Face} {i k d : Nat} (hi : i < 2) (hk : k < sideN f i) (hd : d < f.dim) :
    pos f i k d < f.dim * (f.nd1 + f.n2) := by
  unfold pos
  have h := idx_lt hk hd
  rw [Nat.mul_add]
  by_cases h0 : i = 0
  · subst h0
    simp only [sideN, if_true] at h ⊢
    rw [Nat.mul_comm f.dim f.nd1]
    exact Nat.lt_of_lt_of_le (by rw [Nat.zero_add]; exact h) (Nat.le_add_right _ _)
  · simp only [sideN, h0, if_false] at h ⊢
    rw [Nat.mul_comm f.dim f.n2]
    omega

omit [LinearOrder R] in
theorem tr_ent {m : Mat R} {i j : Nat} (hi : i < m.w) (hj : j < m.h) : ent (tr m) i j = ent m j i := by
  rw [tr, ent_of hi hj]; rfl

theorem addFaceBlocks_spec {f : Face} {p : FPt R} (hp : FPtOk f p) (w : R) (g : Mat R × Mat R)
    {m : Mat R} (hh : m.h = f.dim * (f.nd1 + f.n2)) (hw : m.w = f.dim * (f.nd1 + f.n2)) :
    (addFaceBlocks f p w g.1 g.2 m).h = f.dim * (f.nd1 + f.n2) ∧
    (addFaceBlocks f p w g.1 g.2 m).w = f.dim * (f.nd1 + f.n2) ∧
    ∀ i j k d l e, i < 2 → j < 2 → k < sideN f i → d < f.dim → l < sideN f j → e < f.dim →
      ent (addFaceBlocks f p w g.1 g.2 m) (pos f i k d) (pos f j l e) =
        ent m (pos f i k d) (pos f j l e) + gterm p w g i j k d l e := by
  have hs1 := hp.shape1
  set N := f.dim * (f.nd1 + f.n2) with hN
  have main : ∀ r c, r < N → c < N →
      ((addFaceBlocks f p w g.1 g.2 m).h = N ∧ (addFaceBlocks f p w g.1 g.2 m).w = N) ∧
      ent (addFaceBlocks f p w g.1 g.2 m) r c = ent m r c +
      ∑ di ∈ range f.dim, ∑ dj ∈ range f.dim,
        (blkTerm (-w * ent g.1 di dj) (mulVWt p.shape1 p.shape1) (di * f.nd1) (dj * f.nd1) r c +
        if f.n2 ≠ 0 then
          blkTerm (-w * ent g.2 di dj) (mulVWt p.shape1 p.shape2) (di * f.nd1)
            (dj * f.n2 + f.dim * f.nd1) r c +
          blkTerm (w * ent g.1 di dj) (tr (mulVWt p.shape1 p.shape2)) (di * f.n2 + f.dim * f.nd1)
            (dj * f.nd1) r c +
          blkTerm (w * ent g.2 di dj) (mulVWt p.shape2 p.shape2) (di * f.n2 + f.dim * f.nd1)
            (dj * f.n2 + f.dim * f.nd1) r c else 0) := by
    intro r c hr hc
    unfold addFaceBlocks
    refine iter2_acc (fun m : Mat R => m.h = N ∧ m.w = N) (fun m => ent m r c) _ ⟨hh, hw⟩ ?_
    rintro di dj s hdi hdj ⟨h1, h2⟩
    by_cases hn : f.n2 ≠ 0
    · simp only [hn, ne_eq, not_false_eq_true, if_true]
      refine ⟨⟨h1, h2⟩, ?_⟩
      rw [ent_addBlock' (by exact h1 ▸ hr) (by exact h2 ▸ hc),
        ent_addBlock' (by exact h1 ▸ hr) (by exact h2 ▸ hc),
        ent_addBlock' (by exact h1 ▸ hr) (by exact h2 ▸ hc), ent_addBlock' (h1 ▸ hr) (h2 ▸ hc)]
      simp only [get_eq]
      ring
    · simp only [hn, if_false]
      refine ⟨⟨h1, h2⟩, ?_⟩
      rw [ent_addBlock' (h1 ▸ hr) (h2 ▸ hc), add_zero]
      simp only [get_eq]
  have hne0 : f.dim = 0 ∨ N = 0 ∨ 0 < N := by omega
  refine ⟨?_, ?_, ?_⟩
  · unfold addFaceBlocks
    exact (iter2_acc (dim := f.dim) (fun m : Mat R => m.h = N) (fun _ => (0 : R)) (fun _ _ => 0) hh
      (fun di dj s _ _ hs => ⟨by dsimp only; split <;> exact hs, by simp⟩)).1
  · unfold addFaceBlocks
    exact (iter2_acc (dim := f.dim) (fun m : Mat R => m.w = N) (fun _ => (0 : R)) (fun _ _ => 0) hw
      (fun di dj s _ _ hs => ⟨by dsimp only; split <;> exact hs, by simp⟩)).1
  intro i j k d l e hi hj hk hd hl he
  have hr := pos_lt hi hk hd
  have hc := pos_lt hj hl he
  rw [(main _ _ hr hc).2]
  congr 1
  simp only [sum_add_distrib]
  -- the upper left blocks
  have a1 := idx_lt hk hd
  have a2 := idx_lt hl he
  have c1 : f.nd1 * f.dim = f.dim * f.nd1 := Nat.mul_comm ..
  have hi' : i = 0 ∨ i = 1 := by omega
  have hj' : j = 0 ∨ j = 1 := by omega
  have S1 : ∑ di ∈ range f.dim, ∑ dj ∈ range f.dim,
      blkTerm (-w * ent g.1 di dj) (mulVWt p.shape1 p.shape1) (di * f.nd1) (dj * f.nd1)
        (pos f i k d) (pos f j l e) = if i = 0 ∧ j = 0 then gterm p w g 0 0 k d l e else 0 := by
    split
    · next h =>
      obtain ⟨rfl, rfl⟩ := h
      simp only [sideN, if_true] at hk hl
      have := sum_hit (R := R) (r0 := 0) (c0 := 0) (dim := f.dim) (d := d) (e := e) (k := k) (l := l)
        (a := fun di dj => -w * ent g.1 di dj) (blk := mulVWt p.shape1 p.shape1) hs1 hs1 hk hl hd he
      simp only [Nat.add_zero] at this
      simp only [pos, sideN, if_true]
      rw [this, ent_mulVWt (hs1 ▸ hk) (hs1 ▸ hl)]
      simp [gterm, sideSign, sideShape, sideGrad]
    · next h =>
      have := sum_miss (R := R) (r0 := 0) (c0 := 0) (dim := f.dim) (i := pos f i k d) (j := pos f j l e)
        (a := fun di dj => -w * ent g.1 di dj) (blk := mulVWt p.shape1 p.shape1) hs1 hs1 (by
          unfold pos
          rcases hi' with rfl | rfl
          · rcases hj' with rfl | rfl
            · exact absurd ⟨rfl, rfl⟩ h
            · simp <;> omega
          · simp <;> omega)
      simpa only [Nat.add_zero] using this
  rw [S1]
  by_cases hn : f.n2 ≠ 0
  · have hs2 := hp.shape2 ((n2_ne hp).1 hn)
    simp only [hn, ne_eq, not_false_eq_true, if_true, sum_add_distrib]
    have S2 : ∑ di ∈ range f.dim, ∑ dj ∈ range f.dim,
        blkTerm (-w * ent g.2 di dj) (mulVWt p.shape1 p.shape2) (di * f.nd1)
          (dj * f.n2 + f.dim * f.nd1) (pos f i k d) (pos f j l e) =
        if i = 0 ∧ j = 1 then gterm p w g 0 1 k d l e else 0 := by
      split
      · next h =>
        obtain ⟨rfl, rfl⟩ := h
        simp [sideN] at hk hl
        have := sum_hit (R := R) (r0 := 0) (c0 := f.dim * f.nd1) (dim := f.dim) (d := d) (e := e)
          (k := k) (l := l) (a := fun di dj => -w * ent g.2 di dj) (blk := mulVWt p.shape1 p.shape2)
          hs1 hs2 hk hl hd he
        simp only [Nat.add_zero] at this
        simp only [pos, sideN, if_true, Nat.one_ne_zero, if_false]
        rw [this, ent_mulVWt (hs1 ▸ hk) (hs2 ▸ hl)]
        simp [gterm, sideSign, sideShape, sideGrad]
      · next h =>
        have := sum_miss (R := R) (r0 := 0) (c0 := f.dim * f.nd1) (dim := f.dim) (i := pos f i k d)
          (j := pos f j l e) (a := fun di dj => -w * ent g.2 di dj) (blk := mulVWt p.shape1 p.shape2)
          hs1 hs2 (by
            unfold pos
            rcases hi' with rfl | rfl
            · rcases hj' with rfl | rfl
              · simp [sideN] at a2 ⊢; omega
              · exact absurd ⟨rfl, rfl⟩ h
            · simp <;> omega)
        simpa only [Nat.add_zero] using this
    have S3 : ∑ di ∈ range f.dim, ∑ dj ∈ range f.dim,
        blkTerm (w * ent g.1 di dj) (tr (mulVWt p.shape1 p.shape2)) (di * f.n2 + f.dim * f.nd1)
          (dj * f.nd1) (pos f i k d) (pos f j l e) =
        if i = 1 ∧ j = 0 then gterm p w g 1 0 k d l e else 0 := by
      split
      · next h =>
        obtain ⟨rfl, rfl⟩ := h
        simp [sideN] at hk hl
        have := sum_hit (R := R) (r0 := f.dim * f.nd1) (c0 := 0) (dim := f.dim) (d := d) (e := e)
          (k := k) (l := l) (a := fun di dj => w * ent g.1 di dj) (blk := tr (mulVWt p.shape1 p.shape2))
          hs2 hs1 hk hl hd he
        simp only [Nat.add_zero] at this
        simp only [pos, sideN, if_true, Nat.one_ne_zero, if_false]
        rw [this, tr_ent (by rw [mulVWt_w, hs2]; exact hk) (by rw [mulVWt_h, hs1]; exact hl), ent_mulVWt (hs1 ▸ hl) (hs2 ▸ hk)]
        simp only [gterm, sideSign, sideShape, sideGrad, if_true, Nat.one_ne_zero, if_false]
        ring
      · next h =>
        have := sum_miss (R := R) (r0 := f.dim * f.nd1) (c0 := 0) (dim := f.dim) (i := pos f i k d)
          (j := pos f j l e) (a := fun di dj => w * ent g.1 di dj)
          (blk := tr (mulVWt p.shape1 p.shape2)) hs2 hs1 (by
            unfold pos
            rcases hj' with rfl | rfl
            · rcases hi' with rfl | rfl
              · simp [sideN] at a1 ⊢; omega
              · exact absurd ⟨rfl, rfl⟩ h
            · simp <;> omega)
        simpa only [Nat.add_zero] using this
    have S4 : ∑ di ∈ range f.dim, ∑ dj ∈ range f.dim,
        blkTerm (w * ent g.2 di dj) (mulVWt p.shape2 p.shape2) (di * f.n2 + f.dim * f.nd1)
          (dj * f.n2 + f.dim * f.nd1) (pos f i k d) (pos f j l e) =
        if i = 1 ∧ j = 1 then gterm p w g 1 1 k d l e else 0 := by
      split
      · next h =>
        obtain ⟨rfl, rfl⟩ := h
        simp [sideN] at hk hl
        have := sum_hit (R := R) (r0 := f.dim * f.nd1) (c0 := f.dim * f.nd1) (dim := f.dim) (d := d)
          (e := e) (k := k) (l := l) (a := fun di dj => w * ent g.2 di dj)
          (blk := mulVWt p.shape2 p.shape2) hs2 hs2 hk hl hd he
        simp only [pos, sideN, Nat.one_ne_zero, if_false]
        rw [this, ent_mulVWt (hs2 ▸ hk) (hs2 ▸ hl)]
        simp [gterm, sideSign, sideShape, sideGrad]
      · next h =>
        exact sum_miss (R := R) (r0 := f.dim * f.nd1) (c0 := f.dim * f.nd1) (dim := f.dim)
          (i := pos f i k d) (j := pos f j l e) (a := fun di dj => w * ent g.2 di dj)
          (blk := mulVWt p.shape2 p.shape2) hs2 hs2 (by
            unfold pos
            rcases hi' with rfl | rfl
            · simp [sideN] at a1 ⊢; omega
            · rcases hj' with rfl | rfl
              · simp [sideN] at a2 ⊢; omega
              · exact absurd ⟨rfl, rfl⟩ h)
    rw [S2, S3, S4]
    rcases hi' with rfl | rfl <;> rcases hj' with rfl | rfl <;> simp
  · have hi0 : i = 0 := by
      rcases hi' with h | rfl
      · exact h
      · simp [sideN] at hk; omega
    have hj0 : j = 0 := by
      rcases hj' with h | rfl
      · exact h
      · simp [sideN] at hl; omega
    subst hi0; subst hj0
    simp [hn]

/-- One block of an interface matrix. -/
def Mats.get (ms : Mats R) (i j : Nat) : Mat R :=
  if i = 0 then (if j = 0 then ms.m11 else ms.m12) else (if j = 0 then ms.m21 else ms.m22)

/-- The sizes of the blocks of an interface matrix. -/
def Sized (f : Face) (ms : Mats R) : Prop :=
  (ms.m11.h = f.dim * f.nd1 ∧ ms.m11.w = f.dim * f.nd1) ∧
  (ms.m12.h = f.dim * f.nd1 ∧ ms.m12.w = f.dim * f.n2) ∧
  (ms.m21.h = f.dim * f.n2 ∧ ms.m21.w = f.dim * f.nd1) ∧
  (ms.m22.h = f.dim * f.n2 ∧ ms.m22.w = f.dim * f.n2)

/-- The body of the loop over components on an interface. -/
def itfStep (f : Face) (p : FPt R) (w : R) (g : Mat R × Mat R) (di dj : Nat) (ms : Mats R) : Mats R :=
  if f.n2 ≠ 0 then
    ⟨ms.m11.addBlock (-w * g.1.get di dj) (mulVWt p.shape1 p.shape1) (di * f.nd1) (dj * f.nd1),
     ms.m12.addBlock (-w * g.2.get di dj) (mulVWt p.shape1 p.shape2) (di * f.nd1) (dj * f.n2),
     ms.m21.addBlock (w * g.1.get di dj) (tr (mulVWt p.shape1 p.shape2)) (di * f.n2) (dj * f.nd1),
     ms.m22.addBlock (w * g.2.get di dj) (mulVWt p.shape2 p.shape2) (di * f.n2) (dj * f.n2)⟩
  else
    ⟨ms.m11.addBlock (-w * g.1.get di dj) (mulVWt p.shape1 p.shape1) (di * f.nd1) (dj * f.nd1),
     ms.m12, ms.m21, ms.m22⟩

theorem addItfBlocks_sized {f : Face} {p : FPt R} (w : R) (g : Mat R × Mat R)
    {ms : Mats R} (hm : Sized f ms) : Sized f (addItfBlocks f p w g.1 g.2 ms) := by
  unfold addItfBlocks
  exact (iter2_acc (dim := f.dim) (fun m : Mats R => Sized f m) (fun _ => (0 : R)) (fun _ _ => 0) hm
    (fun di dj s _ _ hs => ⟨by dsimp only; split <;> exact hs, by simp⟩)).1

theorem addItfBlocks_spec {f : Face} {p : FPt R} (hp : FPtOk f p) (w : R) (g : Mat R × Mat R)
    {ms : Mats R} (hm : Sized f ms) {i j k d l e : Nat} (hi : i < 2) (hj : j < 2) (hk : k < sideN f i)
    (hd : d < f.dim) (hl : l < sideN f j) (he : e < f.dim) :
    ent ((addItfBlocks f p w g.1 g.2 ms).get i j) (k + d * sideN f i) (l + e * sideN f j) =
      ent (ms.get i j) (k + d * sideN f i) (l + e * sideN f j) + gterm p w g i j k d l e := by
  have hs1 := hp.shape1
  have a1 := idx_lt hk hd
  have a2 := idx_lt hl he
  have c1 : f.nd1 * f.dim = f.dim * f.nd1 := Nat.mul_comm ..
  have c2 : f.n2 * f.dim = f.dim * f.n2 := Nat.mul_comm ..
  have hi' : i = 0 ∨ i = 1 := by omega
  have hj' : j = 0 ∨ j = 1 := by omega
  rcases hi' with rfl | rfl
  · rcases hj' with rfl | rfl
    · simp only [sideN, if_true] at hk hl a1 a2 ⊢
      rw [c1] at a1 a2
      have := (iter2_acc (dim := f.dim) (fun m : Mats R => Sized f m)
        (fun m => ent m.m11 (k + d * f.nd1) (l + e * f.nd1))
        (body := itfStep f p w g)
        (fun di dj => blkTerm (-w * ent g.1 di dj) (mulVWt p.shape1 p.shape1) (di * f.nd1) (dj * f.nd1)
          (k + d * f.nd1) (l + e * f.nd1)) hm
        (fun di dj s _ _ hs => ⟨by unfold itfStep; split <;> exact hs, by
          unfold itfStep
          have : ent (s.m11.addBlock (-w * g.1.get di dj) (mulVWt p.shape1 p.shape1) (di * f.nd1)
              (dj * f.nd1)) (k + d * f.nd1) (l + e * f.nd1) = _ :=
            ent_addBlock' (by rw [hs.1.1]; exact a1) (by rw [hs.1.2]; exact a2)
          split <;> exact this⟩)).2
      have hh := sum_hit (R := R) (r0 := 0) (c0 := 0) (dim := f.dim) (d := d) (e := e) (k := k) (l := l)
        (a := fun di dj => -w * ent g.1 di dj) (blk := mulVWt p.shape1 p.shape1) hs1 hs1 hk hl hd he
      simp only [Nat.add_zero, Nat.zero_add] at hh
      rw [hh, ent_mulVWt (hs1 ▸ hk) (hs1 ▸ hl)] at this
      refine Eq.trans ?_ (this.trans ?_)
      · rfl
      · simp [gterm, sideSign, sideShape, sideGrad, Mats.get]
    · have hn : f.n2 ≠ 0 := by simp [sideN] at hl; omega
      have hs2 := hp.shape2 ((n2_ne hp).1 hn)
      simp only [sideN, if_true, Nat.one_ne_zero, if_false] at hk hl a1 a2 ⊢
      rw [c1] at a1
      rw [c2] at a2
      have := (iter2_acc (dim := f.dim) (fun m : Mats R => Sized f m)
        (fun m => ent m.m12 (k + d * f.nd1) (l + e * f.n2))
        (body := itfStep f p w g)
        (fun di dj => blkTerm (-w * ent g.2 di dj) (mulVWt p.shape1 p.shape2) (di * f.nd1) (dj * f.n2)
          (k + d * f.nd1) (l + e * f.n2)) hm
        (fun di dj s _ _ hs => ⟨by unfold itfStep; split <;> exact hs, by
          unfold itfStep
          rw [if_pos hn]
          exact ent_addBlock' (by rw [hs.2.1.1]; exact a1) (by rw [hs.2.1.2]; exact a2)⟩)).2
      have hh := sum_hit (R := R) (r0 := 0) (c0 := 0) (dim := f.dim) (d := d) (e := e) (k := k) (l := l)
        (a := fun di dj => -w * ent g.2 di dj) (blk := mulVWt p.shape1 p.shape2) hs1 hs2 hk hl hd he
      simp only [Nat.add_zero, Nat.zero_add] at hh
      rw [hh, ent_mulVWt (hs1 ▸ hk) (hs2 ▸ hl)] at this
      refine Eq.trans ?_ (this.trans ?_)
      · rfl
      · simp [gterm, sideSign, sideShape, sideGrad, Mats.get]
  · have hn : f.n2 ≠ 0 := by simp [sideN] at hk; omega
    have hs2 := hp.shape2 ((n2_ne hp).1 hn)
    rcases hj' with rfl | rfl
    · simp only [sideN, if_true, Nat.one_ne_zero, if_false] at hk hl a1 a2 ⊢
      rw [c2] at a1
      rw [c1] at a2
      have := (iter2_acc (dim := f.dim) (fun m : Mats R => Sized f m)
        (fun m => ent m.m21 (k + d * f.n2) (l + e * f.nd1))
        (body := itfStep f p w g)
        (fun di dj => blkTerm (w * ent g.1 di dj) (tr (mulVWt p.shape1 p.shape2)) (di * f.n2)
          (dj * f.nd1) (k + d * f.n2) (l + e * f.nd1)) hm
        (fun di dj s _ _ hs => ⟨by unfold itfStep; split <;> exact hs, by
          unfold itfStep
          rw [if_pos hn]
          exact ent_addBlock' (by rw [hs.2.2.1.1]; exact a1) (by rw [hs.2.2.1.2]; exact a2)⟩)).2
      have hh := sum_hit (R := R) (r0 := 0) (c0 := 0) (dim := f.dim) (d := d) (e := e) (k := k) (l := l)
        (a := fun di dj => w * ent g.1 di dj) (blk := tr (mulVWt p.shape1 p.shape2)) hs2 hs1 hk hl hd he
      simp only [Nat.add_zero, Nat.zero_add] at hh
      rw [hh, tr_ent (by rw [mulVWt_w, hs2]; exact hk) (by rw [mulVWt_h, hs1]; exact hl),
        ent_mulVWt (hs1 ▸ hl) (hs2 ▸ hk)] at this
      refine Eq.trans ?_ (this.trans ?_)
      · rfl
      · simp only [gterm, sideSign, sideShape, sideGrad, Mats.get, if_true, Nat.one_ne_zero, if_false]
        ring
    · simp only [sideN, Nat.one_ne_zero, if_false] at hk hl a1 a2 ⊢
      rw [c2] at a1 a2
      have := (iter2_acc (dim := f.dim) (fun m : Mats R => Sized f m)
        (fun m => ent m.m22 (k + d * f.n2) (l + e * f.n2))
        (body := itfStep f p w g)
        (fun di dj => blkTerm (w * ent g.2 di dj) (mulVWt p.shape2 p.shape2) (di * f.n2) (dj * f.n2)
          (k + d * f.n2) (l + e * f.n2)) hm
        (fun di dj s _ _ hs => ⟨by unfold itfStep; split <;> exact hs, by
          unfold itfStep
          rw [if_pos hn]
          exact ent_addBlock' (by rw [hs.2.2.2.1]; exact a1) (by rw [hs.2.2.2.2]; exact a2)⟩)).2
      have hh := sum_hit (R := R) (r0 := 0) (c0 := 0) (dim := f.dim) (d := d) (e := e) (k := k) (l := l)
        (a := fun di dj => w * ent g.2 di dj) (blk := mulVWt p.shape2 p.shape2) hs2 hs2 hk hl hd he
      simp only [Nat.add_zero, Nat.zero_add] at hh
      rw [hh, ent_mulVWt (hs2 ▸ hk) (hs2 ▸ hl)] at this
      refine Eq.trans ?_ (this.trans ?_)
      · rfl
      · simp [gterm, sideSign, sideShape, sideGrad, Mats.get]

/-- The gradients of a face that succeeds: a sum over the points. -/
theorem faceGrad_spec {sqrt : R → R} {f : Face} {pts : List (FPt R × R)}
    (hp : ∀ pw ∈ pts, FPtOk f pw.1) (u : List R) (G : FPt R → Mat R × Mat R)
    (hG : ∀ pw ∈ pts, quadGradBase sqrt pw.1 f.n2 ⟨f.nd1, f.dim, u⟩
      ⟨f.n2, f.dim, u.drop (f.nd1 * f.dim)⟩ = .ok (G pw.1)) :
    ∃ m, faceGrad sqrt f pts u = .ok m ∧ m.h = f.dim * (f.nd1 + f.n2) ∧ m.w = f.dim * (f.nd1 + f.n2) ∧
      ∀ i j k d l e, i < 2 → j < 2 → k < sideN f i → d < f.dim → l < sideN f j → e < f.dim →
        ent m (pos f i k d) (pos f j l e) =
          (pts.map (fun pw => gterm pw.1 (wq pw.1 pw.2) (G pw.1) i j k d l e)).sum := by
  unfold faceGrad
  dsimp only
  suffices H : ∀ (pts : List (FPt R × R)) (m0 : Mat R), (∀ pw ∈ pts, FPtOk f pw.1) →
      (∀ pw ∈ pts, quadGradBase sqrt pw.1 f.n2 ⟨f.nd1, f.dim, u⟩
        ⟨f.n2, f.dim, u.drop (f.nd1 * f.dim)⟩ = .ok (G pw.1)) →
      m0.h = f.dim * (f.nd1 + f.n2) → m0.w = f.dim * (f.nd1 + f.n2) →
      ∃ m, pts.foldlM (fun m pw => do
        let g ← quadGradBase sqrt pw.1 f.n2 ⟨f.nd1, f.dim, u⟩ ⟨f.n2, f.dim, u.drop (f.nd1 * f.dim)⟩
        return addFaceBlocks f pw.1 (pw.1.withQ pw.2) g.1 g.2 m) m0 = .ok m ∧
      m.h = f.dim * (f.nd1 + f.n2) ∧ m.w = f.dim * (f.nd1 + f.n2) ∧
      ∀ i j k d l e, i < 2 → j < 2 → k < sideN f i → d < f.dim → l < sideN f j → e < f.dim →
        ent m (pos f i k d) (pos f j l e) = ent m0 (pos f i k d) (pos f j l e) +
          (pts.map (fun pw => gterm pw.1 (wq pw.1 pw.2) (G pw.1) i j k d l e)).sum by
    obtain ⟨m, h1, h2, h3, h4⟩ := H pts (zeroMat (f.dim * (f.nd1 + f.n2))) hp hG rfl rfl
    refine ⟨m, h1, h2, h3, fun i j k d l e hi hj hk hd hl he => ?_⟩
    rw [h4 i j k d l e hi hj hk hd hl he, ent_zeroMat (pos_lt hi hk hd) (pos_lt hj hl he), zero_add]
  intro pts
  induction pts with
  | nil => intro m0 _ _ h1 h2; exact ⟨m0, rfl, h1, h2, by simp⟩
  | cons pw pts ih =>
    intro m0 hp hG h1 h2
    obtain ⟨b1, b2, b3⟩ := addFaceBlocks_spec (hp pw (by simp)) (pw.1.withQ pw.2) (G pw.1) h1 h2
    obtain ⟨m, c1, c2, c3, c4⟩ := ih (addFaceBlocks f pw.1 (pw.1.withQ pw.2) (G pw.1).1 (G pw.1).2 m0)
      (fun q hq => hp q (by simp [hq])) (fun q hq => hG q (by simp [hq])) b1 b2
    refine ⟨m, ?_, c2, c3, fun i j k d l e hi hj hk hd hl he => ?_⟩
    · rw [List.foldlM_cons, hG pw (by simp), ok_bind]; exact c1
    · rw [c4 i j k d l e hi hj hk hd hl he, b3 i j k d l e hi hj hk hd hl he, List.map_cons,
        List.sum_cons, withQ_eq, add_assoc]

/-- The same for an interface. -/
theorem itfGrad_spec {sqrt : R → R} {f : Face} {pts : List (FPt R × R)}
    (hp : ∀ pw ∈ pts, FPtOk f pw.1) (u1 u2 : List R) (G : FPt R → Mat R × Mat R)
    (hG : ∀ pw ∈ pts, quadGradBase sqrt pw.1 f.n2 ⟨f.nd1, f.dim, u1⟩ ⟨f.n2, f.dim, u2⟩ = .ok (G pw.1)) :
    ∃ ms, itfGrad sqrt f pts u1 u2 = .ok ms ∧ Sized f ms ∧
      ∀ i j k d l e, i < 2 → j < 2 → k < sideN f i → d < f.dim → l < sideN f j → e < f.dim →
        ent (ms.get i j) (k + d * sideN f i) (l + e * sideN f j) =
          (pts.map (fun pw => gterm pw.1 (wq pw.1 pw.2) (G pw.1) i j k d l e)).sum := by
  unfold itfGrad
  dsimp only
  suffices H : ∀ (pts : List (FPt R × R)) (m0 : Mats R), (∀ pw ∈ pts, FPtOk f pw.1) →
      (∀ pw ∈ pts, quadGradBase sqrt pw.1 f.n2 ⟨f.nd1, f.dim, u1⟩ ⟨f.n2, f.dim, u2⟩ = .ok (G pw.1)) →
      Sized f m0 →
      ∃ ms, pts.foldlM (fun ms pw => do
        let g ← quadGradBase sqrt pw.1 f.n2 ⟨f.nd1, f.dim, u1⟩ ⟨f.n2, f.dim, u2⟩
        return addItfBlocks f pw.1 (pw.1.withQ pw.2) g.1 g.2 ms) m0 = .ok ms ∧ Sized f ms ∧
      ∀ i j k d l e, i < 2 → j < 2 → k < sideN f i → d < f.dim → l < sideN f j → e < f.dim →
        ent (ms.get i j) (k + d * sideN f i) (l + e * sideN f j) =
          ent (m0.get i j) (k + d * sideN f i) (l + e * sideN f j) +
          (pts.map (fun pw => gterm pw.1 (wq pw.1 pw.2) (G pw.1) i j k d l e)).sum by
    obtain ⟨m, h1, h2, h4⟩ := H pts
      ⟨Mat.of (f.dim * f.nd1) (f.dim * f.nd1) (fun _ _ => 0), Mat.of (f.dim * f.nd1) (f.dim * f.n2) (fun _ _ => 0),
       Mat.of (f.dim * f.n2) (f.dim * f.nd1) (fun _ _ => 0), Mat.of (f.dim * f.n2) (f.dim * f.n2) (fun _ _ => 0)⟩
      hp hG ⟨⟨rfl, rfl⟩, ⟨rfl, rfl⟩, ⟨rfl, rfl⟩, rfl, rfl⟩
    refine ⟨m, h1, h2, fun i j k d l e hi hj hk hd hl he => ?_⟩
    rw [h4 i j k d l e hi hj hk hd hl he]
    have a1 := idx_lt hk hd
    have a2 := idx_lt hl he
    rw [Nat.mul_comm (sideN f i)] at a1
    rw [Nat.mul_comm (sideN f j)] at a2
    have hi' : i = 0 ∨ i = 1 := by omega
    have hj' : j = 0 ∨ j = 1 := by omega
    have hz : ent (Mats.get (⟨Mat.of (f.dim * f.nd1) (f.dim * f.nd1) (fun _ _ => 0),
        Mat.of (f.dim * f.nd1) (f.dim * f.n2) (fun _ _ => 0),
        Mat.of (f.dim * f.n2) (f.dim * f.nd1) (fun _ _ => 0),
        Mat.of (f.dim * f.n2) (f.dim * f.n2) (fun _ _ => 0)⟩ : Mats R) i j)
        (k + d * sideN f i) (l + e * sideN f j) = 0 := by
      rcases hi' with rfl | rfl <;> rcases hj' with rfl | rfl <;> exact ent_of (f := fun _ _ => (0 : R)) a1 a2
    rw [hz, zero_add]
  intro pts
  induction pts with
  | nil => intro m0 _ _ h1; exact ⟨m0, rfl, h1, by simp⟩
  | cons pw pts ih =>
    intro m0 hp hG h1
    have b1 := addItfBlocks_sized (p := pw.1) (pw.1.withQ pw.2) (G pw.1) h1
    obtain ⟨m, c1, c2, c4⟩ := ih (addItfBlocks f pw.1 (pw.1.withQ pw.2) (G pw.1).1 (G pw.1).2 m0)
      (fun q hq => hp q (by simp [hq])) (fun q hq => hG q (by simp [hq])) b1
    refine ⟨m, ?_, c2, fun i j k d l e hi hj hk hd hl he => ?_⟩
    · rw [List.foldlM_cons, hG pw (by simp), ok_bind]; exact c1
    · rw [c4 i j k d l e hi hj hk hd hl he,
        addItfBlocks_spec (hp pw (by simp)) (pw.1.withQ pw.2) (G pw.1) h1 hi hj hk hd hl he, List.map_cons,
        List.sum_cons, withQ_eq, add_assoc]

end Verif.LaxF
