import Verif.Spec.Temam
import Verif.Proofs.Penalty

/-!
# Proofs about the Temam integrators

Matrices are followed through what they give when tested with two vectors, `bil`; vectors are one-column matrices.
-/

namespace Verif.Temam

open Verif Verif.LinAlg Verif.Penalty Verif.Spec.Temam
open Finset hiding val

variable {R : Type} [Field R]

/-- `y` is `x` plus a matrix with the bilinear form `T`. -/
def BAdd (x y : Blk R) (T : (Nat → R) → (Nat → R) → R) : Prop :=
  y.h = x.h ∧ y.w = x.w ∧ ∀ v h, bil x.h x.w y v h = bil x.h x.w x v h + T v h

theorem BAdd.trans {x y z : Blk R} {T T' : (Nat → R) → (Nat → R) → R} (h1 : BAdd x y T) (h2 : BAdd y z T') :
    BAdd x z (fun v h => T v h + T' v h) := by
  refine ⟨h2.1.trans h1.1, h2.2.1.trans h1.2.1, fun v h => ?_⟩
  have := h2.2.2 v h
  rw [h1.1, h1.2.1] at this
  rw [this, h1.2.2, add_assoc]

theorem addAt_bil {m : Blk R} {i j : Nat} (x : R) (hi : i < m.h) (hj : j < m.w) :
    ∃ m', addAt m i j x = .ok m' ∧ BAdd m m' (fun v h => v i * x * h j) := by
  obtain ⟨m', e, h1, h2, h3⟩ := addAt_ok x hi hj
  refine ⟨m', e, h1, h2, fun v h => ?_⟩
  unfold bil
  rw [h3]
  simp only [Pi.add_apply, mul_add, add_mul, sum_add_distrib]
  congr 1
  rw [sum_eq_single i]
  · rw [sum_eq_single j]
    · simp
    · intro b _ hb; simp [hb]
    · intro h'; exact absurd (mem_range.2 hj) h'
  · intro b _ hb
    exact sum_eq_zero fun c _ => by simp [hb]
  · intro h'; exact absurd (mem_range.2 hi) h'

theorem loop_bil {n : Nat} {body : Nat → Blk R → Outcome (Blk R)} {m : Blk R}
    (T : Nat → (Nat → R) → (Nat → R) → R)
    (hs : ∀ k m', k < n → m'.h = m.h → m'.w = m.w → ∃ m'', body k m' = .ok m'' ∧ BAdd m' m'' (T k)) :
    ∃ m', loop n body m = .ok m' ∧ BAdd m m' (fun v h => ∑ k ∈ range n, T k v h) := by
  obtain ⟨m', e, ⟨h1, h2⟩, h3⟩ := loop_acc (n := n) (body := body) (fun m' => m'.h = m.h ∧ m'.w = m.w)
    (fun m' => bil m.h m.w m') T (s := m) ⟨rfl, rfl⟩ (by
      rintro k m' hk ⟨a, b⟩
      obtain ⟨m'', e, c1, c2, c3⟩ := hs k m' hk a b
      refine ⟨m'', e, ⟨c1.trans a, c2.trans b⟩, ?_⟩
      funext v h
      have := c3 v h
      rw [a, b] at this
      exact this)
  refine ⟨m', e, h1, h2, fun v h => ?_⟩
  have := congrFun (congrFun h3 v) h
  rw [this]
  simp only [Pi.add_apply, Finset.sum_apply]

theorem addMatrix_ok {ah aw ro co : Nat} (a : R) (A : Nat → Nat → R) {m : Blk R} (hr : ro + ah ≤ m.h)
    (hc : co + aw ≤ m.w) : ∃ m', addMatrix ah aw a A ro co m = .ok m' ∧
      BAdd m m' (fun v h => ∑ j ∈ range aw, ∑ i ∈ range ah, v (ro + i) * (a * A i j) * h (co + j)) := by
  unfold addMatrix
  refine loop_bil (T := fun j v h => ∑ i ∈ range ah, v (ro + i) * (a * A i j) * h (co + j)) fun j m1 hj h1 h2 => ?_
  refine loop_bil (T := fun i v h => v (ro + i) * (a * A i j) * h (co + j)) fun i m2 hi h3 h4 => ?_
  exact addAt_bil _ (by omega) (by omega)

theorem addOuter_ok {nd dim off : Nat} (v w : Nat → R) {x : Blk R} (hr : off + dim * nd ≤ x.h) (hc : x.w = 1) :
    ∃ x', addOuter nd dim off v w x = .ok x' ∧
      BAdd x x' (fun t h => ∑ d ∈ range dim, ∑ j ∈ range nd, t (off + (d * nd + j)) * (v j * w d) * h 0) := by
  unfold addOuter
  refine loop_bil (T := fun d t h => ∑ j ∈ range nd, t (off + (d * nd + j)) * (v j * w d) * h 0) fun d x1 hd h1 h2 => ?_
  refine loop_bil (T := fun j t h => t (off + (d * nd + j)) * (v j * w d) * h 0) fun j x2 hj h3 h4 => ?_
  have := flat_lt hd hj
  exact addAt_bil _ (by omega) (by omega)

/-- The loop over the points. -/
theorem over_bil {α : Type} {pts : List α} {body : α → Blk R → Outcome (Blk R)} {m : Blk R}
    (T : α → (Nat → R) → (Nat → R) → R)
    (hs : ∀ p ∈ pts, ∀ m', m'.h = m.h → m'.w = m.w → ∃ m'', body p m' = .ok m'' ∧ BAdd m' m'' (T p)) :
    ∃ m', over pts body m = .ok m' ∧ BAdd m m' (fun v h => (pts.map fun p => T p v h).sum) := by
  obtain ⟨m', e, h1, h2, h3⟩ := loop_bil (n := pts.length) (m := m) (body := fun k s => do let p ← rd pts k; body p s)
    (fun k => (pts[k]?).elim 0 T) (by
      intro k m1 hk a b
      obtain ⟨m2, e, h⟩ := hs pts[k] (List.getElem_mem hk) m1 a b
      refine ⟨m2, ?_, ?_⟩
      · rw [rd_eq_ok.2 (List.getElem?_eq_getElem hk), ok_bind, e]
      · rw [List.getElem?_eq_getElem hk]; exact h)
  refine ⟨m', e, h1, h2, fun v h => ?_⟩
  rw [h3]
  dsimp only
  congr 1
  rw [← sum_getElem]
  refine sum_congr rfl fun k hk => ?_
  rw [List.getElem?_eq_getElem (mem_range.1 hk)]
  rfl

theorem bil_zeros (n m h w : Nat) (v u : Nat → R) : bil n m (zeros h w) v u = 0 := by
  simp [bil, zeros]

theorem bil_one (n : Nat) (x : Blk R) (v : Nat → R) : bil n 1 x v (fun _ => 1) = lin n x v := by
  simp [bil, lin]

/-! ## Values -/

theorem weight_eq (wt : R) (q : Option R) : weight wt q = 1 / 2 * wt * coef q := by
  cases q <;> simp [weight, coef]

theorem interp_eq (nd : Nat) (shape u : Nat → R) : interp nd 0 shape u = val nd shape u := by
  funext d
  simp only [interp, Penalty.dot_eq, val, zero_add]

theorem interp_off (nd k : Nat) (shape u : Nat → R) : interp nd k shape u = val nd shape (halves k u true) := by
  funext d
  simp only [interp, Penalty.dot_eq, val, halves, if_true]

theorem gradEF_eq (nd : Nat) (p : EPt R) (u : Nat → R) : gradEF nd p u = der nd p u := by
  funext a b
  simp only [gradEF, Penalty.dot_eq, der, zero_add]

theorem normal_eq (dim n1 : Nat) (p : FPt R) (u : Nat → R) :
    normal dim p (val n1 p.sh1 u) = 1 / 2 * p.wt * coef p.q * normalVel dim n1 p u := by
  simp only [normal, Penalty.dot_eq, weight_eq, normalVel, mul_sum]
  exact sum_congr rfl fun a _ => by ring

/-- Testing an outer product. -/
theorem outer_val (dim nd : Nat) (shape w t : Nat → R) :
    ∑ d ∈ range dim, ∑ j ∈ range nd, t (0 + (d * nd + j)) * (shape j * w d) * 1 =
      ∑ d ∈ range dim, val nd shape t d * w d := by
  refine sum_congr rfl fun d _ => ?_
  rw [val, sum_mul]
  exact sum_congr rfl fun j _ => by rw [zero_add]; ring

theorem outer_off (dim nd k : Nat) (shape w t : Nat → R) :
    ∑ d ∈ range dim, ∑ j ∈ range nd, t (k + (d * nd + j)) * (shape j * w d) * 1 =
      ∑ d ∈ range dim, val nd shape (halves k t true) d * w d := by
  refine sum_congr rfl fun d _ => ?_
  rw [val, sum_mul]
  exact sum_congr rfl fun j _ => by simp only [halves, if_true]; ring

/-- Testing a product matrix. -/
theorem matrix_val {nr nc : Nat} (di dj : Nat) (a : R) (f g v h : Nat → R) :
    ∑ j ∈ range nc, ∑ i ∈ range nr, v (di * nr + i) * (a * (f i * g j)) * h (dj * nc + j) =
      a * (val nr f v di * val nc g h dj) := by
  rw [val, val, sum_mul_sum, mul_sum, sum_comm]
  refine sum_congr rfl fun i _ => ?_
  rw [mul_sum]
  exact sum_congr rfl fun j _ => by ring

/-- Physical derivatives along the velocity. -/
theorem val_conv (dim nd : Nat) (p : EPt R) (a t : Nat → R) (d : Nat) :
    val nd (mulVec dim p.dshape (val nd p.shape a)) t d = conv dim nd p a t d := by
  rw [conv, val]
  simp only [Penalty.mulVec_eq, der, mul_sum]
  rw [sum_comm]
  exact sum_congr rfl fun b _ => sum_congr rfl fun j _ => by ring

theorem mulVec_conv (dim nd : Nat) (p : EPt R) (a u : Nat → R) (d : Nat) :
    mulVec dim (der nd p u) (val nd p.shape a) d = conv dim nd p a u d := by
  rw [Penalty.mulVec_eq, conv]
  exact sum_congr rfl fun b _ => mul_comm _ _

/-! ## In an element -/

/-- One point of the element form. -/
def elemAt (dim nd : Nat) (a u v : Nat → R) (p : EPt R) : R :=
  1 / 2 * p.wt * coef p.q * ∑ d ∈ range dim,
    (conv dim nd p a u d * val nd p.shape v d - conv dim nd p a v d * val nd p.shape u d)

theorem outer_val' (dim nd : Nat) (shape w t h : Nat → R) :
    ∑ d ∈ range dim, ∑ j ∈ range nd, t (0 + (d * nd + j)) * (shape j * w d) * h 0 =
      (∑ d ∈ range dim, val nd shape t d * w d) * h 0 := by
  rw [← outer_val, sum_mul]
  refine sum_congr rfl fun d _ => ?_
  rw [sum_mul]
  exact sum_congr rfl fun j _ => by ring

theorem outer_off' (dim nd k : Nat) (shape w t h : Nat → R) :
    ∑ d ∈ range dim, ∑ j ∈ range nd, t (k + (d * nd + j)) * (shape j * w d) * h 0 =
      (∑ d ∈ range dim, val nd shape (halves k t true) d * w d) * h 0 := by
  rw [← outer_off, sum_mul]
  refine sum_congr rfl fun d _ => ?_
  rw [sum_mul]
  exact sum_congr rfl fun j _ => by ring

theorem elemVecPt_ok {nd dim : Nat} (u : Nat → R) (p : EPt R) {x : Blk R} (hr : x.h = nd * dim) (hc : x.w = 1) :
    ∃ x', elemVecPt nd dim u p x = .ok x' ∧ BAdd x x' (fun v h => elemAt dim nd u u v p * h 0) := by
  have hd : 0 + dim * nd ≤ nd * dim := by rw [Nat.zero_add, Nat.mul_comm]
  unfold elemVecPt
  dsimp only
  rw [interp_eq, weight_eq, gradEF_eq]
  obtain ⟨x1, e1, b1⟩ := addOuter_ok (off := 0) (nd := nd) (dim := dim) p.shape
    (fun a => 1 / 2 * p.wt * coef p.q * mulVec dim (der nd p u) (val nd p.shape u) a) (hr ▸ hd) hc
  obtain ⟨x2, e2, b2⟩ := addOuter_ok (off := 0) (nd := nd) (dim := dim) (mulVec dim p.dshape (val nd p.shape u))
    (fun a => -(1 / 2 * p.wt * coef p.q) * val nd p.shape u a) (b1.1 ▸ hr ▸ hd) (b1.2.1.trans hc)
  refine ⟨x2, by rw [e1, ok_bind, e2], ?_⟩
  have := b1.trans b2
  refine ⟨this.1, this.2.1, fun v h => ?_⟩
  rw [this.2.2]
  congr 1
  simp only [outer_val', mulVec_conv, val_conv, elemAt, ← add_mul]
  congr 1
  rw [← sum_add_distrib, mul_sum]
  exact sum_congr rfl fun d _ => by ring

theorem elemVec_ok (nd dim : Nat) (pts : List (EPt R)) (u : Nat → R) :
    ∃ x, elemVec nd dim pts u = .ok x ∧ x.h = nd * dim ∧ x.w = 1 ∧
      ∀ v, lin (nd * dim) x v = elem dim nd pts u u v := by
  obtain ⟨x, e, h1, h2, h3⟩ := over_bil (pts := pts) (m := zeros (nd * dim) 1) (body := elemVecPt nd dim u)
    (fun p v h => elemAt dim nd u u v p * h 0) (fun p _ x hr hc => elemVecPt_ok u p hr hc)
  refine ⟨x, e, h1, h2, fun v => ?_⟩
  have := h3 v (fun _ => 1)
  simp only [mul_one] at this
  rw [← bil_one]
  exact this.trans (by rw [bil_zeros, zero_add]; rfl)

theorem matrix_ok {nr nc ro co : Nat} (a : R) (A : Nat → Nat → R) {m : Blk R}
    (hr : ro + nr ≤ m.h) (hc : co + nc ≤ m.w) (T : (Nat → R) → (Nat → R) → R)
    (hT : ∀ v h, ∑ j ∈ range nc, ∑ i ∈ range nr, v (ro + i) * (a * A i j) * h (co + j) = T v h) :
    ∃ m', addMatrix nr nc a A ro co m = .ok m' ∧ BAdd m m' T := by
  obtain ⟨m', e, b⟩ := addMatrix_ok a A hr hc
  exact ⟨m', e, b.1, b.2.1, fun v h => by rw [b.2.2, ← hT]⟩

theorem mul_succ_le {d dim nd : Nat} (h : d < dim) : d * nd + nd ≤ nd * dim := by
  have := Nat.mul_le_mul_right nd (Nat.succ_le_of_lt h)
  rw [Nat.succ_mul] at this
  rw [Nat.mul_comm nd dim]; exact this

theorem BAdd.congr {x y : Blk R} {T T' : (Nat → R) → (Nat → R) → R} (h : BAdd x y T) (e : ∀ v w, T v w = T' v w) :
    BAdd x y T' := ⟨h.1, h.2.1, fun v w => by rw [h.2.2, e]⟩

theorem elemGradPt_ok {nd dim : Nat} (u : Nat → R) (p : EPt R) {m : Blk R} (hr : m.h = nd * dim)
    (hc : m.w = nd * dim) : ∃ m', elemGradPt nd dim u p m = .ok m' ∧
      BAdd m m' (fun v h => elemAt dim nd h u v p + elemAt dim nd u h v p) := by
  unfold elemGradPt
  dsimp only
  rw [interp_eq, weight_eq, gradEF_eq]
  generalize hw : 1 / 2 * p.wt * coef p.q = w
  obtain ⟨m1, e1, b1⟩ := loop_bil (m := m) (n := dim) (body := fun d m => addMatrix nd nd (-w)
      (fun i j => mulVec dim p.dshape (val nd p.shape u) i * p.shape j) (d * nd) (d * nd) m)
    (fun d v h => -w * (conv dim nd p u v d * val nd p.shape h d)) (fun d m' hd a b =>
      matrix_ok _ _ (by rw [a, hr]; exact mul_succ_le hd) (by rw [b, hc]; exact mul_succ_le hd) _
        (fun v h => by rw [matrix_val, val_conv]))
  obtain ⟨m2, e2, b2⟩ := loop_bil (m := m1) (n := dim) (body := fun d m => addMatrix nd nd w
      (fun i j => p.shape i * mulVec dim p.dshape (val nd p.shape u) j) (d * nd) (d * nd) m)
    (fun d v h => w * (val nd p.shape v d * conv dim nd p u h d)) (fun d m' hd a b =>
      matrix_ok _ _ (by rw [a, b1.1, hr]; exact mul_succ_le hd) (by rw [b, b1.2.1, hc]; exact mul_succ_le hd) _
        (fun v h => by rw [matrix_val, val_conv]))
  obtain ⟨m3, e3, b3⟩ := loop_bil (m := m2) (n := dim) (body := fun di m => loop dim (fun dj m => do
      let m ← addMatrix nd nd (-w) (fun i j => (val nd p.shape u di * p.dshape i dj) * p.shape j) (di * nd) (dj * nd) m
      addMatrix nd nd (w * der nd p u di dj) (fun i j => p.shape i * p.shape j) (di * nd) (dj * nd) m) m)
    (fun di v h => ∑ dj ∈ range dim, (-w * ((val nd p.shape u di * der nd p v di dj) * val nd p.shape h dj) +
      w * der nd p u di dj * (val nd p.shape v di * val nd p.shape h dj)))
    (fun di m' hdi a b => by
      refine loop_bil _ fun dj m4 hdj a' b' => ?_
      have c1 : m4.h = nd * dim := by rw [a', a, b2.1, b1.1, hr]
      have c2 : m4.w = nd * dim := by rw [b', b, b2.2.1, b1.2.1, hc]
      obtain ⟨m5, e5, b5⟩ := matrix_ok (m := m4) (-w) (fun i j => (val nd p.shape u di * p.dshape i dj) * p.shape j)
        (by rw [c1]; exact mul_succ_le hdi) (by rw [c2]; exact mul_succ_le hdj)
        (fun v h => -w * ((val nd p.shape u di * der nd p v di dj) * val nd p.shape h dj))
        (fun v h => by
          rw [matrix_val]
          congr 2
          rw [val, der, mul_sum]
          exact sum_congr rfl fun j _ => by ring)
      obtain ⟨m6, e6, b6⟩ := matrix_ok (m := m5) (w * der nd p u di dj) (fun i j => p.shape i * p.shape j)
        (by rw [b5.1, c1]; exact mul_succ_le hdi) (by rw [b5.2.1, c2]; exact mul_succ_le hdj)
        (fun v h => w * der nd p u di dj * (val nd p.shape v di * val nd p.shape h dj)) (fun v h => matrix_val _ _ _ _ _ _ _)
      exact ⟨m6, by rw [e5, ok_bind, e6], b5.trans b6⟩)
  refine ⟨m3, by rw [e1, ok_bind, e2, ok_bind, e3], ((b1.trans b2).trans b3).congr fun v h => ?_⟩
  unfold elemAt
  rw [hw, mul_sum, mul_sum, ← sum_add_distrib, ← sum_add_distrib, ← sum_add_distrib]
  refine sum_congr rfl fun d _ => ?_
  have : ∑ dj ∈ range dim, (-w * ((val nd p.shape u d * der nd p v d dj) * val nd p.shape h dj) +
      w * der nd p u d dj * (val nd p.shape v d * val nd p.shape h dj)) =
      w * (conv dim nd p h u d * val nd p.shape v d - conv dim nd p h v d * val nd p.shape u d) := by
    simp only [conv, sum_mul]
    rw [← sum_sub_distrib, mul_sum]
    exact sum_congr rfl fun b _ => by ring
  rw [this]
  ring

theorem elemGrad_ok (nd dim : Nat) (pts : List (EPt R)) (u : Nat → R) :
    ∃ m, elemGrad nd dim pts u = .ok m ∧ m.h = nd * dim ∧ m.w = nd * dim ∧
      ∀ v h, bil (nd * dim) (nd * dim) m v h = elem dim nd pts h u v + elem dim nd pts u h v := by
  obtain ⟨x, e, h1, h2, h3⟩ := over_bil (pts := pts) (m := zeros (nd * dim) (nd * dim)) (body := elemGradPt nd dim u)
    (fun p v h => elemAt dim nd h u v p + elemAt dim nd u h v p) (fun p _ x hr hc => elemGradPt_ok u p hr hc)
  refine ⟨x, e, h1, h2, fun v h => (h3 v h).trans ?_⟩
  rw [bil_zeros, zero_add]
  dsimp only
  rw [List.sum_map_add]
  rfl

/-! ## On a face -/

/-- One point of the form on an interior face. -/
def faceAt (dim n1 n2 : Nat) (a u v : Bool → Nat → R) (p : FPt R) : R :=
  1 / 2 * p.wt * coef p.q * (normalVel dim n1 p (a false) * ∑ d ∈ range dim,
    (val n1 p.sh1 (u false) d * val n2 p.sh2 (v true) d - val n2 p.sh2 (u true) d * val n1 p.sh1 (v false) d))

/-- One point of the form on a boundary face. -/
def bdrAt (dim n1 : Nat) (a u v : Nat → R) (p : FPt R) : R :=
  1 / 2 * p.wt * coef p.q * (normalVel dim n1 p a * ∑ d ∈ range dim, val n1 p.sh1 u d * val n1 p.sh1 v d)

omit [Field R] in
theorem halves_false (k : Nat) (u : Nat → R) : halves k u false = u := by
  funext j; simp [halves]

theorem faceVecPt_bdr {dim n1 : Nat} (u : Nat → R) (p : FPt R) {x : Blk R} (hr : x.h = dim * (n1 + 0))
    (hc : x.w = 1) :
    ∃ x', faceVecPt dim n1 0 u p x = .ok x' ∧ BAdd x x' (fun v h => bdrAt dim n1 u u v p * h 0) := by
  unfold faceVecPt
  dsimp only
  rw [if_pos rfl, interp_eq, normal_eq]
  obtain ⟨x1, e1, b1⟩ := addOuter_ok (off := 0) (nd := n1) (dim := dim) p.sh1
    (fun a => 1 / 2 * p.wt * coef p.q * normalVel dim n1 p u * val n1 p.sh1 u a) (x := x)
    (by rw [hr]; simp) hc
  refine ⟨x1, e1, b1.congr fun v h => ?_⟩
  rw [outer_val', bdrAt]
  congr 1
  rw [mul_sum, mul_sum]
  exact sum_congr rfl fun d _ => by ring

theorem faceVecPt_in {dim n1 n2 : Nat} (hn : n2 ≠ 0) (u : Nat → R) (p : FPt R) {x : Blk R}
    (hr : x.h = dim * (n1 + n2)) (hc : x.w = 1) :
    ∃ x', faceVecPt dim n1 n2 u p x = .ok x' ∧ BAdd x x' (fun v h =>
      faceAt dim n1 n2 (halves (n1 * dim) u) (halves (n1 * dim) u) (halves (n1 * dim) v) p * h 0) := by
  have hm : n1 * dim + dim * n2 = dim * (n1 + n2) := by rw [Nat.mul_add, Nat.mul_comm n1]
  unfold faceVecPt
  dsimp only
  rw [if_neg hn, interp_eq, normal_eq, interp_off]
  obtain ⟨x1, e1, b1⟩ := addOuter_ok (off := n1 * dim) (nd := n2) (dim := dim) p.sh2
    (fun a => 1 / 2 * p.wt * coef p.q * normalVel dim n1 p u * val n1 p.sh1 u a) (x := x)
    (by rw [hr, hm]) hc
  obtain ⟨x2, e2, b2⟩ := addOuter_ok (off := 0) (nd := n1) (dim := dim) p.sh1
    (fun a => -(1 / 2 * p.wt * coef p.q * normalVel dim n1 p u) * val n2 p.sh2 (halves (n1 * dim) u true) a) (x := x1)
    (by rw [b1.1, hr, Nat.mul_add]; omega) (b1.2.1.trans hc)
  refine ⟨x2, by rw [e1, ok_bind, e2], (b1.trans b2).congr fun v h => ?_⟩
  rw [outer_val', outer_off', faceAt, ← add_mul, halves_false, halves_false]
  congr 1
  rw [mul_sum, mul_sum, ← sum_add_distrib]
  exact sum_congr rfl fun d _ => by ring

theorem faceVec_in {dim n1 n2 : Nat} (hn : n2 ≠ 0) (pts : List (FPt R)) (u : Nat → R) :
    ∃ x, faceVec dim n1 n2 pts u = .ok x ∧ x.h = dim * (n1 + n2) ∧ x.w = 1 ∧
      ∀ v, lin (dim * (n1 + n2)) x v =
        face dim n1 n2 pts (halves (n1 * dim) u) (halves (n1 * dim) u) (halves (n1 * dim) v) := by
  obtain ⟨x, e, h1, h2, h3⟩ := over_bil (pts := pts) (m := zeros (dim * (n1 + n2)) 1) (body := faceVecPt dim n1 n2 u)
    (fun p v h => faceAt dim n1 n2 (halves (n1 * dim) u) (halves (n1 * dim) u) (halves (n1 * dim) v) p * h 0)
    (fun p _ x hr hc => faceVecPt_in hn u p hr hc)
  refine ⟨x, e, h1, h2, fun v => ?_⟩
  have := h3 v (fun _ => 1)
  simp only [mul_one] at this
  rw [← bil_one]
  exact this.trans (by rw [bil_zeros, zero_add]; rfl)

theorem faceVec_bdr (dim n1 : Nat) (pts : List (FPt R)) (u : Nat → R) :
    ∃ x, faceVec dim n1 0 pts u = .ok x ∧ x.h = dim * n1 ∧ x.w = 1 ∧
      ∀ v, lin (dim * n1) x v = bdr dim n1 pts u u v := by
  obtain ⟨x, e, h1, h2, h3⟩ := over_bil (pts := pts) (m := zeros (dim * (n1 + 0)) 1) (body := faceVecPt dim n1 0 u)
    (fun p v h => bdrAt dim n1 u u v p * h 0) (fun p _ x hr hc => faceVecPt_bdr u p hr hc)
  refine ⟨x, e, h1, h2, fun v => ?_⟩
  have := h3 v (fun _ => 1)
  simp only [mul_one] at this
  rw [← bil_one]
  exact this.trans (by rw [bil_zeros, zero_add]; rfl)

/-- Testing a product matrix whose rows begin in the second half. -/
theorem matrix_row {nr nc : Nat} (k di dj : Nat) (a : R) (f g v h : Nat → R) :
    ∑ j ∈ range nc, ∑ i ∈ range nr, v (di * nr + k + i) * (a * (g j * f i)) * h (dj * nc + j) =
      a * (val nr f (halves k v true) di * val nc g h dj) := by
  rw [← matrix_val]
  refine sum_congr rfl fun j _ => sum_congr rfl fun i _ => ?_
  have : di * nr + k + i = k + (di * nr + i) := by omega
  rw [this]
  simp only [halves, if_true]
  ring

theorem matrix_col {nr nc : Nat} (k di dj : Nat) (a : R) (f g v h : Nat → R) :
    ∑ j ∈ range nc, ∑ i ∈ range nr, v (di * nr + i) * (a * (f i * g j)) * h (dj * nc + k + j) =
      a * (val nr f v di * val nc g (halves k h true) dj) := by
  rw [← matrix_val]
  refine sum_congr rfl fun j _ => sum_congr rfl fun i _ => ?_
  have : dj * nc + k + j = k + (dj * nc + j) := by omega
  rw [this]
  simp only [halves, if_true]

theorem matrix_swap {nr nc : Nat} (di dj : Nat) (a : R) (f g v h : Nat → R) :
    ∑ j ∈ range nc, ∑ i ∈ range nr, v (di * nr + i) * (a * (g j * f i)) * h (dj * nc + j) =
      a * (val nr f v di * val nc g h dj) := by
  rw [← matrix_val]
  exact sum_congr rfl fun j _ => sum_congr rfl fun i _ => by rw [mul_comm (g j)]

theorem normalVel_sum (dim n1 : Nat) (p : FPt R) (h : Nat → R) (c : R) :
    ∑ a ∈ range dim, p.nor a * c * val n1 p.sh1 h a = c * normalVel dim n1 p h := by
  rw [normalVel, mul_sum]
  exact sum_congr rfl fun a _ => by ring

theorem mul_succ_le' {d dim nd : Nat} (h : d < dim) : d * nd + nd ≤ dim * nd := by
  have := mul_succ_le (nd := nd) h
  rwa [Nat.mul_comm nd] at this

theorem faceGradPt_in {dim n1 n2 : Nat} (hn : n2 ≠ 0) (u : Nat → R) (p : FPt R) {m : Blk R}
    (hr : m.h = dim * (n1 + n2)) (hc : m.w = dim * (n1 + n2)) :
    ∃ m', faceGradPt dim n1 n2 u p m = .ok m' ∧ BAdd m m' (fun v h =>
      faceAt dim n1 n2 (halves (n1 * dim) h) (halves (n1 * dim) u) (halves (n1 * dim) v) p +
      faceAt dim n1 n2 (halves (n1 * dim) u) (halves (n1 * dim) h) (halves (n1 * dim) v) p) := by
  have hm : dim * (n1 + n2) = dim * n1 + dim * n2 := Nat.mul_add _ _ _
  rw [hm] at hr hc
  unfold faceGradPt
  dsimp only
  rw [if_neg hn, interp_eq, normal_eq, interp_off, weight_eq]
  generalize hw : 1 / 2 * p.wt * coef p.q = w
  generalize hu2 : val n2 p.sh2 (halves (n1 * dim) u true) = u2
  generalize hu1 : val n1 p.sh1 u = u1
  generalize hun : w * normalVel dim n1 p u = un
  unfold faceGradIn
  obtain ⟨m', e, b⟩ := loop_bil (m := m) (n := dim) (body := fun di m => do
      let m ← addMatrix n2 n1 un (fun i j => p.sh1 j * p.sh2 i) (di * n2 + dim * n1) (di * n1) m
      let m ← addMatrix n1 n2 (-un) (fun i j => p.sh1 i * p.sh2 j) (di * n1) (di * n2 + dim * n1) m
      loop dim (fun dj m => do
        let m ← addMatrix n2 n1 (u1 di * (p.nor dj * w)) (fun i j => p.sh1 j * p.sh2 i) (di * n2 + dim * n1) (dj * n1) m
        addMatrix n1 n1 (-u2 di * (p.nor dj * w)) (fun i j => p.sh1 i * p.sh1 j) (di * n1) (dj * n1) m) m)
    (fun di v h => un * (val n2 p.sh2 (halves (n1 * dim) v true) di * val n1 p.sh1 h di) +
      -un * (val n1 p.sh1 v di * val n2 p.sh2 (halves (n1 * dim) h true) di) +
      ∑ dj ∈ range dim, (u1 di * (p.nor dj * w) * (val n2 p.sh2 (halves (n1 * dim) v true) di * val n1 p.sh1 h dj) +
        -u2 di * (p.nor dj * w) * (val n1 p.sh1 v di * val n1 p.sh1 h dj)))
    (fun di m0 hdi a0 b0 => by
      have d1 : di * n1 + n1 ≤ dim * n1 := mul_succ_le' hdi
      have d2 : di * n2 + n2 ≤ dim * n2 := mul_succ_le' hdi
      obtain ⟨m1, e1, b1⟩ := matrix_ok (m := m0) (nr := n2) (nc := n1) (ro := di * n2 + dim * n1) (co := di * n1) un
        (fun i j => p.sh1 j * p.sh2 i) (by omega) (by omega)
        (fun v h => un * (val n2 p.sh2 (halves (n1 * dim) v true) di * val n1 p.sh1 h di))
        (fun v h => by rw [← matrix_row, Nat.mul_comm n1 dim])
      have a1 := b1.1; have c1 := b1.2.1
      obtain ⟨m2, e2, b2⟩ := matrix_ok (m := m1) (nr := n1) (nc := n2) (ro := di * n1) (co := di * n2 + dim * n1) (-un)
        (fun i j => p.sh1 i * p.sh2 j) (by omega) (by omega)
        (fun v h => -un * (val n1 p.sh1 v di * val n2 p.sh2 (halves (n1 * dim) h true) di))
        (fun v h => by rw [← matrix_col, Nat.mul_comm n1 dim])
      have a2 := b2.1; have c2 := b2.2.1
      obtain ⟨m3, e3, b3⟩ := loop_bil (m := m2) (n := dim) (body := fun dj m => do
          let m ← addMatrix n2 n1 (u1 di * (p.nor dj * w)) (fun i j => p.sh1 j * p.sh2 i) (di * n2 + dim * n1) (dj * n1) m
          addMatrix n1 n1 (-u2 di * (p.nor dj * w)) (fun i j => p.sh1 i * p.sh1 j) (di * n1) (dj * n1) m)
        (fun dj v h => u1 di * (p.nor dj * w) * (val n2 p.sh2 (halves (n1 * dim) v true) di * val n1 p.sh1 h dj) +
          -u2 di * (p.nor dj * w) * (val n1 p.sh1 v di * val n1 p.sh1 h dj))
        (fun dj m3 hdj a3 c3 => by
          have d3 : dj * n1 + n1 ≤ dim * n1 := mul_succ_le' hdj
          obtain ⟨m4, e4, b4⟩ := matrix_ok (m := m3) (nr := n2) (nc := n1) (ro := di * n2 + dim * n1) (co := dj * n1) (u1 di * (p.nor dj * w))
            (fun i j => p.sh1 j * p.sh2 i) (by omega) (by omega)
            (fun v h => u1 di * (p.nor dj * w) * (val n2 p.sh2 (halves (n1 * dim) v true) di * val n1 p.sh1 h dj))
            (fun v h => by rw [← matrix_row, Nat.mul_comm n1 dim])
          have a4 := b4.1; have c4 := b4.2.1
          obtain ⟨m5, e5, b5⟩ := matrix_ok (m := m4) (nr := n1) (nc := n1) (ro := di * n1) (co := dj * n1) (-u2 di * (p.nor dj * w))
            (fun i j => p.sh1 i * p.sh1 j) (by omega) (by omega)
            (fun v h => -u2 di * (p.nor dj * w) * (val n1 p.sh1 v di * val n1 p.sh1 h dj))
            (fun v h => matrix_val _ _ _ _ _ _ _)
          exact ⟨m5, by rw [e4, ok_bind, e5], b4.trans b5⟩)
      exact ⟨m3, by rw [e1, ok_bind, e2, ok_bind, e3], (b1.trans b2).trans b3⟩)
  refine ⟨m', e, b.congr fun v h => ?_⟩
  unfold faceAt
  simp only [halves_false, hw, hu1, hu2, ← mul_assoc, hun]
  rw [← normalVel_sum, mul_sum, mul_sum, ← sum_add_distrib]
  refine sum_congr rfl fun d _ => ?_
  have : ∑ dj ∈ range dim, (u1 d * (p.nor dj * w) * (val n2 p.sh2 (halves (n1 * dim) v true) d * val n1 p.sh1 h dj) +
        -u2 d * (p.nor dj * w) * (val n1 p.sh1 v d * val n1 p.sh1 h dj)) =
      (∑ a ∈ range dim, p.nor a * w * val n1 p.sh1 h a) *
        (u1 d * val n2 p.sh2 (halves (n1 * dim) v true) d - u2 d * val n1 p.sh1 v d) := by
    rw [sum_mul]
    exact sum_congr rfl fun b _ => by ring
  simp only [← mul_assoc] at this
  rw [this]
  ring

theorem faceGradPt_bdr {dim n1 : Nat} (u : Nat → R) (p : FPt R) {m : Blk R}
    (hr : m.h = dim * (n1 + 0)) (hc : m.w = dim * (n1 + 0)) :
    ∃ m', faceGradPt dim n1 0 u p m = .ok m' ∧ BAdd m m' (fun v h =>
      bdrAt dim n1 h u v p + bdrAt dim n1 u h v p) := by
  rw [Nat.add_zero] at hr hc
  unfold faceGradPt
  dsimp only
  rw [if_pos rfl, interp_eq, normal_eq, weight_eq]
  generalize hw : 1 / 2 * p.wt * coef p.q = w
  generalize hu1 : val n1 p.sh1 u = u1
  generalize hun : w * normalVel dim n1 p u = un
  unfold faceGradBdr
  obtain ⟨m', e, b⟩ := loop_bil (m := m) (n := dim) (body := fun di m => do
      let m ← addMatrix n1 n1 un (fun i j => p.sh1 i * p.sh1 j) (di * n1) (di * n1) m
      loop dim (fun dj m =>
        addMatrix n1 n1 (u1 di * (p.nor dj * w)) (fun i j => p.sh1 i * p.sh1 j) (di * n1) (dj * n1) m) m)
    (fun di v h => un * (val n1 p.sh1 v di * val n1 p.sh1 h di) +
      ∑ dj ∈ range dim, u1 di * (p.nor dj * w) * (val n1 p.sh1 v di * val n1 p.sh1 h dj))
    (fun di m0 hdi a0 b0 => by
      have d1 : di * n1 + n1 ≤ dim * n1 := mul_succ_le' hdi
      obtain ⟨m1, e1, b1⟩ := matrix_ok (m := m0) (nr := n1) (nc := n1) (ro := di * n1) (co := di * n1) un
        (fun i j => p.sh1 i * p.sh1 j) (by omega) (by omega)
        (fun v h => un * (val n1 p.sh1 v di * val n1 p.sh1 h di)) (fun v h => matrix_val _ _ _ _ _ _ _)
      have a1 := b1.1; have c1 := b1.2.1
      obtain ⟨m3, e3, b3⟩ := loop_bil (m := m1) (n := dim) (body := fun dj m =>
          addMatrix n1 n1 (u1 di * (p.nor dj * w)) (fun i j => p.sh1 i * p.sh1 j) (di * n1) (dj * n1) m)
        (fun dj v h => u1 di * (p.nor dj * w) * (val n1 p.sh1 v di * val n1 p.sh1 h dj))
        (fun dj m3 hdj a3 c3 => by
          have d3 : dj * n1 + n1 ≤ dim * n1 := mul_succ_le' hdj
          exact matrix_ok (m := m3) (nr := n1) (nc := n1) (ro := di * n1) (co := dj * n1) (u1 di * (p.nor dj * w))
            (fun i j => p.sh1 i * p.sh1 j) (by omega) (by omega) _ (fun v h => matrix_val _ _ _ _ _ _ _))
      exact ⟨m3, by rw [e1, ok_bind, e3], b1.trans b3⟩)
  refine ⟨m', e, b.congr fun v h => ?_⟩
  unfold bdrAt
  simp only [hw, hu1, ← mul_assoc, hun]
  rw [← normalVel_sum, mul_sum, mul_sum, ← sum_add_distrib]
  refine sum_congr rfl fun d _ => ?_
  have : ∑ dj ∈ range dim, u1 d * (p.nor dj * w) * (val n1 p.sh1 v d * val n1 p.sh1 h dj) =
      (∑ a ∈ range dim, p.nor a * w * val n1 p.sh1 h a) * (u1 d * val n1 p.sh1 v d) := by
    rw [sum_mul]
    exact sum_congr rfl fun b _ => by ring
  simp only [← mul_assoc] at this
  rw [this]
  ring

theorem faceGrad_in {dim n1 n2 : Nat} (hn : n2 ≠ 0) (pts : List (FPt R)) (u : Nat → R) :
    ∃ m, faceGrad dim n1 n2 pts u = .ok m ∧ m.h = dim * (n1 + n2) ∧ m.w = dim * (n1 + n2) ∧
      ∀ v h, bil (dim * (n1 + n2)) (dim * (n1 + n2)) m v h =
        face dim n1 n2 pts (halves (n1 * dim) h) (halves (n1 * dim) u) (halves (n1 * dim) v) +
        face dim n1 n2 pts (halves (n1 * dim) u) (halves (n1 * dim) h) (halves (n1 * dim) v) := by
  obtain ⟨x, e, h1, h2, h3⟩ := over_bil (pts := pts) (m := zeros (dim * (n1 + n2)) (dim * (n1 + n2)))
    (body := faceGradPt dim n1 n2 u) _ (fun p _ x hr hc => faceGradPt_in hn u p hr hc)
  refine ⟨x, e, h1, h2, fun v h => (h3 v h).trans ?_⟩
  rw [bil_zeros, zero_add]
  dsimp only
  rw [List.sum_map_add]
  rfl

theorem faceGrad_bdr (dim n1 : Nat) (pts : List (FPt R)) (u : Nat → R) :
    ∃ m, faceGrad dim n1 0 pts u = .ok m ∧ m.h = dim * n1 ∧ m.w = dim * n1 ∧
      ∀ v h, bil (dim * n1) (dim * n1) m v h = bdr dim n1 pts h u v + bdr dim n1 pts u h v := by
  obtain ⟨x, e, h1, h2, h3⟩ := over_bil (pts := pts) (m := zeros (dim * (n1 + 0)) (dim * (n1 + 0)))
    (body := faceGradPt dim n1 0 u) _ (fun p _ x hr hc => faceGradPt_bdr u p hr hc)
  refine ⟨x, e, h1, h2, fun v h => (h3 v h).trans ?_⟩
  rw [bil_zeros, zero_add]
  dsimp only
  rw [List.sum_map_add]
  rfl

/-! ## On an interface -/

theorem itfVecPt_ok {dim n1 n2 : Nat} (uf1 uf2 : Nat → R) (p : FPt R) {x : Blk R × Blk R}
    (h1 : x.1.h = dim * n1 ∧ x.1.w = 1) (h2 : x.2.h = dim * n2 ∧ x.2.w = 1) :
    ∃ x', itfVecPt dim n1 n2 uf1 uf2 p x = .ok x' ∧
      BAdd x.1 x'.1 (fun v h => 1 / 2 * p.wt * coef p.q * (normalVel dim n1 p uf1 * ∑ d ∈ range dim,
        -(val n2 p.sh2 uf2 d * val n1 p.sh1 v d)) * h 0) ∧
      BAdd x.2 x'.2 (fun v h => 1 / 2 * p.wt * coef p.q * (normalVel dim n1 p uf1 * ∑ d ∈ range dim,
        val n1 p.sh1 uf1 d * val n2 p.sh2 v d) * h 0) := by
  unfold itfVecPt
  dsimp only
  rw [interp_eq, interp_eq, normal_eq]
  obtain ⟨x2, e2, b2⟩ := addOuter_ok (off := 0) (nd := n2) (dim := dim) p.sh2
    (fun a => 1 / 2 * p.wt * coef p.q * normalVel dim n1 p uf1 * val n1 p.sh1 uf1 a) (x := x.2)
    (by rw [h2.1, Nat.zero_add]) h2.2
  obtain ⟨x1, e1, b1⟩ := addOuter_ok (off := 0) (nd := n1) (dim := dim) p.sh1
    (fun a => -(1 / 2 * p.wt * coef p.q * normalVel dim n1 p uf1) * val n2 p.sh2 uf2 a) (x := x.1)
    (by rw [h1.1, Nat.zero_add]) h1.2
  refine ⟨(x1, x2), by rw [e2, ok_bind, e1, ok_bind], b1.congr fun v h => ?_, b2.congr fun v h => ?_⟩
  · rw [outer_val']
    congr 1
    rw [mul_sum, mul_sum]
    exact sum_congr rfl fun d _ => by ring
  · rw [outer_val']
    congr 1
    rw [mul_sum, mul_sum]
    exact sum_congr rfl fun d _ => by ring

theorem itfVec_ok (dim n1 n2 : Nat) (pts : List (FPt R)) (uf : Bool → Nat → R) :
    ∃ x, itfVec dim n1 n2 pts (uf false) (uf true) = .ok x ∧ x.1.h = dim * n1 ∧ x.1.w = 1 ∧
      x.2.h = dim * n2 ∧ x.2.w = 1 ∧
      ∀ v : Bool → Nat → R, lin (dim * n1) x.1 (v false) + lin (dim * n2) x.2 (v true) =
        face dim n1 n2 pts uf uf v := by
  obtain ⟨x, e, ⟨i1, i2, i3, i4⟩, h3⟩ := loop_acc (n := pts.length)
    (body := fun k s => do let p ← rd pts k; itfVecPt dim n1 n2 (uf false) (uf true) p s)
    (s := (zeros (dim * n1) 1, zeros (dim * n2) 1))
    (fun x : Blk R × Blk R => x.1.h = dim * n1 ∧ x.1.w = 1 ∧ x.2.h = dim * n2 ∧ x.2.w = 1)
    (fun x (v : Bool → Nat → R) => lin (dim * n1) x.1 (v false) + lin (dim * n2) x.2 (v true))
    (fun k => (pts[k]?).elim 0 (fun p v => faceAt dim n1 n2 uf uf v p)) ⟨rfl, rfl, rfl, rfl⟩ (by
      rintro k x hk ⟨a1, a2, a3, a4⟩
      obtain ⟨x', e, b1, b2⟩ := itfVecPt_ok (uf false) (uf true) pts[k] ⟨a1, a2⟩ ⟨a3, a4⟩
      refine ⟨x', ?_, ⟨b1.1.trans a1, b1.2.1.trans a2, b2.1.trans a3, b2.2.1.trans a4⟩, ?_⟩
      · rw [rd_eq_ok.2 (List.getElem?_eq_getElem hk), ok_bind, e]
      · rw [List.getElem?_eq_getElem hk]
        funext v
        have c1 := b1.2.2 (v false) (fun _ => 1)
        have c2 := b2.2.2 (v true) (fun _ => 1)
        rw [a1, a2, bil_one, bil_one] at c1
        rw [a3, a4, bil_one, bil_one] at c2
        dsimp only at c1 c2
        dsimp only [Pi.add_apply, Option.elim]
        rw [c1, c2, faceAt, sum_sub_distrib, sum_neg_distrib]
        ring)
  refine ⟨x, e, i1, i2, i3, i4, fun v => ?_⟩
  have := congrFun h3 v
  rw [this, sum_getElem, Pi.add_apply]
  have z : ∀ n (w : Nat → R), lin n (zeros n 1) w = 0 := fun n w => by simp [lin, zeros]
  rw [z, z, zero_add, zero_add]
  have l : ∀ (l : List (FPt R)), (l.map (fun p (v : Bool → Nat → R) => faceAt dim n1 n2 uf uf v p)).sum v =
      (l.map fun p => faceAt dim n1 n2 uf uf v p).sum := by
    intro l
    induction l with
    | nil => rfl
    | cons a l ih => rw [List.map_cons, List.sum_cons, List.map_cons, List.sum_cons, Pi.add_apply, ih]
  rw [l]
  rfl

/-- What is added to the four blocks. -/
structure QAdd (e e' : Four R) (T00 T01 T10 : (Nat → R) → (Nat → R) → R) : Prop where
  a00 : BAdd e.a00 e'.a00 T00
  a01 : BAdd e.a01 e'.a01 T01
  a10 : BAdd e.a10 e'.a10 T10
  a11 : e'.a11 = e.a11

theorem BAdd.refl (x : Blk R) : BAdd x x (fun _ _ => 0) := ⟨rfl, rfl, fun _ _ => (add_zero _).symm⟩

theorem QAdd.trans {e e' e'' : Four R} {S T U S' T' U' : (Nat → R) → (Nat → R) → R} (h1 : QAdd e e' S T U)
    (h2 : QAdd e' e'' S' T' U') :
    QAdd e e'' (fun v h => S v h + S' v h) (fun v h => T v h + T' v h) (fun v h => U v h + U' v h) :=
  ⟨h1.a00.trans h2.a00, h1.a01.trans h2.a01, h1.a10.trans h2.a10, h2.a11.trans h1.a11⟩

/-- Same sizes. -/
def Same (e e' : Four R) : Prop :=
  (e'.a00.h = e.a00.h ∧ e'.a00.w = e.a00.w) ∧ (e'.a01.h = e.a01.h ∧ e'.a01.w = e.a01.w) ∧
    (e'.a10.h = e.a10.h ∧ e'.a10.w = e.a10.w)

theorem loop_four {n : Nat} {body : Nat → Four R → Outcome (Four R)} {e : Four R}
    (S T U : Nat → (Nat → R) → (Nat → R) → R)
    (hs : ∀ k e', k < n → Same e e' → ∃ e'', body k e' = .ok e'' ∧ QAdd e' e'' (S k) (T k) (U k)) :
    ∃ e', loop n body e = .ok e' ∧ QAdd e e' (fun v h => ∑ k ∈ range n, S k v h)
      (fun v h => ∑ k ∈ range n, T k v h) (fun v h => ∑ k ∈ range n, U k v h) := by
  obtain ⟨e', o, ⟨h1, h2⟩, h3⟩ := loop_acc (n := n) (body := body) (fun e' => Same e e' ∧ e'.a11 = e.a11)
    (fun e' => (bil e.a00.h e.a00.w e'.a00, bil e.a01.h e.a01.w e'.a01, bil e.a10.h e.a10.w e'.a10))
    (fun k => (S k, T k, U k)) (s := e) ⟨⟨⟨rfl, rfl⟩, ⟨rfl, rfl⟩, ⟨rfl, rfl⟩⟩, rfl⟩ (by
      rintro k e' hk ⟨a, b⟩
      obtain ⟨e'', o, q⟩ := hs k e' hk a
      obtain ⟨⟨a1, a2⟩, ⟨a3, a4⟩, a5, a6⟩ := a
      refine ⟨e'', o, ⟨⟨⟨q.a00.1.trans a1, q.a00.2.1.trans a2⟩, ⟨q.a01.1.trans a3, q.a01.2.1.trans a4⟩,
        q.a10.1.trans a5, q.a10.2.1.trans a6⟩, q.a11.trans b⟩, ?_⟩
      have q1 := q.a00.2.2
      have q2 := q.a01.2.2
      have q3 := q.a10.2.2
      rw [a1, a2] at q1
      rw [a3, a4] at q2
      rw [a5, a6] at q3
      exact Prod.ext (funext fun v => funext fun h => q1 v h)
        (Prod.ext (funext fun v => funext fun h => q2 v h) (funext fun v => funext fun h => q3 v h)))
  obtain ⟨⟨a1, a2⟩, ⟨a3, a4⟩, a5, a6⟩ := h1
  have k1 := congrArg Prod.fst h3
  have k2 := congrArg (fun t => t.2.1) h3
  have k3 := congrArg (fun t => t.2.2) h3
  simp only [Prod.fst_add, Prod.snd_add, Prod.fst_sum, Prod.snd_sum] at k1 k2 k3
  refine ⟨e', o, ⟨a1, a2, fun v h => ?_⟩, ⟨a3, a4, fun v h => ?_⟩, ⟨a5, a6, fun v h => ?_⟩, h2⟩
  · rw [k1]; simp only [Pi.add_apply, Finset.sum_apply]
  · rw [k2]; simp only [Pi.add_apply, Finset.sum_apply]
  · rw [k3]; simp only [Pi.add_apply, Finset.sum_apply]

theorem QAdd.same {e e' : Four R} {S T U : (Nat → R) → (Nat → R) → R} (h : QAdd e e' S T U) : Same e e' :=
  ⟨⟨h.a00.1, h.a00.2.1⟩, ⟨h.a01.1, h.a01.2.1⟩, h.a10.1, h.a10.2.1⟩

theorem itfGradRow_ok {dim n1 n2 di : Nat} (hdi : di < dim) (nor u1 u2 : Nat → R) (p : FPt R) {e : Four R}
    (h00 : e.a00.h = dim * n1 ∧ e.a00.w = dim * n1) (h10 : e.a10.h = dim * n2 ∧ e.a10.w = dim * n1) :
    ∃ e', itfGradRow dim n1 n2 di nor u1 u2 p e = .ok e' ∧ QAdd e e'
      (fun v h => ∑ dj ∈ range dim, -u2 di * nor dj * (val n1 p.sh1 v di * val n1 p.sh1 h dj))
      (fun _ _ => ∑ _dj ∈ range dim, 0)
      (fun v h => ∑ dj ∈ range dim, u1 di * nor dj * (val n2 p.sh2 v di * val n1 p.sh1 h dj)) := by
  have d1 : di * n1 + n1 ≤ dim * n1 := mul_succ_le' hdi
  have d2 : di * n2 + n2 ≤ dim * n2 := mul_succ_le' hdi
  unfold itfGradRow
  refine loop_four (fun dj v h => -u2 di * nor dj * (val n1 p.sh1 v di * val n1 p.sh1 h dj)) (fun _ _ _ => 0)
    (fun dj v h => u1 di * nor dj * (val n2 p.sh2 v di * val n1 p.sh1 h dj)) fun dj e3 hdj s3 => ?_
  obtain ⟨⟨f1, f2⟩, ⟨f3, f4⟩, f5, f6⟩ := s3
  have d3 : dj * n1 + n1 ≤ dim * n1 := mul_succ_le' hdj
  obtain ⟨k10, p10, r10⟩ := matrix_ok (m := e3.a10) (nr := n2) (nc := n1) (ro := di * n2) (co := dj * n1)
    (u1 di * nor dj) (fun i j => p.sh1 j * p.sh2 i) (by omega) (by omega) _
    (fun v h => matrix_swap _ _ _ _ _ _ _)
  obtain ⟨k00, p00, r00⟩ := matrix_ok (m := e3.a00) (nr := n1) (nc := n1) (ro := di * n1) (co := dj * n1)
    (-u2 di * nor dj) (fun i j => p.sh1 i * p.sh1 j) (by omega) (by omega) _
    (fun v h => matrix_val _ _ _ _ _ _ _)
  exact ⟨{ e3 with a00 := k00, a10 := k10 }, by rw [p10, ok_bind, p00, ok_bind], ⟨r00, BAdd.refl _, r10, rfl⟩⟩

/-- The first direction of a point on an interface. -/
def itfGradDi (dim n1 n2 : Nat) (un : R) (nor u1 u2 : Nat → R) (p : FPt R) (di : Nat) (e : Four R) :
    Outcome (Four R) := do
  let a10 ← addMatrix n2 n1 un (fun i j => p.sh1 j * p.sh2 i) (di * n2) (di * n1) e.a10
  let a01 ← addMatrix n1 n2 (-un) (fun i j => p.sh1 i * p.sh2 j) (di * n1) (di * n2) e.a01
  itfGradRow dim n1 n2 di nor u1 u2 p { e with a01 := a01, a10 := a10 }

theorem itfGradDi_ok {dim n1 n2 di : Nat} (hdi : di < dim) (un : R) (nor u1 u2 : Nat → R) (p : FPt R) {e : Four R}
    (h00 : e.a00.h = dim * n1 ∧ e.a00.w = dim * n1) (h01 : e.a01.h = dim * n1 ∧ e.a01.w = dim * n2)
    (h10 : e.a10.h = dim * n2 ∧ e.a10.w = dim * n1) :
    ∃ e', itfGradDi dim n1 n2 un nor u1 u2 p di e = .ok e' ∧ QAdd e e'
      (fun v h => 0 + ∑ dj ∈ range dim, -u2 di * nor dj * (val n1 p.sh1 v di * val n1 p.sh1 h dj))
      (fun v h => -un * (val n1 p.sh1 v di * val n2 p.sh2 h di) + ∑ _dj ∈ range dim, 0)
      (fun v h => un * (val n2 p.sh2 v di * val n1 p.sh1 h di) +
        ∑ dj ∈ range dim, u1 di * nor dj * (val n2 p.sh2 v di * val n1 p.sh1 h dj)) := by
  have d1 : di * n1 + n1 ≤ dim * n1 := mul_succ_le' hdi
  have d2 : di * n2 + n2 ≤ dim * n2 := mul_succ_le' hdi
  unfold itfGradDi
  obtain ⟨m10, o10, b10⟩ := matrix_ok (m := e.a10) (nr := n2) (nc := n1) (ro := di * n2) (co := di * n1) un
    (fun i j => p.sh1 j * p.sh2 i) (by omega) (by omega) _ (fun v h => matrix_swap _ _ _ _ _ _ _)
  obtain ⟨m01, o01, b01⟩ := matrix_ok (m := e.a01) (nr := n1) (nc := n2) (ro := di * n1) (co := di * n2) (-un)
    (fun i j => p.sh1 i * p.sh2 j) (by omega) (by omega) _ (fun v h => matrix_val _ _ _ _ _ _ _)
  have q1 : QAdd e { e with a01 := m01, a10 := m10 } (fun _ _ => 0) _ _ := ⟨BAdd.refl _, b01, b10, rfl⟩
  obtain ⟨e2, o2, q2⟩ := itfGradRow_ok (n2 := n2) hdi nor u1 u2 p (e := { e with a01 := m01, a10 := m10 }) h00
    ⟨b10.1.trans h10.1, b10.2.1.trans h10.2⟩
  refine ⟨e2, ?_, q1.trans q2⟩
  rw [o10, ok_bind, o01, ok_bind]
  exact o2

theorem itfGradPt_ok {dim n1 n2 : Nat} (uf : Bool → Nat → R) (p : FPt R) {e : Four R}
    (h00 : e.a00.h = dim * n1 ∧ e.a00.w = dim * n1) (h01 : e.a01.h = dim * n1 ∧ e.a01.w = dim * n2)
    (h10 : e.a10.h = dim * n2 ∧ e.a10.w = dim * n1) :
    ∃ e' S T U, itfGradPt dim n1 n2 (uf false) (uf true) p e = .ok e' ∧ QAdd e e' S T U ∧
      ∀ v h : Bool → Nat → R, S (v false) (h false) + T (v false) (h true) + U (v true) (h false) =
        faceAt dim n1 n2 h uf v p + faceAt dim n1 n2 uf h v p := by
  have hp : itfGradPt dim n1 n2 (uf false) (uf true) p e = loop dim (itfGradDi dim n1 n2
      (1 / 2 * p.wt * coef p.q * normalVel dim n1 p (uf false)) (fun a => p.nor a * (1 / 2 * p.wt * coef p.q))
      (val n1 p.sh1 (uf false)) (val n2 p.sh2 (uf true)) p) e := by
    rw [← normal_eq, ← interp_eq, ← interp_eq, ← weight_eq]
    rfl
  rw [hp]
  generalize hw : 1 / 2 * p.wt * coef p.q = w
  generalize hu2 : val n2 p.sh2 (uf true) = u2
  generalize hu1 : val n1 p.sh1 (uf false) = u1
  generalize hun : w * normalVel dim n1 p (uf false) = un
  obtain ⟨e', o, q⟩ := loop_four (e := e) (n := dim)
    (body := itfGradDi dim n1 n2 un (fun a => p.nor a * w) u1 u2 p) _ _ _ (fun di e1 hdi s1 =>
      itfGradDi_ok hdi un (fun a => p.nor a * w) u1 u2 p ⟨s1.1.1.trans h00.1, s1.1.2.trans h00.2⟩
        ⟨s1.2.1.1.trans h01.1, s1.2.1.2.trans h01.2⟩ ⟨s1.2.2.1.trans h10.1, s1.2.2.2.trans h10.2⟩)
  refine ⟨e', _, _, _, o, q, fun v h => ?_⟩
  unfold faceAt
  simp only [hw, hu1, hu2, ← mul_assoc, hun]
  rw [← normalVel_sum, mul_sum, mul_sum, ← sum_add_distrib, ← sum_add_distrib, ← sum_add_distrib]
  refine sum_congr rfl fun d _ => ?_
  have g1 : ∑ dj ∈ range dim, u1 d * p.nor dj * w * val n2 p.sh2 (v true) d * val n1 p.sh1 (h false) dj =
      (∑ a ∈ range dim, p.nor a * w * val n1 p.sh1 (h false) a) * (u1 d * val n2 p.sh2 (v true) d) := by
    rw [sum_mul]
    exact sum_congr rfl fun b _ => by ring
  have g2 : ∑ dj ∈ range dim, -u2 d * p.nor dj * w * val n1 p.sh1 (v false) d * val n1 p.sh1 (h false) dj =
      (∑ a ∈ range dim, p.nor a * w * val n1 p.sh1 (h false) a) * -(u2 d * val n1 p.sh1 (v false) d) := by
    rw [sum_mul]
    exact sum_congr rfl fun b _ => by ring
  rw [g1, g2, sum_const_zero]
  ring

/-- The two sizes. -/
def sz (dim n1 n2 : Nat) (I : Bool) : Nat := if I then dim * n2 else dim * n1

theorem itfGrad_ok (dim n1 n2 : Nat) (pts : List (FPt R)) (uf : Bool → Nat → R) :
    ∃ e, itfGrad dim n1 n2 pts (uf false) (uf true) = .ok e ∧
      Spec.Penalty.Sized e (sz dim n1 n2) (sz dim n1 n2) ∧ e.a11 = zeros (dim * n2) (dim * n2) ∧
      ∀ v h : Bool → Nat → R, bil (dim * n1) (dim * n1) e.a00 (v false) (h false) +
        bil (dim * n1) (dim * n2) e.a01 (v false) (h true) + bil (dim * n2) (dim * n1) e.a10 (v true) (h false) =
        face dim n1 n2 pts h uf v + face dim n1 n2 pts uf h v := by
  obtain ⟨e, o, ⟨i1, i2, i3, i4⟩, h3⟩ := loop_acc (n := pts.length)
    (body := fun k s => do let p ← rd pts k; itfGradPt dim n1 n2 (uf false) (uf true) p s)
    (s := { a00 := zeros (dim * n1) (dim * n1), a01 := zeros (dim * n1) (dim * n2)
            a10 := zeros (dim * n2) (dim * n1), a11 := zeros (dim * n2) (dim * n2) })
    (fun e : Four R => (e.a00.h = dim * n1 ∧ e.a00.w = dim * n1) ∧ (e.a01.h = dim * n1 ∧ e.a01.w = dim * n2) ∧
      (e.a10.h = dim * n2 ∧ e.a10.w = dim * n1) ∧ e.a11 = zeros (dim * n2) (dim * n2))
    (fun e (v h : Bool → Nat → R) => bil (dim * n1) (dim * n1) e.a00 (v false) (h false) +
        bil (dim * n1) (dim * n2) e.a01 (v false) (h true) + bil (dim * n2) (dim * n1) e.a10 (v true) (h false))
    (fun k => (pts[k]?).elim 0 (fun p v h => faceAt dim n1 n2 h uf v p + faceAt dim n1 n2 uf h v p))
    ⟨⟨rfl, rfl⟩, ⟨rfl, rfl⟩, ⟨rfl, rfl⟩, rfl⟩ (by
      rintro k e hk ⟨a1, a2, a3, a4⟩
      obtain ⟨e', S, T, U, o, q, hq⟩ := itfGradPt_ok uf pts[k] a1 a2 a3
      refine ⟨e', ?_, ⟨⟨q.a00.1.trans a1.1, q.a00.2.1.trans a1.2⟩, ⟨q.a01.1.trans a2.1, q.a01.2.1.trans a2.2⟩,
        ⟨q.a10.1.trans a3.1, q.a10.2.1.trans a3.2⟩, q.a11.trans a4⟩, ?_⟩
      · rw [rd_eq_ok.2 (List.getElem?_eq_getElem hk), ok_bind, o]
      · rw [List.getElem?_eq_getElem hk]
        funext v h
        have c1 := q.a00.2.2 (v false) (h false)
        have c2 := q.a01.2.2 (v false) (h true)
        have c3 := q.a10.2.2 (v true) (h false)
        rw [a1.1, a1.2] at c1
        rw [a2.1, a2.2] at c2
        rw [a3.1, a3.2] at c3
        dsimp only [Pi.add_apply, Option.elim]
        rw [c1, c2, c3, ← hq]
        ring)
  refine ⟨e, o, ?_, i4, fun v h => ?_⟩
  · intro I J
    cases I <;> cases J
    · exact i1
    · exact i2
    · exact i3
    · show e.a11.h = _ ∧ e.a11.w = _
      rw [i4]; exact ⟨rfl, rfl⟩
  · have := congrFun (congrFun h3 v) h
    rw [this, sum_getElem, Pi.add_apply, Pi.add_apply]
    simp only [bil_zeros, zero_add]
    have l : ∀ (l : List (FPt R)) (f : FPt R → (Bool → Nat → R) → (Bool → Nat → R) → R), (l.map f).sum v h =
        (l.map fun p => f p v h).sum := by
      intro l f
      induction l with
      | nil => rfl
      | cons a l ih => rw [List.map_cons, List.sum_cons, List.map_cons, List.sum_cons, Pi.add_apply, Pi.add_apply, ih]
    rw [l, List.sum_map_add]
    rfl

/-! ## The boundary load -/

theorem load_ok (dim nd : Nat) (pts : List (LPt R)) :
    ∃ x, load dim nd pts = .ok x ∧ x.h = dim * nd ∧ x.w = 1 ∧ ∀ v, lin (dim * nd) x v = bdrLoad dim nd pts v := by
  obtain ⟨x, e, h1, h2, h3⟩ := over_bil (pts := pts) (m := zeros (dim * nd) 1) (body := loadPt dim nd)
    (fun p v h => p.wt * coef p.z * ((∑ b ∈ range dim, p.nor b * p.g b) * ∑ d ∈ range dim,
      p.g d * val nd p.shape v d) * h 0) (fun p _ x hr hc => by
      obtain ⟨x1, e1, b1⟩ := addOuter_ok (off := 0) (nd := nd) (dim := dim) p.shape
        (fun a => p.wt * coef p.z * ((∑ b ∈ range dim, p.nor b * p.g b) * p.g a)) (x := x)
        (by rw [hr, Nat.zero_add]; exact le_refl _) hc
      have hp : loadPt dim nd p x = addOuter nd dim 0 p.shape
          (fun a => p.wt * coef p.z * ((∑ b ∈ range dim, p.nor b * p.g b) * p.g a)) x := by
        unfold loadPt
        dsimp only
        rw [Penalty.dot_eq]
        have : loadWeight p = p.wt * coef p.z := by
          unfold loadWeight coef
          cases p.z <;> simp
        rw [this]
        congr 1
        funext a
        congr 2
        exact sum_congr rfl fun b _ => mul_comm _ _
      refine ⟨x1, hp.trans e1, b1.congr fun v h => ?_⟩
      rw [outer_val']
      congr 1
      rw [mul_sum, mul_sum]
      exact sum_congr rfl fun d _ => by ring)
  refine ⟨x, e, h1, h2, fun v => ?_⟩
  have := h3 v (fun _ => 1)
  simp only [mul_one] at this
  rw [← bil_one]
  exact this.trans (by rw [bil_zeros, zero_add]; rfl)

end Verif.Temam
