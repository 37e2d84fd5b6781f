import Verif.Spec.Convection
import Verif.Proofs.LinAlg
import Mathlib.Algebra.BigOperators.Ring.Finset
import Mathlib.Tactic.Ring
import Mathlib.Tactic.LinearCombination

namespace Verif.LinAlg

open Verif Verif.LinAlg.Spec Finset

variable {R : Type} [CommRing R]

theorem get_eq (m : Mat R) (i j : Nat) : m.get i j = ent m i j := rfl
theorem vget_eq (v : List R) (i : Nat) : vget v i = ve v i := rfl
theorem vof_eq (n : Nat) (f : Nat → R) : vof n f = tab n f := rfl

@[simp] theorem of_h (h w : Nat) (f : Nat → Nat → R) : (Mat.of h w f).h = h := rfl
@[simp] theorem of_w (h w : Nat) (f : Nat → Nat → R) : (Mat.of h w f).w = w := rfl

theorem ve_of_data {h w t : Nat} {f : Nat → Nat → R} (ht : t < h * w) :
    ve (Mat.of h w f).data t = f (t % h) (t / h) := by
  show ve (tab (h * w) _) t = _
  rw [ve_tab ht]

theorem of_length (h w : Nat) (f : Nat → Nat → R) : (Mat.of h w f).data.length = h * w := by
  simp [Mat.of]

theorem of_ok (h w : Nat) (f : Nat → Nat → R) : MatOk (Mat.of h w f) := by
  unfold MatOk; rw [of_length]; simp

theorem ent_of {h w i j : Nat} {f : Nat → Nat → R} (hi : i < h) (hj : j < w) :
    ent (Mat.of h w f) i j = f i j := by
  unfold ent
  show ve (Mat.of h w f).data (i + j * h) = _
  rw [ve_of_data (idx_lt hi hj), Nat.add_mul_mod_self_right, Nat.mod_eq_of_lt hi,
    Nat.add_mul_div_right _ _ (by omega), Nat.div_eq_of_lt hi, Nat.zero_add]

/-- Summing over the entries of an `nd` by `dim` layout. -/
theorem sum_layout {M : Type} [AddCommMonoid M] (nd dim : Nat) (f : Nat → M) :
    ∑ t ∈ range (nd * dim), f t = ∑ d ∈ range dim, ∑ k ∈ range nd, f (k + d * nd) := by
  induction dim with
  | zero => simp
  | succ n ih =>
    rw [Nat.mul_succ, sum_range_add, ih, sum_range_succ]
    congr 1
    exact sum_congr rfl fun k _ => by rw [Nat.mul_comm nd n, Nat.add_comm]

theorem length_vscale (a : R) (v : List R) : (vscale a v).length = v.length := by
  rw [vscale, vof_eq, length_tab]

theorem ve_vscale {a : R} {v : List R} {i : Nat} (h : i < v.length) :
    ve (vscale a v) i = ve v i * a := by
  rw [vscale, vof_eq, ve_tab h]; rfl

theorem length_mulV (m : Mat R) (x : List R) : (m.mulV x).length = m.h := by
  rw [Mat.mulV, vof_eq, length_tab]

theorem ve_mulV {m : Mat R} {x : List R} {i : Nat} (h : i < m.h) :
    ve (m.mulV x) i = ∑ j ∈ range m.w, ent m i j * ve x j := by
  rw [Mat.mulV, vof_eq, ve_tab h]; rfl

theorem length_mulTV (m : Mat R) (x : List R) : (m.mulTV x).length = m.w := by
  rw [Mat.mulTV, vof_eq, length_tab]

theorem ve_mulTV {m : Mat R} {x : List R} {j : Nat} (h : j < m.w) :
    ve (m.mulTV x) j = ∑ i ∈ range m.h, ent m i j * ve x i := by
  rw [Mat.mulTV, vof_eq, ve_tab h]; rfl

theorem ent_mulAB {a b : Mat R} {i j : Nat} (hi : i < a.h) (hj : j < b.w) :
    ent (mulAB a b) i j = ∑ k ∈ range a.w, ent a i k * ent b k j := by
  rw [mulAB, ent_of hi hj]; rfl

theorem ent_mulAtB {a b : Mat R} {i j : Nat} (hi : i < a.w) (hj : j < b.w) :
    ent (mulAtB a b) i j = ∑ k ∈ range a.h, ent a k i * ent b k j := by
  rw [mulAtB, ent_of hi hj]; rfl

theorem ent_mulVWt {v w : List R} {i j : Nat} (hi : i < v.length) (hj : j < w.length) :
    ent (mulVWt v w) i j = ve v i * ve w j := by
  rw [mulVWt, ent_of hi hj]; rfl

@[simp] theorem mulVWt_h (v w : List R) : (mulVWt v w).h = v.length := rfl
@[simp] theorem mulVWt_w (v w : List R) : (mulVWt v w).w = w.length := rfl
@[simp] theorem mulAB_h (a b : Mat R) : (mulAB a b).h = a.h := rfl
@[simp] theorem mulAB_w (a b : Mat R) : (mulAB a b).w = b.w := rfl
@[simp] theorem mulAtB_h (a b : Mat R) : (mulAtB a b).h = a.w := rfl
@[simp] theorem mulAtB_w (a b : Mat R) : (mulAtB a b).w = b.w := rfl
@[simp] theorem scale_h (a : R) (b : Mat R) : (b.scale a).h = b.h := rfl
@[simp] theorem scale_w (a : R) (b : Mat R) : (b.scale a).w = b.w := rfl
@[simp] theorem addScaled_h (a : Mat R) (w : R) (b : Mat R) : (a.addScaled w b).h = a.h := rfl
@[simp] theorem addScaled_w (a : Mat R) (w : R) (b : Mat R) : (a.addScaled w b).w = a.w := rfl
@[simp] theorem addBlock_h (m : Mat R) (a : R) (b : Mat R) (r c : Nat) :
    (m.addBlock a b r c).h = m.h := rfl
@[simp] theorem addBlock_w (m : Mat R) (a : R) (b : Mat R) (r c : Nat) :
    (m.addBlock a b r c).w = m.w := rfl

theorem ent_scale {a : R} {m : Mat R} {i j : Nat} (hi : i < m.h) (hj : j < m.w) :
    ent (m.scale a) i j = a * ent m i j := by
  rw [Mat.scale, ent_of hi hj]; rfl

theorem ent_addScaled {m b : Mat R} {a : R} {i j : Nat} (hi : i < m.h) (hj : j < m.w) :
    ent (m.addScaled a b) i j = ent m i j + a * ent b i j := by
  rw [Mat.addScaled, ent_of hi hj]; rfl

theorem ent_addBlock {m blk : Mat R} {a : R} {r c i j : Nat} (hi : i < m.h) (hj : j < m.w) :
    ent (m.addBlock a blk r c) i j = ent m i j +
      if r ≤ i ∧ i < r + blk.h ∧ c ≤ j ∧ j < c + blk.w then a * ent blk (i - r) (j - c) else 0 := by
  rw [Mat.addBlock, ent_of hi hj]; rfl

theorem length_colV (m : Mat R) (j : Nat) : (m.colV j).length = m.h := by
  rw [Mat.colV, vof_eq, length_tab]

theorem ve_colV {m : Mat R} {i j : Nat} (h : i < m.h) : ve (m.colV j) i = ent m i j := by
  rw [Mat.colV, vof_eq, ve_tab h]; rfl

theorem iter_succ {σ : Type} (n : Nat) (body : Nat → σ → σ) (s : σ) :
    iter (n + 1) body s = body n (iter n body s) := by
  unfold iter; rw [List.range_succ, List.foldl_append]; rfl

/-- A loop each of whose steps keeps an invariant and adds a term. -/
theorem iter_acc {σ V : Type} [AddCommMonoid V] {n : Nat} {body : Nat → σ → σ} (Inv : σ → Prop)
    (val : σ → V) (term : Nat → V) {s : σ} (h0 : Inv s)
    (hstep : ∀ k s, k < n → Inv s → Inv (body k s) ∧ val (body k s) = val s + term k) :
    Inv (iter n body s) ∧ val (iter n body s) = val s + ∑ k ∈ range n, term k := by
  induction n with
  | zero => exact ⟨h0, by simp [iter]⟩
  | succ n ih =>
    obtain ⟨a, b⟩ := ih fun k s hk => hstep k s (by omega)
    obtain ⟨c, d⟩ := hstep n _ (by omega) a
    rw [iter_succ]
    exact ⟨c, by rw [d, b, sum_range_succ, add_assoc]⟩

/-- A block that starts at a multiple of its size covers exactly the matching block index. -/
theorem blk_iff {n i r : Nat} (hn : 0 < n) : (r * n ≤ i ∧ i < r * n + n) ↔ i / n = r := by
  constructor
  · rintro ⟨a, b⟩
    rw [Nat.div_eq_of_lt_le a (by rw [Nat.succ_mul]; exact b)]
  · rintro rfl
    have h1 := Nat.mod_add_div' i n
    have h2 := Nat.mod_lt i hn
    exact ⟨Nat.div_mul_le_self i n, by omega⟩

theorem blk_sub {n i r : Nat} (h : i / n = r) : i - r * n = i % n := by
  subst h
  have := Nat.div_add_mod i n
  rw [Nat.mul_comm] at this; omega

/-- The block form of `addBlock` with square blocks of size `n`. -/
theorem ent_addBlock_sq {m blk : Mat R} {a : R} {n r c i j : Nat} (hn : 0 < n) (hh : blk.h = n)
    (hw : blk.w = n) (hi : i < m.h) (hj : j < m.w) :
    ent (m.addBlock a blk (r * n) (c * n)) i j = ent m i j +
      if i / n = r ∧ j / n = c then a * ent blk (i % n) (j % n) else 0 := by
  rw [ent_addBlock hi hj, hh, hw]
  congr 1
  by_cases h1 : i / n = r
  · by_cases h2 : j / n = c
    · rw [if_pos ⟨((blk_iff hn).2 h1).1, ((blk_iff hn).2 h1).2, (blk_iff hn).2 h2⟩, if_pos ⟨h1, h2⟩,
        blk_sub h1, blk_sub h2]
    · rw [if_neg (fun h => h2 ((blk_iff hn).1 h.2.2)), if_neg (fun h => h2 h.2)]
  · rw [if_neg (fun h => h1 ((blk_iff hn).1 ⟨h.1, h.2.1⟩)), if_neg (fun h => h1 h.1)]

end Verif.LinAlg

namespace Verif.Convection

open Verif Verif.LinAlg Verif.LinAlg.Spec Verif.Convection.Spec Finset

variable {R : Type} [CommRing R]

theorem withQ_eq (p : Pt R) (w : R) : p.withQ w = w * p.q.getD 1 := by
  unfold Pt.withQ; cases p.q <;> simp

theorem ef_ent (nd dim : Nat) (u : List R) (k d : Nat) :
    ent (⟨nd, dim, u⟩ : Mat R) k d = coef nd u k d := rfl

theorem ve_value {p : Pt R} {u : List R} {d : Nat} (hd : d < p.dim) :
    ve ((⟨p.nd, p.dim, u⟩ : Mat R).mulTV p.shape) d = value p u d := by
  rw [ve_mulTV (by exact hd)]; rfl

theorem ent_deriv {p : Pt R} (hp : PtOk p) {u : List R} {d e : Nat} (hd : d < p.dim) (he : e < p.dim) :
    ent (mulAtB (⟨p.nd, p.dim, u⟩ : Mat R) p.dshape) d e = deriv p u d e := by
  rw [ent_mulAtB (by exact hd) (by rw [hp.dsw]; exact he)]; rfl

theorem ve_advect {p : Pt R} {u : List R} {e : Nat} (he : e < p.dim) :
    ve (p.advect ⟨p.nd, p.dim, u⟩) e = advection p u e := by
  unfold Pt.advect advection
  cases p.vq with
  | some v => rfl
  | none => exact ve_value he

theorem div_lt_dim {nd dim t : Nat} (ht : t < nd * dim) : t / nd < dim :=
  Nat.div_lt_of_lt_mul ht

theorem mod_lt_nd {nd dim t : Nat} (ht : t < nd * dim) : t % nd < nd :=
  Nat.mod_lt _ (by rcases Nat.eq_zero_or_pos nd with h | h; · simp [h] at ht
                   · exact h)

/-- The convective term at position `t`. -/
def triTerm (p : Pt R) (iw : R) (u : List R) (t : Nat) : R :=
  wq p iw * ve p.shape (t % p.nd) * ∑ e ∈ range p.dim, deriv p u (t / p.nd) e * advection p u e

theorem triCore {p : Pt R} (hp : PtOk p) (iw : R) (u : List R) {t : Nat} (ht : t < p.nd * p.dim) :
    ve p.shape (t % p.nd) * ve (vscale (p.withQ (iw * p.weight))
      ((mulAtB (⟨p.nd, p.dim, u⟩ : Mat R) p.dshape).mulV (p.advect ⟨p.nd, p.dim, u⟩))) (t / p.nd) =
      triTerm p iw u t := by
  have hd := div_lt_dim ht
  rw [ve_vscale (by rw [length_mulV]; exact hd), ve_mulV (by exact hd), withQ_eq, triTerm, wq]
  rw [mulAtB_w, hp.dsw, sum_congr rfl fun e he => by
    rw [ent_deriv hp hd (mem_range.1 he), ve_advect (mem_range.1 he)]]
  ring

theorem triVec_ve {p : Pt R} (hp : PtOk p) (iw : R) (u : List R) {t : Nat} (ht : t < p.nd * p.dim) :
    ve (triVec p iw u) t = triTerm p iw u t := by
  unfold triVec mulVWt
  dsimp only
  rw [length_vscale, length_mulV, hp.shape]
  rw [ve_of_data (by exact ht)]
  exact triCore hp iw u ht

theorem triVec_length {p : Pt R} (hp : PtOk p) (iw : R) (u : List R) :
    (triVec p iw u).length = p.nd * p.dim := by
  unfold triVec mulVWt
  dsimp only
  rw [of_length, length_vscale, length_mulV, hp.shape]; rfl

theorem triVecAdd_length (p : Pt R) (iw : R) (u elv : List R) :
    (triVecAdd p iw u elv).length = p.nd * p.dim := by
  unfold triVecAdd Mat.addScaled; rw [of_length]

theorem triVecAdd_ve {p : Pt R} (hp : PtOk p) (iw : R) (u elv : List R) {t : Nat}
    (ht : t < p.nd * p.dim) :
    ve (triVecAdd p iw u elv) t = ve elv t + triTerm p iw u t := by
  unfold triVecAdd Mat.addScaled
  rw [ve_of_data (by exact ht)]
  show ve elv (t % p.nd + t / p.nd * p.nd) + 1 * ent _ _ _ = _
  rw [Nat.mod_add_div', ent_mulVWt (by rw [hp.shape]; exact mod_lt_nd ht)
    (by rw [length_vscale, length_mulV]; exact div_lt_dim ht), one_mul, triCore hp iw u ht]

/-! ### Gradients -/

def triGradTerm (p : Pt R) (iw : R) (u : List R) (t s : Nat) : R :=
  (if t / p.nd = s / p.nd then
    ve p.shape (t % p.nd) * (wq p iw * ∑ e ∈ range p.dim, ent p.dshape (s % p.nd) e * value p u e)
    else 0) +
  wq p iw * deriv p u (t / p.nd) (s / p.nd) * (ve p.shape (t % p.nd) * ve p.shape (s % p.nd))

theorem ent_dshapex {p : Pt R} (hp : PtOk p) {k e : Nat} (hk : k < p.nd) (he : e < p.dim) :
    ent (mulAB p.dref p.invJ) k e = ent p.dshape k e := by
  rw [ent_mulAB (by rw [hp.drh]; exact hk) (by rw [hp.ijw]; exact he), hp.chain k e hk he, hp.drw]

theorem ent_deriv' {p : Pt R} (hp : PtOk p) {u : List R} {d e : Nat} (hd : d < p.dim)
    (he : e < p.dim) :
    ent (mulAtB (⟨p.nd, p.dim, u⟩ : Mat R) (mulAB p.dref p.invJ)) d e = deriv p u d e := by
  rw [ent_mulAtB (by exact hd) (by rw [mulAB_w, hp.ijw]; exact he)]
  exact sum_congr rfl fun k hk => by rw [ent_dshapex hp (mem_range.1 hk) he]; rfl

theorem ve_vec3 {p : Pt R} (hp : PtOk p) (iw : R) (u : List R) {k : Nat} (hk : k < p.nd) :
    ve (p.dref.mulV (vscale (p.withQ iw) (p.adjJ.mulV ((⟨p.nd, p.dim, u⟩ : Mat R).mulTV p.shape)))) k =
      wq p iw * ∑ e ∈ range p.dim, ent p.dshape k e * value p u e := by
  rw [ve_mulV (by rw [hp.drh]; exact hk), hp.drw, sum_congr rfl fun m hm => by
    rw [ve_vscale (by rw [length_mulV, hp.ajh]; exact mem_range.1 hm),
      ve_mulV (by rw [hp.ajh]; exact mem_range.1 hm), hp.ajw,
      sum_congr rfl fun e he => by
        rw [hp.adj m e (mem_range.1 hm) (mem_range.1 he), ve_value (mem_range.1 he)]]]
  have hr : ∀ e ∈ range p.dim, ent p.dshape k e * value p u e =
      (∑ m ∈ range p.dim, ent p.dref k m * ent p.invJ m e) * value p u e :=
    fun e he => by rw [hp.chain k e hk (mem_range.1 he)]
  rw [sum_congr rfl hr]
  simp only [sum_mul, mul_sum, withQ_eq, wq]
  rw [sum_comm]
  exact sum_congr rfl fun e _ => sum_congr rfl fun m _ => by ring

theorem pick_sum {n a : Nat} (ha : a < n) (f : Nat → R) :
    (∑ r ∈ range n, if a = r then f r else 0) = f a := by
  rw [sum_ite_eq, if_pos (mem_range.2 ha)]

/-- The loop over the diagonal blocks. -/
theorem iter_diag {nd dim : Nat} (hn : 0 < nd) (comp m : Mat R) (hh : comp.h = nd)
    (hw : comp.w = nd) (h1 : m.h = nd * dim) (h2 : m.w = nd * dim) {t s : Nat} (ht : t < nd * dim)
    (hs : s < nd * dim) :
    let m' := iter dim (fun ii m => m.addBlock 1 comp (ii * nd) (ii * nd)) m
    m'.h = nd * dim ∧ m'.w = nd * dim ∧ ent m' t s = ent m t s +
      if t / nd = s / nd then ent comp (t % nd) (s % nd) else 0 := by
  dsimp only
  obtain ⟨⟨a, b⟩, c⟩ := iter_acc (n := dim)
    (body := fun ii m => m.addBlock 1 comp (ii * nd) (ii * nd))
    (fun m : Mat R => m.h = nd * dim ∧ m.w = nd * dim) (fun m => ent m t s)
    (fun ii => if t / nd = ii ∧ s / nd = ii then 1 * ent comp (t % nd) (s % nd) else 0) (s := m)
    ⟨h1, h2⟩ (fun k m _ hm => ⟨hm, ent_addBlock_sq hn hh hw (by rw [hm.1]; exact ht)
      (by rw [hm.2]; exact hs)⟩)
  refine ⟨a, b, ?_⟩
  rw [c]
  congr 1
  by_cases h : t / nd = s / nd
  · rw [if_pos h, sum_congr rfl (g := fun ii => if t / nd = ii then ent comp (t % nd) (s % nd) else 0)
      fun ii _ => by
        by_cases hi : t / nd = ii
        · rw [if_pos ⟨hi, h ▸ hi⟩, if_pos hi, one_mul]
        · rw [if_neg (fun h => hi h.1), if_neg hi], pick_sum (div_lt_dim ht)]
  · rw [if_neg h]
    exact sum_eq_zero fun ii _ => if_neg fun hh => h (hh.1.trans hh.2.symm)

/-- The double loop over all blocks. -/
theorem iter_all {nd dim : Nat} (hn : 0 < nd) (comp : Nat → Nat → Mat R) (a : Nat → Nat → R)
    (m : Mat R) (hh : ∀ i j, (comp i j).h = nd)
    (hw : ∀ i j, (comp i j).w = nd) (h1 : m.h = nd * dim) (h2 : m.w = nd * dim) {t s : Nat}
    (ht : t < nd * dim) (hs : s < nd * dim) :
    let m' := iter dim (fun ii m => iter dim (fun jj m =>
      m.addBlock (a ii jj) (comp ii jj) (ii * nd) (jj * nd)) m) m
    m'.h = nd * dim ∧ m'.w = nd * dim ∧ ent m' t s = ent m t s +
      a (t / nd) (s / nd) * ent (comp (t / nd) (s / nd)) (t % nd) (s % nd) := by
  dsimp only
  have inner : ∀ ii (m : Mat R), m.h = nd * dim ∧ m.w = nd * dim →
      (fun m : Mat R => m.h = nd * dim ∧ m.w = nd * dim) (iter dim (fun jj m =>
        m.addBlock (a ii jj) (comp ii jj) (ii * nd) (jj * nd)) m) ∧
      ent (iter dim (fun jj m => m.addBlock (a ii jj) (comp ii jj) (ii * nd) (jj * nd)) m) t s =
        ent m t s + if t / nd = ii then a ii (s / nd) * ent (comp ii (s / nd)) (t % nd) (s % nd)
          else 0 := by
    intro ii m hm
    obtain ⟨c, d⟩ := iter_acc (n := dim)
      (body := fun jj m => m.addBlock (a ii jj) (comp ii jj) (ii * nd) (jj * nd))
      (fun m : Mat R => m.h = nd * dim ∧ m.w = nd * dim) (fun m => ent m t s)
      (fun jj => if t / nd = ii ∧ s / nd = jj then a ii jj * ent (comp ii jj) (t % nd) (s % nd) else 0)
      (s := m) hm (fun k m _ hm => ⟨hm, ent_addBlock_sq hn (hh _ _) (hw _ _) (by rw [hm.1]; exact ht)
        (by rw [hm.2]; exact hs)⟩)
    refine ⟨c, d.trans ?_⟩
    congr 1
    by_cases h : t / nd = ii
    · rw [if_pos h, ← pick_sum (div_lt_dim hs) (fun jj => a ii jj * ent (comp ii jj) (t % nd) (s % nd))]
      exact sum_congr rfl fun jj _ => by simp only [h, true_and]
    · rw [if_neg h]
      exact sum_eq_zero fun jj _ => if_neg fun hh => h hh.1
  obtain ⟨⟨c, c'⟩, d⟩ := iter_acc (n := dim)
    (body := fun ii m => iter dim (fun jj m =>
      m.addBlock (a ii jj) (comp ii jj) (ii * nd) (jj * nd)) m)
    (fun m : Mat R => m.h = nd * dim ∧ m.w = nd * dim) (fun m => ent m t s) _ (s := m)
    ⟨h1, h2⟩ (fun k m _ hm => inner k m hm)
  refine ⟨c, c', d.trans ?_⟩
  rw [pick_sum (div_lt_dim ht) (fun ii => a ii (s / nd) * ent (comp ii (s / nd)) (t % nd) (s % nd))]

theorem triGradAdd_spec {p : Pt R} (hp : PtOk p) (iw : R) (u : List R) {m : Mat R}
    (h1 : m.h = p.nd * p.dim) (h2 : m.w = p.nd * p.dim) {t s : Nat} (ht : t < p.nd * p.dim)
    (hs : s < p.nd * p.dim) :
    (triGradAdd p iw u m).h = p.nd * p.dim ∧ (triGradAdd p iw u m).w = p.nd * p.dim ∧
      ent (triGradAdd p iw u m) t s = ent m t s + triGradTerm p iw u t s := by
  have hn : 0 < p.nd := by have := mod_lt_nd ht; omega
  unfold triGradAdd
  dsimp only
  obtain ⟨a1, a2, a3⟩ := iter_diag (dim := p.dim) hn (mulVWt p.shape (p.dref.mulV (vscale (p.withQ iw)
    (p.adjJ.mulV ((⟨p.nd, p.dim, u⟩ : Mat R).mulTV p.shape))))) m hp.shape
    ((length_mulV _ _).trans hp.drh) h1 h2 ht hs
  obtain ⟨b1, b2, b3⟩ := iter_all (dim := p.dim) hn (fun _ _ => mulVWt p.shape p.shape)
    (fun ii jj => p.withQ (iw * p.weight) *
      (mulAtB (⟨p.nd, p.dim, u⟩ : Mat R) (mulAB p.dref p.invJ)).get ii jj) _ (fun _ _ => hp.shape)
    (fun _ _ => hp.shape) a1 a2 ht hs
  refine ⟨b1, b2, b3.trans ?_⟩
  rw [a3, add_assoc]
  congr 1
  unfold triGradTerm
  congr 1
  · by_cases h : t / p.nd = s / p.nd
    · rw [if_pos h, if_pos h, ent_mulVWt (by rw [hp.shape]; exact mod_lt_nd ht)
        (by rw [length_mulV, hp.drh]; exact mod_lt_nd hs), ve_vec3 hp iw u (mod_lt_nd hs)]
    · rw [if_neg h, if_neg h]
  · rw [get_eq, ent_deriv' hp (div_lt_dim ht) (div_lt_dim hs),
      ent_mulVWt (by rw [hp.shape]; exact mod_lt_nd ht) (by rw [hp.shape]; exact mod_lt_nd hs),
      withQ_eq]
    rfl

theorem ent_zeroMat {n t s : Nat} (ht : t < n) (hs : s < n) : ent (zeroMat n : Mat R) t s = 0 :=
  ent_of ht hs

theorem triGrad_ent {p : Pt R} (hp : PtOk p) (iw : R) (u : List R) {t s : Nat}
    (ht : t < p.nd * p.dim) (hs : s < p.nd * p.dim) :
    ent (triGrad p iw u) t s = triGradTerm p iw u t s := by
  unfold triGrad
  rw [(triGradAdd_spec hp iw u (m := zeroMat _) rfl rfl ht hs).2.2, ent_zeroMat ht hs, zero_add]

theorem coef_vadd {nd : Nat} {u h : List R} {k d : Nat} (hk : k + d * nd < u.length) :
    coef nd (vadd u h) k d = coef nd u k d + coef nd h k d := by
  unfold coef vadd
  exact ve_tab hk

theorem value_vadd {p : Pt R} {u h : List R} (hu : u.length = p.nd * p.dim) {d : Nat}
    (hd : d < p.dim) : value p (vadd u h) d = value p u d + value p h d := by
  unfold value
  rw [← sum_add_distrib]
  exact sum_congr rfl fun k hk => by
    rw [coef_vadd (by rw [hu]; exact idx_lt (mem_range.1 hk) hd)]; ring

theorem deriv_vadd {p : Pt R} {u h : List R} (hu : u.length = p.nd * p.dim) {d : Nat} (e : Nat)
    (hd : d < p.dim) : deriv p (vadd u h) d e = deriv p u d e + deriv p h d e := by
  unfold deriv
  rw [← sum_add_distrib]
  exact sum_congr rfl fun k hk => by
    rw [coef_vadd (by rw [hu]; exact idx_lt (mem_range.1 hk) hd)]; ring

theorem mod_idx {nd k d : Nat} (hk : k < nd) : (k + d * nd) % nd = k := by
  rw [Nat.add_mul_mod_self_right, Nat.mod_eq_of_lt hk]

theorem div_idx {nd k d : Nat} (hk : k < nd) : (k + d * nd) / nd = d := by
  rw [Nat.add_mul_div_right _ _ (by omega), Nat.div_eq_of_lt hk, Nat.zero_add]

theorem triGradTerm_sum {p : Pt R} (iw : R) (u h : List R) {t : Nat} (ht : t < p.nd * p.dim) :
    ∑ s ∈ range (p.nd * p.dim), triGradTerm p iw u t s * ve h s =
      wq p iw * ve p.shape (t % p.nd) *
        (∑ e ∈ range p.dim, deriv p h (t / p.nd) e * value p u e +
         ∑ e ∈ range p.dim, deriv p u (t / p.nd) e * value p h e) := by
  have e1 : ∀ d ∈ range p.dim, ∀ k ∈ range p.nd, triGradTerm p iw u t (k + d * p.nd) * ve h (k + d * p.nd) =
      (if t / p.nd = d then wq p iw * ve p.shape (t % p.nd) *
        ((∑ e ∈ range p.dim, ent p.dshape k e * value p u e) * coef p.nd h k d) else 0) +
      wq p iw * ve p.shape (t % p.nd) * (deriv p u (t / p.nd) d * (coef p.nd h k d * ve p.shape k)) := by
    intro d _ k hk
    unfold triGradTerm
    rw [mod_idx (mem_range.1 hk), div_idx (mem_range.1 hk), add_mul]
    congr 1
    · split
      · unfold coef; ring
      · ring
    · unfold coef; ring
  rw [sum_layout, sum_congr rfl fun d hd => sum_congr rfl (e1 d hd)]
  simp only [sum_add_distrib]
  rw [mul_add]
  congr 1
  · rw [sum_congr rfl (g := fun d => if t / p.nd = d then ∑ k ∈ range p.nd,
      wq p iw * ve p.shape (t % p.nd) *
        ((∑ e ∈ range p.dim, ent p.dshape k e * value p u e) * coef p.nd h k d) else 0)
      fun d _ => by split <;> simp]
    rw [pick_sum (div_lt_dim ht), ← mul_sum]
    congr 1
    unfold deriv
    simp only [sum_mul]
    rw [sum_comm]
    exact sum_congr rfl fun e _ => sum_congr rfl fun k _ => by ring
  · rw [mul_sum]
    refine sum_congr rfl fun d _ => ?_
    unfold value
    rw [mul_sum, mul_sum]

/-! ### Inviscid flux -/

def invTerm (p : Pt R) (iw : R) (u : List R) (t : Nat) : R :=
  wq p iw * ∑ e ∈ range p.dim, ent p.dshape (t % p.nd) e * (value p u e * value p u (t / p.nd))

theorem uu_ent {p : Pt R} {u : List R} {d e : Nat} (hd : d < p.dim) (he : e < p.dim) :
    ent (mulVWt ((⟨p.nd, p.dim, u⟩ : Mat R).mulTV p.shape)
      ((⟨p.nd, p.dim, u⟩ : Mat R).mulTV p.shape)) d e = value p u d * value p u e := by
  rw [ent_mulVWt (by rw [length_mulTV]; exact hd) (by rw [length_mulTV]; exact he), ve_value hd,
    ve_value he]

theorem invVec_ve {p : Pt R} (hp : PtOk p) (iw : R) (u : List R) {t : Nat} (ht : t < p.nd * p.dim) :
    ve (invVec p iw u) t = invTerm p iw u t := by
  have hm := mod_lt_nd ht
  have hd := div_lt_dim ht
  unfold invVec Mat.addScaled
  dsimp only
  rw [ve_of_data (by exact ht)]
  show ent (Mat.of p.nd p.dim fun _ _ => (0 : R)) _ _ + _ * ent _ _ _ = _
  rw [of_h, ent_of hm hd, zero_add, ent_mulAB (by rw [hp.dsh]; exact hm)
    (by rw [mulVWt_w, length_mulTV]; exact hd), hp.dsw, withQ_eq]
  unfold invTerm wq
  congr 1
  exact sum_congr rfl fun e he => by rw [uu_ent (mem_range.1 he) hd]

theorem invVec_length (p : Pt R) (iw : R) (u : List R) :
    (invVec p iw u).length = p.nd * p.dim := by
  unfold invVec Mat.addScaled; rw [of_length]; rfl

theorem invVecAdd_length (p : Pt R) (iw : R) (u elv : List R) :
    (invVecAdd p iw u elv).length = p.nd * p.dim := by
  unfold invVecAdd Mat.addScaled; rw [of_length]

theorem invVecAdd_ve {p : Pt R} (hp : PtOk p) (iw : R) (u elv : List R) {t : Nat}
    (ht : t < p.nd * p.dim) :
    ve (invVecAdd p iw u elv) t = ve elv t + invTerm p iw u t := by
  have hm := mod_lt_nd ht
  have hd := div_lt_dim ht
  unfold invVecAdd Mat.addScaled
  dsimp only
  rw [ve_of_data (by exact ht)]
  show ve elv (t % p.nd + t / p.nd * p.nd) + _ * ent _ _ _ = _
  rw [Nat.mod_add_div', ent_mulAB (by rw [hp.dsh]; exact hm)
    (by rw [of_w, mulVWt_h, length_mulTV]; exact hd), hp.dsw, withQ_eq]
  unfold invTerm wq
  congr 2
  refine sum_congr rfl fun e he => ?_
  rw [ent_of (by rw [mulVWt_w, length_mulTV]; exact mem_range.1 he)
    (by rw [mulVWt_h, length_mulTV]; exact hd), get_eq, uu_ent hd (mem_range.1 he), mul_comm (value p u e)]

def invGradTerm (p : Pt R) (iw : R) (u : List R) (t s : Nat) : R :=
  (if t / p.nd = s / p.nd then
    (∑ e ∈ range p.dim, ent p.dshape (t % p.nd) e * (value p u e * (iw * p.weight * p.q.getD 1))) *
      ve p.shape (s % p.nd) else 0) +
  value p u (t / p.nd) * wq p iw * ent p.dshape (t % p.nd) (s / p.nd) * ve p.shape (s % p.nd)

theorem invGradAdd_spec {p : Pt R} (hp : PtOk p) (iw : R) (u : List R) {m : Mat R}
    (h1 : m.h = p.nd * p.dim) (h2 : m.w = p.nd * p.dim) {t s : Nat} (ht : t < p.nd * p.dim)
    (hs : s < p.nd * p.dim) :
    (invGradAdd p iw u m).h = p.nd * p.dim ∧ (invGradAdd p iw u m).w = p.nd * p.dim ∧
      ent (invGradAdd p iw u m) t s = ent m t s + invGradTerm p iw u t s := by
  have hn : 0 < p.nd := by have := mod_lt_nd ht; omega
  unfold invGradAdd
  dsimp only
  generalize hv : vscale (p.withQ (iw * p.weight)) ((⟨p.nd, p.dim, u⟩ : Mat R).mulTV p.shape) = vec1
  have hv1 : ∀ d, d < p.dim → ve vec1 d = value p u d * (iw * p.weight * p.q.getD 1) := by
    intro d hd
    rw [← hv, ve_vscale (by rw [length_mulTV]; exact hd), ve_value hd, withQ_eq]
  obtain ⟨a1, a2, a3⟩ := iter_diag (dim := p.dim) hn (mulVWt (p.dshape.mulV vec1) p.shape) m
    ((length_mulV _ _).trans hp.dsh) hp.shape h1 h2 ht hs
  obtain ⟨b1, b2, b3⟩ := iter_all (dim := p.dim) hn
    (fun di dj => mulVWt ((Mat.scale (vget vec1 di) p.dshape).colV dj) p.shape) (fun _ _ => 1) _
    (fun _ _ => (length_colV _ _).trans hp.dsh) (fun _ _ => hp.shape) a1 a2 ht hs
  refine ⟨b1, b2, b3.trans ?_⟩
  rw [a3, add_assoc]
  congr 1
  unfold invGradTerm
  congr 1
  · by_cases h : t / p.nd = s / p.nd
    · rw [if_pos h, if_pos h, ent_mulVWt (by rw [length_mulV, hp.dsh]; exact mod_lt_nd ht)
        (by rw [hp.shape]; exact mod_lt_nd hs), ve_mulV (by rw [hp.dsh]; exact mod_lt_nd ht), hp.dsw]
      congr 1
      exact sum_congr rfl fun e he => by rw [hv1 e (mem_range.1 he)]
    · rw [if_neg h, if_neg h]
  · rw [one_mul, ent_mulVWt (by rw [length_colV]; exact hp.dsh.symm ▸ mod_lt_nd ht)
      (by rw [hp.shape]; exact mod_lt_nd hs), ve_colV (by exact hp.dsh.symm ▸ mod_lt_nd ht),
      ent_scale (by rw [hp.dsh]; exact mod_lt_nd ht) (by rw [hp.dsw]; exact div_lt_dim hs), vget_eq,
      hv1 _ (div_lt_dim ht)]
    rfl

theorem invGrad_ent {p : Pt R} (hp : PtOk p) (iw : R) (u : List R) {t s : Nat}
    (ht : t < p.nd * p.dim) (hs : s < p.nd * p.dim) :
    ent (invGrad p iw u) t s = invGradTerm p iw u t s := by
  unfold invGrad
  rw [(invGradAdd_spec hp iw u (m := zeroMat _) rfl rfl ht hs).2.2, ent_zeroMat ht hs, zero_add]

theorem invGradTerm_sum {p : Pt R} (iw : R) (u h : List R) {t : Nat} (ht : t < p.nd * p.dim) :
    ∑ s ∈ range (p.nd * p.dim), invGradTerm p iw u t s * ve h s =
      wq p iw * ∑ e ∈ range p.dim, ent p.dshape (t % p.nd) e *
        (value p u e * value p h (t / p.nd) + value p h e * value p u (t / p.nd)) := by
  have e1 : ∀ d ∈ range p.dim, ∀ k ∈ range p.nd, invGradTerm p iw u t (k + d * p.nd) * ve h (k + d * p.nd) =
      (if t / p.nd = d then wq p iw *
        (∑ e ∈ range p.dim, ent p.dshape (t % p.nd) e * value p u e) * (coef p.nd h k d * ve p.shape k)
        else 0) +
      wq p iw * (ent p.dshape (t % p.nd) d * value p u (t / p.nd)) * (coef p.nd h k d * ve p.shape k) := by
    intro d _ k hk
    unfold invGradTerm
    rw [mod_idx (mem_range.1 hk), div_idx (mem_range.1 hk), add_mul]
    congr 1
    · split
      · simp only [← mul_assoc, ← sum_mul]
        unfold coef wq; ring
      · ring
    · unfold coef; ring
  rw [sum_layout, sum_congr rfl fun d hd => sum_congr rfl (e1 d hd)]
  simp only [sum_add_distrib, mul_add]
  congr 1
  · rw [sum_congr rfl (g := fun d => if t / p.nd = d then ∑ k ∈ range p.nd, wq p iw *
        (∑ e ∈ range p.dim, ent p.dshape (t % p.nd) e * value p u e) * (coef p.nd h k d * ve p.shape k)
        else 0) fun d _ => by split <;> simp]
    rw [pick_sum (div_lt_dim ht), ← mul_sum]
    simp only [← mul_assoc, ← sum_mul]
    rfl
  · rw [mul_sum]
    refine sum_congr rfl fun d _ => ?_
    rw [← mul_sum]
    unfold value
    ring

end Verif.Convection
