import Verif.Props.FomSolve
import Verif.Spec.SchurSolve
import Mathlib.LinearAlgebra.Matrix.NonsingularInverse

/-!
# C124: the Stokes solve by a Schur complement
-/

namespace Verif.SchurSolve

open Verif Verif.LinAlg Verif.LinAlg.Spec Verif.FomSolve Verif.FomSolve.Spec Verif.SchurSolve.Spec Finset
open Verif.InterfaceForm (MatArr)
open Verif.InterfaceForm.Spec (mget MatsOk)
open Verif.Blocks (BlockVector getVariableVector setVariableVector)
open Verif.Blocks.Spec (IsOffsets HasSizes blockOf)
open Verif.RomAssembly.Spec (saddle)
open Verif.Unsteady
open Verif.Unsteady.Spec (first)
open Verif.SteadyNS (sum_blocks_eq)
open Verif.EqpRom (tab_take_sum tab_sum)

variable {R : Type}

/-! ### One variable of a block vector -/

section
variable [CommRing R]

theorem get_ok {n : Nat} {nu np : Nat → Nat} {rhs : BlockVector R} (hr : HasSizes rhs (bySub n nu np)) {v : Nat}
    (hv : v < 2) {offs : List Nat} (ho : IsOffsets offs (tab n fun m => dofs nu np m v)) {old : List R}
    (hl : old.length = first (fun m => dofs nu np m v) n) :
    ∃ r, getVariableVector n 2 (v : Int) rhs ⟨old, offs⟩ = .ok r ∧
      r.data.length = first (fun m => dofs nu np m v) n ∧
      ∀ m k, m < n → k < dofs nu np m v →
        ve r.data (first (fun m => dofs nu np m v) m + k) = ve rhs.data (at_ nu np m v k) := by
  have hb : ∀ m, m < n → (bySub n nu np)[2 * m + v]? = some (dofs nu np m v) := by
    intro m hm
    obtain ⟨b0, b1⟩ := bySub_get (a := nu) (b := np) hm
    interval_cases v
    · exact b0
    · exact b1
  have ht : ∀ m, m < n → (tab n fun m => dofs nu np m v)[m]? = some (dofs nu np m v) := fun m hm => by
    rw [getElem?_tab, if_pos hm]
  obtain ⟨r, e, hs, h⟩ := Blocks.getVariableVector_spec n 2 v hv rhs ⟨old, offs⟩ (bySub n nu np)
    (tab n fun m => dofs nu np m v) hr ⟨ho, by rw [tab_sum]; exact hl⟩ (bySub_length n nu np) (by simp)
    fun m hm => by rw [ht m hm, hb m hm]
  refine ⟨r, e, by rw [hs.2, tab_sum]; rfl, fun m k hm hk => ?_⟩
  have := congrArg (fun l => l[k]?) (h m hm)
  rw [Blocks.blockOf_getElem? hs (ht m hm), Blocks.blockOf_getElem? hr (hb m hm), if_pos hk, if_pos hk,
    tab_take_sum _ _ hm.le] at this
  unfold ve
  rw [show first (fun m => dofs nu np m v) m = ∑ i ∈ range m, dofs nu np i v from rfl, this]
  congr 2
  unfold at_
  interval_cases v
  · rw [Nat.add_zero, bySub_take hm.le]; simp
  · rw [bySub_take_odd hm, first_succ]; simp; omega

theorem set_ok {n : Nat} {nu np : Nat → Nat} {U : BlockVector R} (hU : HasSizes U (bySub n nu np)) {v : Nat}
    (hv : v < 2) {offs : List Nat} (ho : IsOffsets offs (tab n fun m => dofs nu np m v)) {x : List R}
    (hl : x.length = first (fun m => dofs nu np m v) n) :
    ∃ r, setVariableVector n 2 (v : Int) ⟨x, offs⟩ U = .ok r ∧ HasSizes r (bySub n nu np) ∧
      ∀ m w k, m < n → w < 2 → k < dofs nu np m w → ve r.data (at_ nu np m w k) =
        if w = v then ve x (first (fun m => dofs nu np m v) m + k) else ve U.data (at_ nu np m w k) := by
  have hb : ∀ m w, m < n → w < 2 → (bySub n nu np)[2 * m + w]? = some (dofs nu np m w) := by
    intro m w hm hw
    obtain ⟨b0, b1⟩ := bySub_get (a := nu) (b := np) hm
    interval_cases w
    · exact b0
    · exact b1
  have ht : ∀ m, m < n → (tab n fun m => dofs nu np m v)[m]? = some (dofs nu np m v) := fun m hm => by
    rw [getElem?_tab, if_pos hm]
  have hx : HasSizes (⟨x, offs⟩ : BlockVector R) (tab n fun m => dofs nu np m v) := ⟨ho, by rw [tab_sum]; exact hl⟩
  have pos : ∀ m w k, m < n → w < 2 → ((bySub n nu np).take (2 * m + w)).sum + k = at_ nu np m w k := by
    intro m w k hm hw
    unfold at_
    interval_cases w
    · rw [Nat.add_zero, bySub_take hm.le]; simp
    · rw [bySub_take_odd hm, first_succ]; simp; omega
  obtain ⟨r, e, hs, h⟩ := Blocks.setVariableVector_spec n 2 v hv ⟨x, offs⟩ U (tab n fun m => dofs nu np m v)
    (bySub n nu np) hx hU (by simp) (bySub_length n nu np) fun m hm => by rw [ht m hm, hb m v hm hv]
  refine ⟨r, e, hs, fun m w k hm hw hk => ?_⟩
  have := congrArg (fun l => l[k]?) (h m w hm hw)
  rw [Blocks.blockOf_getElem? hs (hb m w hm hw), if_pos hk, pos m w k hm hw] at this
  unfold ve
  rw [this]
  by_cases hwv : w = v
  · subst hwv
    rw [if_pos rfl, if_pos rfl, Blocks.blockOf_getElem? hx (ht m hm), if_pos hk, tab_take_sum _ _ hm.le]; rfl
  · rw [if_neg hwv, if_neg hwv, Blocks.blockOf_getElem? hU (hb m w hm hw), if_pos hk, pos m w k hm hw]

theorem apply_ok {a : Blk R} {v : List R} (h : v.length = a.w) :
    ∃ y, apply a v = .ok y ∧ y.length = a.h ∧ ∀ t, t < a.h → ve y t = ∑ c ∈ range a.w, a.val t c * ve v c := by
  refine ⟨_, blkAddMult_ok 1 h (by simp), by simp, fun t ht => ?_⟩
  rw [ve_tab ht, SteadyNS.ve_zero, zero_add, one_mul]

theorem ve_zipWith {f : R → R → R} {a b : List R} (h : a.length = b.length) {t : Nat} (ht : t < a.length) :
    ve (List.zipWith f a b) t = f (ve a t) (ve b t) := by
  unfold ve
  rw [List.getElem?_zipWith]
  rw [List.getElem?_eq_getElem ht, List.getElem?_eq_getElem (by omega)]
  rfl

end

/-! ### The algebra of the Schur complement -/

section
variable [Field R]

theorem inverse_exists {N : Nat} {A : Nat → Nat → R}
    (h : ∀ x : Nat → R, (∀ r, r < N → ∑ c ∈ range N, A r c * x c = 0) → ∀ t, t < N → x t = 0) :
    ∃ Mi : Nat → Nat → R, ∀ r c, r < N → c < N → ∑ k ∈ range N, A r k * Mi k c = if r = c then 1 else 0 := by
  let Am : Matrix (Fin N) (Fin N) R := fun i j => A i j
  have hinj : Function.Injective Am.mulVec := by
    intro x y hxy
    funext i
    have := h (fun t => if ht : t < N then x ⟨t, ht⟩ - y ⟨t, ht⟩ else 0) (fun r hr => by
      have e := congrFun hxy ⟨r, hr⟩
      simp only [Matrix.mulVec, dotProduct] at e
      rw [Finset.sum_range]
      simp only [Fin.is_lt, dif_pos, mul_sub, sum_sub_distrib]
      exact sub_eq_zero.2 e) i i.2
    simp only [Fin.is_lt, dif_pos] at this
    exact sub_eq_zero.1 this
  have hu : IsUnit Am := Matrix.mulVec_injective_iff_isUnit.1 hinj
  have hm := Matrix.mul_nonsing_inv Am ((Matrix.isUnit_iff_isUnit_det Am).1 hu)
  refine ⟨fun k c => if hk : k < N ∧ c < N then Am⁻¹ ⟨k, hk.1⟩ ⟨c, hk.2⟩ else 0, fun r c hr hc => ?_⟩
  have e := congrFun (congrFun hm ⟨r, hr⟩) ⟨c, hc⟩
  rw [Matrix.mul_apply, Matrix.one_apply] at e
  rw [Finset.sum_range]
  simp only [Fin.is_lt, hc, and_self, dif_pos]
  rw [e]
  simp

/-- The inverse of a symmetric matrix is symmetric. -/
theorem inverse_symm {N : Nat} {A Mi : Nat → Nat → R} (hs : ∀ r c, r < N → c < N → A r c = A c r)
    (hi : ∀ r c, r < N → c < N → ∑ k ∈ range N, A r k * Mi k c = if r = c then 1 else 0) {r c : Nat} (hr : r < N)
    (hc : c < N) : Mi c r = Mi r c := by
  have h1 : Mi c r = ∑ k ∈ range N, Mi k r * ∑ l ∈ range N, A k l * Mi l c := by
    rw [sum_congr rfl fun k hk => by rw [hi k c (mem_range.1 hk) hc]]
    simp [hc]
  have h2 : Mi r c = ∑ l ∈ range N, (∑ k ∈ range N, A l k * Mi k r) * Mi l c := by
    rw [sum_congr rfl fun k hk => by rw [hi k r (mem_range.1 hk) hr]]
    simp [hr]
  rw [h1, h2]
  simp only [mul_sum, sum_mul]
  rw [sum_comm]
  refine sum_congr rfl fun l hl => sum_congr rfl fun k hk => ?_
  rw [hs k l (mem_range.1 hk) (mem_range.1 hl)]; ring

/-- The only solution of a system is the inverse applied to its right-hand side. -/
theorem solution_eq {N : Nat} {A Mi : Nat → Nat → R} (hs : ∀ r c, r < N → c < N → A r c = A c r)
    (hi : ∀ r c, r < N → c < N → ∑ k ∈ range N, A r k * Mi k c = if r = c then 1 else 0) {x b : Nat → R}
    (h : ∀ t, t < N → ∑ c ∈ range N, A t c * x c = b t) {r : Nat} (hr : r < N) :
    x r = ∑ k ∈ range N, Mi r k * b k := by
  have h1 : x r = ∑ c ∈ range N, (∑ k ∈ range N, A c k * Mi k r) * x c := by
    rw [sum_congr rfl fun k hk => by rw [hi k r (mem_range.1 hk) hr]]
    simp [hr]
  rw [h1]
  have h2 : ∑ k ∈ range N, Mi r k * b k = ∑ k ∈ range N, Mi r k * ∑ c ∈ range N, A k c * x c :=
    sum_congr rfl fun k hk => by rw [h k (mem_range.1 hk)]
  rw [h2]
  simp only [mul_sum, sum_mul]
  rw [sum_comm]
  refine sum_congr rfl fun k hk => sum_congr rfl fun c hc => ?_
  rw [hs c k (mem_range.1 hc) (mem_range.1 hk), inverse_symm hs hi (mem_range.1 hk) hr]; ring

/-- The Schur complement `B M⁻¹ Bᵀ`. -/
def schur (N : Nat) (Mi B : Nat → Nat → R) (t c : Nat) : R :=
  ∑ i ∈ range N, B t i * ∑ j ∈ range N, Mi i j * B c j

theorem schur_symm {N : Nat} {A Mi B : Nat → Nat → R} (hs : ∀ r c, r < N → c < N → A r c = A c r)
    (hi : ∀ r c, r < N → c < N → ∑ k ∈ range N, A r k * Mi k c = if r = c then 1 else 0) (t c : Nat) :
    schur N Mi B t c = schur N Mi B c t := by
  unfold schur
  simp only [mul_sum]
  rw [sum_comm]
  refine sum_congr rfl fun j hj => sum_congr rfl fun i hi' => ?_
  rw [inverse_symm hs hi (mem_range.1 hj) (mem_range.1 hi')]; ring

theorem schur_apply {N P : Nat} {Mi B : Nat → Nat → R} {y v : Nat → R}
    (hy : ∀ i, i < N → y i = ∑ j ∈ range N, Mi i j * ∑ c ∈ range P, B c j * v c) (t : Nat) :
    ∑ i ∈ range N, B t i * y i = ∑ c ∈ range P, schur N Mi B t c * v c := by
  rw [sum_congr rfl fun i hi => by rw [hy i (mem_range.1 hi)]]
  unfold schur
  simp only [mul_sum, sum_mul]
  rw [sum_congr rfl fun i _ => sum_comm, sum_comm]
  refine sum_congr rfl fun c _ => sum_congr rfl fun i _ => sum_congr rfl fun j _ => ?_
  ring

/-! ### The parts of the solve -/

theorem apply_applies {a : Blk R} {N : Nat} (h : a.h = N) (w : a.w = N) : Applies (apply a) N a.val := by
  intro v y hv e
  obtain ⟨y', e', h1, h2⟩ := apply_isMatrix h w v hv
  obtain rfl := Except.ok.inj (e.symm.trans e')
  exact ⟨h1, h2⟩

theorem cgSolve_spec {x : Ext R} (hcg : Exact x.cg) {amg : Bool} {a : Blk R} {N : Nat} (h : a.h = N) (w : a.w = N)
    (hs : ∀ r c, r < N → c < N → a.val r c = a.val c r) {f y : List R} (hf : f.length = N)
    (e : cgSolve x amg a f = .ok y) :
    y.length = N ∧ ∀ t, t < N → ∑ c ∈ range N, a.val t c * ve y c = ve f t := by
  unfold cgSolve at e
  obtain ⟨⟨z, conv⟩, e1, e⟩ := bind_eq_ok.1 e
  obtain ⟨_, e2, e3⟩ := bind_eq_ok.1 e
  have hc : conv = true := by
    cases conv
    · cases e2
    · rfl
  obtain rfl : z = y := Except.ok.inj e3
  obtain ⟨h1, h2⟩ := hcg _ _ _ _ _ _ _ _ (apply_applies h w) hs hf (by simp [hf]) e1
  exact ⟨h1, h2 hc⟩

theorem schurMult_applies {x : Ext R} (hcg : Exact x.cg) {amg : Bool} {a b : Blk R} {N P : Nat} (h : a.h = N)
    (w : a.w = N) (hb : b.h = P) (wb : b.w = N) (hs : ∀ r c, r < N → c < N → a.val r c = a.val c r)
    {Mi : Nat → Nat → R}
    (hi : ∀ r c, r < N → c < N → ∑ k ∈ range N, a.val r k * Mi k c = if r = c then 1 else 0) :
    Applies (schurMult x amg a b) P (schur N Mi b.val) := by
  intro v y hv e
  unfold schurMult at e
  obtain ⟨x1, e1, e⟩ := bind_eq_ok.1 e
  obtain ⟨y1, e2, e3⟩ := bind_eq_ok.1 e
  obtain ⟨x1', e1', l1, h1⟩ := apply_ok (a := transpose b) (v := v) (by rw [hv, ← hb]; rfl)
  obtain rfl := Except.ok.inj (e1.symm.trans e1')
  obtain ⟨l2, h2⟩ := cgSolve_spec hcg h w hs (by rw [l1, ← wb]; rfl) e2
  obtain ⟨y', e3', l3, h3⟩ := apply_ok (a := b) (v := y1) (by rw [l2, wb])
  obtain rfl := Except.ok.inj (e3.symm.trans e3')
  refine ⟨by rw [l3, hb], fun t ht => ?_⟩
  rw [h3 t (by omega), wb]
  refine schur_apply (fun i hi' => ?_) t
  rw [solution_eq hs hi h2 hi']
  refine sum_congr rfl fun j hj => ?_
  have hj' := mem_range.1 hj
  rw [h1 j (by show j < b.w; omega), ← hb]
  rfl

theorem pressure_spec [CharZero R] {x : Ext R} (hmr : Exact x.minres) {presDbc : Bool}
    {op : List R → Outcome (List R)} {P : Nat} {S : Nat → Nat → R} (hop : Applies op P S)
    (hS : ∀ r c, r < P → c < P → S r c = S c r) {f y : List R} (hf : f.length = P)
    (e : pressure x presDbc op f = .ok y) :
    y.length = P ∧ (presDbc = false → ∑ c ∈ range P, ve y c = 0) ∧
      (Always x.minres → (presDbc = false → ∑ c ∈ range P, ve f c = 0 ∧ ∀ t, t < P → ∑ c ∈ range P, S t c = 0) →
        ∀ t, t < P → ∑ c ∈ range P, S t c * ve y c = ve f t) := by
  unfold pressure at e
  cases presDbc with
  | true =>
    rw [if_pos rfl] at e
    obtain ⟨⟨z, conv⟩, e1, e⟩ := bind_eq_ok.1 e
    obtain rfl : z = y := Except.ok.inj e
    obtain ⟨h1, h2⟩ := hmr _ _ _ _ _ _ _ _ hop hS hf (by simp [hf]) e1
    exact ⟨h1, by simp, fun ha _ => h2 (ha _ _ _ _ _ e1)⟩
  | false =>
    rw [if_neg (by simp), hf] at e
    obtain ⟨g, eg, e⟩ := bind_eq_ok.1 e
    obtain ⟨⟨z, conv⟩, e1, e2⟩ := bind_eq_ok.1 e
    obtain ⟨g', eg', lg, _, hg⟩ := subtractMean_ok (x := f) (o := 0) (n := P) (by omega)
    obtain rfl := Except.ok.inj (eg.symm.trans eg')
    simp only [Nat.zero_add] at lg hg
    obtain ⟨h1, h2⟩ := hmr _ _ _ _ _ _ _ _ hop hS lg (by simp) e1
    obtain ⟨y', ey', ly, _, hy⟩ := subtractMean_ok (x := z) (o := 0) (n := P) (by omega)
    dsimp only at e2
    obtain rfl := Except.ok.inj (e2.symm.trans ey')
    simp only [Nat.zero_add] at ly hy
    refine ⟨ly, fun _ => ?_, fun ha hc t ht => ?_⟩
    · rw [sum_congr rfl fun c hc => hy c (mem_range.1 hc), sum_sub_distrib, sum_const, card_range, nsmul_eq_mul]
      rcases Nat.eq_zero_or_pos P with h0 | h0
      · simp [h0]
      · have : (P : R) ≠ 0 := by exact_mod_cast h0.ne'
        rw [mul_div_cancel₀ _ this, sub_self]
    · obtain ⟨c1, c2⟩ := hc rfl
      rw [sum_congr rfl fun c hc => by rw [hy c (mem_range.1 hc), mul_sub], sum_sub_distrib, ← sum_mul, c2 t ht,
        zero_mul, sub_zero, h2 (ha _ _ _ _ _ e1) t ht, hg t ht, c1, zero_div, sub_zero]

/-- What the solve leaves, in terms of monolithic matrices. -/
theorem solveSchur_spec [CharZero R] {x : Ext R} (hcg : Exact x.cg) (hmr : Exact x.minres) {amg presDbc : Bool}
    {n : Nat} {nu np : Nat → Nat} {u p : List Nat} (hu : IsOffsets u (tab n nu)) (hp : IsOffsets p (tab n np))
    {M B : MatArr R} (hM : MatsOk M n nu nu) (hB : MatsOk B n np nu) (hsym : Symmetric n nu M)
    (hns : Nonsingular n nu M) {rhs U0 U : BlockVector R} (hr : HasSizes rhs (bySub n nu np))
    (hU : HasSizes U0 (bySub n nu np)) (hrun : solveSchur x amg presDbc n u p M B rhs U0 = .ok U) :
    ∃ y q : Nat → R, HasSizes U (bySub n nu np) ∧
      (∀ m k, m < n → k < nu m → ve U.data (at_ nu np m 0 k) = y (first nu m + k)) ∧
      (∀ m k, m < n → k < np m → ve U.data (at_ nu np m 1 k) = q (first np m + k)) ∧
      (∀ m k, m < n → k < nu m →
        (∑ m' ∈ range n, ∑ l ∈ range (nu m'), mget M m m' k l * y (first nu m' + l)) +
          ∑ m' ∈ range n, ∑ l ∈ range (np m'), mget B m' m l k * q (first np m' + l) =
            ve rhs.data (at_ nu np m 0 k)) ∧
      (presDbc = false → ∑ c ∈ range (first np n), q c = 0) ∧
      (Always x.minres → (presDbc = false → NoForce n nu np B ∧ Compatible n nu np (ve rhs.data)) →
        ∀ m k, m < n → k < np m →
          ∑ m' ∈ range n, ∑ l ∈ range (nu m'), mget B m m' k l * y (first nu m' + l) =
            ve rhs.data (at_ nu np m 1 k)) := by
  obtain ⟨mm, e1, _, _, _, a4, a5, a6⟩ := setBlocks_ok hu hu hM
  obtain ⟨bm, e2, _, _, _, b4, b5, b6⟩ := setBlocks_ok hp hu hB
  have hs := symm_mono hsym a6
  obtain ⟨Mi, hi⟩ := inverse_exists (N := first nu n) (A := (mono mm).val) fun z hz => hns z fun m k hm hk => by
    rw [← row_lhs a6 z hm hk]
    exact hz _ (by have := first_bound nu hm; omega)
  obtain ⟨f, ef, lf, hf⟩ := get_ok hr (v := 0) (by omega) (offs := u) hu
    (old := List.replicate (mono mm).h 0) (by rw [List.length_replicate, a4]; rfl)
  obtain ⟨g, eg, lg, hg⟩ := get_ok hr (v := 1) (by omega) (offs := p) hp
    (old := List.replicate (mono bm).h 0) (by rw [List.length_replicate, b4]; rfl)
  change f.data.length = first nu n at lf
  change g.data.length = first np n at lg
  unfold solveSchur at hrun
  rw [e1, ok_bind, e2, ok_bind] at hrun
  dsimp only at hrun
  rw [show ((0 : Nat) : Int) = 0 from rfl] at ef
  rw [show ((1 : Nat) : Int) = 1 from rfl] at eg
  rw [ef, ok_bind, eg, ok_bind] at hrun
  obtain ⟨r1, er1, hrun⟩ := bind_eq_ok.1 hrun
  obtain ⟨br, ebr, hrun⟩ := bind_eq_ok.1 hrun
  obtain ⟨q, eq, hrun⟩ := bind_eq_ok.1 hrun
  obtain ⟨bt, ebt, hrun⟩ := bind_eq_ok.1 hrun
  obtain ⟨y, ey, hrun⟩ := bind_eq_ok.1 hrun
  obtain ⟨U1, eU1, eU⟩ := bind_eq_ok.1 hrun
  obtain ⟨l1, h1⟩ := cgSolve_spec hcg a4 a5 hs lf er1
  obtain ⟨br', ebr', l2, h2⟩ := apply_ok (a := mono bm) (v := r1) (by rw [l1, b5])
  obtain rfl := Except.ok.inj (ebr.symm.trans ebr')
  rw [b4] at l2 h2
  rw [b5] at h2
  have l3 : (List.zipWith (fun s t => s - t) br g.data).length = first np n := by
    rw [List.length_zipWith, l2, lg, min_self]
  have h3 : ∀ t, t < first np n → ve (List.zipWith (fun s t => s - t) br g.data) t =
      ve br t - ve g.data t := fun t ht => ve_zipWith (by rw [l2, lg]) (by omega)
  obtain ⟨l4, h4, h4'⟩ := pressure_spec hmr (schurMult_applies hcg (amg := amg) a4 a5 b4 b5 hs hi)
    (fun r c _ _ => schur_symm hs hi r c) l3 eq
  obtain ⟨bt', ebt', l5, h5⟩ := apply_ok (a := transpose (mono bm)) (v := q) (by rw [l4, ← b4]; rfl)
  obtain rfl := Except.ok.inj (ebt.symm.trans ebt')
  replace l5 : bt.length = first nu n := l5.trans b5
  replace h5 : ∀ t, t < first nu n → ve bt t = ∑ c ∈ range (first np n), (mono bm).val c t * ve q c := by
    intro t ht
    rw [h5 t (by show t < (mono bm).w; omega), ← b4]
    rfl
  have l6 : (List.zipWith (fun s t => -s + t) bt f.data).length = first nu n := by
    rw [List.length_zipWith, l5, lf, min_self]
  have h6 : ∀ t, t < first nu n → ve (List.zipWith (fun s t => -s + t) bt f.data) t =
      -ve bt t + ve f.data t := fun t ht => ve_zipWith (by rw [l5, lf]) (by omega)
  obtain ⟨l7, h7⟩ := cgSolve_spec hcg a4 a5 hs l6 ey
  obtain ⟨V, eV, sV, hV⟩ := set_ok hU (v := 0) (by omega) (offs := u) hu (x := y) l7
  rw [show ((0 : Nat) : Int) = 0 from rfl] at eV
  obtain rfl := Except.ok.inj (eU1.symm.trans eV)
  obtain ⟨W, eW, sW, hW⟩ := set_ok sV (v := 1) (by omega) (offs := p) hp (x := q) l4
  rw [show ((1 : Nat) : Int) = 1 from rfl] at eW
  obtain rfl := Except.ok.inj (eU.symm.trans eW)
  refine ⟨ve y, ve q, sW, fun m k hm hk => ?_, fun m k hm hk => ?_, fun m k hm hk => ?_, h4, fun ha hc m k hm hk => ?_⟩
  · rw [hW m 0 k hm (by omega) hk, if_neg (by omega), hV m 0 k hm (by omega) hk, if_pos rfl]; rfl
  · rw [hW m 1 k hm (by omega) hk, if_pos rfl]; rfl
  · have hb := first_bound nu hm
    have e := h7 (first nu m + k) (by omega)
    rw [h6 _ (by omega), h5 _ (by omega), sum_blocks_eq n nu fun c => (mono mm).val (first nu m + k) c * ve y c,
      sum_blocks_eq n np fun c => (mono bm).val c (first nu m + k) * ve q c] at e
    have e' := hf m k hm hk
    change ve f.data (first nu m + k) = _ at e'
    rw [← e', sum_congr rfl fun m' hm' => sum_congr rfl fun l hl => by
        rw [← a6 m m' k l hm (mem_range.1 hm') hk (mem_range.1 hl)],
      sum_congr (s₁ := range n) (g := fun m' => ∑ l ∈ range (np m'), (mono bm).val (first np m' + l) (first nu m + k) *
          ve q (first np m' + l)) rfl fun m' hm' => sum_congr rfl fun l hl => by
        rw [← b6 m' m l k (mem_range.1 hm') hm (mem_range.1 hl) hk]]
    refine (congrArg (· + _) e).trans ?_
    ring
  · have hb := first_bound np hm
    have hcol : presDbc = false → ∀ j, j < first nu n → ∑ c ∈ range (first np n), (mono bm).val c j = 0 := by
      intro hd j hj
      obtain ⟨m', k', hm', hk', rfl⟩ := locate n nu hj
      rw [sum_blocks_eq n np fun c => (mono bm).val c (first nu m' + k'), ← (hc hd).1 m' k' hm' hk']
      exact sum_congr rfl fun i hi => sum_congr rfl fun l hl =>
        b6 i m' l k' (mem_range.1 hi) hm' (mem_range.1 hl) hk'
    have hp' := h4' ha (fun hd => ⟨?_, fun t ht => ?_⟩) (first np m + k) (by omega)
    · have e' := hg m k hm hk
      change ve g.data (first np m + k) = _ at e'
      rw [← e']
      rw [h3 _ (by omega), h2 _ (by omega)] at hp'
      have hy := schur_apply (P := first np n) (Mi := Mi) (B := (mono bm).val)
        (y := fun i => ve r1 i - ve y i) (v := ve q) (N := first nu n) (fun i hi' => by
          rw [solution_eq hs hi h1 hi', solution_eq hs hi h7 hi', ← sum_sub_distrib]
          refine sum_congr rfl fun j hj => ?_
          rw [h6 j (mem_range.1 hj), h5 j (mem_range.1 hj)]; ring) (first np m + k)
      rw [hp'] at hy
      simp only [mul_sub, sum_sub_distrib] at hy
      rw [sum_congr rfl fun m' hm' => sum_congr rfl fun l hl => by
        rw [← b6 m m' k l hm (mem_range.1 hm') hk (mem_range.1 hl)]]
      have hz := sum_blocks_eq n nu fun c => (mono bm).val (first np m + k) c * ve y c
      refine hz.symm.trans ?_
      exact sub_right_inj.1 hy
    · rw [sum_congr rfl fun c hc => h3 c (mem_range.1 hc), sum_sub_distrib,
        sum_congr rfl fun c hc => h2 c (mem_range.1 hc), sum_comm,
        sum_eq_zero fun i hi' => by rw [← sum_mul, hcol hd i (mem_range.1 hi'), zero_mul], zero_sub, neg_eq_zero,
        sum_blocks_eq n np (ve g.data), ← (hc hd).2]
      exact sum_congr rfl fun i hi' => sum_congr rfl fun l hl => hg i l (mem_range.1 hi') (mem_range.1 hl)
    · unfold schur
      rw [sum_comm]
      refine sum_eq_zero fun i hi' => ?_
      rw [← mul_sum, sum_comm, sum_eq_zero fun j hj => by
        rw [← mul_sum, hcol hd j (mem_range.1 hj), mul_zero], mul_zero]

theorem momentum_lhs {n : Nat} {nu np : Nat → Nat} {M B : MatArr R} {z : Nat → R} (m k : Nat) :
    stokesLhs n nu np M B z m 0 k = (∑ m' ∈ range n, ∑ l ∈ range (nu m'), mget M m m' k l * z (at_ nu np m' 0 l)) +
      ∑ m' ∈ range n, ∑ l ∈ range (np m'), mget B m' m l k * z (at_ nu np m' 1 l) := by
  unfold stokesLhs
  rw [← sum_add_distrib]
  refine sum_congr rfl fun m' _ => ?_
  rw [sum_range_succ, sum_range_one]
  rfl

theorem continuity_lhs {n : Nat} {nu np : Nat → Nat} {M B : MatArr R} {z : Nat → R} (m k : Nat) :
    stokesLhs n nu np M B z m 1 k = ∑ m' ∈ range n, ∑ l ∈ range (nu m'), mget B m m' k l * z (at_ nu np m' 0 l) := by
  unfold stokesLhs
  refine sum_congr rfl fun m' _ => ?_
  rw [sum_range_succ, sum_range_one, sum_eq_zero (s := range (dofs nu np m' 1)) fun l _ => by simp [saddle], add_zero]
  rfl

/-- **C124.** Whatever the pressure solver returns, converged or not, the solution left behind satisfies the
momentum equations of every subdomain, and without a prescribed pressure the pressure dofs sum to zero. -/
theorem schur_momentum [CharZero R] {x : Ext R} (hcg : Exact x.cg) (hmr : Exact x.minres) {amg presDbc : Bool}
    {n : Nat} {nu np : Nat → Nat} {u p : List Nat} (hu : IsOffsets u ((List.range n).map nu))
    (hp : IsOffsets p ((List.range n).map np)) {M B : MatArr R} (hM : MatsOk M n nu nu) (hB : MatsOk B n np nu)
    (hsym : Symmetric n nu M) (hns : Nonsingular n nu M) {rhs U0 U : BlockVector R}
    (hr : HasSizes rhs ((List.range n).flatMap fun m => [nu m, np m]))
    (hU : HasSizes U0 ((List.range n).flatMap fun m => [nu m, np m]))
    (hrun : solveSchur x amg presDbc n u p M B rhs U0 = .ok U) :
    HasSizes U ((List.range n).flatMap fun m => [nu m, np m]) ∧
      Holds n nu np M B (ve rhs.data) (ve U.data) 0 ∧ (presDbc = false → ZeroMean n nu np (ve U.data)) := by
  obtain ⟨y, q, hs, h1, h2, h3, h4, _⟩ := solveSchur_spec hcg hmr hu hp hM hB hsym hns hr hU hrun
  refine ⟨hs, fun m k hm hk => ?_, fun hd => ?_⟩
  · rw [momentum_lhs, ← h3 m k hm hk]
    congr 1
    · exact sum_congr rfl fun m' hm' => sum_congr rfl fun l hl => by rw [h1 m' l (mem_range.1 hm') (mem_range.1 hl)]
    · exact sum_congr rfl fun m' hm' => sum_congr rfl fun l hl => by rw [h2 m' l (mem_range.1 hm') (mem_range.1 hl)]
  · unfold ZeroMean
    rw [← h4 hd, sum_blocks_eq n np q]
    exact sum_congr rfl fun m hm => sum_congr rfl fun k hk => h2 m k (mem_range.1 hm) (mem_range.1 hk)

/-- **C124.** If the pressure solver converges, the solution left behind satisfies the momentum and continuity
equations of every subdomain, provided a pressure is prescribed, or constant pressures exert no force and the
right-hand sides of the continuity equations sum to zero.  The code does not look at whether the pressure solver
converged: see `schur_unchecked`. -/
theorem schur_solves_partial [CharZero R] {x : Ext R} (hcg : Exact x.cg) (hmr : Exact x.minres)
    (hconv : Always x.minres) {amg presDbc : Bool}
    {n : Nat} {nu np : Nat → Nat} {u p : List Nat} (hu : IsOffsets u ((List.range n).map nu))
    (hp : IsOffsets p ((List.range n).map np)) {M B : MatArr R} (hM : MatsOk M n nu nu) (hB : MatsOk B n np nu)
    (hsym : Symmetric n nu M) (hns : Nonsingular n nu M) {rhs U0 U : BlockVector R}
    (hr : HasSizes rhs ((List.range n).flatMap fun m => [nu m, np m]))
    (hU : HasSizes U0 ((List.range n).flatMap fun m => [nu m, np m]))
    (hc : presDbc = true ∨ (NoForce n nu np B ∧ Compatible n nu np (ve rhs.data)))
    (hrun : solveSchur x amg presDbc n u p M B rhs U0 = .ok U) :
    StokesSolves n nu np M B (ve rhs.data) (ve U.data) := by
  have hmom := (schur_momentum hcg hmr hu hp hM hB hsym hns hr hU hrun).2.1
  obtain ⟨y, q, hs, h1, h2, h3, h4, h5⟩ := solveSchur_spec hcg hmr hu hp hM hB hsym hns hr hU hrun
  intro m v k hm hv hk
  interval_cases v
  · exact hmom m k hm hk
  · rw [continuity_lhs, ← h5 hconv (fun hd => hc.resolve_left (by simp [hd])) m k hm hk]
    exact sum_congr rfl fun m' hm' => sum_congr rfl fun l hl => by rw [h1 m' l (mem_range.1 hm') (mem_range.1 hl)]

/-- **C124.** The solve returns whenever its solvers do and the velocity solver converges for every symmetric
system that has a solution. -/
theorem schur_returns [CharZero R] {x : Ext R} (hcg : Exact x.cg) (hmr : Exact x.minres)
    (tcg : ∀ op prec N A (b x0 : List R), IsMatrix op N A → (∀ r c, r < N → c < N → A r c = A c r) →
      b.length = N → x0.length = N → (∃ z : Nat → R, ∀ t, t < N → ∑ c ∈ range N, A t c * z c = ve b t) →
      ∃ y, x.cg op prec b x0 = .ok (y, true))
    (tmr : ∀ op prec N A (b x0 : List R), IsMatrix op N A → b.length = N → x0.length = N →
      ∃ r, x.minres op prec b x0 = .ok r)
    {amg presDbc : Bool} {n : Nat} {nu np : Nat → Nat} {u p : List Nat} (hu : IsOffsets u ((List.range n).map nu))
    (hp : IsOffsets p ((List.range n).map np)) {M B : MatArr R} (hM : MatsOk M n nu nu) (hB : MatsOk B n np nu)
    (hsym : Symmetric n nu M) (hns : Nonsingular n nu M) {rhs U0 : BlockVector R}
    (hr : HasSizes rhs ((List.range n).flatMap fun m => [nu m, np m]))
    (hU : HasSizes U0 ((List.range n).flatMap fun m => [nu m, np m])) :
    ∃ U, solveSchur x amg presDbc n u p M B rhs U0 = .ok U := by
  obtain ⟨mm, e1, _, _, _, a4, a5, a6⟩ := setBlocks_ok hu hu hM
  obtain ⟨bm, e2, _, _, _, b4, b5, b6⟩ := setBlocks_ok hp hu hB
  have hs := symm_mono hsym a6
  obtain ⟨Mi, hi⟩ := inverse_exists (N := first nu n) (A := (mono mm).val) fun z hz => hns z fun m k hm hk => by
    rw [← row_lhs a6 z hm hk]
    exact hz _ (by have := first_bound nu hm; omega)
  obtain ⟨f, ef, lf, _⟩ := get_ok hr (v := 0) (by omega) (offs := u) hu
    (old := List.replicate (mono mm).h 0) (by rw [List.length_replicate, a4]; rfl)
  obtain ⟨g, eg, lg, _⟩ := get_ok hr (v := 1) (by omega) (offs := p) hp
    (old := List.replicate (mono bm).h 0) (by rw [List.length_replicate, b4]; rfl)
  change f.data.length = first nu n at lf
  change g.data.length = first np n at lg
  rw [show ((0 : Nat) : Int) = 0 from rfl] at ef
  rw [show ((1 : Nat) : Int) = 1 from rfl] at eg
  have hsolve : ∀ v : List R, v.length = first nu n → ∃ y, cgSolve x amg (mono mm) v = .ok y ∧
      y.length = first nu n := by
    intro v hv
    obtain ⟨y, e⟩ := tcg (apply (mono mm)) (prec amg) _ _ v (List.replicate v.length 0) (apply_isMatrix a4 a5) hs hv
      (by simp [hv]) ⟨fun c => ∑ k ∈ range (first nu n), Mi c k * ve v k, fun t ht => by
        simp only [mul_sum]
        rw [sum_comm, sum_congr rfl fun k hk => by
          rw [sum_congr rfl fun c _ => (mul_assoc _ _ _).symm, ← sum_mul, hi t k ht (mem_range.1 hk)]]
        simp [ht]⟩
    have e' : cgSolve x amg (mono mm) v = .ok y := by unfold cgSolve; rw [e]; rfl
    exact ⟨y, e', (cgSolve_spec hcg a4 a5 hs hv e').1⟩
  have hap := schurMult_applies hcg (amg := amg) a4 a5 b4 b5 hs hi
  have hop : IsMatrix (schurMult x amg (mono mm) (mono bm)) (first np n) (schur (first nu n) Mi (mono bm).val) := by
    intro v hv
    obtain ⟨x1, ex1, l1, _⟩ := apply_ok (a := transpose (mono bm)) (v := v) (by rw [hv, ← b4]; rfl)
    obtain ⟨y1, ey1, l2⟩ := hsolve x1 (l1.trans b5)
    obtain ⟨y, ey, _, _⟩ := apply_ok (a := mono bm) (v := y1) (by rw [l2, b5])
    have e : schurMult x amg (mono mm) (mono bm) v = .ok y := by
      unfold schurMult
      rw [ex1, ok_bind, ey1, ok_bind, ey]
    exact ⟨y, e, hap v y hv e⟩
  obtain ⟨r1, er1, l1⟩ := hsolve f.data lf
  obtain ⟨br, ebr, l2, _⟩ := apply_ok (a := mono bm) (v := r1) (by rw [l1, b5])
  have l3 : (List.zipWith (fun s t => s - t) br g.data).length = first np n := by
    rw [List.length_zipWith, l2, lg, b4, min_self]
  have hpr : ∀ v : List R, v.length = first np n → ∃ q,
      pressure x presDbc (schurMult x amg (mono mm) (mono bm)) v = .ok q := by
    intro v hv
    unfold pressure
    cases presDbc with
    | true =>
      obtain ⟨r, e⟩ := tmr _ .none _ _ v (List.replicate v.length 0) hop hv (by simp [hv])
      exact ⟨r.1, by rw [if_pos rfl, e]; rfl⟩
    | false =>
      obtain ⟨g', eg', lg', _⟩ := subtractMean_ok (x := v) (o := 0) (n := v.length) (by omega)
      obtain ⟨⟨z, c⟩, e⟩ := tmr _ .none _ _ g' (List.replicate v.length 0) hop (by omega) (by simp [hv])
      have lz := (hmr _ _ _ _ _ _ _ _ hap (fun r c _ _ => schur_symm hs hi r c) (by omega) (by simp [hv]) e).1
      obtain ⟨y, ey, _⟩ := subtractMean_ok (x := z) (o := 0) (n := v.length) (by omega)
      exact ⟨y, by rw [if_neg (by simp), eg', ok_bind, e, ok_bind, ey]⟩
  obtain ⟨q, eq⟩ := hpr _ l3
  have l4 := (pressure_spec hmr hap (fun r c _ _ => schur_symm hs hi r c) l3 eq).1
  obtain ⟨bt, ebt, l5, _⟩ := apply_ok (a := transpose (mono bm)) (v := q) (by rw [l4, ← b4]; rfl)
  replace l5 : bt.length = first nu n := l5.trans b5
  obtain ⟨y, ey, l7⟩ := hsolve (List.zipWith (fun s t => -s + t) bt f.data) (by
    rw [List.length_zipWith, l5, lf, min_self])
  obtain ⟨V, eV, sV, _⟩ := set_ok hU (v := 0) (by omega) (offs := u) hu (x := y) l7
  rw [show ((0 : Nat) : Int) = 0 from rfl] at eV
  obtain ⟨W, eW, _, _⟩ := set_ok sV (v := 1) (by omega) (offs := p) hp (x := q) l4
  rw [show ((1 : Nat) : Int) = 1 from rfl] at eW
  refine ⟨W, ?_⟩
  unfold solveSchur
  rw [e1, ok_bind, e2, ok_bind]
  dsimp only
  rw [ef, ok_bind, eg, ok_bind, er1, ok_bind, ebr, ok_bind, eq, ok_bind, ebt, ok_bind, ey, ok_bind, eV, ok_bind, eW]

/-- **C124.** If no velocity solve converges, the program is ended. -/
theorem schur_aborts {x : Ext R} (hcg : ∀ op prec b x0, ∃ y, x.cg op prec b x0 = .ok (y, false))
    {amg presDbc : Bool} {n : Nat} {nu np : Nat → Nat} {u p : List Nat} (hu : IsOffsets u ((List.range n).map nu))
    (hp : IsOffsets p ((List.range n).map np)) {M B : MatArr R} (hM : MatsOk M n nu nu) (hB : MatsOk B n np nu)
    {rhs : BlockVector R} (hr : HasSizes rhs ((List.range n).flatMap fun m => [nu m, np m])) (U0 : BlockVector R) :
    solveSchur x amg presDbc n u p M B rhs U0 = .error .abort := by
  obtain ⟨mm, e1, _, _, _, a4, _, _⟩ := setBlocks_ok hu hu hM
  obtain ⟨bm, e2, _, _, _, b4, _, _⟩ := setBlocks_ok hp hu hB
  obtain ⟨f, ef, _, _⟩ := get_ok hr (v := 0) (by omega) (offs := u) hu
    (old := List.replicate (mono mm).h 0) (by rw [List.length_replicate, a4]; rfl)
  obtain ⟨g, eg, _, _⟩ := get_ok hr (v := 1) (by omega) (offs := p) hp
    (old := List.replicate (mono bm).h 0) (by rw [List.length_replicate, b4]; rfl)
  rw [show ((0 : Nat) : Int) = 0 from rfl] at ef
  rw [show ((1 : Nat) : Int) = 1 from rfl] at eg
  obtain ⟨y, ey⟩ := hcg (apply (mono mm)) (prec amg) f.data (List.replicate f.data.length 0)
  unfold solveSchur
  rw [e1, ok_bind, e2, ok_bind]
  dsimp only
  rw [ef, ok_bind, eg, ok_bind]
  unfold cgSolve
  rw [ey]
  rfl

end

/-! ### Examples -/

section Example

/-- A solver that tries the given vectors and ends the program if none is a solution. -/
def probe (cands : List (List ℚ)) : Krylov ℚ := fun op _ b _ =>
  match cands.find? (fun v => v.length == b.length && match op v with | .ok y => y == b | .error _ => false) with
  | some v => .ok (v, true)
  | none => .error .abort

/-- A solver that gives up at once. -/
def idle : Krylov ℚ := fun _ _ _ x0 => .ok (x0, false)

theorem probe_exact (cands : List (List ℚ)) : Exact (probe cands) := by
  intro op prec N A b x0 x conv hop _ hb _ e
  unfold probe at e
  split at e
  · rename_i v hv
    cases e
    have := List.find?_some hv
    rw [Bool.and_eq_true] at this
    obtain ⟨h1, h2⟩ := this
    have hl : x.length = N := by rw [← hb]; exact beq_iff_eq.1 h1
    refine ⟨hl, fun _ t ht => ?_⟩
    split at h2
    · rename_i y hy
      obtain rfl := beq_iff_eq.1 h2
      exact ((hop x y hl hy).2 t ht).symm
    · cases h2
  · cases e

theorem probe_always (cands : List (List ℚ)) : Always (probe cands) := by
  intro op prec b x0 r e
  unfold probe at e
  split at e
  · cases e; rfl
  · cases e

theorem idle_exact : Exact idle := by
  intro op prec N A b x0 x conv _ _ _ h0 e
  cases e
  exact ⟨h0, by simp⟩

/-- Two subdomains with one velocity and one pressure each, coupled by these matrices. -/
def exArr (a b c d : ℚ) : MatArr ℚ :=
  ⟨2, 2, fun i j => some ⟨1, 1, [((0, 0), if i = 0 then (if j = 0 then a else b) else (if j = 0 then c else d))]⟩⟩

theorem exArr_ok (a b c d : ℚ) : MatsOk (exArr a b c d) 2 (fun _ => 1) (fun _ => 1) :=
  ⟨rfl, rfl, fun _ _ _ _ => ⟨_, rfl, rfl, rfl⟩⟩

theorem exArr_get (a b c d : ℚ) (i j : Nat) : mget (exArr a b c d) i j 0 0 =
    if i = 0 then (if j = 0 then a else b) else (if j = 0 then c else d) := by
  simp [mget, exArr, Sp.get]

/-- The solvers of the examples. -/
def exExt (minres : Krylov ℚ) : Ext ℚ :=
  ⟨true, fun _ _ => .error .abort, probe [[2, -1], [2, 0], [0, -1], [1, 1], [1, -2]], idle, minres⟩

theorem exExt_cg (k : Krylov ℚ) : Exact (exExt k).cg := probe_exact _

theorem ex_symm : Spec.Symmetric 2 (fun _ => 1) (exArr 2 1 1 2) := by
  intro m m' k l hm hm' hk hl
  obtain rfl : k = 0 := Nat.lt_one_iff.1 hk
  obtain rfl : l = 0 := Nat.lt_one_iff.1 hl
  rw [exArr_get, exArr_get]
  interval_cases m <;> interval_cases m' <;> rfl

theorem ex_nonsingular : Nonsingular 2 (fun _ => 1) (exArr 2 1 1 2) := by
  intro z h t ht
  have h0 := h 0 0 (by omega) Nat.one_pos
  have h1 := h 1 0 (by omega) Nat.one_pos
  simp [lhs, sum_range_succ, exArr_get, first] at h0 h1
  simp [first] at ht
  interval_cases t <;> linarith

theorem ex_offs : IsOffsets [0, 1, 2] ((List.range 2).map fun _ => 1) := ones_offsets 1

theorem ex_sizes (l : List ℚ) (h : l.length = 4) :
    HasSizes ⟨l, [0, 1, 2, 3, 4]⟩ ((List.range 2).flatMap fun _ => [1, 1]) := by
  refine ⟨⟨rfl, rfl, ?_⟩, h⟩
  intro i s h
  rcases i with _ | _ | _ | _ | i <;> simp [List.range_succ] at h <;> subst h <;> simp

/-- With a prescribed pressure. -/
theorem ex_run : solveSchur (exExt (probe [[3, 1]])) false true 2 [0, 1, 2] [0, 1, 2] (exArr 2 1 1 2) (exArr 1 1 1 (-1))
    ⟨[3, -1, 0, 1], [0, 1, 2, 3, 4]⟩ ⟨[7, 7, 7, 7], [0, 1, 2, 3, 4]⟩ = .ok ⟨[0, 3, -1, 1], [0, 1, 2, 3, 4]⟩ := by
  decide +kernel

example : StokesSolves 2 (fun _ => 1) (fun _ => 1) (exArr 2 1 1 2) (exArr 1 1 1 (-1)) (ve [3, -1, 0, 1])
    (ve [0, 3, -1, 1]) :=
  schur_solves_partial (x := exExt (probe [[3, 1]])) (amg := false) (presDbc := true) (n := 2) (nu := fun _ => 1) (np := fun _ => 1)
    (u := [0, 1, 2]) (p := [0, 1, 2]) (M := exArr 2 1 1 2) (B := exArr 1 1 1 (-1))
    (rhs := ⟨[3, -1, 0, 1], [0, 1, 2, 3, 4]⟩)
    (U0 := ⟨[7, 7, 7, 7], [0, 1, 2, 3, 4]⟩) (U := ⟨[0, 3, -1, 1], [0, 1, 2, 3, 4]⟩)
    (exExt_cg _) (probe_exact _) (probe_always _) ex_offs ex_offs
    (exArr_ok ..) (exArr_ok ..) ex_symm ex_nonsingular (ex_sizes _ rfl) (ex_sizes _ rfl) (.inl rfl) ex_run

/-- Without one: constant pressures exert no force, and the mean of the pressure is removed. -/
theorem ex_run_free : solveSchur (exExt (probe [[3, 0]])) true false 2 [0, 1, 2] [0, 1, 2] (exArr 2 1 1 2)
    (exArr 1 1 (-1) (-1)) ⟨[3, -1, 0, 1], [0, 1, 2, 3, 4]⟩ ⟨[7, 7, 7, 7], [0, 1, 2, 3, 4]⟩ =
      .ok ⟨[1, 3 / 2, -2, -3 / 2], [0, 1, 2, 3, 4]⟩ := by
  decide +kernel

example : StokesSolves 2 (fun _ => 1) (fun _ => 1) (exArr 2 1 1 2) (exArr 1 1 (-1) (-1)) (ve [3, -1, 0, 1])
    (ve [1, 3 / 2, -2, -3 / 2]) := by
  refine schur_solves_partial (x := exExt (probe [[3, 0]])) (amg := true) (presDbc := false) (n := 2) (nu := fun _ => 1) (np := fun _ => 1)
    (u := [0, 1, 2]) (p := [0, 1, 2]) (M := exArr 2 1 1 2) (B := exArr 1 1 (-1) (-1))
    (rhs := ⟨[3, -1, 0, 1], [0, 1, 2, 3, 4]⟩)
    (U0 := ⟨[7, 7, 7, 7], [0, 1, 2, 3, 4]⟩) (U := ⟨[1, 3 / 2, -2, -3 / 2], [0, 1, 2, 3, 4]⟩)
    (exExt_cg _) (probe_exact _) (probe_always _) ex_offs
    ex_offs (exArr_ok ..) (exArr_ok ..) ex_symm ex_nonsingular (ex_sizes _ rfl) (ex_sizes _ rfl) (.inr ⟨?_, ?_⟩) ex_run_free
  · intro m k hm hk
    obtain rfl : k = 0 := Nat.lt_one_iff.1 hk
    simp only [sum_range_succ, sum_range_zero, zero_add, exArr_get]
    interval_cases m <;> norm_num
  · simp [Compatible, sum_range_succ, at_, first, ve]

example : ZeroMean 2 (fun _ => 1) (fun _ => 1) (ve [1, 3 / 2, -2, -3 / 2] : Nat → ℚ) :=
  (schur_momentum (x := exExt (probe [[3, 0]])) (amg := true) (presDbc := false) (n := 2) (nu := fun _ => 1) (np := fun _ => 1)
    (u := [0, 1, 2]) (p := [0, 1, 2]) (M := exArr 2 1 1 2) (B := exArr 1 1 (-1) (-1))
    (rhs := ⟨[3, -1, 0, 1], [0, 1, 2, 3, 4]⟩)
    (U0 := ⟨[7, 7, 7, 7], [0, 1, 2, 3, 4]⟩) (U := ⟨[1, 3 / 2, -2, -3 / 2], [0, 1, 2, 3, 4]⟩)
    (exExt_cg _) (probe_exact _) ex_offs ex_offs (exArr_ok ..) (exArr_ok ..) ex_symm ex_nonsingular
    (ex_sizes _ rfl) (ex_sizes _ rfl) ex_run_free).2.2 rfl

/-- **C124 fails.** A pressure solver that does not converge goes unnoticed: the solve returns, and the continuity
equations do not hold. -/
theorem schur_unchecked : ∃ (x : Ext ℚ) (M B : MatArr ℚ) (rhs U0 U : BlockVector ℚ), Exact x.cg ∧ Exact x.minres ∧
    MatsOk M 2 (fun _ => 1) (fun _ => 1) ∧ MatsOk B 2 (fun _ => 1) (fun _ => 1) ∧
    Spec.Symmetric 2 (fun _ => 1) M ∧ Nonsingular 2 (fun _ => 1) M ∧
    HasSizes rhs ((List.range 2).flatMap fun _ => [1, 1]) ∧ HasSizes U0 ((List.range 2).flatMap fun _ => [1, 1]) ∧
    solveSchur x false true 2 [0, 1, 2] [0, 1, 2] M B rhs U0 = .ok U ∧
    (∃ z, StokesSolves 2 (fun _ => 1) (fun _ => 1) M B (ve rhs.data) z) ∧
    ¬ Holds 2 (fun _ => 1) (fun _ => 1) M B (ve rhs.data) (ve U.data) 1 := by
  refine ⟨exExt idle, exArr 2 1 1 2, exArr 1 1 1 (-1), ⟨[3, -1, 0, 1], [0, 1, 2, 3, 4]⟩,
    ⟨[7, 7, 7, 7], [0, 1, 2, 3, 4]⟩, ⟨[2, 0, -1, 0], [0, 1, 2, 3, 4]⟩, probe_exact _, idle_exact, exArr_ok ..,
    exArr_ok .., ex_symm, ex_nonsingular, ex_sizes _ rfl, ex_sizes _ rfl, by decide +kernel, ⟨_,
    schur_solves_partial (x := exExt (probe [[3, 1]])) (amg := false) (presDbc := true) (n := 2) (nu := fun _ => 1) (np := fun _ => 1)
    (u := [0, 1, 2]) (p := [0, 1, 2]) (M := exArr 2 1 1 2) (B := exArr 1 1 1 (-1))
    (rhs := ⟨[3, -1, 0, 1], [0, 1, 2, 3, 4]⟩)
    (U0 := ⟨[7, 7, 7, 7], [0, 1, 2, 3, 4]⟩) (U := ⟨[0, 3, -1, 1], [0, 1, 2, 3, 4]⟩)
    (exExt_cg _) (probe_exact _) (probe_always _) ex_offs ex_offs
      (exArr_ok ..) (exArr_ok ..) ex_symm ex_nonsingular (ex_sizes _ rfl) (ex_sizes _ rfl) (.inl rfl) ex_run⟩, fun h => ?_⟩
  have := h 0 0 (by omega) (by simp [dofs])
  rw [continuity_lhs] at this
  simp [sum_range_succ, exArr_get, at_, first, ve] at this

example (presDbc : Bool) : solveSchur (⟨true, fun _ _ => .error .abort, idle, idle, idle⟩ : Ext ℚ) false presDbc 2 [0, 1, 2]
    [0, 1, 2] (exArr 2 1 1 2) (exArr 1 1 1 (-1)) ⟨[3, -1, 0, 1], [0, 1, 2, 3, 4]⟩ ⟨[7, 7, 7, 7], [0, 1, 2, 3, 4]⟩ =
      .error .abort :=
  schur_aborts (fun _ _ _ x0 => ⟨x0, rfl⟩) ex_offs ex_offs (exArr_ok ..) (exArr_ok ..) (ex_sizes _ rfl) _

open Classical in
/-- A solver that finds every solution there is. -/
noncomputable def oracle : Krylov ℚ := fun op _ b x0 =>
  if h : ∃ y : List ℚ, y.length = b.length ∧ op y = .ok b then .ok (Classical.choose h, true) else .ok (x0, false)

theorem oracle_exact : Exact oracle := by
  intro op prec N A b x0 x conv hop _ hb h0 e
  unfold oracle at e
  split at e
  · rename_i h
    obtain ⟨h1, h2⟩ := Classical.choose_spec h
    obtain ⟨rfl, rfl⟩ := Prod.mk.inj (Except.ok.inj e)
    exact ⟨h1.trans hb, fun _ t ht => ((hop _ _ (h1.trans hb) h2).2 t ht).symm⟩
  · obtain ⟨rfl, rfl⟩ := Prod.mk.inj (Except.ok.inj e)
    exact ⟨h0, by simp⟩

example : ∃ U, solveSchur ⟨true, fun _ _ => .error .abort, oracle, oracle, oracle⟩ true false 2 [0, 1, 2] [0, 1, 2]
    (exArr 2 1 1 2) (exArr 1 1 (-1) (-1)) ⟨[3, -1, 0, 1], [0, 1, 2, 3, 4]⟩ ⟨[7, 7, 7, 7], [0, 1, 2, 3, 4]⟩ = .ok U := by
  refine schur_returns oracle_exact oracle_exact (fun op prec N A b x0 hop _ hb _ hz => ?_)
    (fun op prec N A b x0 _ _ _ => ?_) (nu := fun _ => 1) (np := fun _ => 1) ex_offs ex_offs (exArr_ok ..) (exArr_ok ..)
    ex_symm ex_nonsingular (ex_sizes _ rfl) (ex_sizes _ rfl)
  · obtain ⟨z, hz⟩ := hz
    obtain ⟨y, ey, ly, hy⟩ := hop (tab N z) (by simp)
    have hyb : y = b := by
      apply List.ext_getElem (by omega)
      intro t h1 h2
      have e := hy t (by omega)
      rw [sum_congr rfl fun c hc => by rw [ve_tab (mem_range.1 hc)], hz t (by omega)] at e
      unfold ve at e
      rwa [List.getElem?_eq_getElem h1, List.getElem?_eq_getElem h2] at e
    have h : ∃ y : List ℚ, y.length = b.length ∧ op y = .ok b := ⟨tab N z, by simp [hb], hyb ▸ ey⟩
    exact ⟨Classical.choose h, dif_pos h⟩
  · show ∃ r, oracle op prec b x0 = .ok r
    unfold oracle
    split
    · exact ⟨_, rfl⟩
    · exact ⟨_, rfl⟩

end Example

end Verif.SchurSolve
