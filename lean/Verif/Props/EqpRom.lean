import Verif.Proofs.EqpRom

/-! # C70-C71: the hyper-reduced operator of the Navier-Stokes ROM -/

namespace Verif.EqpRom

open Verif Verif.LinAlg Verif.LinAlg.Spec Verif.Convection Verif.Convection.Spec Verif.EqpRom.Spec Finset
open Verif.Blocks (Order getBlockIndex)
open Verif.Blocks.Spec (IsOffsets)
open Verif.InterfaceForm (MatArr)
open Verif.InterfaceForm.Spec (MatsOk mget)
open Verif.TensorRom (velBlock_inj sum_inBlock)
open Verif.TensorRom.Spec (velBlock start InBlock linAt Stored)

variable {R : Type} [CommRing R]

/-! ## C70: the residual -/

/-- **C70.**  On every state the hyper-reduced operator returns the linear operator applied to the state
plus, in the velocity block of each subdomain, the residual of that subdomain's form at its velocity and the
residual of the interface form at all the velocities; nothing is added outside the velocity blocks, and what
an earlier call left in the scratch vector `u` plays no role.  Missing: an interface form when the variables
are separate and the blocks are ordered by variable (`mult_variable_aborts`). -/
theorem mult_galerkin_partial {S : System R} {linear : Sp R} {offs : List Nat} {numVar : Nat} {separate : Bool}
    {ord : Order} {hs : List (Option (Dom R))} {itf : Option (Itf R)}
    (h : S.Ok linear offs numVar separate ord hs itf)
    (hord : itf = none ∨ separate = false ∨ ord = .domain) :
    ∃ r, construct linear offs numVar separate ord hs itf = .ok r ∧
      ∀ x u : List R, x.length = S.z.sum → u.length = ∑ m ∈ range S.n, S.w m →
        ∃ y, mult r x u = .ok y ∧ y.length = S.z.sum ∧
          ∀ t, t < S.z.sum → ve y t = linAt linear (ve x) t + S.res itf.isSome (ve x) t := by
  obtain ⟨r, e, e1, e2, hw, hu⟩ := wired h
  refine ⟨r, e, fun x u hx hl => ?_⟩
  obtain ⟨y, ey, ly, hy⟩ := mult_sum hw (by
    rcases hord with hc | hc
    · exact Or.inl (e2.trans hc)
    · exact Or.inr (hu hc)) hx hl
  exact ⟨y, ey, ly, fun t ht => by rw [hy t ht, e1, e2]⟩

/-- The nonlinear part in the velocity block of one subdomain. -/
theorem res_block {S : System R} {linear : Sp R} {offs : List Nat} {numVar : Nat} {separate : Bool}
    {ord : Order} {hs : List (Option (Dom R))} {itf : Option (Itf R)}
    (h : S.Ok linear offs numVar separate ord hs itf) (b : Bool) (x : Nat → R) {m k : Nat} (hm : m < S.n)
    (hk : k < S.w m) : S.res b x (start S.z (S.blk m) + k) =
      S.F m (S.vel x m) k + if b then S.I (S.vels x) m k else 0 := by
  unfold System.res
  rw [sum_eq_single m]
  · rw [if_pos ⟨by omega, by omega⟩, Nat.add_sub_cancel_left]
  · intro m' hm' hne
    rw [if_neg]
    intro hin
    have hm' := mem_range.1 hm'
    refine block_disjoint S.z (h.size m' hm') (h.size m hm) hk ?_ hin
    intro hb
    rw [h.blk] at hb
    exact hne (velBlock_inj h.vars hb)
  · intro hb; exact absurd (mem_range.2 hm) hb

/-- The nonlinear part vanishes outside the velocity blocks. -/
theorem res_outside (S : System R) (b : Bool) (x : Nat → R) {t : Nat}
    (ht : ∀ m, m < S.n → ¬ InBlock S.z (S.blk m) (S.w m) t) : S.res b x t = 0 :=
  sum_eq_zero fun m hm => if_neg (ht m (mem_range.1 hm))

/-! ### The modelled forms -/

/-- The hyper-reduced form of a subdomain (C45) meets the contract: its residual is the sum over its
samples. -/
theorem domOk_of {P : Type} {f : Eqp.Form P R} {b : Mat R} (hf : Eqp.Spec.FormOk f b)
    (hp : Eqp.FormReady f b) {old : Option (Mat R)} (ho : ∀ m, old = some m → m.h = f.height ∧ m.w = f.width)
    (junk : Nat → R) :
    DomOk (Dom.of f old junk) b.w (Eqp.Spec.formVec f b) (Eqp.Spec.formGrad f b) where
  mult x hx := by
    obtain ⟨z, e, l, hz⟩ := Eqp.mult_spec hf hp (x := x) (y := vof b.w junk) (by rw [hx, hf.width])
      (by rw [vof_eq, length_tab, hf.height]) junk
    rw [← hf.height] at l hz
    exact ⟨z, e, l, hz⟩
  grad x hx := by
    obtain ⟨J, e, j1, j2, j3, j4⟩ := Eqp.getGradient_spec hf hp (x := x) (by rw [hx, hf.width]) junk ho
    rw [← hf.height] at j1 j4
    rw [← hf.width] at j2 j4
    exact ⟨J, e, j1, j2, j3, j4⟩

/-- The hyper-reduced interface form meets the contract. -/
theorem itfOk_of {P δ : Type} {f : EqpItf.Form P R δ} {n : Nat} {w : Nat → Nat}
    (hf : EqpItf.Spec.FormOk f (tab n w)) (hr : EqpItf.Spec.FormReady f) {offs : List Nat}
    (ho : f.offsets = some offs) (junk : Nat → R) :
    ItfOk (Itf.of f junk) n w (fun x => EqpItf.Spec.formVec f ⟨x, offs⟩)
      (fun x => EqpItf.Spec.formGrad f ⟨x, offs⟩) where
  addMult x y hx hy := by
    rw [← tab_sum] at hx hy ⊢
    obtain ⟨y', e, l, hv⟩ := EqpItf.addMult_spec hf hr ho hx hy junk
    refine ⟨y', e, l, fun m k hm hk => ?_⟩
    have hz : (tab n w)[m]? = some (w m) := by rw [getElem?_tab, if_pos hm]
    have := hv m (w m) k hz hk
    obtain ⟨offs', o1, o2⟩ := hf.offsets
    rw [ho] at o1
    cases o1
    have hb : ∀ v : List R, v.length = (tab n w).sum →
        RomHandler.Spec.bent ⟨v, offs⟩ m k = ve v (∑ m' ∈ range m, w m' + k) := by
      intro v hv
      unfold RomHandler.Spec.bent
      conv_lhs => unfold ve
      rw [Blocks.blockOf_getElem? (b := ⟨v, offs⟩) ⟨o2, hv⟩ hz, if_pos hk, tab_take_sum _ _ hm.le]
      rfl
    rw [hb y' l, hb y hy] at this
    exact this
  gradient x mats hx hm := by
    rw [← tab_sum] at hx
    have hw : ∀ m, m < n → (tab n w)[m]?.getD 0 = w m := fun m hm => by rw [getElem?_tab, if_pos hm]; rfl
    obtain ⟨m', e, ok, hv⟩ := EqpItf.gradient_spec hf hr ho hx (mats := mats) (by
      rw [length_tab]
      refine ⟨hm.1, hm.2.1, fun a b ha hb => ?_⟩
      dsimp only; rw [hw a ha, hw b hb]; exact hm.2.2 a b ha hb) junk
    rw [length_tab] at ok
    refine ⟨m', e, ⟨ok.1, ok.2.1, fun a b ha hb => ?_⟩, fun a b r c ha hb hr hc =>
      hv a b (w a) (w b) r c (by rw [getElem?_tab, if_pos ha]) (by rw [getElem?_tab, if_pos hb]) hr hc⟩
    have := ok.2.2 a b ha hb
    dsimp only at this
    rwa [hw a ha, hw b hb] at this

/-! ## C71: the Jacobian -/

/-- **C71.**  The gradient of the hyper-reduced operator is the linear operator plus the Jacobians of the
subdomain forms and of the interface form in the velocity blocks — unless it stops with an error, and then
some position of a velocity diagonal block, or with a nonzero entry of the interface Jacobian, is not stored
in the linear operator. -/
theorem getGradient_eq [DecidableEq R] {S : System R} {linear : Sp R} {offs : List Nat} {numVar : Nat}
    {separate : Bool} {ord : Order} {hs : List (Option (Dom R))} {itf : Option (Itf R)}
    (h : S.Ok linear offs numVar separate ord hs itf)
    (hord : itf = none ∨ separate = false ∨ ord = .domain) {r : Rom R}
    (hr : construct linear offs numVar separate ord hs itf = .ok r) {x u : List R}
    (hx : x.length = S.z.sum) (hl : u.length = ∑ m ∈ range S.n, S.w m) :
    (∃ J, getGradient r x u = .ok J ∧ J.h = S.z.sum ∧ J.w = S.z.sum ∧
      ∀ t s, J.get t s = linear.get t s + S.jac itf.isSome (ve x) t s) ∨
    (getGradient r x u = .error .abort ∧ ∃ a b k l, a < S.n ∧ b < S.n ∧ k < S.w a ∧ l < S.w b ∧
      (a = b ∨ itf ≠ none ∧ S.IG (S.vels (ve x)) a b k l ≠ 0) ∧
      ¬ Stored linear (start S.z (S.blk a) + k) (start S.z (S.blk b) + l)) := by
  obtain ⟨r', e, e1, e2, hw, hu⟩ := wired h
  obtain rfl : r = r' := Except.ok.inj (hr.symm.trans e)
  have := getGradient_sum hw h.subs (by
    rcases hord with hc | hc
    · exact Or.inl (e2.trans hc)
    · exact Or.inr (hu hc)) hx hl
  rw [e1, e2] at this
  exact this

theorem vel_add (S : System R) (x d : Nat → R) (m : Nat) :
    S.vel (fun i => x i + d i) m = vadd (S.vel x m) (S.vel d m) := by
  have key : ∀ y : Nat → R, S.vel y m = tab (S.w m) fun k => y (start S.z (S.blk m) + k) := fun _ => rfl
  unfold vadd
  rw [vel_length, key]
  refine List.map_congr_left fun k hk => ?_
  have hk := List.mem_range.1 hk
  rw [key, key, ve_tab hk, ve_tab hk]

theorem ve_vels (S : System R) (x : Nat → R) {m k : Nat} (hm : m < S.n) (hk : k < S.w m) :
    ve (S.vels x) (∑ i ∈ range m, S.w i + k) = x (start S.z (S.blk m) + k) := by
  have key : ∀ j, m < j → ve ((List.range j).flatMap (S.vel x)) (∑ i ∈ range m, S.w i + k) =
      x (start S.z (S.blk m) + k) := by
    intro j
    induction j with
    | zero => intro h; omega
    | succ j ih =>
      intro hj
      rw [List.range_succ, List.flatMap_append]
      have hlen := vels_take_length S x j
      unfold ve
      by_cases hmj : m = j
      · subst hmj
        rw [List.getElem?_append_right (by omega), hlen, Nat.add_sub_cancel_left]
        simp [System.vel, hk]
      · have hle : ∑ i ∈ range (m + 1), S.w i ≤ ∑ i ∈ range j, S.w i :=
          sum_le_sum_of_subset (range_subset_range.2 (by omega))
        rw [sum_range_succ] at hle
        rw [List.getElem?_append_left (by omega)]
        exact ih (by omega)
  exact key S.n hm

theorem vels_add (S : System R) (x d : Nat → R) :
    S.vels (fun i => x i + d i) = vadd (S.vels x) (S.vels d) := by
  have hl : ∀ y : Nat → R, (S.vels y).length = ∑ m ∈ range S.n, S.w m := vels_length S
  refine Eqp.eq_of_ve (n := ∑ m ∈ range S.n, S.w m) (hl _) (by unfold vadd; simp [hl]) ?_
  · intro t ht
    obtain ⟨m, hm, h1, h2⟩ := exists_block S.n S.w ht
    obtain ⟨k, rfl⟩ : ∃ k, t = ∑ i ∈ range m, S.w i + k := ⟨t - ∑ i ∈ range m, S.w i, by omega⟩
    have hk : k < S.w m := by omega
    have : ve (vadd (S.vels x) (S.vels d)) (∑ i ∈ range m, S.w i + k) =
        ve (S.vels x) (∑ i ∈ range m, S.w i + k) + ve (S.vels d) (∑ i ∈ range m, S.w i + k) := by
      unfold vadd
      rw [hl]
      exact ve_tab (n := ∑ m ∈ range S.n, S.w m) ht
    rw [this, ve_vels S _ hm hk, ve_vels S _ hm hk, ve_vels S _ hm hk]

/-- The forms change by their Jacobians, up to the remainders `QF` and `QI`. -/
structure Expands (S : System R) (hasItf : Bool) (QF : Nat → List R → List R → Nat → R)
    (QI : List R → List R → Nat → Nat → R) : Prop where
  dom : ∀ m, m < S.n → ∀ u d : List R, u.length = S.w m → d.length = S.w m → ∀ k, k < S.w m →
    S.F m (vadd u d) k = S.F m u k + ∑ l ∈ range (S.w m), S.G m u k l * ve d l + QF m u d k
  itf : hasItf = true → ∀ u d : List R, u.length = ∑ m ∈ range S.n, S.w m → d.length = ∑ m ∈ range S.n, S.w m →
    ∀ m k, m < S.n → k < S.w m → S.I (vadd u d) m k = S.I u m k +
      ∑ b ∈ range S.n, ∑ l ∈ range (S.w b), S.IG u m b k l * ve d (∑ i ∈ range b, S.w i + l) + QI u d m k

/-- The remainder of the whole residual. -/
def remainder (S : System R) (QF : Nat → List R → List R → Nat → R) (QI : List R → List R → Nat → Nat → R)
    (hasItf : Bool) (x d : Nat → R) (t : Nat) : R :=
  ∑ m ∈ range S.n, if InBlock S.z (S.blk m) (S.w m) t then
    QF m (S.vel x m) (S.vel d m) (t - start S.z (S.blk m)) +
      (if hasItf then QI (S.vels x) (S.vels d) m (t - start S.z (S.blk m)) else 0) else 0

theorem res_expand {S : System R} (hsz : ∀ m, m < S.n → S.z[S.blk m]? = some (S.w m))
    {QF : Nat → List R → List R → Nat → R} {QI : List R → List R → Nat → Nat → R} {b : Bool}
    (hx : Expands S b QF QI) (x d : Nat → R) (t : Nat) :
    S.res b (fun i => x i + d i) t = S.res b x t + ∑ s ∈ range S.z.sum, S.jac b x t s * d s +
      remainder S QF QI b x d t := by
  unfold System.res System.jac remainder
  simp only [sum_mul]
  rw [sum_comm (s := range S.z.sum), ← sum_add_distrib, ← sum_add_distrib]
  refine sum_congr rfl fun m hm => ?_
  have hm := mem_range.1 hm
  rw [sum_comm (s := range S.z.sum)]
  by_cases ht : InBlock S.z (S.blk m) (S.w m) t
  · simp only [ht, true_and, if_true]
    have hk : t - start S.z (S.blk m) < S.w m := by obtain ⟨_, _⟩ := ht; omega
    have e1 : ∀ a ∈ range S.n, (∑ s ∈ range S.z.sum, (if InBlock S.z (S.blk a) (S.w a) s then
        (if m = a then S.G m (S.vel x m) (t - start S.z (S.blk m)) (s - start S.z (S.blk m)) else 0) +
          (if b = true then S.IG (S.vels x) m a (t - start S.z (S.blk m)) (s - start S.z (S.blk a)) else 0)
        else 0) * d s) = (if m = a then ∑ l ∈ range (S.w m),
          S.G m (S.vel x m) (t - start S.z (S.blk m)) l * d (start S.z (S.blk m) + l) else 0) +
        if b = true then ∑ l ∈ range (S.w a), S.IG (S.vels x) m a (t - start S.z (S.blk m)) l *
          d (start S.z (S.blk a) + l) else 0 := by
      intro a ha
      have hb := block_bound S.z (hsz a (mem_range.1 ha))
      simp only [ite_mul, zero_mul]
      rw [sum_inBlock hb]
      simp only [Nat.add_sub_cancel_left, add_mul, sum_add_distrib]
      congr 1
      · by_cases hma : m = a
        · subst hma; simp
        · simp [hma]
      · by_cases hbb : b = true <;> simp [hbb]
    rw [sum_congr rfl e1, sum_add_distrib, sum_ite_eq, if_pos (mem_range.2 hm), vel_add, vels_add,
      hx.dom m hm _ _ (vel_length _ _ _) (vel_length _ _ _) _ hk]
    have e2 : ∀ l ∈ range (S.w m), ve (S.vel d m) l = d (start S.z (S.blk m) + l) := fun l hl =>
      ve_tab (n := S.w m) (f := fun k => d (start S.z (S.blk m) + k)) (mem_range.1 hl)
    rw [sum_congr rfl fun l hl => by rw [e2 l hl]]
    by_cases hb : b = true
    · simp only [hb, if_true]
      rw [hx.itf hb _ _ (vels_length _ _) (vels_length _ _) m _ hm hk]
      rw [sum_congr rfl fun a ha => sum_congr rfl fun l hl => by
        rw [ve_vels S d (mem_range.1 ha) (mem_range.1 hl)]]
      ring
    · simp only [hb]
      simp
  · simp only [ht, false_and, if_false, zero_mul, sum_const_zero, add_zero]

/-- **C71.**  When all positions of the velocity diagonal blocks, and those where the interface Jacobian is
not zero, are stored in the linear operator, the gradient returns and is the derivative of the residual: an increment of the state changes the residual by the gradient
applied to the increment, up to the remainders of the forms (for the quadratic convection forms, the residual
of the increment).  Missing: operators with dropped entries (`TensorRom.getGradient_dropped_aborts`), and the
ordering excluded in `mult_galerkin_partial`. -/
theorem getGradient_exact_partial [DecidableEq R] {S : System R} {linear : Sp R} {offs : List Nat}
    {numVar : Nat} {separate : Bool} {ord : Order} {hs : List (Option (Dom R))} {itf : Option (Itf R)}
    (h : S.Ok linear offs numVar separate ord hs itf)
    (hord : itf = none ∨ separate = false ∨ ord = .domain) {r : Rom R}
    (hr : construct linear offs numVar separate ord hs itf = .ok r)
    {QF : Nat → List R → List R → Nat → R} {QI : List R → List R → Nat → Nat → R} (hq : Expands S itf.isSome QF QI)
    {x u : List R} (hx : x.length = S.z.sum) (hl : u.length = ∑ m ∈ range S.n, S.w m)
    (hst : ∀ a b k l, a < S.n → b < S.n → k < S.w a → l < S.w b →
      a = b ∨ itf ≠ none ∧ S.IG (S.vels (ve x)) a b k l ≠ 0 →
      Stored linear (start S.z (S.blk a) + k) (start S.z (S.blk b) + l)) :
    ∃ J, getGradient r x u = .ok J ∧ J.h = S.z.sum ∧ J.w = S.z.sum ∧
      ∀ d xd y yd : List R, d.length = S.z.sum → xd.length = S.z.sum →
        (∀ t, t < S.z.sum → ve xd t = ve x t + ve d t) →
        mult r x u = .ok y → mult r xd u = .ok yd → ∀ t, t < S.z.sum →
          ve yd t = ve y t + ∑ s ∈ range S.z.sum, J.get t s * ve d s +
            remainder S QF QI itf.isSome (ve x) (ve d) t := by
  rcases getGradient_eq h hord hr hx hl with ⟨J, eJ, j1, j2, j3⟩ | ⟨_, a, b, k, l, ha, hb, hk, hl', hn, hns⟩
  swap
  · exact absurd (hst a b k l ha hb hk hl' hn) hns
  refine ⟨J, eJ, j1, j2, fun d xd y yd hd hxd hsum ey eyd t ht => ?_⟩
  obtain ⟨r', e, hmul⟩ := mult_galerkin_partial h hord
  obtain rfl : r = r' := Except.ok.inj (hr.symm.trans e)
  obtain ⟨y', ey', _, hy⟩ := hmul x u hx hl
  obtain rfl : y = y' := Except.ok.inj (ey.symm.trans ey')
  obtain ⟨y', ey', _, hyd⟩ := hmul xd u hxd hl
  obtain rfl : yd = y' := Except.ok.inj (eyd.symm.trans ey')
  have hfun : ve xd = fun i => ve x i + ve d i := by
    funext i
    by_cases hi : i < S.z.sum
    · exact hsum i hi
    · unfold ve
      rw [List.getElem?_eq_none (by omega), List.getElem?_eq_none (by omega), List.getElem?_eq_none (by omega)]
      simp
  rw [hy t ht, hyd t ht, hfun, res_expand h.size hq]
  simp only [j3, add_mul, sum_add_distrib]
  unfold linAt
  rw [h.w]
  simp only [mul_add, sum_add_distrib]
  ring

/-- **C71.**  For quadratic subdomain forms (as the convection forms are) and no interface form, the
remainder is the nonlinear part of the residual of the increment. -/
theorem getGradient_quadratic_partial [DecidableEq R] {S : System R} {linear : Sp R} {offs : List Nat}
    {numVar : Nat} {separate : Bool} {ord : Order} {hs : List (Option (Dom R))}
    (h : S.Ok linear offs numVar separate ord hs none) {r : Rom R}
    (hr : construct linear offs numVar separate ord hs none = .ok r)
    (hst : ∀ m k l, m < S.n → k < S.w m → l < S.w m →
      Stored linear (start S.z (S.blk m) + k) (start S.z (S.blk m) + l))
    (hq : ∀ m, m < S.n → ∀ u d : List R, u.length = S.w m → d.length = S.w m → ∀ k, k < S.w m →
      S.F m (vadd u d) k = S.F m u k + ∑ l ∈ range (S.w m), S.G m u k l * ve d l + S.F m d k)
    {x u : List R} (hx : x.length = S.z.sum) (hl : u.length = ∑ m ∈ range S.n, S.w m) :
    ∃ J, getGradient r x u = .ok J ∧ J.h = S.z.sum ∧ J.w = S.z.sum ∧
      ∀ d xd y yd : List R, d.length = S.z.sum → xd.length = S.z.sum →
        (∀ t, t < S.z.sum → ve xd t = ve x t + ve d t) →
        mult r x u = .ok y → mult r xd u = .ok yd → ∀ t, t < S.z.sum →
          ve yd t = ve y t + ∑ s ∈ range S.z.sum, J.get t s * ve d s + S.res false (ve d) t := by
  obtain ⟨J, e, j1, j2, j3⟩ := getGradient_exact_partial h (Or.inl rfl) hr
    (QF := fun m _ d k => S.F m d k) (QI := fun _ _ _ _ => 0) ⟨hq, fun hc => by cases hc⟩ hx hl
    (fun a b k l ha hb hk hl hn => by
      rcases hn with rfl | ⟨hc, _⟩
      · exact hst a k l ha hk hl
      · exact absurd rfl hc)
  refine ⟨J, e, j1, j2, fun d xd y yd hd hxd hs ey eyd t ht => ?_⟩
  rw [j3 d xd y yd hd hxd hs ey eyd t ht]
  rfl

/-- The residual of a form with quadratic integrators is quadratic, with the form's Jacobian. -/
theorem formVec_quadratic {P : Type} {f : Eqp.Form P R} {b : Mat R} (hf : Eqp.Spec.FormOk f b)
    (hp : Eqp.FormReady f b)
    (hq : ∀ e ∈ Eqp.Spec.entries f, ∀ s ∈ e.2.samples.getD [], Eqp.QuadraticAt f.space e.1 e.2.integ s)
    {u d : List R} (hu : u.length = b.w) (hd : d.length = b.w) {k : Nat} (hk : k < b.w) :
    Eqp.Spec.formVec f b (vadd u d) k = Eqp.Spec.formVec f b u k +
      ∑ l ∈ range b.w, Eqp.Spec.formGrad f b u k l * ve d l + Eqp.Spec.formVec f b d k := by
  have hy : (vof f.height fun _ => (0 : R)).length = f.height := by rw [vof_eq, length_tab]
  have hv : (vadd u d).length = b.w := by unfold vadd; simp [hu]
  rw [hf.width] at hu hd hv
  obtain ⟨y1, y2, y3, J, e1, e2, e3, e4, h⟩ := Eqp.getGradient_exact hf hp hq hu hd hy (fun _ => 0)
  obtain ⟨z1, f1, -, v1⟩ := Eqp.mult_spec hf hp hu hy (fun _ => 0)
  obtain ⟨z2, f2, -, v2⟩ := Eqp.mult_spec hf hp hd hy (fun _ => 0)
  obtain ⟨z3, f3, -, v3⟩ := Eqp.mult_spec hf hp hv hy (fun _ => 0)
  obtain ⟨J', f4, -, -, -, v4⟩ := Eqp.getGradient_spec hf hp hu (fun _ => 0) (old := none) (by simp)
  cases Except.ok.inj (e1.symm.trans f1)
  cases Except.ok.inj (e2.symm.trans f2)
  cases Except.ok.inj (e3.symm.trans f3)
  cases Except.ok.inj (e4.symm.trans f4)
  rw [hf.height] at hk
  have := h k hk
  rw [v1 k hk, v2 k hk, v3 k hk, sum_congr rfl fun j hj => by rw [v4 k j hk (mem_range.1 hj)]] at this
  rw [this, hf.width]

/-! ## A concrete system -/

/-- Two subdomains with one and two velocity basis vectors, one pressure vector each. -/
def exB : Nat → Mat Int
  | 0 => ⟨5, 1, [1, -2, 0, 3, 1]⟩
  | _ => ptBasis

def exForms (m : Nat) : Eqp.Form (Pre Int) Int :=
  { Eqp.exDom with height := (exB m).w, width := (exB m).w, basis := some (exB m) }

theorem exForms_ok (m : Nat) : Eqp.Spec.FormOk (exForms m) (exB m) := by
  refine ⟨rfl, ?_, ?_, rfl, rfl, ?_⟩
  · match m with
    | 0 => unfold MatOk; decide
    | m + 1 => exact ptBasis_ok
  · match m with
    | 0 => decide
    | m + 1 => show 0 < ptBasis.w; decide
  · have hh : (exB m).h = ptBasis.h := by
      match m with
      | 0 => rfl
      | m + 1 => rfl
    rw [hh]
    exact Eqp.exDom_ok.1.entries

def exHs : List (Option (Dom Int)) := [some (Dom.of (exForms 0) none fun _ => 9), some (Dom.of (exForms 1) none fun _ => 9)]

def exItf : Itf Int := Itf.of EqpItf.exForm fun _ => 9

def exS (ord : Order) (z : List Nat) : System Int where
  n := 2
  blk := velBlock true ord 2
  w m := (exB m).w
  z := z
  F m := Eqp.Spec.formVec (exForms m) (exB m)
  G m := Eqp.Spec.formGrad (exForms m) (exB m)
  I x := EqpItf.Spec.formVec EqpItf.exForm ⟨x, [0, 1, 3]⟩
  IG x := EqpItf.Spec.formGrad EqpItf.exForm ⟨x, [0, 1, 3]⟩

/-- A linear operator that stores every entry. -/
def exLinear : Sp Int := ⟨5, 5, (List.range 25).map fun k => ((k / 5, k % 5), (k : Int) - 7)⟩

theorem exItf_ok : ItfOk exItf 2 (fun m => (exB m).w)
    (fun x => EqpItf.Spec.formVec EqpItf.exForm ⟨x, [0, 1, 3]⟩)
    (fun x => EqpItf.Spec.formGrad EqpItf.exForm ⟨x, [0, 1, 3]⟩) :=
  itfOk_of (n := 2) (w := fun m => (exB m).w) EqpItf.exForm_ok (fun h => nomatch h) rfl _

theorem exHs_ok (m : Nat) (hm : m < 2) : ∃ d, exHs[m]? = some (some d) ∧ DomOk d (exB m).w
    (Eqp.Spec.formVec (exForms m) (exB m)) (Eqp.Spec.formGrad (exForms m) (exB m)) := by
  refine ⟨Dom.of (exForms m) none fun _ => 9, ?_, domOk_of (exForms_ok m) (fun h => nomatch h) (by simp) _⟩
  match m with
  | 0 => rfl
  | 1 => rfl

/-- The concrete system meets the hypotheses, with and without the interface form. -/
theorem exS_ok (itf : Option (Itf Int)) (hi : itf = none ∨ itf = some exItf) :
    (exS .domain [1, 1, 2, 1]).Ok exLinear [0, 1, 2, 4, 5] 2 true .domain exHs itf where
  vars := by decide
  subs := by decide
  blk := rfl
  offs := by
    refine ⟨rfl, rfl, fun i s hi => ?_⟩
    match i with
    | 0 => cases hi; exact ⟨0, rfl, rfl⟩
    | 1 => cases hi; exact ⟨1, rfl, rfl⟩
    | 2 => cases hi; exact ⟨2, rfl, rfl⟩
    | 3 => cases hi; exact ⟨4, rfl, rfl⟩
    | i + 4 => simp [exS] at hi
  len := rfl
  size := by decide
  h := rfl
  w := rfl
  num := rfl
  hs := exHs_ok
  itf := by
    rintro i rfl
    rcases hi with hi | hi <;> cases hi
    exact exItf_ok

example : ∀ a b k l, a < (exS .domain [1, 1, 2, 1]).n → b < (exS .domain [1, 1, 2, 1]).n →
    k < (exS .domain [1, 1, 2, 1]).w a → l < (exS .domain [1, 1, 2, 1]).w b →
    Stored exLinear (start [1, 1, 2, 1] (velBlock true .domain 2 a) + k)
      (start [1, 1, 2, 1] (velBlock true .domain 2 b) + l) := by
  have h1 : ∀ m, m < 2 → ∀ k, k < (exB m).w → start [1, 1, 2, 1] (velBlock true .domain 2 m) + k < 5 := by
    decide
  intro a b k l ha hb hk hl
  have a := h1 a ha k hk
  have b := h1 b hb l hl
  revert a b
  generalize start [1, 1, 2, 1] (velBlock true .domain 2 _) + k = i
  generalize start [1, 1, 2, 1] (velBlock true .domain 2 _) + l = j
  intro a b
  exact ⟨_, List.mem_map.2 ⟨i * 5 + j, List.mem_range.2 (by omega), by
    rw [show (i * 5 + j) / 5 = i by omega, show (i * 5 + j) % 5 = j by omega]⟩⟩

/-- Its subdomain forms are quadratic. -/
example (m : Nat) (u d : List Int) (hu : u.length = (exB m).w) (hd : d.length = (exB m).w) (k : Nat)
    (hk : k < (exB m).w) := formVec_quadratic (exForms_ok m) (fun h => nomatch h)
  (fun e he s hs => (Eqp.exDom_ok.2 e he s hs).2) hu hd hk

/-- **C70 fails when the blocks are ordered by variable**: the sizes of the collected velocities are taken
from blocks 0 and 2, and block 2 is then a pressure block.  The interface form refuses the vector and the
program ends, on a system that fulfils every hypothesis but that on the ordering. -/
theorem mult_variable_aborts :
    (exS .variable [1, 2, 1, 1]).Ok exLinear [0, 1, 3, 4, 5] 2 true .variable exHs (some exItf) ∧
      ∃ r, construct exLinear [0, 1, 3, 4, 5] 2 true .variable exHs (some exItf) = .ok r ∧
        mult r [1, 2, 3, 4, 5] [0, 0] = .error .abort := by
  refine ⟨⟨by decide, by decide, rfl, ?_, rfl, by decide, rfl, rfl, rfl, exHs_ok, ?_⟩, ?_⟩
  · refine ⟨rfl, rfl, fun i s hi => ?_⟩
    match i with
    | 0 => cases hi; exact ⟨0, rfl, rfl⟩
    | 1 => cases hi; exact ⟨1, rfl, rfl⟩
    | 2 => cases hi; exact ⟨3, rfl, rfl⟩
    | 3 => cases hi; exact ⟨4, rfl, rfl⟩
    | i + 4 => simp [exS] at hi
  · rintro i hi; cases hi; exact exItf_ok
  · exact ⟨_, rfl, by decide +kernel⟩

/-- The residual of the same data ordered by subdomain. -/
example : (do mult (← construct exLinear [0, 1, 2, 4, 5] 2 true .domain exHs (some exItf)) [1, 4, 2, 3, 5] [7, 7, 7]) ≠
    (do mult (← construct exLinear [0, 1, 2, 4, 5] 2 true .domain exHs none) [1, 4, 2, 3, 5] [7, 7, 7]) := by
  decide +kernel

end Verif.EqpRom
