import Verif.Proofs.TensorRom
import Verif.Props.Hdf5

/-! # C66-C69: the tensor ROM of the Navier-Stokes equations -/

namespace Verif.TensorRom

open Verif Verif.LinAlg Verif.LinAlg.Spec Verif.Convection Verif.Convection.Spec Verif.TensorRom.Spec Finset
open Verif.Blocks (Order getBlockIndex)
open Verif.Blocks.Spec (IsOffsets)
open Verif.InterfaceForm.Spec (dofPos dofSign dofAt gather)
open Verif.EqpComp (OperType)
open Verif.Hdf5 Verif.Hdf5.Spec

variable {R : Type} [CommRing R]

/-! ## C66: the tensors -/

/-- **C66.**  The tensor of a basis: entry `(i, j, k)` is the convection form with advecting field `v_i`,
advected field `v_j` and test function `v_k`. -/
theorem reducedTensor_isTensor {oper : OperType} (ho : oper ≠ .lf) {b : Mat R} (hb : MatOk b) {V : Fes R}
    (hV : FesOk V) (hn : V.size ≤ b.h) (junk : Nat → R) :
    ∃ t, reducedTensor oper (some b) (some V) junk = .ok t ∧ IsTensor t b V := by
  obtain ⟨t, e, a1, a2, a3, a4, a5⟩ := reducedTensor_spec ho hb hV hn junk
  exact ⟨t, e, a1, a2, a3, a4, a5⟩

/-- **C66.**  Building the tensors of all components and distributing them gives every subdomain the
tensor of the component it is a copy of, computed from that component's velocity basis and space. -/
theorem components_isTensor {oper : OperType} (ho : oper ≠ .lf) {numVar numComp : Nat} {sepBasis : Bool}
    {refBasis : List (Mat R)} {compFes : List (Fes R)} {B : Nat → Mat R} {V : Nat → Fes R}
    (hB : ∀ c, c < numComp → refBasis[if sepBasis then c * numVar else c]? = some (B c))
    (hF : ∀ c, c < numComp → compFes[c * numVar]? = some (V c))
    (hok : ∀ c, c < numComp → MatOk (B c) ∧ FesOk (V c) ∧ (V c).size ≤ (B c).h) {meshType : List Nat}
    (hm : ∀ c ∈ meshType, c < numComp) (junk : Nat → R) :
    ∃ ts subs, build oper numVar numComp sepBasis refBasis compFes junk = .ok ts ∧
      assemble numComp meshType ts = .ok subs ∧ subs.length = meshType.length ∧
      ∀ m c : Nat, meshType[m]? = some c → ∃ t, subs[m]? = some (some t) ∧ IsTensor t (B c) (V c) := by
  obtain ⟨ts, e, hl, ht⟩ := build_spec ho hB hF hok junk
  have hch : ∀ c, ∃ t : Tensor R, c < numComp → ts[c]? = some (some t) ∧ IsTensor t (B c) (V c) := by
    intro c
    by_cases hc : c < numComp
    · obtain ⟨t, h⟩ := ht c hc; exact ⟨t, fun _ => h⟩
    · exact ⟨⟨0, 0, 0, []⟩, fun h => absurd h hc⟩
  choose T hT using hch
  obtain ⟨subs, e2, l2, h2⟩ := assemble_spec hl (T := T) (fun c hc => (hT c hc).1) hm
  refine ⟨ts, subs, e, e2, l2, fun m c hc => ?_⟩
  exact ⟨T c, h2 m c hc, (hT c (hm c (List.mem_of_getElem? hc))).2⟩

/-- **C66.**  The same for tensors built subdomain by subdomain from the domain bases. -/
theorem domains_isTensor {oper : OperType} (ho : oper ≠ .lf) {numVar : Nat} {separate : Bool} {ord : Order}
    {domBasis : List (Mat R)} {ufes : List (Fes R)} {B : Nat → Mat R} {V : Nat → Fes R}
    (hB : ∀ m, m < ufes.length → domBasis[velBlock separate ord numVar m]? = some (B m))
    (hF : ∀ m, m < ufes.length → ufes[m]? = some (V m))
    (hok : ∀ m, m < ufes.length → MatOk (B m) ∧ FesOk (V m) ∧ (V m).size ≤ (B m).h) (junk : Nat → R) :
    ∃ ts, buildGlobal oper numVar separate ord domBasis ufes junk = .ok ts ∧ ts.length = ufes.length ∧
      ∀ m, m < ufes.length → ∃ t, ts[m]? = some (some t) ∧ IsTensor t (B m) (V m) :=
  buildGlobal_spec ho hB hF hok junk

/-! ## C67: the residual -/

theorem ve_gather_field (b : Mat R) (x : Nat → R) (dofs : List Int) (k : Nat) :
    ve (gather (field b x) dofs) k = ∑ i ∈ range b.w, x i * ve (gather (vec b i) dofs) k := by
  by_cases hk : k < dofs.length
  · rw [ve_gather hk]
    unfold field
    rw [mul_sum]
    refine sum_congr rfl fun i _ => ?_
    rw [ve_gather hk]; unfold vec; ring
  · have z : ∀ f : Nat → R, ve (gather f dofs) k = 0 := by
      intro f; simp [ve, gather, show dofs.length ≤ k by omega]
    rw [z]
    exact (sum_eq_zero fun i _ => by rw [z, mul_zero]).symm

theorem value_field (p : Pt R) (b : Mat R) (x : Nat → R) (dofs : List Int) (d : Nat) :
    value p (gather (field b x) dofs) d = ∑ i ∈ range b.w, x i * value p (gather (vec b i) dofs) d := by
  unfold value coef
  simp only [ve_gather_field, sum_mul, mul_sum]
  rw [sum_comm]
  exact sum_congr rfl fun i _ => sum_congr rfl fun k _ => by ring

theorem deriv_field (p : Pt R) (b : Mat R) (x : Nat → R) (dofs : List Int) (d e : Nat) :
    deriv p (gather (field b x) dofs) d e =
      ∑ i ∈ range b.w, x i * deriv p (gather (vec b i) dofs) d e := by
  unfold deriv coef
  simp only [ve_gather_field, sum_mul, mul_sum]
  rw [sum_comm]
  exact sum_congr rfl fun i _ => sum_congr rfl fun k _ => by ring

theorem list_sum_comm {α : Type} (l : List α) (n : Nat) (f : α → Nat → R) :
    (l.map fun a => ∑ i ∈ range n, f a i).sum = ∑ i ∈ range n, (l.map fun a => f a i).sum := by
  induction l with
  | nil => simp
  | cons a l ih => simp [ih, sum_add_distrib]

theorem list_mul_sum {α : Type} (l : List α) (c : R) (f : α → R) :
    (l.map fun a => c * f a).sum = c * (l.map f).sum := by
  induction l with
  | nil => simp
  | cons a l ih => simp [ih, mul_add]

/-- The form is linear in the advecting field. -/
theorem convForm_advect (V : Fes R) (b : Mat R) (x u v : Nat → R) :
    convForm V (field b x) u v = ∑ i ∈ range b.w, x i * convForm V (vec b i) u v := by
  unfold convForm
  simp only [← list_mul_sum]
  rw [← list_sum_comm]
  congr 1
  refine List.map_congr_left fun E _ => ?_
  rw [← list_sum_comm]
  congr 1
  refine List.map_congr_left fun pw _ => ?_
  simp only [value_field, mul_sum]
  rw [sum_comm (s := range b.w)]
  refine sum_congr rfl fun d _ => ?_
  rw [sum_comm (s := range b.w)]
  exact sum_congr rfl fun e _ => sum_congr rfl fun i _ => by ring

/-- The form is linear in the advected field. -/
theorem convForm_field (V : Fes R) (b : Mat R) (x w v : Nat → R) :
    convForm V w (field b x) v = ∑ i ∈ range b.w, x i * convForm V w (vec b i) v := by
  unfold convForm
  simp only [← list_mul_sum]
  rw [← list_sum_comm]
  congr 1
  refine List.map_congr_left fun E _ => ?_
  rw [← list_sum_comm]
  congr 1
  refine List.map_congr_left fun pw _ => ?_
  simp only [deriv_field, mul_sum, sum_mul]
  rw [sum_comm (s := range b.w)]
  refine sum_congr rfl fun d _ => ?_
  rw [sum_comm (s := range b.w)]
  exact sum_congr rfl fun e _ => sum_congr rfl fun i _ => by ring

theorem quad_eq {t : Tensor R} {b : Mat R} {V : Fes R} (h : IsTensor t b V) (x : Nat → R) {k : Nat}
    (hk : k < b.w) : quad t x k = convForm V (field b x) (field b x) (vec b k) := by
  unfold quad
  rw [convForm_field, h.i, h.j]
  refine sum_congr rfl fun j hj => ?_
  rw [convForm_advect, mul_sum]
  exact sum_congr rfl fun i hi => by
    rw [h.entries i j k (mem_range.1 hi) (mem_range.1 hj) hk]; ring

theorem jacAt_eq {t : Tensor R} {b : Mat R} {V : Fes R} (h : IsTensor t b V) (x : Nat → R) {k l : Nat}
    (hk : k < b.w) (hl : l < b.w) : jacAt t x k l =
      convForm V (field b x) (vec b l) (vec b k) + convForm V (vec b l) (field b x) (vec b k) := by
  unfold jacAt
  rw [convForm_field, convForm_advect, h.i, h.j]
  congr 1
  · exact sum_congr rfl fun i hi => by rw [h.entries i l k (mem_range.1 hi) hl hk]; ring
  · exact sum_congr rfl fun i hi => by rw [h.entries l i k hl (mem_range.1 hi) hk]; ring

/-- The operator of a consistent system. -/
theorem wired {S : System R} {linear : Sp R} {offs : List Nat} {numVar : Nat} {separate : Bool} {ord : Order}
    {hs : List (Option (Tensor R))} (h : S.Ok linear offs numVar separate ord hs) :
    ∃ r T, construct linear offs numVar S.nSub separate ord hs = .ok r ∧ r.linear = linear ∧
      Wired r S.z S.nSub S.blk T ∧ ∀ m, m < S.nSub → IsTensor (T m) (S.B m) (S.V m) := by
  have hch : ∀ m, ∃ t : Tensor R, m < S.nSub → hs[m]? = some (some t) ∧ IsTensor t (S.B m) (S.V m) := by
    intro m
    by_cases hm : m < S.nSub
    · obtain ⟨t, ht⟩ := h.hs m hm; exact ⟨t, fun _ => ht⟩
    · exact ⟨⟨0, 0, 0, []⟩, fun h => absurd h hm⟩
  choose T hT using hch
  have hblk := h.blk
  obtain ⟨r, e, e1, e2, hw⟩ := construct_spec (linear := linear) (numVar := numVar) (numSub := S.nSub)
    (separate := separate) (ord := ord) (hs := hs) (T := T) h.offs (by
      rw [h.offs.1, h.len]
      cases separate
      · right; simp
      · left; simp [Nat.mul_comm]) h.h h.w (fun m hm => by
      rw [← hblk, h.size m hm, (hT m hm).2.i]) (fun m hm => (hT m hm).2.j.trans (hT m hm).2.i.symm)
    (fun m hm => (hT m hm).2.k.trans (hT m hm).2.i.symm) (fun m hm => (hT m hm).2.ok)
    (fun m hm => (hT m hm).1)
  rw [← hblk] at hw
  exact ⟨r, T, e, e1, hw, fun m hm => (hT m hm).2⟩

theorem conv_eq {S : System R} {T : Nat → Tensor R} (hT : ∀ m, m < S.nSub → IsTensor (T m) (S.B m) (S.V m))
    (x : List R) (t : Nat) :
    (∑ m ∈ range S.nSub, if (S.z.take (S.blk m)).sum ≤ t ∧ t < (S.z.take (S.blk m)).sum + (T m).nI then
      quad (T m) (blockAt S.z (S.blk m) x) (t - (S.z.take (S.blk m)).sum) else 0) = S.conv (ve x) t := by
  unfold System.conv
  refine sum_congr rfl fun m hm => ?_
  have h := hT m (mem_range.1 hm)
  rw [h.i]
  by_cases ht : InBlock S.z (S.blk m) (S.B m).w t
  · rw [if_pos ht]
    obtain ⟨h1, h2⟩ := ht
    rw [if_pos ⟨h1, h2⟩]
    unfold start at h1 h2
    exact quad_eq h _ (by omega)
  · rw [if_neg ht]
    exact if_neg ht

/-- **C67.**  On every state the operator of the tensor ROM returns the linear operator applied to the
state plus the Galerkin projection of the convective term: in the velocity block of each subdomain, the
convection form of the velocity field of that subdomain tested with each basis vector; nothing is added
outside the velocity blocks. -/
theorem mult_galerkin {S : System R} {linear : Sp R} {offs : List Nat} {numVar : Nat} {separate : Bool}
    {ord : Order} {hs : List (Option (Tensor R))} (h : S.Ok linear offs numVar separate ord hs) :
    ∃ r, construct linear offs numVar S.nSub separate ord hs = .ok r ∧
      ∀ (x : List R) (junk : Nat → R), x.length = S.z.sum →
        ∃ y, mult r x junk = .ok y ∧ y.length = S.z.sum ∧
          ∀ t, t < S.z.sum → ve y t = linAt linear (ve x) t + S.conv (ve x) t := by
  obtain ⟨r, T, e, e1, hw, hT⟩ := wired h
  refine ⟨r, e, fun x junk hx => ?_⟩
  obtain ⟨y, ey, hl, hy⟩ := mult_sum hw hx junk
  refine ⟨y, ey, hl, fun t ht => ?_⟩
  rw [hy t ht, e1, conv_eq hT]

/-- The convective part in the velocity block of one subdomain: only the velocity of that subdomain
enters. -/
theorem conv_block {S : System R} {linear : Sp R} {offs : List Nat} {numVar : Nat} {separate : Bool}
    {ord : Order} {hs : List (Option (Tensor R))} (h : S.Ok linear offs numVar separate ord hs) (x : Nat → R)
    {m k : Nat} (hm : m < S.nSub) (hk : k < (S.B m).w) :
    S.conv x (start S.z (S.blk m) + k) =
      convForm (S.V m) (S.velocity x m) (S.velocity x m) (vec (S.B m) k) := by
  unfold System.conv
  rw [sum_eq_single m]
  · rw [if_pos ⟨by omega, by omega⟩, Nat.add_sub_cancel_left]
  · intro m' hm' hne
    rw [if_neg]
    intro hin
    have hm' := mem_range.1 hm'
    refine block_disjoint S.z (h.size m' hm') (h.size m hm) hk ?_ hin
    intro hb
    rw [h.blk] at hb
    exact hne (velBlock_inj h.vars hb)
  · intro hb; exact absurd (mem_range.2 hm) hb

/-- The convective part vanishes outside the velocity blocks. -/
theorem conv_outside (S : System R) (x : Nat → R) {t : Nat}
    (ht : ∀ m, m < S.nSub → ¬ InBlock S.z (S.blk m) (S.B m).w t) : S.conv x t = 0 :=
  sum_eq_zero fun m hm => if_neg (ht m (mem_range.1 hm))

/-! ## C68: the Jacobian -/

theorem convForm_advect_add (V : Fes R) (b : Mat R) (x h u v : Nat → R) :
    convForm V (field b fun i => x i + h i) u v = convForm V (field b x) u v + convForm V (field b h) u v := by
  rw [convForm_advect, convForm_advect, convForm_advect, ← sum_add_distrib]
  exact sum_congr rfl fun i _ => by ring

theorem convForm_field_add (V : Fes R) (b : Mat R) (x h w v : Nat → R) :
    convForm V w (field b fun i => x i + h i) v = convForm V w (field b x) v + convForm V w (field b h) v := by
  rw [convForm_field, convForm_field, convForm_field, ← sum_add_distrib]
  exact sum_congr rfl fun i _ => by ring

theorem sum_inBlock {z : List Nat} {b n N : Nat} (hN : start z b + n ≤ N) (f : Nat → R) :
    (∑ s ∈ range N, if InBlock z b n s then f s else 0) = ∑ l ∈ range n, f (start z b + l) := by
  rw [← sum_filter]
  symm
  refine sum_nbij (fun l => start z b + l) ?_ ?_ ?_ ?_
  · intro l hl
    have hl := mem_range.1 hl
    exact mem_filter.2 ⟨mem_range.2 (by omega), by omega, by omega⟩
  · intro a _ c _ hac
    have : start z b + a = start z b + c := hac
    omega
  · intro s hs
    obtain ⟨_, h1, h2⟩ := mem_filter.1 hs
    exact ⟨s - start z b, mem_coe.2 (mem_range.2 (by omega)), by
      show start z b + (s - start z b) = s
      omega⟩
  · intro l _; rfl

/-- The convective part is a quadratic form: increments expand exactly. -/
theorem conv_expand {S : System R} {linear : Sp R} {offs : List Nat} {numVar : Nat} {separate : Bool}
    {ord : Order} {hs : List (Option (Tensor R))} (h : S.Ok linear offs numVar separate ord hs)
    (x d : Nat → R) (t : Nat) :
    S.conv (fun i => x i + d i) t = S.conv x t + ∑ s ∈ range S.z.sum, S.dconv x t s * d s + S.conv d t := by
  unfold System.conv System.dconv
  simp only [sum_mul]
  rw [sum_comm (s := range S.z.sum), ← sum_add_distrib, ← sum_add_distrib]
  refine sum_congr rfl fun m hm => ?_
  have hb := block_bound S.z (h.size m (mem_range.1 hm))
  by_cases ht : InBlock S.z (S.blk m) (S.B m).w t
  · simp only [ht, true_and, if_true]
    simp only [ite_mul, zero_mul]
    rw [sum_inBlock hb]
    simp only [Nat.add_sub_cancel_left]
    unfold System.velocity
    rw [convForm_advect_add, convForm_field_add, convForm_field_add]
    have e1 := convForm_field (S.V m) (S.B m) (fun i => d (start S.z (S.blk m) + i))
      (field (S.B m) fun i => x (start S.z (S.blk m) + i)) (vec (S.B m) (t - start S.z (S.blk m)))
    have e2 := convForm_advect (S.V m) (S.B m) (fun i => d (start S.z (S.blk m) + i))
      (field (S.B m) fun i => x (start S.z (S.blk m) + i)) (vec (S.B m) (t - start S.z (S.blk m)))
    have e3 := congrArg₂ (· + ·) e1 e2
    rw [← sum_add_distrib] at e3
    have e4 : (∑ i ∈ range (S.B m).w, (convForm (S.V m) (field (S.B m) fun i => x (start S.z (S.blk m) + i))
          (vec (S.B m) i) (vec (S.B m) (t - start S.z (S.blk m))) + convForm (S.V m) (vec (S.B m) i)
          (field (S.B m) fun i => x (start S.z (S.blk m) + i)) (vec (S.B m) (t - start S.z (S.blk m)))) *
          d (start S.z (S.blk m) + i)) = _ := (sum_congr rfl fun i _ => by ring).trans e3.symm
    rw [e4]
    ring
  · simp only [ht, false_and, if_false, zero_mul, sum_const_zero, add_zero]

theorem conv_smul (S : System R) (a : R) (d : Nat → R) (t : Nat) :
    S.conv (fun i => a * d i) t = a ^ 2 * S.conv d t := by
  unfold System.conv
  rw [mul_sum]
  refine sum_congr rfl fun m _ => ?_
  by_cases ht : InBlock S.z (S.blk m) (S.B m).w t
  · simp only [if_pos ht]
    unfold System.velocity
    rw [convForm_advect, convForm_advect, mul_sum]
    refine sum_congr rfl fun i _ => ?_
    rw [convForm_field, convForm_field, mul_sum, mul_sum, mul_sum]
    exact sum_congr rfl fun j _ => by ring
  · simp only [if_neg ht, mul_zero]

/-- **C68.**  The gradient of the tensor ROM at a state is the linear operator plus the derivative of the
convective part, in the velocity block of each subdomain — unless it stops with an error, and then some
position of a velocity diagonal block is not stored in the linear operator. -/
theorem getGradient_eq [DecidableEq R] {S : System R} {linear : Sp R} {offs : List Nat} {numVar : Nat}
    {separate : Bool} {ord : Order} {hs : List (Option (Tensor R))}
    (h : S.Ok linear offs numVar separate ord hs) {r : Rom R}
    (hr : construct linear offs numVar S.nSub separate ord hs = .ok r) {x : List R}
    (hx : x.length = S.z.sum) :
    (∃ J, getGradient r x = .ok J ∧ J.h = S.z.sum ∧ J.w = S.z.sum ∧
      ∀ t s, J.get t s = linear.get t s + S.dconv (ve x) t s) ∨
    (getGradient r x = .error .abort ∧ ∃ m k l, m < S.nSub ∧ k < (S.B m).w ∧ l < (S.B m).w ∧
      ¬ Stored linear (start S.z (S.blk m) + k) (start S.z (S.blk m) + l)) := by
  obtain ⟨r', T, e, e1, hw, hT⟩ := wired h
  obtain rfl : r = r' := Except.ok.inj (hr.symm.trans e)
  rcases getGradient_sum hw hx with ⟨J, eJ, j1, j2, j3⟩ | ⟨eJ, m, hm, k, l, hk, hl, hst⟩
  · refine Or.inl ⟨J, eJ, j1, j2, fun t s => ?_⟩
    rw [j3, e1]
    congr 1
    unfold System.dconv
    refine sum_congr rfl fun m hm => ?_
    have ht := hT m (mem_range.1 hm)
    rw [ht.i]
    by_cases hin : InBlock S.z (S.blk m) (S.B m).w t ∧ InBlock S.z (S.blk m) (S.B m).w s
    · rw [if_pos hin]
      obtain ⟨⟨h1, h2⟩, h3, h4⟩ := hin
      rw [if_pos ⟨⟨h1, h2⟩, h3, h4⟩]
      unfold start at h1 h2 h3 h4
      exact jacAt_eq ht _ (by omega) (by omega)
    · rw [if_neg hin]
      exact if_neg hin
  · rw [(hT m hm).i] at hk hl
    rw [e1] at hst
    exact Or.inr ⟨eJ, m, k, l, hm, hk, hl, hst⟩

/-- **C68.**  When every position of the velocity diagonal blocks is stored in the linear operator, the
gradient returns, and it is the exact derivative of the operator: an increment of the state changes the
result by the gradient applied to the increment plus a quadratic remainder. -/
theorem getGradient_exact_partial [DecidableEq R] {S : System R} {linear : Sp R} {offs : List Nat} {numVar : Nat}
    {separate : Bool} {ord : Order} {hs : List (Option (Tensor R))}
    (h : S.Ok linear offs numVar separate ord hs) {r : Rom R}
    (hr : construct linear offs numVar S.nSub separate ord hs = .ok r)
    (hst : ∀ m k l, m < S.nSub → k < (S.B m).w → l < (S.B m).w →
      Stored linear (start S.z (S.blk m) + k) (start S.z (S.blk m) + l)) {x : List R}
    (hx : x.length = S.z.sum) :
    ∃ J, getGradient r x = .ok J ∧ J.h = S.z.sum ∧ J.w = S.z.sum ∧
      ∀ (d xd y yd : List R) (junk : Nat → R), d.length = S.z.sum → xd.length = S.z.sum →
        (∀ t, t < S.z.sum → ve xd t = ve x t + ve d t) →
        mult r x junk = .ok y → mult r xd junk = .ok yd → ∀ t, t < S.z.sum →
          ve yd t = ve y t + ∑ s ∈ range S.z.sum, J.get t s * ve d s + S.conv (ve d) t := by
  rcases getGradient_eq h hr hx with ⟨J, eJ, j1, j2, j3⟩ | ⟨_, m, k, l, hm, hk, hl, hn⟩
  swap
  · exact absurd (hst m k l hm hk hl) hn
  refine ⟨J, eJ, j1, j2, fun d xd y yd junk hd hxd hsum ey eyd t ht => ?_⟩
  obtain ⟨r', e, hmul⟩ := mult_galerkin h
  obtain rfl : r = r' := Except.ok.inj (hr.symm.trans e)
  obtain ⟨y', ey', _, hy⟩ := hmul x junk hx
  obtain rfl : y = y' := Except.ok.inj (ey.symm.trans ey')
  obtain ⟨y', ey', _, hyd⟩ := hmul xd junk hxd
  obtain rfl : yd = y' := Except.ok.inj (eyd.symm.trans ey')
  have hfun : ve xd = fun i => ve x i + ve d i := by
    funext i
    by_cases hi : i < S.z.sum
    · exact hsum i hi
    · unfold ve
      rw [List.getElem?_eq_none (by omega), List.getElem?_eq_none (by omega), List.getElem?_eq_none (by omega)]
      simp
  rw [hy t ht, hyd t ht, hfun, conv_expand h]
  simp only [j3, add_mul, sum_add_distrib]
  unfold linAt
  rw [h.w]
  simp only [mul_add, sum_add_distrib]
  ring

/-! ## C69: saving and loading the tensors -/

section
omit [CommRing R]

/-- What is stored for component `name`: any tensor read from it is the tensor `t`. -/
def Holds (f : File R) (name : String) (t : Tensor R) : Prop :=
  find f ⟨["components"], name, false⟩ = some .group ∧
    ∀ target junk, ∃ r, readTensor f [name, "components"] "tensor" target junk = .ok r ∧
      SameTens (toTens t) r

theorem saveTensors_holds {names : List String} {ts : List (Option (Tensor R))} {T : Nat → Tensor R}
    (hl : ts.length = names.length) (hT : ∀ c, c < names.length → ts[c]? = some (some (T c)))
    (hnd : names.Nodup) (hpos : ∀ c, c < names.length → 0 < (T c).nI ∧ 0 < (T c).nJ ∧ 0 < (T c).nK)
    (hok : ∀ c, c < names.length → TensorOk (T c)) :
    ∃ f, saveTensors names ts [] = .ok f ∧ find f ⟨[], "components", false⟩ = some .group ∧
      ∀ c, ∀ h : c < names.length, Holds f names[c] (T c) := by
  have c0 : CanWrite ([] : File R) [] "components" := ⟨valid_empty, rfl, rfl⟩
  unfold saveTensors
  rw [decide_eq_true hl, require_true, ok_bind, create_ok c0.2.1 c0.2.2, ok_bind]
  obtain ⟨f, e, -, h1, h2⟩ := loop_total (n := names.length) (fun (j : Nat) (f : File R) =>
      (∀ i, ∀ h : i < names.length, j ≤ i → CanWrite f ["components"] names[i]) ∧
      find f ⟨[], "components", false⟩ = some .group ∧
      ∀ i, ∀ h : i < names.length, i < j → ∀ f'', Later f f'' → Holds f'' names[i] (T i))
    (body := fun c f => do
      let p ← rd ts c
      let t ← nonNull p
      let name ← rd names c
      let f ← create f ⟨["components"], name, false⟩ .group
      writeTensor f [name, "components"] "tensor" (toTens t))
    (s := (⟨[], "components", false⟩, .group) :: [])
    ⟨fun i h _ => CanWrite.group c0 _, find_cons_self _ _ _, fun i _ hi => absurd hi (Nat.not_lt_zero _)⟩ (by
      intro j f hj ⟨h1, h2, h3⟩
      have cj := h1 j hj (Nat.le_refl _)
      have w1 := wrote_cons (o := .group) cj
      obtain ⟨f', e', v', l', o', rt⟩ := Hdf5.tensor_roundTrip _ _ "tensor" (CanWrite.group cj "tensor")
        (toTens (T j)) (hpos j hj).1 (hpos j hj).2.1 (hpos j hj).2.2 (hok j hj)
      have w2 := w1.trans (Wrote.lift ⟨v', l', o'⟩)
      refine ⟨f', ?_, ?_, w2.later _ _ h2, ?_⟩
      · rw [rd_eq_ok.2 (hT j hj), ok_bind]
        show (rd names j >>= _) = _
        rw [rd_of_lt hj, ok_bind, create_ok cj.2.1 cj.2.2, ok_bind]
        exact e'
      · intro i hi hji
        refine (h1 i hi (by omega)).step w2 ?_
        intro hne
        have := (List.Nodup.getElem_inj_iff hnd).1 hne
        omega
      · intro i hi hij f'' hlt
        by_cases hi' : i < j
        · exact h3 i hi hi' f'' (w2.later.trans hlt)
        · obtain rfl : i = j := by omega
          exact ⟨hlt _ _ (l' _ _ (find_cons_self _ _ _)), fun target junk => rt f'' target junk hlt⟩)
  exact ⟨f, e, h1, fun c h => h2 c h h f (fun _ _ h => h)⟩

/-- **C69.**  Tensors saved by one solver come back in any solver whose components have names known to the
first one, in any order: each component gets the tensor saved under its own name. -/
theorem tensors_roundTrip {names : List String} {ts : List (Option (Tensor R))} {T : Nat → Tensor R}
    (hl : ts.length = names.length) (hT : ∀ c, c < names.length → ts[c]? = some (some (T c)))
    (hnd : names.Nodup) (hpos : ∀ c, c < names.length → 0 < (T c).nI ∧ 0 < (T c).nJ ∧ 0 < (T c).nK)
    (hok : ∀ c, c < names.length → TensorOk (T c)) :
    ∃ f, saveTensors names ts [] = .ok f ∧
      ∀ (names' : List String) (ts' : List (Option (Tensor R))) (junk : Nat → R),
        ts'.length = names'.length → (∀ n ∈ names', n ∈ names) →
        ∃ ts2, loadTensors names' ts' f junk = .ok ts2 ∧ ts2.length = names'.length ∧
          ∀ (c' c : Nat) (n : String), names'[c']? = some n → names[c]? = some n →
            ∃ t, ts2[c']? = some (some t) ∧ SameTens (toTens (T c)) (toTens t) := by
  obtain ⟨f, e, hg, hh⟩ := saveTensors_holds hl hT hnd hpos hok
  refine ⟨f, e, fun names' ts' junk hl' hsub => ?_⟩
  unfold loadTensors
  rw [decide_eq_true hl', require_true, ok_bind, openGroup_of hg, ok_bind]
  obtain ⟨ts2, e2, h1, h2⟩ := loop_total (n := names'.length) (fun (j : Nat) (u : List (Option (Tensor R))) =>
      u.length = names'.length ∧ ∀ c' c n, c' < j → names'[c']? = some n → names[c]? = some n →
        ∃ t, u[c']? = some (some t) ∧ SameTens (toTens (T c)) (toTens t))
    (body := fun c ts => do
      let name ← rd names' c
      let cg ← openGroup f ["components"] name
      let t ← readTensor f cg "tensor" ⟨0, 0, 0, []⟩ junk
      wr ts c (some (ofTens t))) (s := ts') ⟨hl', fun _ _ _ h => absurd h (Nat.not_lt_zero _)⟩ (by
      intro j u hj ⟨hu, hr⟩
      obtain ⟨c, hc, hcn⟩ := List.getElem_of_mem (hsub _ (List.getElem_mem hj))
      obtain ⟨g1, g2⟩ := hh c hc
      rw [hcn] at g1 g2
      obtain ⟨r, er, hr2⟩ := g2 ⟨0, 0, 0, []⟩ junk
      rw [rd_of_lt hj, ok_bind, openGroup_of g1, ok_bind, er, ok_bind, wr_of_lt (by omega)]
      refine ⟨_, rfl, by rw [List.length_set]; exact hu, ?_⟩
      intro c' c2 n hc' hn' hn
      by_cases hlt : c' < j
      · rw [List.getElem?_set_ne (by omega)]
        exact hr c' c2 n hlt hn' hn
      · obtain rfl : c' = j := by omega
        refine ⟨ofTens r, by rw [List.getElem?_set_self (by omega)], ?_⟩
        rw [List.getElem?_eq_getElem hj] at hn'
        obtain ⟨hc2, hn2⟩ := List.getElem?_eq_some_iff.1 hn
        have heq : names[c]'hc = names[c2]'hc2 := by rw [hcn, hn2]; exact Option.some.inj hn'
        obtain rfl : c = c2 := (List.Nodup.getElem_inj_iff hnd).1 heq
        exact hr2)
  exact ⟨ts2, e2, h1, fun c' c n hn' hn => h2 c' c n (List.getElem?_eq_some_iff.1 hn').1 hn' hn⟩

end

/-- **C69.**  A tensor that came back is as good as the one that was saved: it is a tensor of the same
basis, so everything shown about the operator (C67, C68) holds for a ROM whose tensors were loaded. -/
theorem isTensor_loaded {t t' : Tensor R} {b : Mat R} {V : Fes R} (h : IsTensor t b V) (hb : 0 < b.w)
    (hs : SameTens (toTens t) (toTens t')) : IsTensor t' b V := by
  obtain ⟨s1, s2, s3, s4⟩ := hs
  replace s1 : t.nI = t'.nI := s1
  replace s2 : t.nJ = t'.nJ := s2
  replace s3 : t.nK = t'.nK := s3
  replace s4 : ∀ i j k, i < t.nI → j < t.nJ → k < t.nK →
    t'.data[i + t'.nI * (j + t'.nJ * k)]? = t.data[i + t.nI * (j + t.nJ * k)]? := s4
  have hi := h.i
  have hj := h.j
  have hk := h.k
  have hok : t.nI * t.nJ * t.nK ≤ t.data.length := h.ok
  refine ⟨s1.symm.trans hi, s2.symm.trans hj, s3.symm.trans hk, ?_, ?_⟩
  · have := s4 (b.w - 1) (b.w - 1) (b.w - 1) (by omega) (by omega) (by omega)
    unfold TensorOk
    rw [← s1, ← s2, ← s3, hi, hj, hk]
    rw [← s1, ← s2, hi, hj] at this
    rw [hi, hj, hk] at hok
    have hidx : b.w - 1 + b.w * (b.w - 1 + b.w * (b.w - 1)) + 1 = b.w * b.w * b.w := by
      obtain ⟨n, hn⟩ : ∃ n, b.w = n + 1 := ⟨b.w - 1, by omega⟩
      rw [hn, Nat.add_sub_cancel]; ring
    rw [List.getElem?_eq_getElem (l := t.data) (by omega)] at this
    obtain ⟨hlt, -⟩ := List.getElem?_eq_some_iff.1 this
    omega
  · intro i j k h1 h2 h3
    rw [← h.entries i j k h1 h2 h3]
    have := s4 i j k (by omega) (by omega) (by omega)
    unfold tent ve
    rw [← s1, ← s2] at this ⊢
    rw [show i + j * t.nI + k * (t.nI * t.nJ) = i + t.nI * (j + t.nJ * k) by ring, this]

/-! ## Concrete cases -/

/-- Two elements that share a degree of freedom, one of them with a reversed orientation. -/
def exV : Fes Int :=
  ⟨5, [⟨2, 2, [4, 0, 2, 1], [(pt, 1), (pt, 2)]⟩, ⟨2, 2, [-2, 3, 0, 2], [(pt, 1)]⟩]⟩

theorem exV_ok : FesOk exV := by
  intro E hE
  simp only [exV, List.mem_cons, List.not_mem_nil, or_false] at hE
  rcases hE with rfl | rfl
  · refine ⟨by decide, rfl, fun pw hpw => ?_⟩
    simp only [List.mem_cons, List.not_mem_nil, or_false] at hpw
    rcases hpw with rfl | rfl <;> exact ⟨pt_ok, rfl, rfl⟩
  · refine ⟨by decide, rfl, fun pw hpw => ?_⟩
    simp only [List.mem_cons, List.not_mem_nil, or_false] at hpw
    subst hpw
    exact ⟨pt_ok, rfl, rfl⟩

/-- Two subdomains, velocity and pressure blocks of the sizes 2 and 1. -/
def exS : System Int := ⟨2, velBlock true .domain 2, fun _ => ptBasis, fun _ => exV, [2, 1, 2, 1]⟩

/-- A linear operator that stores every entry. -/
def exLinear : Sp Int :=
  ⟨6, 6, (List.range 36).map fun k => ((k / 6, k % 6), (k : Int) - 7)⟩

theorem exS_ok : ∃ hs, exS.Ok exLinear [0, 2, 3, 5, 6] 2 true .domain hs := by
  obtain ⟨ts, -, -, h⟩ := domains_isTensor (oper := .base) (by decide) (numVar := 2) (separate := true)
    (ord := .domain) (domBasis := [ptBasis, ptBasis, ptBasis, ptBasis]) (ufes := [exV, exV])
    (B := fun _ => ptBasis) (V := fun _ => exV) (by decide) (by decide)
    (fun _ _ => ⟨ptBasis_ok, exV_ok, by decide⟩) (fun _ => 0)
  refine ⟨ts, by decide, rfl, ⟨rfl, rfl, fun i s hi => ?_⟩, rfl, by decide, rfl, rfl, h⟩
  match i with
  | 0 => cases hi; exact ⟨0, rfl, rfl⟩
  | 1 => cases hi; exact ⟨2, rfl, rfl⟩
  | 2 => cases hi; exact ⟨3, rfl, rfl⟩
  | 3 => cases hi; exact ⟨5, rfl, rfl⟩
  | i + 4 => simp [exS] at hi

/-- Every position of the velocity blocks is stored. -/
example : ∀ m k l, m < exS.nSub → k < (exS.B m).w → l < (exS.B m).w →
    Stored exLinear (start exS.z (exS.blk m) + k) (start exS.z (exS.blk m) + l) := by
  have h1 : ∀ m, m < 2 → ∀ k, k < 2 → start exS.z (exS.blk m) + k < 6 := by decide
  intro m k l hm hk hl
  have a := h1 m hm k hk
  have b := h1 m hm l hl
  revert a b
  generalize start exS.z (exS.blk m) + k = i
  generalize start exS.z (exS.blk m) + l = j
  intro a b
  exact ⟨_, List.mem_map.2 ⟨i * 6 + j, List.mem_range.2 (by omega), by
    rw [show (i * 6 + j) / 6 = i by omega, show (i * 6 + j) % 6 = j by omega]⟩⟩

/-- The whole chain on the concrete system. -/
def exRom (linear : Sp Int) : Outcome (Rom Int) := do
  let hs ← buildGlobal .base 2 true .domain [ptBasis, ptBasis, ptBasis, ptBasis] [exV, exV] (fun _ => 0)
  construct linear [0, 2, 3, 5, 6] 2 2 true .domain hs

/-- The residual of the concrete system, linear part included. -/
example : (do mult (← exRom exLinear) [1, 2, 3, 4, 5, 6] (fun _ => 0)) =
    .ok [39148, 53527, 175, 328264, 438313, 553] := by decide +kernel

/-- Its gradient exists. -/
example : (do return (← getGradient (← exRom exLinear) [1, 2, 3, 4, 5, 6]).h) = .ok 6 := by decide +kernel

/-- The Lax-Friedrichs operator is refused. -/
example : reducedTensor .lf (some ptBasis) (some exV) (fun _ => 0) = .error .abort := by decide +kernel

/-- **C68 needs the stored positions**: the residual of a system whose linear operator has dropped the zero
at position (0, 0) exists, but asking for its gradient ends the program. -/
theorem getGradient_dropped_aborts :
    (∃ y, (do mult (← exRom ⟨6, 6, exLinear.ents.tail⟩) [1, 2, 3, 4, 5, 6] (fun _ => 0)) = .ok y) ∧
      (do getGradient (← exRom ⟨6, 6, exLinear.ents.tail⟩) [1, 2, 3, 4, 5, 6]) = .error .abort := by
  refine ⟨⟨[39155, 53527, 175, 328264, 438313, 553], ?_⟩, ?_⟩ <;> decide +kernel

/-- A solver with three components, then one with two of them in another order. -/
example : (do
    let f ← saveTensors ["a", "b", "c"] [some ⟨1, 1, 1, [5]⟩, some ⟨1, 1, 1, [6]⟩, some ⟨1, 1, 1, [(7 : Int)]⟩] []
    loadTensors ["c", "a"] [none, none] f (fun _ => 0)) =
    .ok [some ⟨1, 1, 1, [7]⟩, some ⟨1, 1, 1, [5]⟩] := by decide +kernel

end Verif.TensorRom
