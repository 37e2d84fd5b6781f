import Verif.Proofs.LaxFDeriv
import Verif.Spec.LaxFDeriv

/-!
# The Lax-Friedrichs flux: C63, C64
-/

namespace Verif.LaxF

open Verif Verif.LinAlg Verif.LinAlg.Spec Verif.LaxF.Spec Finset

section
variable {R : Type} [Field R] [LinearOrder R]

omit [LinearOrder R] in
theorem ve_append_left {a b : List R} {t : Nat} (h : t < a.length) : ve (a ++ b) t = ve a t := by
  unfold ve; rw [List.getElem?_append_left h]

omit [LinearOrder R] in
theorem ve_append_right {a b : List R} (t : Nat) : ve (a ++ b) (a.length + t) = ve b t := by
  unfold ve; rw [List.getElem?_append_right (by omega)]; congr 2; omega

omit [LinearOrder R] in
theorem ve_drop (u : List R) (n t : Nat) : ve (u.drop n) t = ve u (n + t) := by
  unfold ve; rw [List.getElem?_drop]

omit [LinearOrder R] in
theorem list_ext_ve {a b : List R} (hl : a.length = b.length) (h : ∀ t < a.length, ve a t = ve b t) :
    a = b := by
  apply List.ext_getElem hl
  intro t h1 h2
  have := h t h1
  unfold ve at this
  rw [List.getElem?_eq_getElem h1, List.getElem?_eq_getElem h2] at this
  exact this

/-- **C63.**  On a face, interior or boundary, entry `k + d nd1` of the element vector is minus the
quadrature sum of component `d` of the numerical flux times shape function `k` of the first element, and
the entries after the first `nd1 dim` are the sums, with the opposite sign, for the second element. -/
theorem faceVec_flux (sqrt : R → R) (f : Face) (pts : List (FPt R × R)) (u : List R)
    (hp : ∀ pw ∈ pts, FPtOk f pw.1) :
    (faceVec sqrt f pts u).length = f.nd1 * f.dim + f.n2 * f.dim ∧
    (∀ k d, k < f.nd1 → d < f.dim → ve (faceVec sqrt f pts u) (k + d * f.nd1) =
      -sideSum sqrt f pts u (u.drop (f.nd1 * f.dim)) FPt.shape1 k d) ∧
    (∀ k d, k < f.n2 → d < f.dim → ve (faceVec sqrt f pts u) (f.nd1 * f.dim + (k + d * f.n2)) =
      sideSum sqrt f pts u (u.drop (f.nd1 * f.dim)) FPt.shape2 k d) := by
  obtain ⟨⟨a1, a2, a3⟩, ⟨b1, b2, b3⟩, ha, hb⟩ :=
    vecLoop_spec (sqrt := sqrt) hp u (u.drop (f.nd1 * f.dim))
  unfold faceVec
  refine ⟨by rw [List.length_append, a3, b3], ?_, ?_⟩
  · intro k d hk hd
    have := ha k d hk hd
    unfold ent at this
    rw [a1] at this
    rw [ve_append_left (by rw [a3]; exact idx_lt hk hd)]
    exact this
  · intro k d hk hd
    have := hb k d hk hd
    unfold ent at this
    rw [b1] at this
    conv_lhs => arg 2; rw [← a3]
    dsimp only
    rw [ve_append_right]
    exact this

/-- **C63.**  The same on an interface, where the two sides have their own vectors. -/
theorem itfVec_flux (sqrt : R → R) (f : Face) (pts : List (FPt R × R)) (u1 u2 : List R)
    (hp : ∀ pw ∈ pts, FPtOk f pw.1) :
    (itfVec sqrt f pts u1 u2).1.length = f.nd1 * f.dim ∧
    (itfVec sqrt f pts u1 u2).2.length = f.n2 * f.dim ∧
    (∀ k d, k < f.nd1 → d < f.dim → ve (itfVec sqrt f pts u1 u2).1 (k + d * f.nd1) =
      -sideSum sqrt f pts u1 u2 FPt.shape1 k d) ∧
    (∀ k d, k < f.n2 → d < f.dim → ve (itfVec sqrt f pts u1 u2).2 (k + d * f.n2) =
      sideSum sqrt f pts u1 u2 FPt.shape2 k d) := by
  obtain ⟨⟨a1, a2, a3⟩, ⟨b1, b2, b3⟩, ha, hb⟩ := vecLoop_spec (sqrt := sqrt) hp u1 u2
  unfold itfVec
  refine ⟨a3, b3, ?_, ?_⟩
  · intro k d hk hd
    have := ha k d hk hd
    unfold ent at this
    rw [a1] at this
    exact this
  · intro k d hk hd
    have := hb k d hk hd
    unfold ent at this
    rw [b1] at this
    exact this

omit [LinearOrder R] in
theorem sum_map_swap' {α : Type} (l : List α) (n : Nat) (F : α → Nat → R) :
    ∑ k ∈ range n, (l.map (fun q => F q k)).sum = (l.map (fun q => ∑ k ∈ range n, F q k)).sum := by
  induction l with
  | nil => simp
  | cons q l ih => simp [← ih, sum_add_distrib]

theorem sideSum_total {sqrt : R → R} {f : Face} {pts : List (FPt R × R)} {u1 u2 : List R}
    {shape : FPt R → List R} {n d : Nat}
    (h : ∀ pw ∈ pts, ∑ k ∈ range n, ve (shape pw.1) k = 1) :
    ∑ k ∈ range n, sideSum sqrt f pts u1 u2 shape k d =
      (pts.map (fun pw => wq pw.1 pw.2 *
        pointFlux sqrt pw.1 (valueAt f.nd1 pw.1.shape1 u1) (valueAt f.n2 pw.1.shape2 u2) d)).sum := by
  unfold sideSum
  rw [sum_map_swap']
  congr 1
  refine List.map_congr_left fun pw hpw => ?_
  rw [← sum_mul, ← mul_sum, h pw hpw, mul_one]

/-- **C63 (conservation).**  What leaves the element on one side of an interface enters the one on the
other: when the shape functions of each side add up to one, the entries of each component cancel. -/
theorem itfVec_conserves (sqrt : R → R) (f : Face) (pts : List (FPt R × R)) (u1 u2 : List R)
    (hp : ∀ pw ∈ pts, FPtOk f pw.1)
    (h1 : ∀ pw ∈ pts, ∑ k ∈ range f.nd1, ve pw.1.shape1 k = 1)
    (h2 : ∀ pw ∈ pts, ∑ k ∈ range f.n2, ve pw.1.shape2 k = 1) (d : Nat) (hd : d < f.dim) :
    ∑ k ∈ range f.nd1, ve (itfVec sqrt f pts u1 u2).1 (k + d * f.nd1) +
      ∑ k ∈ range f.n2, ve (itfVec sqrt f pts u1 u2).2 (k + d * f.n2) = 0 := by
  obtain ⟨-, -, ha, hb⟩ := itfVec_flux sqrt f pts u1 u2 hp
  rw [sum_congr rfl (fun k hk => ha k d (mem_range.1 hk) hd),
    sum_congr rfl (fun k hk => hb k d (mem_range.1 hk) hd), sum_neg_distrib,
    sideSum_total h1, sideSum_total h2, neg_add_cancel]

/-- **C63 (conservation)** on interior faces. -/
theorem faceVec_conserves (sqrt : R → R) (f : Face) (pts : List (FPt R × R)) (u : List R)
    (hp : ∀ pw ∈ pts, FPtOk f pw.1)
    (h1 : ∀ pw ∈ pts, ∑ k ∈ range f.nd1, ve pw.1.shape1 k = 1)
    (h2 : ∀ pw ∈ pts, ∑ k ∈ range f.n2, ve pw.1.shape2 k = 1) (d : Nat) (hd : d < f.dim) :
    ∑ k ∈ range f.nd1, ve (faceVec sqrt f pts u) (k + d * f.nd1) +
      ∑ k ∈ range f.n2, ve (faceVec sqrt f pts u) (f.nd1 * f.dim + (k + d * f.n2)) = 0 := by
  obtain ⟨-, ha, hb⟩ := faceVec_flux sqrt f pts u hp
  rw [sum_congr rfl (fun k hk => ha k d (mem_range.1 hk) hd),
    sum_congr rfl (fun k hk => hb k d (mem_range.1 hk) hd), sum_neg_distrib,
    sideSum_total h1, sideSum_total h2, neg_add_cancel]

/-- The other side agrees with the first: the two traces are equal, or the prescribed velocity is met, or
nothing is prescribed. -/
def Agrees (f : Face) (p : FPt R) (u1 u2 : List R) : Prop :=
  ∀ d < f.dim,
    if p.el2 then valueAt f.n2 p.shape2 u2 d = valueAt f.nd1 p.shape1 u1 d
    else ∀ v, p.ud = some v → ve v d = valueAt f.nd1 p.shape1 u1 d

variable [CharZero R]

theorem laxF_self (sqrt : R → R) (dim : Nat) (a n : Nat → R) (d : Nat) :
    laxF sqrt dim a a n d = outflow dim a n d := by
  unfold laxF outflow
  rw [sub_self, mul_zero, add_zero]; ring

theorem pointFlux_agrees {sqrt : R → R} {f : Face} {p : FPt R} (hp : FPtOk f p) {u1 u2 : List R}
    (h : Agrees f p u1 u2) {d : Nat} (hd : d < f.dim) :
    pointFlux sqrt p (valueAt f.nd1 p.shape1 u1) (valueAt f.n2 p.shape2 u2) d =
      outflow f.dim (valueAt f.nd1 p.shape1 u1) (ve p.nor) d := by
  unfold pointFlux
  rw [hp.dim]
  by_cases he : p.el2
  · rw [if_pos he, ← laxF_self sqrt]
    refine laxF_congr (fun _ _ => rfl) (fun e hd => ?_) hd
    have := h e hd
    rwa [if_pos he] at this
  · rw [if_neg he]
    cases hu : p.ud with
    | none => rfl
    | some v =>
      dsimp only
      rw [← laxF_self sqrt]
      refine laxF_congr (fun _ _ => rfl) (fun e hd => ?_) hd
      have := h e hd
      rw [if_neg he] at this
      exact this v hu

theorem sideSum_consistent (sqrt : R → R) (f : Face) (pts : List (FPt R × R)) (u1 u2 : List R)
    (hp : ∀ pw ∈ pts, FPtOk f pw.1) (h : ∀ pw ∈ pts, Agrees f pw.1 u1 u2) (shape : FPt R → List R)
    (k d : Nat) (hd : d < f.dim) :
    sideSum sqrt f pts u1 u2 shape k d =
      (pts.map (fun pw => wq pw.1 pw.2 * ve (shape pw.1) k *
        outflow f.dim (valueAt f.nd1 pw.1.shape1 u1) (ve pw.1.nor) d)).sum := by
  unfold sideSum
  congr 1
  refine List.map_congr_left fun pw hpw => ?_
  rw [pointFlux_agrees (hp pw hpw) (h pw hpw) hd]

/-- **C63 (consistency).**  If the velocities on the two sides of a face agree, what is integrated is the
flux `(n.u) u` of that velocity. -/
theorem faceVec_consistent (sqrt : R → R) (f : Face) (pts : List (FPt R × R)) (u : List R)
    (hp : ∀ pw ∈ pts, FPtOk f pw.1)
    (h : ∀ pw ∈ pts, Agrees f pw.1 u (u.drop (f.nd1 * f.dim))) :
    (∀ k d, k < f.nd1 → d < f.dim → ve (faceVec sqrt f pts u) (k + d * f.nd1) =
      -(pts.map (fun pw => wq pw.1 pw.2 * ve pw.1.shape1 k *
        outflow f.dim (valueAt f.nd1 pw.1.shape1 u) (ve pw.1.nor) d)).sum) ∧
    (∀ k d, k < f.n2 → d < f.dim → ve (faceVec sqrt f pts u) (f.nd1 * f.dim + (k + d * f.n2)) =
      (pts.map (fun pw => wq pw.1 pw.2 * ve pw.1.shape2 k *
        outflow f.dim (valueAt f.nd1 pw.1.shape1 u) (ve pw.1.nor) d)).sum) := by
  obtain ⟨-, a, b⟩ := faceVec_flux sqrt f pts u hp
  exact ⟨fun k d hk hd => by rw [a k d hk hd, sideSum_consistent sqrt f pts _ _ hp h _ k d hd],
    fun k d hk hd => by rw [b k d hk hd, sideSum_consistent sqrt f pts _ _ hp h _ k d hd]⟩

/-- **C63 (consistency)** on interfaces. -/
theorem itfVec_consistent (sqrt : R → R) (f : Face) (pts : List (FPt R × R)) (u1 u2 : List R)
    (hp : ∀ pw ∈ pts, FPtOk f pw.1) (h : ∀ pw ∈ pts, Agrees f pw.1 u1 u2) :
    (∀ k d, k < f.nd1 → d < f.dim → ve (itfVec sqrt f pts u1 u2).1 (k + d * f.nd1) =
      -(pts.map (fun pw => wq pw.1 pw.2 * ve pw.1.shape1 k *
        outflow f.dim (valueAt f.nd1 pw.1.shape1 u1) (ve pw.1.nor) d)).sum) ∧
    (∀ k d, k < f.n2 → d < f.dim → ve (itfVec sqrt f pts u1 u2).2 (k + d * f.n2) =
      (pts.map (fun pw => wq pw.1 pw.2 * ve pw.1.shape2 k *
        outflow f.dim (valueAt f.nd1 pw.1.shape1 u1) (ve pw.1.nor) d)).sum) := by
  obtain ⟨-, -, a, b⟩ := itfVec_flux sqrt f pts u1 u2 hp
  exact ⟨fun k d hk hd => by rw [a k d hk hd, sideSum_consistent sqrt f pts _ _ hp h _ k d hd],
    fun k d hk hd => by rw [b k d hk hd, sideSum_consistent sqrt f pts _ _ hp h _ k d hd]⟩

omit [CharZero R] in
/-- The interface with its sides exchanged. -/
def Face.swap (f : Face) : Face := ⟨f.dim, f.n2, f.nd1⟩

omit [CharZero R] in
/-- A point seen from the other side: shape functions exchanged, normal reversed. -/
def FPt.swap (p : FPt R) : FPt R :=
  { p with nd1 := p.dof2, dof2 := p.nd1, shape1 := p.shape2, shape2 := p.shape1, nor := p.nor.map (-·) }

omit [CharZero R] [LinearOrder R] in
theorem ve_neg (l : List R) (d : Nat) : ve (l.map (-·)) d = -ve l d := by
  unfold ve; rw [List.getElem?_map]; cases l[d]? <;> simp

omit [CharZero R] in
theorem laxF_swap (sqrt : R → R) (dim : Nat) (a b n : Nat → R) (d : Nat) :
    laxF sqrt dim b a (fun e => -n e) d = -laxF sqrt dim a b n d := by
  have e1 : ∀ c : Nat → R, inner dim (fun e => -n e) c = -inner dim n c := by
    intro c; unfold inner; rw [← sum_neg_distrib]; exact sum_congr rfl fun e _ => by ring
  have e2 : inner dim (fun e => -n e) (fun e => -n e) = inner dim n n := by
    unfold inner; exact sum_congr rfl fun e _ => by ring
  unfold laxF
  rw [e1, e1, e2, max_comm]; ring

omit [CharZero R] [LinearOrder R] in
theorem swap_ok {f : Face} {p : FPt R} (hp : FPtOk f p) (he : p.el2 = true) (h1 : 0 < f.nd1) :
    FPtOk f.swap p.swap := by
  have hn := hp.n2
  unfold FPt.ndofs2 at hn
  rw [if_pos he] at hn
  refine ⟨hp.dim, hn, ?_, ?_, hp.shape2 he, fun _ => hp.shape1, ?_, hp.ud⟩
  · unfold FPt.ndofs2 FPt.swap Face.swap; simp [he, hp.nd1]
  · show 0 < p.nd1; rw [hp.nd1]; exact h1
  · show (p.nor.map (-·)).length = f.dim; rw [List.length_map]; exact hp.nor

omit [CharZero R] in
theorem sideSum_swap {sqrt : R → R} {f : Face} {pts : List (FPt R × R)} (u1 u2 : List R)
    (he : ∀ pw ∈ pts, pw.1.el2 = true) {s s' : FPt R → List R}
    (hs : ∀ p : FPt R, s' p.swap = s p) (k d : Nat) :
    sideSum sqrt f.swap (pts.map (fun pw => (pw.1.swap, pw.2))) u2 u1 s' k d =
      -sideSum sqrt f pts u1 u2 s k d := by
  unfold sideSum
  rw [List.map_map]
  induction pts with
  | nil => simp
  | cons pw l ih =>
    simp only [List.map_cons, List.sum_cons]
    rw [ih fun q hq => he q (by simp [hq]), neg_add]
    congr 1
    simp only [Function.comp, hs]
    have h := he pw (by simp)
    have h' : pw.1.swap.el2 = true := h
    unfold pointFlux
    rw [if_pos h, if_pos h']
    show wq pw.1 pw.2 * ve (s pw.1) k * laxF sqrt pw.1.dim (valueAt f.n2 pw.1.shape2 u2)
      (valueAt f.nd1 pw.1.shape1 u1) (ve (pw.1.nor.map (-·))) d = _
    have hn : ve (pw.1.nor.map (-·)) = fun e => -ve pw.1.nor e := funext fun e => ve_neg _ e
    rw [hn, laxF_swap]; ring

omit [CharZero R] in
/-- **C63 (no preferred side).**  Exchanging the sides of an interface exchanges the two vectors. -/
theorem itfVec_swap (sqrt : R → R) (f : Face) (pts : List (FPt R × R)) (u1 u2 : List R)
    (hp : ∀ pw ∈ pts, FPtOk f pw.1) (he : ∀ pw ∈ pts, pw.1.el2 = true) (h1 : 0 < f.nd1) :
    itfVec sqrt f.swap (pts.map (fun pw => (pw.1.swap, pw.2))) u2 u1 =
      ((itfVec sqrt f pts u1 u2).2, (itfVec sqrt f pts u1 u2).1) := by
  have hp' : ∀ pw ∈ pts.map (fun pw => (pw.1.swap, pw.2)), FPtOk f.swap pw.1 := by
    intro pw hpw
    obtain ⟨q, hq, rfl⟩ := List.mem_map.1 hpw
    exact swap_ok (hp q hq) (he q hq) h1
  obtain ⟨l1, l2, a, b⟩ := itfVec_flux sqrt f pts u1 u2 hp
  obtain ⟨l1', l2', a', b'⟩ := itfVec_flux sqrt f.swap _ u2 u1 hp'
  have split : ∀ n t : Nat, t < n * f.dim → ∃ k d, k < n ∧ d < f.dim ∧ t = k + d * n := by
    intro n t ht
    have hn : 0 < n := by by_contra h; simp [Nat.eq_zero_of_not_pos h] at ht
    exact ⟨t % n, t / n, Nat.mod_lt _ hn, Nat.div_lt_of_lt_mul ht, by
      rw [Nat.mul_comm]; exact (Nat.mod_add_div t n).symm⟩
  refine Prod.ext ?_ ?_
  · refine list_ext_ve (by rw [l1', l2]; rfl) ?_
    intro t ht
    obtain ⟨k, d, hk, hd, rfl⟩ := split f.n2 t (by rw [l1'] at ht; exact ht)
    refine (a' k d hk hd).trans ?_
    rw [b k d hk hd, sideSum_swap (s := FPt.shape2) u1 u2 he (fun _ => rfl), neg_neg]
  · refine list_ext_ve (by rw [l2', l1]; rfl) ?_
    intro t ht
    obtain ⟨k, d, hk, hd, rfl⟩ := split f.nd1 t (by rw [l2'] at ht; exact ht)
    refine (b' k d hk hd).trans ?_
    rw [a k d hk hd, sideSum_swap (s := FPt.shape1) u1 u2 he (fun _ => rfl)]

end

/-! ## Exact Jacobian -/

/-- The coordinate `s`, zero beyond the size. -/
def prj (n s : Nat) : (Fin n → ℝ) →L[ℝ] ℝ :=
  if h : s < n then ContinuousLinearMap.proj (⟨s, h⟩ : Fin n) else 0

theorem sum_prj (n : Nat) (c : Nat → ℝ) :
    ∑ s : Fin n, c s • (ContinuousLinearMap.proj s : (Fin n → ℝ) →L[ℝ] ℝ) =
      ∑ s ∈ range n, c s • prj n s := by
  rw [Finset.sum_range]
  exact sum_congr rfl fun s _ => by rw [prj, dif_pos s.2]

theorem ve_ofFn {n : Nat} (z : Fin n → ℝ) (s : Nat) : ve (List.ofFn z) s = prj n s z := by
  unfold ve prj
  by_cases h : s < n
  · rw [dif_pos h, List.getElem?_ofFn, dif_pos h]; rfl
  · rw [dif_neg h, List.getElem?_ofFn, dif_neg h]; rfl

theorem ofFn_hasFDeriv {n : Nat} (v : Fin n → ℝ) (s : Nat) :
    HasFDerivAt (fun z : Fin n → ℝ => ve (List.ofFn z) s) (prj n s) v := by
  simp only [ve_ofFn]
  exact (prj n s).hasFDerivAt

theorem pos_surj {f : Face} {t : Nat} (ht : t < f.dim * (f.nd1 + f.n2)) :
    ∃ i k d, i < 2 ∧ k < sideN f i ∧ d < f.dim ∧ t = pos f i k d := by
  have split : ∀ n t : Nat, t < n * f.dim → ∃ k d, k < n ∧ d < f.dim ∧ t = k + d * n := by
    intro n t ht
    have hn : 0 < n := by by_contra h; simp [Nat.eq_zero_of_not_pos h] at ht
    exact ⟨t % n, t / n, Nat.mod_lt _ hn, Nat.div_lt_of_lt_mul ht, by
      rw [Nat.mul_comm]; exact (Nat.mod_add_div t n).symm⟩
  rw [Nat.mul_add] at ht
  by_cases h : t < f.dim * f.nd1
  · obtain ⟨k, d, hk, hd, e⟩ := split f.nd1 t (by rw [Nat.mul_comm]; exact h)
    exact ⟨0, k, d, by omega, hk, hd, by unfold pos sideN; simpa using e⟩
  · obtain ⟨k, d, hk, hd, e⟩ := split f.n2 (t - f.dim * f.nd1) (by rw [Nat.mul_comm f.n2]; omega)
    refine ⟨1, k, d, by omega, hk, hd, ?_⟩
    unfold pos sideN
    simp only [Nat.one_ne_zero, if_false]
    omega

theorem sum_pos {M : Type} [AddCommMonoid M] (f : Face) (X : Nat → M) :
    ∑ s ∈ range (f.dim * (f.nd1 + f.n2)), X s =
      ∑ l ∈ range f.nd1, ∑ e ∈ range f.dim, X (pos f 0 l e) +
      ∑ l ∈ range f.n2, ∑ e ∈ range f.dim, X (pos f 1 l e) := by
  rw [Nat.mul_add, sum_range_add, Nat.mul_comm f.dim f.nd1, sum_layout, Nat.mul_comm f.dim f.n2,
    sum_layout, sum_comm, sum_comm (s := range f.dim) (t := range f.n2)]
  unfold pos sideN
  simp only [if_true, Nat.one_ne_zero, if_false, Nat.zero_add, Nat.mul_comm f.nd1]

theorem faceVec_pos {sqrt : ℝ → ℝ} {f : Face} {pts : List (FPt ℝ × ℝ)} {u : List ℝ}
    (hp : ∀ pw ∈ pts, FPtOk f pw.1) {i k d : Nat} (hi : i < 2) (hk : k < sideN f i) (hd : d < f.dim) :
    ve (faceVec sqrt f pts u) (pos f i k d) =
      sideSign i * sideSum sqrt f pts u (u.drop (f.nd1 * f.dim)) (fun p => sideShape p i) k d := by
  obtain ⟨-, a, b⟩ := faceVec_flux sqrt f pts u hp
  have hi' : i = 0 ∨ i = 1 := by omega
  rcases hi' with rfl | rfl
  · have := a k d hk hd
    unfold pos sideN sideSign sideShape
    simp only [if_true, Nat.zero_add]
    rw [this]; ring
  · have := b k d hk hd
    unfold pos sideN sideSign sideShape
    simp only [Nat.one_ne_zero, if_false, Nat.mul_comm f.dim]
    rw [this]; ring

/-- **C64 (partial).**  At a state at which the numerical flux is differentiable at each quadrature point,
`AssembleFaceGrad` succeeds and returns the Jacobian of `AssembleFaceVector`. -/
theorem faceGrad_exact_partial (f : Face) (pts : List (FPt ℝ × ℝ))
    (v : Fin (f.dim * (f.nd1 + f.n2)) → ℝ) (hp : ∀ pw ∈ pts, FPtOk f pw.1)
    (hs : ∀ pw ∈ pts, PointSmooth pw.1 (valueAt f.nd1 pw.1.shape1 (List.ofFn v))
      (valueAt f.n2 pw.1.shape2 ((List.ofFn v).drop (f.nd1 * f.dim)))) :
    ∃ J, faceGrad Real.sqrt f pts (List.ofFn v) = .ok J ∧
      HasJacobian (f.dim * (f.nd1 + f.n2)) (faceVec Real.sqrt f pts) J v := by
  have : Nonempty (Mat ℝ × Mat ℝ) := ⟨(Convection.zeroMat 0, Convection.zeroMat 0)⟩
  choose! G hG _ _ using fun (p : FPt ℝ) (h : FPtOk f p ∧ PointSmooth p (valueAt f.nd1 p.shape1
    (List.ofFn v)) (valueAt f.n2 p.shape2 ((List.ofFn v).drop (f.nd1 * f.dim)))) => quadGrad_at h.1 h.2
  have hG' : ∀ pw ∈ pts, quadGradBase Real.sqrt pw.1 f.n2 ⟨f.nd1, f.dim, List.ofFn v⟩
      ⟨f.n2, f.dim, (List.ofFn v).drop (f.nd1 * f.dim)⟩ = .ok (G pw.1) :=
    fun pw hpw => hG pw.1 ⟨hp pw hpw, hs pw hpw⟩
  obtain ⟨J, e, hh, hw, hJ⟩ := faceGrad_spec hp (List.ofFn v) G hG'
  refine ⟨J, e, hh, hw, fun t => ?_⟩
  obtain ⟨i, k, d, hi, hk, hd, ht⟩ := pos_surj t.2
  rw [ht, sum_prj, sum_pos]
  simp only [faceVec_pos hp hi hk hd]
  have h1 : ∀ k d, k < f.nd1 → d < f.dim → HasFDerivAt
      (fun z : Fin (f.dim * (f.nd1 + f.n2)) → ℝ => Convection.Spec.coef f.nd1 (List.ofFn z) k d)
      (prj _ (pos f 0 k d)) v := by
    intro k d _ _
    have := ofFn_hasFDeriv v (pos f 0 k d)
    unfold pos sideN at this ⊢
    simpa [Convection.Spec.coef] using this
  have h2 : ∀ k d, k < f.n2 → d < f.dim → HasFDerivAt
      (fun z : Fin (f.dim * (f.nd1 + f.n2)) → ℝ =>
        Convection.Spec.coef f.n2 ((List.ofFn z).drop (f.nd1 * f.dim)) k d)
      (prj _ (pos f 1 k d)) v := by
    intro k d _ _
    have := ofFn_hasFDeriv v (pos f 1 k d)
    unfold Convection.Spec.coef
    simp only [ve_drop]
    unfold pos sideN at this ⊢
    simpa only [Nat.one_ne_zero, if_false, Nat.mul_comm f.dim f.nd1] using this
  refine (sideSum_hasFDeriv hp h1 h2 hs hG' (i := i) (k := k) hd).congr_fderiv ?_
  congr 1
  · exact sum_congr rfl fun l hl => sum_congr rfl fun e he => by
      rw [hJ i 0 k d l e hi (by omega) hk hd (mem_range.1 hl) (mem_range.1 he)]
  · exact sum_congr rfl fun l hl => sum_congr rfl fun e he => by
      rw [hJ i 1 k d l e hi (by omega) hk hd (mem_range.1 hl) (mem_range.1 he)]

theorem itfVec_pos {sqrt : ℝ → ℝ} {f : Face} {pts : List (FPt ℝ × ℝ)} {u1 u2 : List ℝ}
    (hp : ∀ pw ∈ pts, FPtOk f pw.1) {i k d : Nat} (hi : i < 2) (hk : k < sideN f i) (hd : d < f.dim) :
    ve (if i = 0 then (itfVec sqrt f pts u1 u2).1 else (itfVec sqrt f pts u1 u2).2) (k + d * sideN f i) =
      sideSign i * sideSum sqrt f pts u1 u2 (fun p => sideShape p i) k d := by
  obtain ⟨-, -, a, b⟩ := itfVec_flux sqrt f pts u1 u2 hp
  have hi' : i = 0 ∨ i = 1 := by omega
  rcases hi' with rfl | rfl
  · have := a k d hk hd
    unfold sideN sideSign sideShape
    simp only [if_true]
    rw [this]; ring
  · have := b k d hk hd
    unfold sideN sideSign sideShape
    simp only [Nat.one_ne_zero, if_false]
    rw [this]; ring

/-- **C64 (partial).**  The same on interfaces: the four matrices are the blocks of the Jacobian. -/
theorem itfGrad_exact_partial (f : Face) (pts : List (FPt ℝ × ℝ))
    (v1 : Fin (f.dim * f.nd1) → ℝ) (v2 : Fin (f.dim * f.n2) → ℝ) (hp : ∀ pw ∈ pts, FPtOk f pw.1)
    (hs : ∀ pw ∈ pts, PointSmooth pw.1 (valueAt f.nd1 pw.1.shape1 (List.ofFn v1))
      (valueAt f.n2 pw.1.shape2 (List.ofFn v2))) :
    ∃ J, itfGrad Real.sqrt f pts (List.ofFn v1) (List.ofFn v2) = .ok J ∧
      HasJacobian2 (f.dim * f.nd1) (f.dim * f.nd1) (f.dim * f.n2)
        (fun a b => (itfVec Real.sqrt f pts a b).1) J.m11 J.m12 v1 v2 ∧
      HasJacobian2 (f.dim * f.n2) (f.dim * f.nd1) (f.dim * f.n2)
        (fun a b => (itfVec Real.sqrt f pts a b).2) J.m21 J.m22 v1 v2 := by
  have : Nonempty (Mat ℝ × Mat ℝ) := ⟨(Convection.zeroMat 0, Convection.zeroMat 0)⟩
  choose! G hG _ _ using fun (p : FPt ℝ) (h : FPtOk f p ∧ PointSmooth p (valueAt f.nd1 p.shape1
    (List.ofFn v1)) (valueAt f.n2 p.shape2 (List.ofFn v2))) => quadGrad_at h.1 h.2
  have hG' : ∀ pw ∈ pts, quadGradBase Real.sqrt pw.1 f.n2 ⟨f.nd1, f.dim, List.ofFn v1⟩
      ⟨f.n2, f.dim, List.ofFn v2⟩ = .ok (G pw.1) :=
    fun pw hpw => hG pw.1 ⟨hp pw hpw, hs pw hpw⟩
  obtain ⟨J, e, ⟨⟨a1, a2⟩, ⟨a3, a4⟩, ⟨a5, a6⟩, ⟨a7, a8⟩⟩, hJ⟩ :=
    itfGrad_spec hp (List.ofFn v1) (List.ofFn v2) G hG'
  have h1 : ∀ k d, k < f.nd1 → d < f.dim → HasFDerivAt
      (fun z : (Fin (f.dim * f.nd1) → ℝ) × (Fin (f.dim * f.n2) → ℝ) =>
        Convection.Spec.coef f.nd1 (List.ofFn z.1) k d)
      ((prj _ (k + d * f.nd1)).comp (ContinuousLinearMap.fst ℝ _ _)) (v1, v2) := by
    intro k d _ _
    exact (ofFn_hasFDeriv v1 (k + d * f.nd1)).comp (v1, v2) (ContinuousLinearMap.fst ℝ _ _).hasFDerivAt
  have h2 : ∀ k d, k < f.n2 → d < f.dim → HasFDerivAt
      (fun z : (Fin (f.dim * f.nd1) → ℝ) × (Fin (f.dim * f.n2) → ℝ) =>
        Convection.Spec.coef f.n2 (List.ofFn z.2) k d)
      ((prj _ (k + d * f.n2)).comp (ContinuousLinearMap.snd ℝ _ _)) (v1, v2) := by
    intro k d _ _
    exact (ofFn_hasFDeriv v2 (k + d * f.n2)).comp (v1, v2) (ContinuousLinearMap.snd ℝ _ _).hasFDerivAt
  have split : ∀ n t : Nat, t < f.dim * n → ∃ k d, k < n ∧ d < f.dim ∧ t = k + d * n := by
    intro n t ht
    have hn : 0 < n := by by_contra h; simp [Nat.eq_zero_of_not_pos h] at ht
    exact ⟨t % n, t / n, Nat.mod_lt _ hn, Nat.div_lt_of_lt_mul (by rw [Nat.mul_comm]; exact ht), by
      rw [Nat.mul_comm]; exact (Nat.mod_add_div t n).symm⟩
  have s1 : ∀ (n : Nat) (c : Nat → ℝ) (L : ((Fin (f.dim * f.nd1) → ℝ) × (Fin (f.dim * f.n2) → ℝ))
      →L[ℝ] (Fin (f.dim * n) → ℝ)),
      ∑ s : Fin (f.dim * n), c s • ((ContinuousLinearMap.proj s : (Fin (f.dim * n) → ℝ) →L[ℝ] ℝ).comp L) =
        ∑ l ∈ range n, ∑ e ∈ range f.dim, c (l + e * n) • (prj (f.dim * n) (l + e * n)).comp L := by
    intro n c L
    rw [sum_comm, ← sum_layout n f.dim (fun s => c s • (prj (f.dim * n) s).comp L), Nat.mul_comm n,
      Finset.sum_range]
    exact sum_congr rfl fun s _ => by rw [prj, dif_pos s.2]
  refine ⟨J, e, ⟨a1, a2, a3, a4, fun t => ?_⟩, ⟨a5, a6, a7, a8, fun t => ?_⟩⟩
  · obtain ⟨k, d, hk, hd, ht⟩ := split f.nd1 t t.2
    rw [ht, s1, s1]
    have hv : ∀ a b, ve (itfVec Real.sqrt f pts a b).1 (k + d * f.nd1) =
        sideSign 0 * sideSum Real.sqrt f pts a b (fun p => sideShape p 0) k d :=
      fun a b => itfVec_pos (u1 := a) (u2 := b) hp (i := 0) (by omega) hk hd
    simp only [hv]
    refine (sideSum_hasFDeriv hp h1 h2 hs hG' (i := 0) (k := k) hd).congr_fderiv ?_
    congr 1
    · exact sum_congr rfl fun l hl => sum_congr rfl fun e he => by
        rw [← hJ 0 0 k d l e (by omega) (by omega) hk hd (mem_range.1 hl) (mem_range.1 he)]; rfl
    · exact sum_congr rfl fun l hl => sum_congr rfl fun e he => by
        rw [← hJ 0 1 k d l e (by omega) (by omega) hk hd (mem_range.1 hl) (mem_range.1 he)]; rfl
  · obtain ⟨k, d, hk, hd, ht⟩ := split f.n2 t t.2
    rw [ht, s1, s1]
    have hv : ∀ a b, ve (itfVec Real.sqrt f pts a b).2 (k + d * f.n2) =
        sideSign 1 * sideSum Real.sqrt f pts a b (fun p => sideShape p 1) k d :=
      fun a b => itfVec_pos (u1 := a) (u2 := b) hp (i := 1) (by omega) hk hd
    simp only [hv]
    refine (sideSum_hasFDeriv hp h1 h2 hs hG' (i := 1) (k := k) hd).congr_fderiv ?_
    congr 1
    · exact sum_congr rfl fun l hl => sum_congr rfl fun e he => by
        rw [← hJ 1 0 k d l e (by omega) (by omega) hk hd (mem_range.1 hl) (mem_range.1 he)]; rfl
    · exact sum_congr rfl fun l hl => sum_congr rfl fun e he => by
        rw [← hJ 1 1 k d l e (by omega) (by omega) hk hd (mem_range.1 hl) (mem_range.1 he)]; rfl

/-! ## Fluid at rest -/

variable {E : Type} [NormedAddCommGroup E] [NormedSpace ℝ E]

theorem outflow_rest {dim : Nat} {a : Nat → E → ℝ} {a' : Nat → E →L[ℝ] ℝ} {x : E}
    (ha : ∀ d < dim, HasFDerivAt (a d) (a' d) x) (h0 : ∀ d < dim, a d x = 0) (n : Nat → ℝ) {d : Nat}
    (hd : d < dim) :
    HasFDerivAt (fun y => outflow dim (fun d => a d y) n d) (0 : E →L[ℝ] ℝ) x := by
  refine (outflow_hasFDeriv (n := n) ha hd).congr_fderiv ?_
  refine sum_eq_zero fun e _ => ?_
  have : inner dim n (fun d => a d x) = 0 :=
    sum_eq_zero fun d hd => by dsimp only; rw [h0 d (mem_range.1 hd), mul_zero]
  rw [this, h0 d hd, zero_mul, zero_mul, add_zero, zero_smul]

theorem inner_rest {dim : Nat} {a : Nat → ℝ} (h0 : ∀ d < dim, a d = 0) (n : Nat → ℝ) :
    inner dim n a = 0 :=
  sum_eq_zero fun d hd => by rw [h0 d (mem_range.1 hd), mul_zero]

theorem laxF_rest {dim : Nat} {a b : Nat → E → ℝ} {a' b' : Nat → E →L[ℝ] ℝ} {x : E}
    (ha : ∀ d < dim, HasFDerivAt (a d) (a' d) x) (hb : ∀ d < dim, HasFDerivAt (b d) (b' d) x)
    (ha0 : ∀ d < dim, a d x = 0) (hb0 : ∀ d < dim, b d x = 0) (n : Nat → ℝ) {d : Nat} (hd : d < dim) :
    HasFDerivAt (fun y => laxF Real.sqrt dim (fun d => a d y) (fun d => b d y) n d) (0 : E →L[ℝ] ℝ) x := by
  have h1 := outflow_rest ha ha0 n hd
  have h2 := outflow_rest hb hb0 n hd
  have ca := (hasFDerivAt_inner ha ha).continuousAt.sqrt
  have cb := (hasFDerivAt_inner hb hb).continuousAt.sqrt
  have hj : HasFDerivAt (fun y => a d y - b d y) (a' d - b' d) x := (ha d hd).sub (hb d hd)
  have h3 := hasFDerivAt_mul_zero (ca.max cb) hj (by rw [ha0 d hd, hb0 d hd, sub_zero])
  have h4 := ((h1.add h2).const_mul (2⁻¹ : ℝ)).add
    (h3.const_mul (Real.sqrt (inner dim n n)))
  refine (h4.congr_of_eventuallyEq (Filter.Eventually.of_forall fun y => ?_)).congr_fderiv ?_
  · simp only [laxF, outflow, Pi.add_apply]; ring
  · have e1 : inner dim (fun d => a d x) (fun d => a d x) = 0 := inner_rest ha0 _
    have e2 : inner dim (fun d => b d x) (fun d => b d x) = 0 := inner_rest hb0 _
    simp only [e1, e2, Real.sqrt_zero, max_self, zero_smul, smul_zero, add_zero]

theorem valueAt_rest (n nd : Nat) (shape : List ℝ) (m d : Nat) :
    valueAt nd shape ((List.ofFn (fun _ : Fin n => (0 : ℝ))).drop m) d = 0 := by
  unfold valueAt Convection.Spec.coef
  refine sum_eq_zero fun k _ => ?_
  rw [ve_drop, ve_ofFn]
  have : prj n (m + (k + d * nd)) (fun _ : Fin n => (0 : ℝ)) = 0 := by
    have := (prj n (m + (k + d * nd))).map_zero
    exact this
  rw [this, zero_mul]

/-- **C64 is violated at rest.**  Take a face, interior or on a wall with zero prescribed velocity, and
zero velocity.  The element vector is differentiable there, with Jacobian zero; but `AssembleFaceGrad`
divides zero by zero. -/
theorem faceGrad_rest_ub (f : Face) (pts : List (FPt ℝ × ℝ)) (hp : ∀ pw ∈ pts, FPtOk f pw.1)
    (hud : ∀ pw ∈ pts, ∀ v, pw.1.ud = some v → ∀ d < f.dim, ve v d = 0)
    (hne : ∃ pw ∈ pts, pw.1.el2 = true ∨ pw.1.ud.isSome = true) :
    HasJacobian (f.dim * (f.nd1 + f.n2)) (faceVec Real.sqrt f pts)
      (Convection.zeroMat (f.dim * (f.nd1 + f.n2))) (fun _ => 0) ∧
    faceGrad Real.sqrt f pts (List.ofFn (fun _ : Fin (f.dim * (f.nd1 + f.n2)) => (0 : ℝ))) =
      .error .ub := by
  constructor
  · refine ⟨rfl, rfl, fun t => ?_⟩
    obtain ⟨i, k, d, hi, hk, hd, ht⟩ := pos_surj t.2
    have hz : ∑ s : Fin (f.dim * (f.nd1 + f.n2)), ent (Convection.zeroMat (f.dim * (f.nd1 + f.n2)) : Mat ℝ)
        t s • (ContinuousLinearMap.proj s : (Fin (f.dim * (f.nd1 + f.n2)) → ℝ) →L[ℝ] ℝ) = 0 :=
      sum_eq_zero fun s _ => by rw [Convection.ent_zeroMat t.2 s.2, zero_smul]
    rw [hz, ht]
    simp only [faceVec_pos hp hi hk hd]
    have h1 : ∀ k d, k < f.nd1 → d < f.dim → HasFDerivAt
        (fun z : Fin (f.dim * (f.nd1 + f.n2)) → ℝ => Convection.Spec.coef f.nd1 (List.ofFn z) k d)
        (prj _ (k + d * f.nd1)) (fun _ => 0) := fun k d _ _ => ofFn_hasFDeriv _ _
    have h2 : ∀ k d, k < f.n2 → d < f.dim → HasFDerivAt
        (fun z : Fin (f.dim * (f.nd1 + f.n2)) → ℝ =>
          Convection.Spec.coef f.n2 ((List.ofFn z).drop (f.nd1 * f.dim)) k d)
        (prj _ (f.nd1 * f.dim + (k + d * f.n2))) (fun _ => 0) := by
      intro k d _ _
      unfold Convection.Spec.coef
      simp only [ve_drop]
      exact ofFn_hasFDeriv _ _
    have hpt : ∀ pw ∈ pts, HasFDerivAt (fun z : Fin (f.dim * (f.nd1 + f.n2)) → ℝ =>
        wq pw.1 pw.2 * ve (sideShape pw.1 i) k *
        pointFlux Real.sqrt pw.1 (valueAt f.nd1 pw.1.shape1 (List.ofFn z))
          (valueAt f.n2 pw.1.shape2 ((List.ofFn z).drop (f.nd1 * f.dim))) d)
        ((fun _ => 0 : FPt ℝ × ℝ → (Fin (f.dim * (f.nd1 + f.n2)) → ℝ) →L[ℝ] ℝ) pw) (fun _ => 0) := by
      intro pw hpw
      have a1 := value_hasFDeriv (shape := pw.1.shape1) h1
      have a2 := value_hasFDeriv (shape := pw.1.shape2) h2
      have z1 : ∀ d < f.dim, valueAt f.nd1 pw.1.shape1 (List.ofFn
          (fun _ : Fin (f.dim * (f.nd1 + f.n2)) => (0 : ℝ))) d = 0 :=
        fun d _ => by simpa using valueAt_rest (f.dim * (f.nd1 + f.n2)) f.nd1 pw.1.shape1 0 d
      have z2 : ∀ d < f.dim, valueAt f.n2 pw.1.shape2 ((List.ofFn
          (fun _ : Fin (f.dim * (f.nd1 + f.n2)) => (0 : ℝ))).drop (f.nd1 * f.dim)) d = 0 :=
        fun d _ => valueAt_rest _ _ _ _ d
      have key : HasFDerivAt (fun z : Fin (f.dim * (f.nd1 + f.n2)) → ℝ =>
          pointFlux Real.sqrt pw.1 (valueAt f.nd1 pw.1.shape1 (List.ofFn z))
            (valueAt f.n2 pw.1.shape2 ((List.ofFn z).drop (f.nd1 * f.dim))) d)
          (0 : (Fin (f.dim * (f.nd1 + f.n2)) → ℝ) →L[ℝ] ℝ) (fun _ => 0) := by
        unfold pointFlux
        rw [(hp pw hpw).dim]
        by_cases he : pw.1.el2
        · simp only [he, if_true]
          exact laxF_rest a1 a2 z1 z2 _ hd
        · cases hu : pw.1.ud with
          | none =>
            simp only [he, Bool.false_eq_true, if_false]
            exact outflow_rest a1 z1 _ hd
          | some v =>
            have hv : ∀ d < f.dim, HasFDerivAt (fun _ : Fin (f.dim * (f.nd1 + f.n2)) → ℝ => ve v d)
              (0 : (Fin (f.dim * (f.nd1 + f.n2)) → ℝ) →L[ℝ] ℝ) (fun _ => 0) :=
              fun d _ => hasFDerivAt_const _ _
            simp only [he, Bool.false_eq_true, if_false]
            exact laxF_rest a1 hv z1 (hud pw hpw v hu) _ hd
      have := key.const_mul (wq pw.1 pw.2 * ve (sideShape pw.1 i) k)
      rwa [smul_zero] at this
    have := (list_sum_hasFDeriv pts hpt).const_mul (sideSign i)
    refine this.congr_fderiv ?_
    have : ∀ l : List (FPt ℝ × ℝ), (l.map (fun _ => (0 : (Fin (f.dim * (f.nd1 + f.n2)) → ℝ) →L[ℝ] ℝ))).sum
        = 0 := by
      intro l; induction l with
      | nil => rfl
      | cons _ l ih => simp
    rw [this, smul_zero]
  · unfold faceGrad
    dsimp only
    set u := List.ofFn (fun _ : Fin (f.dim * (f.nd1 + f.n2)) => (0 : ℝ)) with hu0
    have hpt : ∀ pw ∈ pts, pw.1.el2 = true ∨ pw.1.ud.isSome = true →
        quadGradBase Real.sqrt pw.1 f.n2 ⟨f.nd1, f.dim, u⟩ ⟨f.n2, f.dim, u.drop (f.nd1 * f.dim)⟩ =
          .error .ub := by
      intro pw hpw hc
      have ok := hp pw hpw
      have v1 : ∀ d < f.dim, ve ((⟨f.nd1, f.dim, u⟩ : Mat ℝ).mulTV pw.1.shape1) d = 0 := by
        intro d hd
        rw [ve_side hd, hu0]
        simpa using valueAt_rest (f.dim * (f.nd1 + f.n2)) f.nd1 pw.1.shape1 0 d
      have l1 : ((⟨f.nd1, f.dim, u⟩ : Mat ℝ).mulTV pw.1.shape1).length = f.dim := by rw [length_mulTV]
      have v2 : ∀ d < f.dim, ve (pw.1.other f.n2 ⟨f.n2, f.dim, u.drop (f.nd1 * f.dim)⟩) d = 0 := by
        intro d hd
        unfold FPt.other
        split
        · rw [ve_side hd]; exact valueAt_rest _ _ _ _ d
        · cases hu : pw.1.ud with
          | none => rfl
          | some v => exact hud pw hpw v hu d hd
      have he : (decide (f.n2 ≠ 0) || pw.1.ud.isSome) = true := by
        rcases hc with h | h
        · simp [(n2_ne ok).2 h]
        · simp [h]
      unfold quadGradBase
      rw [he, ok.dim]
      refine gradFlux_ub l1 _ ?_ ?_
      · rw [inner_rest v1, inner_rest v2]
      · rw [inner_rest v1, Real.sqrt_zero]
    have hok : ∀ pw ∈ pts, ¬(pw.1.el2 = true ∨ pw.1.ud.isSome = true) → ∃ g,
        quadGradBase Real.sqrt pw.1 f.n2 ⟨f.nd1, f.dim, u⟩ ⟨f.n2, f.dim, u.drop (f.nd1 * f.dim)⟩ =
          .ok g := by
      intro pw hpw hc
      have he : ¬pw.1.el2 = true := fun h => hc (.inl h)
      have hu : pw.1.ud = none := by
        cases h : pw.1.ud with
        | none => rfl
        | some v => exact absurd (.inr (by rw [h]; rfl)) hc
      obtain ⟨g, hg, -⟩ := quadGrad_at (u1 := u) (u2 := u.drop (f.nd1 * f.dim)) (hp pw hpw) (by
        unfold PointSmooth; rw [if_neg he, hu]; trivial)
      exact ⟨g, hg⟩
    clear_value u
    generalize (Convection.zeroMat (f.dim * (f.nd1 + f.n2)) : Mat ℝ) = m0
    clear hp hud hu0
    induction pts generalizing m0 with
    | nil => obtain ⟨pw, h, -⟩ := hne; cases h
    | cons q l ih =>
      rw [List.foldlM_cons]
      by_cases hq : q.1.el2 = true ∨ q.1.ud.isSome = true
      · rw [hpt q (by simp) hq]; rfl
      · obtain ⟨g, hg⟩ := hok q (by simp) hq
        rw [hg]
        obtain ⟨pw, hm, hpw⟩ := hne
        refine ih ⟨pw, ?_, hpw⟩ (fun r hr => hpt r (by simp [hr])) (fun r hr => hok r (by simp [hr])) _
        rcases List.mem_cons.1 hm with rfl | h
        · exact absurd hpw hq
        · exact h

/-! ## Examples -/

/-- A face of a quadrilateral with two shape functions and one with one, in two dimensions. -/
def exFace : Face := ⟨2, 2, 1⟩
/-- A point of it, with the normal `(2, 0)`. -/
def exPt (R : Type) [Field R] : FPt R :=
  { dim := 2, nd1 := 2, dof2 := 1, shape1 := [1 / 2, 1 / 2], shape2 := [1], nor := [2, 0], el2 := true,
    q := some 3, ud := none }
/-- A point of a boundary face where the velocity `(1, 0)` is prescribed. -/
def exWall (R : Type) [Field R] : FPt R :=
  { dim := 2, nd1 := 2, dof2 := 2, shape1 := [1 / 2, 1 / 2], shape2 := [], nor := [2, 0], el2 := false,
    q := none, ud := some [1, 0] }

theorem exPt_ok (R : Type) [Field R] : FPtOk exFace (exPt R) :=
  ⟨rfl, rfl, rfl, Nat.one_pos, rfl, fun _ => rfl, rfl, fun _ h => by cases h⟩

theorem exWall_ok (R : Type) [Field R] : FPtOk ⟨2, 2, 0⟩ (exWall R) :=
  ⟨rfl, rfl, rfl, Nat.two_pos, rfl, fun h => (by cases h), rfl, fun _ h => by cases h; rfl⟩

/-- A square root that is right for the values below. -/
def exSqrt (x : ℚ) : ℚ := if x = 25 then 5 else if x = 4 then 2 else if x = 1 then 1 else 0

example : itfVec exSqrt exFace [(exPt ℚ, 1)] [3, 3, 4, 4] [1, 0] =
    ([-45, -45, -78, -78], [90, 156]) := by decide +kernel

example : ∀ pw ∈ [(exPt ℚ, (1 : ℚ))], (FPtOk exFace pw.1 ∧ pw.1.el2 = true) ∧
    ∑ k ∈ range 2, ve pw.1.shape1 k = 1 ∧ ∑ k ∈ range 1, ve pw.1.shape2 k = 1 := by
  simp only [List.mem_singleton, forall_eq]
  exact ⟨⟨exPt_ok ℚ, rfl⟩, by decide +kernel, by decide +kernel⟩

example : ∀ pw ∈ [(exPt ℚ, (1 : ℚ))], Agrees exFace pw.1 [3, 3, 4, 4] [3, 4] := by
  simp only [List.mem_singleton, forall_eq]
  show ∀ d < 2, _
  decide +kernel

/-- The hypotheses of the Jacobian theorem on an interface. -/
example : ∀ pw ∈ [(exPt ℝ, (1 : ℝ))], FPtOk exFace pw.1 ∧
    PointSmooth pw.1 (valueAt 2 pw.1.shape1 (List.ofFn ![(3 : ℝ), 3, 4, 4]))
      (valueAt 1 pw.1.shape2 (List.ofFn ![(1 : ℝ), 0])) := by
  simp only [List.mem_singleton, forall_eq]
  refine ⟨exPt_ok ℝ, ?_⟩
  unfold PointSmooth
  rw [if_pos (show (exPt ℝ).el2 = true from rfl)]
  left
  simp [inner, valueAt, Convection.Spec.coef, ve, exPt, sum_range_succ, List.ofFn_succ]
  norm_num

/-- The same on a boundary face whose prescribed velocity the field meets. -/
example : ∀ pw ∈ [(exWall ℝ, (1 : ℝ))], FPtOk ⟨2, 2, 0⟩ pw.1 ∧
    PointSmooth pw.1 (valueAt 2 pw.1.shape1 (List.ofFn ![(1 : ℝ), 1, 0, 0])) (fun _ => 0) := by
  simp only [List.mem_singleton, forall_eq]
  refine ⟨exWall_ok ℝ, ?_⟩
  unfold PointSmooth
  rw [if_neg (show ¬(exWall ℝ).el2 = true by decide)]
  show Smooth 2 _ (ve [1, 0])
  right
  refine ⟨fun d hd => ?_, ?_⟩
  · have hd' : d = 0 ∨ d = 1 := by omega
    rcases hd' with rfl | rfl <;>
      norm_num [valueAt, Convection.Spec.coef, ve, exWall, sum_range_succ, List.ofFn_succ]
  · norm_num [inner, valueAt, Convection.Spec.coef, ve, exWall, sum_range_succ, List.ofFn_succ]

/-- At rest, on an interior face. -/
example : faceGrad Real.sqrt exFace [(exPt ℝ, 1)] (List.ofFn (fun _ : Fin 6 => (0 : ℝ))) = .error .ub :=
  (faceGrad_rest_ub exFace [(exPt ℝ, 1)]
    (by simp only [List.mem_singleton, forall_eq]; exact exPt_ok ℝ)
    (by simp only [List.mem_singleton, forall_eq]; exact fun v h => by cases h)
    ⟨_, List.mem_singleton.2 rfl, .inl rfl⟩).2

end Verif.LaxF
