import Verif.Spec.SteadyNS
import Verif.Proofs.Unsteady

/-!
# Lemmas for C76
-/

namespace Verif.SteadyNS

open Verif Verif.LinAlg Verif.LinAlg.Spec Verif.Unsteady Verif.SteadyNS.Spec Finset
open Verif.Unsteady.Spec
open Verif.Blocks (BlockVector)
open Verif.Blocks.Spec (IsOffsets HasSizes)
open Verif.EqpRom (tab_take_sum tab_sum)

variable {R : Type}

section
variable [CommRing R]

theorem two_offsets (a b : Nat) : IsOffsets [0, a, a + b] [a, b] := by
  refine ⟨rfl, rfl, fun i s h => ?_⟩
  match i with
  | 0 => cases h; exact ⟨0, rfl, by simp⟩
  | 1 => cases h; exact ⟨a, rfl, rfl⟩

theorem last_ok {offs : List Nat} {n : Nat} {w : Nat → Nat} (h : IsOffsets offs (tab n w)) :
    rd offs (offs.length - 1) = .ok (first w n) := by
  rw [h.1, length_tab, Nat.add_sub_cancel]
  exact offs_first h le_rfl

/-- A two by two block matrix without a lower right block, applied to a vector. -/
theorem saddle_rows {b : BlockMat R} {a p : Nat} {K Bt B : Nat → Nat → R}
    (hr : b.roffs = [0, a, a + p]) (hc : b.coffs = [0, a, a + p])
    (h00 : b.blk 0 0 = some ⟨a, a, K⟩) (h01 : b.blk 0 1 = some ⟨a, p, Bt⟩)
    (h10 : b.blk 1 0 = some ⟨p, a, B⟩)
    (hrest : ∀ i j, ¬ (i = 0 ∧ j = 0) → ¬ (i = 0 ∧ j = 1) → ¬ (i = 1 ∧ j = 0) → b.blk i j = none) :
    Shapes b [a, p] [a, p] ∧ (mono b).h = a + p ∧ (mono b).w = a + p ∧
    (∀ r c, r < a → c < a → (mono b).val r c = K r c) ∧
    (∀ r c, r < a → c < p → (mono b).val r (a + c) = Bt r c) ∧
    (∀ r c, r < p → c < a → (mono b).val (a + r) c = B r c) ∧
    ∀ r c, r < p → c < p → (mono b).val (a + r) (a + c) = 0 := by
  have hz := two_offsets a p
  have hs : Shapes b [a, p] [a, p] := by
    intro i j m hm
    by_cases c0 : i = 0 ∧ j = 0
    · obtain ⟨rfl, rfl⟩ := c0
      rw [h00] at hm; cases hm; exact ⟨rfl, rfl⟩
    by_cases c1 : i = 0 ∧ j = 1
    · obtain ⟨rfl, rfl⟩ := c1
      rw [h01] at hm; cases hm; exact ⟨rfl, rfl⟩
    by_cases c2 : i = 1 ∧ j = 0
    · obtain ⟨rfl, rfl⟩ := c2
      rw [h10] at hm; cases hm; exact ⟨rfl, rfl⟩
    rw [hrest i j c0 c1 c2] at hm; cases hm
  have hr' : IsOffsets b.roffs [a, p] := by rw [hr]; exact hz
  have hc' : IsOffsets b.coffs [a, p] := by rw [hc]; exact hz
  refine ⟨hs, ?_, ?_, fun r c h1 h2 => ?_, fun r c h1 h2 => ?_, fun r c h1 h2 => ?_, fun r c h1 h2 => ?_⟩
  · show (b.roffs.getLast?).getD 0 = _
    rw [hr]; rfl
  · show (b.coffs.getLast?).getD 0 = _
    rw [hc]; rfl
  · have := mono_entry hr' hc' hs (i := 0) (j := 0) (s := a) (s' := a) rfl rfl h1 h2
    simp only [List.take_zero, List.sum_nil, Nat.zero_add] at this
    rw [this]; unfold bval; rw [h00]
  · have := mono_entry hr' hc' hs (i := 0) (j := 1) (s := a) (s' := p) rfl rfl h1 h2
    simp only [List.take_zero, List.sum_nil, Nat.zero_add, List.take_succ_cons, List.sum_cons, Nat.add_zero] at this
    rw [this]; unfold bval; rw [h01]
  · have := mono_entry hr' hc' hs (i := 1) (j := 0) (s := p) (s' := a) rfl rfl h1 h2
    simp only [List.take_zero, List.sum_nil, Nat.zero_add, List.take_succ_cons, List.sum_cons, Nat.add_zero] at this
    rw [this]; unfold bval; rw [h10]
  · have := mono_entry hr' hc' hs (i := 1) (j := 1) (s := p) (s' := p) rfl rfl h1 h2
    simp only [List.take_zero, List.sum_nil, List.take_succ_cons, List.sum_cons, Nat.add_zero] at this
    rw [this]; unfold bval; rw [hrest 1 1 (by omega) (by omega) (by omega)]

theorem conv_ok {P : Flow R} {f : Forms R} (h : P.FormsOk f) :
    ConvOk f.conv P.n P.nu (fun _ => P.F) (fun _ => P.I) := by
  refine ⟨fun t m x hm hx => h.mult m x hm hx, fun t x y hx hy => ?_⟩
  unfold Forms.conv
  dsimp only
  cases hi : f.itf with
  | none => exact ⟨y, rfl, hy, fun m k _ _ => by rw [h.noItf hi, add_zero]⟩
  | some g => exact h.itf g hi x y hx hy

omit [CommRing R] in
theorem part_congr {w : Nat → Nat} {n m : Nat} (hm : m < n) {x y : Nat → R}
    (h : ∀ t, t < first w n → x t = y t) : part w x m = part w y m := by
  refine List.map_congr_left fun l hl => ?_
  have := List.mem_range.1 hl
  have := first_bound w hm
  exact h _ (by omega)

omit [CommRing R] in
theorem vecOf_congr {n : Nat} {x y : Nat → R} (h : ∀ t, t < n → x t = y t) : vecOf n x = vecOf n y :=
  List.map_congr_left fun l hl => h l (List.mem_range.1 hl)

theorem ve_zero (n t : Nat) : ve (List.replicate n (0 : R)) t = 0 := by
  unfold ve
  rw [List.getElem?_replicate]
  split <;> rfl

/-- The operator computes the value of the equations. -/
theorem mult_ok {P : Flow R} {o : Oper R} (h : P.Ok o) {x : List R} (hx : x.length = P.NU + P.NP) :
    ∃ y, o.mult x = .ok y ∧ y.length = P.NU + P.NP ∧ P.Value (ve x) (ve y) := by
  unfold Oper.mult
  have hlast : rd o.lin.roffs (o.lin.roffs.length - 1) = .ok (P.NU + P.NP) := by rw [h.roffs]; rfl
  obtain ⟨hs, _, _, h00, h01, h10, h11⟩ := saddle_rows h.roffs h.coffs h.M h.Bt h.B h.rest
  rw [last_ok h.u, ok_bind, show first P.nu P.n = P.NU from rfl, getSeg_eq (by omega), ok_bind]
  set xu := tab P.NU fun k => ve x (0 + k) with hxu
  have lxu : xu.length = first P.nu P.n := length_tab _ _
  have vxu : ∀ t, t < P.NU → ve xu t = ve x t := fun t ht => by rw [hxu, ve_tab ht, Nat.zero_add]
  have exu : xu = vecOf P.NU (ve x) := List.map_congr_left fun l _ => by rw [Nat.zero_add]
  obtain ⟨yu, e1, l1, h1⟩ := convect_ok (conv_ok h.forms) h.u 0 lxu
  have l1' : yu.length = P.NU := l1
  rw [h.n, e1, ok_bind, hlast, ok_bind]
  obtain ⟨y0, e2, l2, h2⟩ := setSeg_eq (y := List.replicate (P.NU + P.NP) (0 : R)) (off := 0) (l := yu) (by simp; omega)
  rw [e2, ok_bind]
  have hz := two_offsets P.NU P.NP
  obtain ⟨y, e3, l3, h3⟩ := addMult_ok (by rw [h.roffs]; exact hz) (by rw [h.coffs]; exact hz) hs (x := x) (y := y0) 1
    (by simpa using hx) (by simpa using l2)
  refine ⟨y, e3, by simpa using l3, fun m k hm hk => ?_, fun m k hm hk => ?_⟩
  · have hb : first P.nu m + k < P.NU := by have := first_bound P.nu hm; unfold Flow.NU; omega
    rw [h3, one_mul, h2, if_pos (by omega), Nat.sub_zero, h1 m k hm hk]
    unfold Flow.momentum
    rw [part_congr hm vxu, exu, show [P.NU, P.NP].sum = P.NU + P.NP by simp, sum_range_add, ← add_assoc]
    refine congrArg₂ _ (congrArg₂ _ rfl (sum_congr rfl fun c hc => ?_)) (sum_congr rfl fun c hc => ?_)
    · rw [h00 _ _ hb (mem_range.1 hc)]
    · rw [h01 _ _ hb (mem_range.1 hc)]
  · have hb : first P.np m + k < P.NP := by have := first_bound P.np hm; unfold Flow.NP; omega
    rw [h3, one_mul, h2, if_neg (by omega), ve_zero, zero_add]
    unfold Flow.divergence
    rw [show [P.NU, P.NP].sum = P.NU + P.NP by simp, sum_range_add,
      sum_congr rfl fun c hc => by rw [h10 _ _ hb (mem_range.1 hc)],
      sum_eq_zero (s := range P.NP) fun c hc => by rw [h11 _ _ hb (mem_range.1 hc), zero_mul], add_zero]

/-- The shapes of the matrices of the forms. -/
def MShapes (P : Flow R) (mats : Nat → Nat → Blk R) : Prop :=
  ∀ i j, i < P.n → j < P.n → (mats i j).h = P.nu i ∧ (mats i j).w = P.nu j

theorem gradOf_ok {P : Flow R} {f : Forms R} (h : P.FormsOk f) {gs : Grads R} (hg : P.GradsOk gs) {m : Nat}
    (hm : m < P.n) {x : List R} (hx : x.length = P.nu m) :
    ∃ g, gradOf f (gs m) m x = .ok g ∧ g.h = P.nu m ∧ g.w = P.nu m ∧
      ∀ k l, k < P.nu m → l < P.nu m → g.val k l = P.DF m x k l := by
  unfold gradOf
  cases hgm : gs m with
  | none =>
    obtain ⟨g, e, h1, h2, h3⟩ := h.asm m x ⟨x.length, x.length, fun _ _ => 0⟩ hm hx hx hx
    exact ⟨g, e, h1, h2, fun k l hk hl => by rw [h3 k l hk hl, zero_add]⟩
  | some g0 =>
    obtain ⟨s1, s2⟩ := hg m g0 hm hgm
    obtain ⟨g, e, h1, h2, h3⟩ := h.asm m x ⟨g0.h, g0.w, fun _ _ => 0⟩ hm hx s1 s2
    exact ⟨g, e, h1, h2, fun k l hk hl => by rw [h3 k l hk hl, zero_add]⟩

/-- A matrix of the forms before the interface terms. -/
def Filled (P : Flow R) (x : Nat → R) (m : Blk R) (i j : Nat) : Prop :=
  m.h = P.nu i ∧ m.w = P.nu j ∧ ∀ k l, k < P.nu i → l < P.nu j →
    m.val k l = if i = j then P.DF i (part P.nu x i) k l else 0

theorem fillMat_ok {P : Flow R} {o : Oper R} (h : P.Ok o) {gs : Grads R} (hg : P.GradsOk gs) {x : List R}
    (hx : x.length = P.NU + P.NP) {i j : Nat} (hi : i < P.n) (hj : j < P.n) (mats : Nat → Nat → Blk R) :
    ∃ m, fillMat o gs x i j mats = .ok (fun i' j' => if i' = i ∧ j' = j then m else mats i' j') ∧
      Filled P (ve x) m i j := by
  unfold fillMat
  have hb := first_bound P.nu hi
  have hb' : first P.nu P.n = P.NU := rfl
  rw [offs_first h.u (by omega), ok_bind, offs_first h.u (by omega), ok_bind, offs_first h.u (by omega), ok_bind,
    offs_first h.u (by omega), ok_bind, first_succ, first_succ, Nat.add_sub_cancel_left, Nat.add_sub_cancel_left]
  by_cases hij : i = j
  · subst hij
    rw [if_pos rfl, getSeg_eq (by omega), ok_bind]
    obtain ⟨g, e, h1, h2, h3⟩ := gradOf_ok h.forms hg hi (x := part P.nu (ve x) i) (length_tab _ _)
    rw [show (tab (P.nu i) fun k => ve x (first P.nu i + k)) = part P.nu (ve x) i from rfl, e, ok_bind]
    exact ⟨g, rfl, h1, h2, fun k l hk hl => by rw [if_pos rfl, h3 k l hk hl]⟩
  · rw [if_neg hij]
    exact ⟨_, rfl, rfl, rfl, fun k l hk hl => by rw [if_neg hij]⟩

/-- The matrices of the forms. -/
theorem mats_ok {P : Flow R} {o : Oper R} (h : P.Ok o) {gs : Grads R} (hg : P.GradsOk gs) {x : List R}
    (hx : x.length = P.NU + P.NP) :
    ∃ mats, o.mats gs x = .ok mats ∧ ∀ i j, i < P.n → j < P.n → (mats i j).h = P.nu i ∧ (mats i j).w = P.nu j ∧
      ∀ k l, k < P.nu i → l < P.nu j → (mats i j).val k l = P.dconv (ve x) i k j l := by
  unfold Oper.mats
  rw [h.n]
  obtain ⟨m1, e1, h1⟩ := loop_total (n := P.n)
    (body := fun i mats => loop P.n (fun j mats => fillMat o gs x i j mats) mats)
    (fun a mats => ∀ i j, i < a → j < P.n → Filled P (ve x) (mats i j) i j)
    (s := fun _ _ => ⟨0, 0, fun _ _ => 0⟩) (fun i j hi => by omega) (by
      intro a mats ha hm
      obtain ⟨m2, e2, h2⟩ := loop_total (n := P.n) (body := fun j mats => fillMat o gs x a j mats)
        (fun b mats => ∀ i j, i < a ∧ j < P.n ∨ i = a ∧ j < b → Filled P (ve x) (mats i j) i j)
        (s := mats) (fun i j hij => hm i j (by omega) (by omega)) (by
          intro b mats hb hm
          obtain ⟨m, e, hf⟩ := fillMat_ok h hg hx ha hb mats
          refine ⟨_, e, fun i j hij => ?_⟩
          by_cases c : i = a ∧ j = b
          · obtain ⟨rfl, rfl⟩ := c
            rw [if_pos ⟨rfl, rfl⟩]; exact hf
          · rw [if_neg c]
            exact hm i j (by omega))
      exact ⟨m2, e2, fun i j hi hj => h2 i j (by omega)⟩)
  rw [e1, ok_bind, last_ok h.u, ok_bind, show first P.nu P.n = P.NU from rfl, getSeg_eq (by omega), ok_bind]
  have exu : (tab P.NU fun k => ve x (0 + k)) = vecOf P.NU (ve x) := List.map_congr_left fun l _ => by rw [Nat.zero_add]
  rw [exu]
  cases hi : o.forms.itfGrad with
  | none =>
    refine ⟨m1, rfl, fun i j hi' hj => ?_⟩
    obtain ⟨a, b, c⟩ := h1 i j hi' hj
    refine ⟨a, b, fun k l hk hl => ?_⟩
    unfold Flow.dconv
    rw [c k l hk hl, h.forms.noGrad hi, add_zero]
  | some g =>
    obtain ⟨m2, e2, h2⟩ := h.forms.itfGrad g hi (vecOf P.NU (ve x)) m1 (length_tab _ _)
      (fun i j hi' hj => ⟨(h1 i j hi' hj).1, (h1 i j hi' hj).2.1⟩)
    refine ⟨m2, e2, fun i j hi' hj => ?_⟩
    obtain ⟨a, b, c⟩ := h2 i j hi' hj
    refine ⟨a, b, fun k l hk hl => ?_⟩
    rw [c k l hk hl, (h1 i j hi' hj).2.2 k l hk hl]
    rfl

omit [CommRing R] in
/-- All blocks of a square block matrix set. -/
theorem setAll_ok {n : Nat} {w : Nat → Nat} {offs : List Nat} (ho : IsOffsets offs (tab n w))
    {mats : Nat → Nat → Blk R} (hm : ∀ i j, i < n → j < n → (mats i j).h = w i ∧ (mats i j).w = w j) :
    ∃ b, loop n (fun i b => loop n (fun j b => setBlock b i j (mats i j)) b)
        (⟨offs, offs, false, fun _ _ => none⟩ : BlockMat R) = .ok b ∧ b.roffs = offs ∧ b.coffs = offs ∧
      Shapes b (tab n w) (tab n w) ∧ ∀ i j, i < n → j < n → b.blk i j = some (mats i j) := by
  have hz : ∀ i, i < n → (tab n w)[i]? = some (w i) := fun i hi => by rw [getElem?_tab, if_pos hi]
  obtain ⟨b, e, h1, h2, h3, h4⟩ := loop_total (n := n)
    (body := fun i b => loop n (fun j b => setBlock b i j (mats i j)) b)
    (fun a (b : BlockMat R) => b.roffs = offs ∧ b.coffs = offs ∧ Shapes b (tab n w) (tab n w) ∧
      ∀ i j, i < a → j < n → b.blk i j = some (mats i j))
    (s := ⟨offs, offs, false, fun _ _ => none⟩)
    ⟨rfl, rfl, (fun i j m h => by cases h), fun i j hi => by omega⟩ (by
      rintro a b ha ⟨h1, h2, h3, h4⟩
      obtain ⟨b', e', g1, g2, g3, g4⟩ := loop_total (n := n) (body := fun j b => setBlock b a j (mats a j))
        (fun c (b : BlockMat R) => b.roffs = offs ∧ b.coffs = offs ∧ Shapes b (tab n w) (tab n w) ∧
          ∀ i j, i < a ∧ j < n ∨ i = a ∧ j < c → b.blk i j = some (mats i j))
        (s := b) ⟨h1, h2, h3, fun i j hij => h4 i j (by omega) (by omega)⟩ (by
          rintro c b hc ⟨h1, h2, h3, h4⟩
          have zi : (tab n w)[a]? = some (mats a c).h := by rw [hz a ha, (hm a c ha hc).1]
          have zj : (tab n w)[c]? = some (mats a c).w := by rw [hz c hc, (hm a c ha hc).2]
          rw [setBlock_ok (by rw [h1]; exact ho) (by rw [h2]; exact ho) zi zj]
          refine ⟨_, rfl, h1, h2, h3.setBlock zi zj, fun i j hij => ?_⟩
          dsimp only
          by_cases q : i = a ∧ j = c
          · obtain ⟨rfl, rfl⟩ := q
            rw [if_pos ⟨rfl, rfl⟩]
          · rw [if_neg q]
            exact h4 i j (by omega))
      exact ⟨b', e', g1, g2, g3, fun i j hi hj => g4 i j (by omega)⟩)
  exact ⟨b, e, h1, h2, h3, h4⟩

theorem gradient_ok {P : Flow R} {o : Oper R} (h : P.Ok o) {gs : Grads R} (hg : P.GradsOk gs) {x : List R}
    (hx : x.length = P.NU + P.NP) :
    ∃ J gs', o.gradient gs x = .ok (J, gs') ∧ P.GradsOk gs' ∧ J.h = P.NU + P.NP ∧ J.w = P.NU + P.NP ∧
      P.Jacobian (ve x) J.val := by
  unfold Oper.gradient
  obtain ⟨mats, e1, h1⟩ := mats_ok h hg hx
  rw [e1, ok_bind]
  obtain ⟨b, e2, hr, hc, hs, hb⟩ := setAll_ok h.u (mats := mats)
    (fun i j hi hj => ⟨(h1 i j hi hj).1, (h1 i j hi hj).2.1⟩)
  have hu := h.u
  obtain ⟨d1, d2⟩ := mono_dims (b := b) (by rw [hr]; exact hu) (by rw [hc]; exact hu)
  rw [show ((List.range P.n).map P.nu).sum = P.NU from tab_sum _ _] at d1 d2
  have hlast : rd o.lin.roffs (o.lin.roffs.length - 1) = .ok (P.NU + P.NP) := by rw [h.roffs]; rfl
  have hz := two_offsets P.NU P.NP
  have hsys : o.system mats = .ok (mono ⟨[0, P.NU, P.NU + P.NP], [0, P.NU, P.NU + P.NP], false, fun i' j' =>
      if i' = 1 ∧ j' = 0 then some ⟨P.NP, P.NU, P.B⟩ else if i' = 0 ∧ j' = 1 then some ⟨P.NU, P.NP, P.Bt⟩ else
        if i' = 0 ∧ j' = 0 then some ⟨P.NU, P.NU, fun r c => P.K r c + (mono b).val r c⟩ else none⟩) := by
    unfold Oper.system
    rw [h.n, e2, ok_bind, h.M, h.Bt, h.B]
    simp only [deref, ok_bind]
    rw [if_pos ⟨d1.symm, d2.symm⟩, show (pure ⟨P.NU, P.NU, fun r c => P.K r c + (mono b).val r c⟩ :
      Outcome (Blk R)) = .ok _ from rfl, ok_bind, last_ok hu, ok_bind, hlast, ok_bind,
      show first P.nu P.n = P.NU from rfl,
      setBlock_ok hz hz rfl rfl, ok_bind, setBlock_ok hz hz rfl rfl, ok_bind,
      setBlock_ok hz hz rfl rfl, ok_bind]
    rfl
  rw [hsys, ok_bind]
  obtain ⟨_, j1, j2, j3, j4, j5, j6⟩ := saddle_rows (b := (⟨[0, P.NU, P.NU + P.NP], [0, P.NU, P.NU + P.NP], false,
      fun i' j' =>
      if i' = 1 ∧ j' = 0 then some ⟨P.NP, P.NU, P.B⟩ else if i' = 0 ∧ j' = 1 then some ⟨P.NU, P.NP, P.Bt⟩ else
        if i' = 0 ∧ j' = 0 then some ⟨P.NU, P.NU, fun r c => P.K r c + (mono b).val r c⟩ else none⟩ : BlockMat R))
    rfl rfl rfl rfl rfl (fun i j a b c => by dsimp only; rw [if_neg c, if_neg b, if_neg a])
  refine ⟨_, _, rfl, ?_, j1, j2, ⟨fun i k j l hi hj hk hl => ?_, j4, j5, j6⟩⟩
  · intro i g hi hgi
    dsimp only at hgi
    rw [h.n, if_pos hi] at hgi
    cases hgi
    exact ⟨(h1 i i hi hi).1, (h1 i i hi hi).2.1⟩
  · have bi : first P.nu i + k < P.NU := by have := first_bound P.nu hi; unfold Flow.NU; omega
    have bj : first P.nu j + l < P.NU := by have := first_bound P.nu hj; unfold Flow.NU; omega
    rw [j3 _ _ bi bj]
    have hzt : ∀ i, i < P.n → (tab P.n P.nu)[i]? = some (P.nu i) := fun i hi => by rw [getElem?_tab, if_pos hi]
    have hm := mono_entry (b := b) (by rw [hr]; exact hu) (by rw [hc]; exact hu) hs (hzt i hi) (hzt j hj) hk hl
    rw [tab_take_sum _ _ (by omega), tab_take_sum _ _ (by omega)] at hm
    rw [show (mono b).val (first P.nu i + k) (first P.nu j + l) = _ from hm]
    unfold bval
    rw [hb i j hi hj]
    dsimp only
    rw [(h1 i j hi hj).2.2 k l hk hl]

theorem gradients_ok {P : Flow R} {o : Oper R} (h : P.Ok o) (xs : List (List R)) :
    ∀ {gs : Grads R}, P.GradsOk gs → (∀ x ∈ xs, x.length = P.NU + P.NP) →
      ∃ gs', o.gradients gs xs = .ok gs' ∧ P.GradsOk gs' := by
  induction xs with
  | nil => intro gs hg _; exact ⟨gs, rfl, hg⟩
  | cons x xs ih =>
    intro gs hg hx
    obtain ⟨J, gs1, e, hg1, _⟩ := gradient_ok h hg (hx x (by simp))
    obtain ⟨gs', e', hg'⟩ := ih hg1 fun y hy => hx y (by simp [hy])
    refine ⟨gs', ?_, hg'⟩
    show (do let r ← o.gradient gs x; Oper.gradients o r.2 xs) = _
    rw [e, ok_bind, e']

/-- The sizes of a vector ordered by variable, sorted back. -/
theorem unsort_ok {n : Nat} {a b : Nat → Nat} {U : BlockVector R} (h : HasSizes U (bySub n a b))
    {offs : List Nat} (ho : IsOffsets offs (tab n a ++ tab n b)) {x : List R}
    (hl : x.length = first a n + first b n) :
    ∃ r, Blocks.sortBySubdomains n 2 ⟨x, offs⟩ U = .ok r ∧ HasSizes r (bySub n a b) ∧
      (∀ m k, m < n → k < a m → ve r.data (first a m + first b m + k) = ve x (first a m + k)) ∧
      ∀ m k, m < n → k < b m →
        ve r.data (first a (m + 1) + first b m + k) = ve x (first a n + (first b m + k)) := by
  have hx : HasSizes (⟨x, offs⟩ : BlockVector R) (tab n a ++ tab n b) := ⟨ho, by rw [byVar_sum]; exact hl⟩
  have hz : ∀ m v : Nat, m < n → v < 2 →
      (bySub n a b)[2 * m + v]? = (tab n a ++ tab n b)[n * v + m]? := by
    intro m v hm hv
    obtain ⟨b0, b1⟩ := bySub_get (a := a) (b := b) hm
    obtain ⟨c0, c1⟩ := byVar_get (a := a) (b := b) hm
    rcases v with _ | _ | v
    · simpa [c0] using b0
    · rw [Nat.zero_add, b1, Nat.mul_one, c1]
    · omega
  obtain ⟨r, e, hs, hb⟩ := Blocks.sortBySubdomains_spec n 2 ⟨x, offs⟩ U (tab n a ++ tab n b) (bySub n a b) hx h
    (by simp; omega) (bySub_length n a b) hz
  refine ⟨r, e, hs, fun m k hm hk => ?_, fun m k hm hk => ?_⟩
  · have := congrArg (fun l => l[k]?) (hb m 0 hm (by omega))
    simp only [Nat.mul_zero, Nat.zero_add, Nat.add_zero] at this
    rw [Blocks.blockOf_getElem? hs (bySub_get hm).1, Blocks.blockOf_getElem? hx (byVar_get hm).1, if_pos hk,
      if_pos hk, (byVar_take (by omega)).1, bySub_take (by omega)] at this
    unfold ve; rw [this]
  · have := congrArg (fun l => l[k]?) (hb m 1 hm (by omega))
    simp only [Nat.mul_one] at this
    rw [Blocks.blockOf_getElem? hs (bySub_get hm).2, Blocks.blockOf_getElem? hx (byVar_get hm).2, if_pos hk,
      if_pos hk, (byVar_take (by omega)).2, bySub_take_odd hm] at this
    unfold ve; rw [← Nat.add_assoc, this]

end

end Verif.SteadyNS
