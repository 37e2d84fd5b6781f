import Verif.Props.Convection
import Verif.Props.LinAlg
import Verif.Proofs.InterfaceForm
import Verif.Spec.TensorRom

/-! # Lemmas about the tensor ROM -/

namespace Verif.TensorRom

open Verif Verif.LinAlg Verif.LinAlg.Spec Verif.Convection Verif.Convection.Spec Verif.TensorRom.Spec Finset
open Verif.Blocks (Order getBlockIndex)
open Verif.Blocks.Spec (IsOffsets)
open Verif.InterfaceForm.Spec (dofPos dofSign dofAt gather scatterVec)
open Verif.InterfaceForm (dofAt_mem getSubVector_eq addElementVector_spec)
open Verif.EqpComp (OperType)

variable {R : Type} [CommRing R]

theorem gather_length (x : Nat → R) (dofs : List Int) : (gather x dofs).length = dofs.length := by
  simp [gather]

theorem ve_gather {x : Nat → R} {dofs : List Int} {k : Nat} (hk : k < dofs.length) :
    ve (gather x dofs) k = dofSign (dofAt dofs k) * x (dofPos (dofAt dofs k)) := by
  simp [ve, gather, dofAt, hk]

/-- Testing a scattered vector. -/
theorem sum_scatterVec {n : Nat} {dofs : List Int} (h : ∀ d ∈ dofs, dofPos d < n) (v : Nat → R)
    (q : List R) :
    ∑ t ∈ range n, v t * scatterVec dofs q t = ∑ k ∈ range dofs.length, ve (gather v dofs) k * ve q k := by
  unfold scatterVec
  simp only [mul_sum]
  rw [sum_comm]
  refine sum_congr rfl fun k hk => ?_
  have hk := mem_range.1 hk
  rw [ve_gather hk, sum_eq_single (dofPos (dofAt dofs k))]
  · rw [if_pos rfl]; ring
  · intro b _ hb; rw [if_neg (fun h => hb h.symm), mul_zero]
  · intro hb; exact absurd (mem_range.2 (h _ (dofAt_mem hk).2)) hb

/-- What one element contributes to the form with advecting field `w`. -/
theorem elem_form {E : Elem R} (hl : E.dofs.length = E.nd * E.dim)
    (hp : ∀ pw ∈ E.pts, PtOk pw.1 ∧ pw.1.nd = E.nd ∧ pw.1.dim = E.dim) (w : List R) (u v : List R) :
    ∑ k ∈ range E.dofs.length, ve v k * ve (triElemVec E.nd E.dim
      (E.pts.map (fun pw => (setVq pw.1 (evalAt pw.1 w), pw.2))) u) k =
      (E.pts.map fun pw => wq pw.1 pw.2 * ∑ d ∈ range pw.1.dim, value pw.1 v d *
        ∑ e ∈ range pw.1.dim, deriv pw.1 u d e * value pw.1 w e).sum := by
  rw [hl]
  have hp' : ElemOk E.nd E.dim
      (E.pts.map (fun pw => (setVq pw.1 (evalAt pw.1 w), pw.2))) := by
    intro pw hpw
    obtain ⟨q, hq, rfl⟩ := List.mem_map.1 hpw
    obtain ⟨a, b, c⟩ := hp q hq
    exact ⟨⟨a.1, a.2, a.3, a.4, a.5, a.6, a.7, a.8, a.9, a.10, a.11⟩, b, c⟩
  rw [sum_congr rfl fun k hk => by rw [triElemVec_eq hp' u (mem_range.1 hk)]]
  simp only [List.map_map]
  clear hl
  have key : ∀ pw ∈ E.pts, ∑ k ∈ range (E.nd * E.dim), ve v k *
      ve (triVec (setVq pw.1 (evalAt pw.1 w)) pw.2 u) k =
      wq pw.1 pw.2 * ∑ d ∈ range pw.1.dim, value pw.1 v d *
        ∑ e ∈ range pw.1.dim, deriv pw.1 u d e * value pw.1 w e := by
    intro pw hpw
    obtain ⟨a, b, c⟩ := hp pw hpw
    rw [← b, ← c]
    have a' : PtOk (setVq pw.1 (evalAt pw.1 w)) :=
      ⟨a.1, a.2, a.3, a.4, a.5, a.6, a.7, a.8, a.9, a.10, a.11⟩
    rw [sum_congr rfl fun k hk => by rw [triVec_ve a' pw.2 u (mem_range.1 hk)]]
    rw [← proj_layout (p := pw.1), mul_sum]
    refine sum_congr rfl fun t _ => ?_
    show ve v t * (wq pw.1 pw.2 * ve pw.1.shape (t % pw.1.nd) *
      ∑ e ∈ range pw.1.dim, deriv pw.1 u (t / pw.1.nd) e * ve (evalAt pw.1 w) e) = _
    rw [sum_congr rfl fun e he => by
      rw [show ve (evalAt pw.1 w) e = value pw.1 w e from ve_value (mem_range.1 he)]]
    ring
  clear hp hp'
  revert key
  generalize E.pts = l
  intro key
  induction l with
  | nil => simp
  | cons pw l ih =>
    have ih' := ih (fun q hq => key q (List.mem_cons_of_mem _ hq))
    have k1 := key pw (List.mem_cons_self ..)
    simp only [List.map_cons, List.sum_cons, mul_add, sum_add_distrib, Function.comp_apply]
    rw [k1, ih']

theorem sum_list_map {α : Type} {n : Nat} (l : List α) (v : Nat → R) (f : α → Nat → R) :
    ∑ t ∈ range n, v t * (l.map f).sum t = (l.map fun a => ∑ t ∈ range n, v t * f a t).sum := by
  induction l with
  | nil => simp
  | cons a l ih => simp [mul_add, sum_add_distrib, ih]

/-- `NonlinearForm::Mult` with advecting field `w`, tested with any `v`. -/
theorem formMult_spec {V : Fes R} (hV : FesOk V) (w u : Nat → R) :
    ∃ y, formMult V (tab V.size w) (tab V.size u) = .ok y ∧ y.length = V.size ∧
      ∀ v : Nat → R, ∑ t ∈ range V.size, v t * ve y t = convForm V w u v := by
  unfold formMult
  obtain ⟨y, e, h1, h2⟩ := loop_list_acc (l := V.elems) (fun y : List R => y.length = V.size) ve
    (fun E => scatterVec E.dofs (triElemVec E.nd E.dim (E.pts.map (fun pw =>
      (setVq pw.1 (evalAt pw.1 (gather w E.dofs)), pw.2))) (gather u E.dofs)))
    (s := vof V.size (fun _ => (0 : R)))
    (body := fun e y => (do
      let E ← rd V.elems e
      let el ← getSubVector (tab V.size u) E.dofs
      let pts ← withField E (tab V.size w)
      addElementVector y 0 E.dofs (triElemVec E.nd E.dim pts el) : Outcome (List R)))
    (by rw [vof_eq, length_tab]) (by
      intro k E y hE hr hy
      obtain ⟨a, b, c⟩ := hV E hE
      rw [hr, ok_bind, getSubVector_eq a, ok_bind]
      unfold withField
      rw [getSubVector_eq a]
      simp only [ok_bind, pure, Except.pure]
      have hlen : (triElemVec E.nd E.dim (E.pts.map (fun pw =>
          (setVq pw.1 (evalAt pw.1 (gather w E.dofs)), pw.2)))
          (gather u E.dofs)).length = E.nd * E.dim := by
        unfold triElemVec
        refine List.foldlRecOn _ _ (motive := fun l : List R => l.length = E.nd * E.dim)
          (by rw [vof_eq, length_tab]) ?_
        intro l _ pw hpw
        obtain ⟨q, hq, rfl⟩ := List.mem_map.1 hpw
        rw [triVecAdd_length]
        show q.1.nd * q.1.dim = _
        rw [(c q hq).2.1, (c q hq).2.2]
      obtain ⟨y', e1, e2, e3⟩ := addElementVector_spec (y := y) (off := 0) (dofs := E.dofs)
        (el := triElemVec E.nd E.dim (E.pts.map (fun pw =>
          (setVq pw.1 (evalAt pw.1 (gather w E.dofs)), pw.2))) (gather u E.dofs))
        (by intro d hd; rw [hy, Nat.zero_add]; exact a d hd) (by rw [hlen, b])
      refine ⟨y', e1, e2.trans hy, ?_⟩
      rw [e3]
      congr 1
      funext t
      unfold scatterVec
      simp only [Nat.zero_add])
  refine ⟨y, e, h1, fun v => ?_⟩
  rw [h2]
  have h0 : ve (vof V.size (fun _ => (0 : R))) = 0 := by
    funext t
    simp only [vof_eq, ve, getElem?_tab, Pi.zero_apply]
    split <;> rfl
  rw [h0, zero_add, sum_list_map]
  unfold convForm
  congr 1
  refine List.map_congr_left fun E hE => ?_
  obtain ⟨a, b, c⟩ := hV E hE
  rw [sum_scatterVec a, elem_form b c]

theorem idx3_inj {n i j k i' j' k' : Nat} (hi : i < n) (hj : j < n) (hi' : i' < n) (hj' : j' < n)
    (h : i + j * n + k * (n * n) = i' + j' * n + k' * (n * n)) : i = i' ∧ j = j' ∧ k = k' := by
  have e : ∀ a b c, a + b * n + c * (n * n) = a + (b + c * n) * n := by intros; ring
  rw [e, e] at h
  have h1 : i = i' := by
    have := congrArg (· % n) h
    simpa [Nat.add_mul_mod_self_right, Nat.mod_eq_of_lt hi, Nat.mod_eq_of_lt hi'] using this
  have h2 : j + k * n = j' + k' * n := by
    have := congrArg (· / n) h
    simpa [Nat.add_mul_div_right _ _ (show 0 < n by omega), Nat.div_eq_of_lt hi,
      Nat.div_eq_of_lt hi'] using this
  have h3 : j = j' := by
    have := congrArg (· % n) h2
    simpa [Nat.add_mul_mod_self_right, Nat.mod_eq_of_lt hj, Nat.mod_eq_of_lt hj'] using this
  refine ⟨h1, h3, ?_⟩
  rw [h3] at h2
  exact Nat.eq_of_mul_eq_mul_right (show 0 < n by omega) (by omega)

theorem idx3_lt {n i j k : Nat} (hi : i < n) (hj : j < n) (hk : k < n) :
    i + j * n + k * (n * n) < n * n * n := by
  have h1 : (k + 1) * (n * n) ≤ n * (n * n) := Nat.mul_le_mul_right _ (by omega)
  have h2 : (j + 1) * n ≤ n * n := Nat.mul_le_mul_right _ (by omega)
  rw [Nat.mul_assoc]
  rw [Nat.add_mul] at h1 h2
  omega

/-- Writing one entry of a cubic tensor. -/
theorem wr3 {n i j k : Nat} (hi : i < n) (hj : j < n) (hk : k < n) {data : List R}
    (hl : data.length = n * n * n) (v : R) :
    ∃ data', wr data (i + j * n + k * (n * n)) v = .ok data' ∧ data'.length = n * n * n ∧
      ∀ i' j' k' : Nat, i' < n → j' < n → k' < n → ve data' (i' + j' * n + k' * (n * n)) =
        if i' = i ∧ j' = j ∧ k' = k then v else ve data (i' + j' * n + k' * (n * n)) := by
  have hlt := idx3_lt hi hj hk
  refine ⟨_, wr_of_lt (by rw [hl]; exact hlt), by rw [List.length_set, hl], ?_⟩
  intro i' j' k' hi' hj' hk'
  unfold ve
  rw [List.getElem?_set]
  by_cases h : i' = i ∧ j' = j ∧ k' = k
  · obtain ⟨rfl, rfl, rfl⟩ := h
    rw [if_pos rfl, if_pos (by rw [hl]; exact hlt), if_pos ⟨rfl, rfl, rfl⟩]; rfl
  · rw [if_neg h, if_neg]
    intro hh
    obtain ⟨a, b, c⟩ := idx3_inj hi hj hi' hj' hh
    exact h ⟨a.symm, b.symm, c.symm⟩

theorem colHead_eq {b : Mat R} (hb : MatOk b) {i n : Nat} (hi : i < b.w) (hn : n ≤ b.h) :
    colHead b i n = .ok (tab n (vec b i)) := by
  unfold colHead
  rw [getSeg_eq]
  · congr 1
    refine tab_congr fun t _ => ?_
    unfold vec ent
    rw [Nat.add_comm]
  · have h1 : (i + 1) * b.h ≤ b.w * b.h := Nat.mul_le_mul_right _ (by omega)
    rw [Nat.add_mul, Nat.mul_comm b.w] at h1
    unfold MatOk at hb
    omega

theorem vdot_tab {n : Nat} {v : Nat → R} {y : List R} :
    vdot n (tab n v) y = ∑ t ∈ range n, v t * ve y t := by
  unfold vdot
  refine sum_congr rfl fun t ht => ?_
  rw [vget_eq, vget_eq, ve_tab (mem_range.1 ht)]

/-- Entries of the reduced tensor. -/
theorem reducedTensor_spec {oper : OperType} (ho : oper ≠ .lf) {b : Mat R} (hb : MatOk b) {V : Fes R}
    (hV : FesOk V) (hn : V.size ≤ b.h) (junk : Nat → R) :
    ∃ t, reducedTensor oper (some b) (some V) junk = .ok t ∧ t.nI = b.w ∧ t.nJ = b.w ∧ t.nK = b.w ∧
      TensorOk t ∧ ∀ i j k, i < b.w → j < b.w → k < b.w →
        tent t i j k = convForm V (vec b i) (vec b j) (vec b k) := by
  let n := b.w
  let C : Nat → Nat → Nat → R := fun i j k => convForm V (vec b i) (vec b j) (vec b k)
  have inner : ∀ i j (y : List R), i < n → j < n →
      (∀ v : Nat → R, ∑ t ∈ range V.size, v t * ve y t = convForm V (vec b i) (vec b j) v) →
      ∀ data : List R, data.length = n * n * n →
      ∃ data', loop n (fun k data => do
          let uk ← colHead b k V.size
          wr data (i + j * n + k * (n * n)) (vdot V.size uk y)) data = .ok data' ∧
        data'.length = n * n * n ∧ ∀ i' j' k' : Nat, i' < n → j' < n → k' < n →
          ve data' (i' + j' * n + k' * (n * n)) =
            if i' = i ∧ j' = j then C i' j' k' else ve data (i' + j' * n + k' * (n * n)) := by
    intro i j y hi hj hy data hl
    obtain ⟨d', e, h1, h2⟩ := loop_total (n := n) (body := fun k data => (do
          let uk ← colHead b k V.size
          wr data (i + j * n + k * (n * n)) (vdot V.size uk y) : Outcome (List R)))
      (fun k d => d.length = n * n * n ∧ ∀ i' j' k' : Nat, i' < n → j' < n → k' < n →
        ve d (i' + j' * n + k' * (n * n)) =
          if i' = i ∧ j' = j ∧ k' < k then C i' j' k' else ve data (i' + j' * n + k' * (n * n)))
      (s := data) ⟨hl, by intros; simp⟩ (by
        rintro k d hk ⟨a1, a2⟩
        rw [colHead_eq hb hk hn, ok_bind, vdot_tab, hy]
        obtain ⟨d1, e1, l1, v1⟩ := wr3 hi hj hk a1 (convForm V (vec b i) (vec b j) (vec b k))
        refine ⟨d1, e1, l1, ?_⟩
        intro i' j' k' hi' hj' hk'
        rw [v1 i' j' k' hi' hj' hk', a2 i' j' k' hi' hj' hk']
        by_cases h : i' = i ∧ j' = j
        · obtain ⟨rfl, rfl⟩ := h
          by_cases hkk : k' = k
          · subst hkk; simp [C]
          · simp only [true_and, hkk, if_false]
            by_cases hlt : k' < k
            · rw [if_pos hlt, if_pos (by omega)]
            · rw [if_neg hlt, if_neg (by omega)]
        · rw [if_neg (fun hh => h ⟨hh.1, hh.2.1⟩), if_neg (fun hh => h ⟨hh.1, hh.2.1⟩),
            if_neg (fun hh => h ⟨hh.1, hh.2.1⟩)])
    refine ⟨d', e, h1, ?_⟩
    intro i' j' k' hi' hj' hk'
    rw [h2 i' j' k' hi' hj' hk']
    simp [hk']
  have middle : ∀ i, i < n → ∀ data : List R, data.length = n * n * n →
      ∃ data', loop n (fun j data => do
          let uj ← colHead b j V.size
          let tmp ← formMult V (tab V.size (vec b i)) uj
          loop n (fun k data => do
            let uk ← colHead b k V.size
            wr data (i + j * n + k * (n * n)) (vdot V.size uk tmp)) data) data = .ok data' ∧
        data'.length = n * n * n ∧ ∀ i' j' k' : Nat, i' < n → j' < n → k' < n →
          ve data' (i' + j' * n + k' * (n * n)) =
            if i' = i then C i' j' k' else ve data (i' + j' * n + k' * (n * n)) := by
    intro i hi data hl
    obtain ⟨d', e, h1, h2⟩ := loop_total (n := n) (body := fun j data => (do
          let uj ← colHead b j V.size
          let tmp ← formMult V (tab V.size (vec b i)) uj
          loop n (fun k data => do
            let uk ← colHead b k V.size
            wr data (i + j * n + k * (n * n)) (vdot V.size uk tmp)) data : Outcome (List R)))
      (fun j d => d.length = n * n * n ∧ ∀ i' j' k' : Nat, i' < n → j' < n → k' < n →
        ve d (i' + j' * n + k' * (n * n)) =
          if i' = i ∧ j' < j then C i' j' k' else ve data (i' + j' * n + k' * (n * n)))
      (s := data) ⟨hl, by intros; simp⟩ (by
        rintro j d hj ⟨a1, a2⟩
        obtain ⟨y, ey, -, hy⟩ := formMult_spec hV (vec b i) (vec b j)
        rw [colHead_eq hb hj hn, ok_bind, ey, ok_bind]
        obtain ⟨d1, e1, l1, v1⟩ := inner i j y hi hj hy d a1
        refine ⟨d1, e1, l1, ?_⟩
        intro i' j' k' hi' hj' hk'
        rw [v1 i' j' k' hi' hj' hk', a2 i' j' k' hi' hj' hk']
        by_cases h : i' = i
        · subst h
          by_cases hkk : j' = j
          · subst hkk; simp
          · simp only [true_and, hkk, if_false]
            by_cases hlt : j' < j
            · rw [if_pos hlt, if_pos (by omega)]
            · rw [if_neg hlt, if_neg (by omega)]
        · simp [h])
    refine ⟨d', e, h1, ?_⟩
    intro i' j' k' hi' hj' hk'
    rw [h2 i' j' k' hi' hj' hk']
    simp [hj']
  obtain ⟨d', e, h1, h2⟩ := loop_total (n := n) (body := fun i data => (do
        let ui ← colHead b i V.size
        loop n (fun j data => do
          let uj ← colHead b j V.size
          let tmp ← formMult V ui uj
          loop n (fun k data => do
            let uk ← colHead b k V.size
            wr data (i + j * n + k * (n * n)) (vdot V.size uk tmp)) data) data : Outcome (List R)))
    (fun i d => d.length = n * n * n ∧ ∀ i' j' k' : Nat, i' < n → j' < n → k' < n → i' < i →
      ve d (i' + j' * n + k' * (n * n)) = C i' j' k')
    (s := vof (n * n * n) junk) ⟨by rw [vof_eq, length_tab], by intros; omega⟩ (by
      rintro i d hi ⟨a1, a2⟩
      rw [colHead_eq hb hi hn, ok_bind]
      obtain ⟨d1, e1, l1, v1⟩ := middle i hi d a1
      refine ⟨d1, e1, l1, ?_⟩
      intro i' j' k' hi' hj' hk' hlt
      rw [v1 i' j' k' hi' hj' hk']
      by_cases h : i' = i
      · rw [if_pos h]
      · rw [if_neg h]; exact a2 i' j' k' hi' hj' hk' (by omega))
  refine ⟨⟨n, n, n, d'⟩, ?_, rfl, rfl, rfl, ?_, ?_⟩
  · unfold reducedTensor nonNull
    simp only [ok_bind, hn, ho, ne_eq, not_false_eq_true, decide_true, require_true]
    rw [show b.w = n from rfl, e]
    rfl
  · show n * n * n ≤ d'.length
    rw [h1]
  · intro i j k hi hj hk
    exact h2 i j k hi hj hk hi

/-- Missing basis or space, a basis with too few rows, and the Lax-Friedrichs operator are rejected. -/
theorem reducedTensor_rejects (oper : OperType) (basis : Option (Mat R)) (fes : Option (Fes R))
    (junk : Nat → R) (h : basis = none ∨ fes = none ∨ oper = .lf ∨
      ∃ b V, basis = some b ∧ fes = some V ∧ b.h < V.size) :
    reducedTensor oper basis fes junk = .error .abort := by
  unfold reducedTensor nonNull
  cases basis with
  | none => rfl
  | some b =>
    cases fes with
    | none => rfl
    | some V =>
      simp only [ok_bind]
      by_cases h1 : V.size ≤ b.h
      · have h2 : oper = .lf := by
          rcases h with h | h | h | ⟨b', V', h, h', h''⟩
          · cases h
          · cases h
          · exact h
          · cases h; cases h'; omega
        simp only [h1, h2, decide_true, require_true, ok_bind, ne_eq, not_true_eq_false, decide_false,
          require_false, error_bind]
      · simp only [h1, decide_false, require_false, error_bind]

theorem fill_spec {α : Type} {n : Nat} {body : Nat → List (Option α) → Outcome (List (Option α))}
    {P : Nat → α → Prop}
    (h : ∀ m ts, m < n → ts.length = n → ∃ t, P m t ∧ body m ts = wr ts m (some t)) :
    ∃ ts, loop n body (List.replicate n none) = .ok ts ∧ ts.length = n ∧
      ∀ m, m < n → ∃ t, ts[m]? = some (some t) ∧ P m t := by
  obtain ⟨ts, e, h1, h2⟩ := loop_total (n := n) (body := body)
    (fun k ts => ts.length = n ∧ ∀ m, m < k → ∃ t, ts[m]? = some (some t) ∧ P m t)
    (s := List.replicate n none) ⟨by simp, by intros; omega⟩ (by
      rintro m ts hm ⟨a1, a2⟩
      obtain ⟨t, ht, e⟩ := h m ts hm a1
      rw [e, wr_of_lt (by omega)]
      refine ⟨_, rfl, by rw [List.length_set, a1], ?_⟩
      intro m' hm'
      by_cases hh : m' = m
      · subst hh; exact ⟨t, by rw [List.getElem?_set_self (by omega)], ht⟩
      · rw [List.getElem?_set_ne (fun h => hh h.symm)]; exact a2 m' (by omega))
  exact ⟨ts, e, h1, h2⟩

theorem build_spec {oper : OperType} (ho : oper ≠ .lf) {numVar numComp : Nat} {sepBasis : Bool}
    {refBasis : List (Mat R)} {compFes : List (Fes R)} {B : Nat → Mat R} {V : Nat → Fes R}
    (hB : ∀ c, c < numComp → refBasis[if sepBasis then c * numVar else c]? = some (B c))
    (hF : ∀ c, c < numComp → compFes[c * numVar]? = some (V c))
    (hok : ∀ c, c < numComp → MatOk (B c) ∧ FesOk (V c) ∧ (V c).size ≤ (B c).h) (junk : Nat → R) :
    ∃ ts, build oper numVar numComp sepBasis refBasis compFes junk = .ok ts ∧ ts.length = numComp ∧
      ∀ c, c < numComp → ∃ t, ts[c]? = some (some t) ∧ IsTensor t (B c) (V c) := by
  unfold build
  refine fill_spec fun c ts hc hl => ?_
  obtain ⟨h1, h2, h3⟩ := hok c hc
  obtain ⟨t, e, a1, a2, a3, a4, a5⟩ := reducedTensor_spec ho h1 h2 h3 junk
  refine ⟨t, ⟨a1, a2, a3, a4, a5⟩, ?_⟩
  dsimp only
  rw [rd_eq_ok.2 (hB c hc), ok_bind, rd_eq_ok.2 (hF c hc), ok_bind, e, ok_bind]

omit [CommRing R] in
theorem assemble_spec {numComp : Nat} {meshType : List Nat} {ts : List (Option (Tensor R))}
    (hl : ts.length = numComp) {T : Nat → Tensor R} (hT : ∀ c, c < numComp → ts[c]? = some (some (T c)))
    (hm : ∀ c ∈ meshType, c < numComp) :
    ∃ subs, assemble numComp meshType ts = .ok subs ∧ subs.length = meshType.length ∧
      ∀ m c : Nat, meshType[m]? = some c → subs[m]? = some (some (T c)) := by
  unfold assemble
  simp only [hl, decide_true, require_true, ok_bind]
  obtain ⟨subs, e, h1, h2⟩ := fill_spec (n := meshType.length) (body := fun m subs => (do
    let c ← rd meshType m
    let t ← rd ts c
    wr subs m t : Outcome (List (Option (Tensor R))))) (P := fun m t => ∃ c, meshType[m]? = some c ∧ t = T c)
    (by
      intro m subs hml hsl
      have hc := hm _ (List.getElem_mem hml)
      refine ⟨_, ⟨meshType[m], by simp [hml], rfl⟩, ?_⟩
      rw [rd_of_lt hml, ok_bind, rd_eq_ok.2 (hT _ hc), ok_bind])
  refine ⟨subs, e, h1, ?_⟩
  intro m c hc
  obtain ⟨t, e1, c', e2, rfl⟩ := h2 m (List.getElem?_eq_some_iff.1 hc).1
  rw [hc] at e2; cases e2
  exact e1

theorem blockIndex_vel (separate : Bool) (ord : Order) (numSub numVar m : Nat) :
    getBlockIndex separate ord numSub numVar m 0 = .ok (velBlock separate ord numVar m : Nat) := by
  unfold getBlockIndex velBlock
  cases separate <;> cases ord <;> simp [pure, Except.pure]

theorem velBlock_inj {separate : Bool} {ord : Order} {numVar m m' : Nat} (hv : 0 < numVar)
    (h : velBlock separate ord numVar m = velBlock separate ord numVar m') : m = m' := by
  unfold velBlock at h
  cases separate <;> cases ord <;> simp only at h <;> first
    | exact h
    | exact Nat.eq_of_mul_eq_mul_right hv h

theorem rdI_nat {α : Type} (l : List α) (i : Nat) : rdI l (i : Int) = rd l i := by
  unfold rdI
  simp

theorem buildGlobal_spec {oper : OperType} (ho : oper ≠ .lf) {numVar : Nat} {separate : Bool} {ord : Order}
    {domBasis : List (Mat R)} {ufes : List (Fes R)} {B : Nat → Mat R} {V : Nat → Fes R}
    (hB : ∀ m, m < ufes.length → domBasis[velBlock separate ord numVar m]? = some (B m))
    (hF : ∀ m, m < ufes.length → ufes[m]? = some (V m))
    (hok : ∀ m, m < ufes.length → MatOk (B m) ∧ FesOk (V m) ∧ (V m).size ≤ (B m).h) (junk : Nat → R) :
    ∃ ts, buildGlobal oper numVar separate ord domBasis ufes junk = .ok ts ∧ ts.length = ufes.length ∧
      ∀ m, m < ufes.length → ∃ t, ts[m]? = some (some t) ∧ IsTensor t (B m) (V m) := by
  unfold buildGlobal
  refine fill_spec fun m ts hm hl => ?_
  obtain ⟨h1, h2, h3⟩ := hok m hm
  obtain ⟨t, e, a1, a2, a3, a4, a5⟩ := reducedTensor_spec ho h1 h2 h3 junk
  refine ⟨t, ⟨a1, a2, a3, a4, a5⟩, ?_⟩
  rw [blockIndex_vel, ok_bind, rdI_nat, rd_eq_ok.2 (hB m hm), ok_bind, rd_eq_ok.2 (hF m hm), ok_bind, e,
    ok_bind]

/-- A consistent operator: blocks of the sizes `z`, velocity blocks `blk` and cubic tensors `T`. -/
structure Wired (r : Rom R) (z : List Nat) (n : Nat) (blk : Nat → Nat) (T : Nat → Tensor R) : Prop where
  offs : IsOffsets r.offs z
  h : r.linear.h = z.sum
  w : r.linear.w = z.sum
  midxs : r.midxs = tab n (fun m => (blk m : Int))
  idxs : r.idxs = tab n (fun m => tab (T m).nI (fun k => (((z.take (blk m)).sum + k : Nat) : Int)))
  size : ∀ m, m < n → z[blk m]? = some (T m).nI
  cubeJ : ∀ m, m < n → (T m).nJ = (T m).nI
  cubeK : ∀ m, m < n → (T m).nK = (T m).nI
  tok : ∀ m, m < n → TensorOk (T m)
  hs : ∀ m, m < n → r.hs[m]? = some (some (T m))

theorem construct_spec {linear : Sp R} {offs z : List Nat} {numVar numSub : Nat} {separate : Bool}
    {ord : Order} {hs : List (Option (Tensor R))} {T : Nat → Tensor R} (ho : IsOffsets offs z)
    (hlen : offs.length = numVar * numSub + 1 ∨ offs.length = numSub + 1)
    (hh : linear.h = z.sum) (hw : linear.w = z.sum)
    (size : ∀ m, m < numSub → z[velBlock separate ord numVar m]? = some (T m).nI)
    (cubeJ : ∀ m, m < numSub → (T m).nJ = (T m).nI) (cubeK : ∀ m, m < numSub → (T m).nK = (T m).nI)
    (tok : ∀ m, m < numSub → TensorOk (T m)) (hT : ∀ m, m < numSub → hs[m]? = some (some (T m))) :
    ∃ r, construct linear offs numVar numSub separate ord hs = .ok r ∧ r.linear = linear ∧ r.offs = offs ∧
      Wired r z numSub (velBlock separate ord numVar) T := by
  unfold construct
  have hreq : (decide (offs.length = numVar * numSub + 1) || decide (offs.length = numSub + 1)) = true := by
    simpa using hlen
  rw [hreq, require_true, ok_bind]
  have e := loop_spec (n := numSub) (body := fun m (st : List Int × List (List Int)) => (do
      let midx ← getBlockIndex separate ord numSub numVar m 0
      let o1 ← rdI offs (midx + 1)
      let o ← rdI offs midx
      return (st.1 ++ [midx], st.2 ++ [(List.range (o1 - o)).map (fun k => ((o + k : Nat) : Int))])
        : Outcome (List Int × List (List Int))))
    (fun k => (tab k (fun m => (velBlock separate ord numVar m : Int)),
      tab k (fun m => tab (T m).nI (fun k => (((z.take (velBlock separate ord numVar m)).sum + k : Nat) : Int)))))
    (s := ([], [])) rfl (by
      intro m hm
      have hb := (List.getElem?_eq_some_iff.1 (size m hm)).1
      rw [blockIndex_vel, ok_bind,
        show (((velBlock separate ord numVar m : Nat) : Int) + 1) = ((velBlock separate ord numVar m + 1 : Nat) : Int)
          from by push_cast; rfl, rdI_nat, rdI_nat, rd_eq_ok.2 (ho.value (by omega)), ok_bind,
        rd_eq_ok.2 (ho.value (by omega)), ok_bind, Blocks.take_sum_succ z (size m hm)]
      simp only [pure, Except.pure]
      rw [tab_succ, tab_succ, Nat.add_sub_cancel_left]
      rfl)
  rw [e, ok_bind]
  exact ⟨_, rfl, rfl, rfl, ho, hh, hw, rfl, rfl, size, cubeJ, cubeK, tok, hT⟩

/-- The quadratic term of a tensor. -/
def quad (t : Tensor R) (x : Nat → R) (k : Nat) : R :=
  ∑ j ∈ range t.nJ, ∑ i ∈ range t.nI, tent t i j k * x i * x j

/-- The velocity of one block of a vector. -/
def blockAt (z : List Nat) (b : Nat) (x : List R) : Nat → R := fun i => ve x ((z.take b).sum + i)

theorem mult_sum {r : Rom R} {z : List Nat} {n : Nat} {blk : Nat → Nat} {T : Nat → Tensor R}
    (h : Wired r z n blk T) {x : List R} (hx : x.length = z.sum) (junk : Nat → R) :
    ∃ y, mult r x junk = .ok y ∧ y.length = z.sum ∧ ∀ t, t < z.sum →
      ve y t = linAt r.linear (ve x) t + ∑ m ∈ range n,
        if (z.take (blk m)).sum ≤ t ∧ t < (z.take (blk m)).sum + (T m).nI then
          quad (T m) (blockAt z (blk m) x) (t - (z.take (blk m)).sum) else 0 := by
  unfold mult
  rw [Sp.addMult_eq (by rw [hx, h.w]) (by rw [vof_eq, length_tab]), ok_bind, h.midxs, length_tab]
  obtain ⟨y, e, h1, h2⟩ := loop_acc (n := n) (body := fun m y => multBlock r x m y junk)
    (fun y : List R => y.length = z.sum) ve
    (fun m t => if (z.take (blk m)).sum ≤ t ∧ t < (z.take (blk m)).sum + (T m).nI then
          quad (T m) (blockAt z (blk m) x) (t - (z.take (blk m)).sum) else 0)
    (s := tab r.linear.h fun r_1 => ve (vof r.linear.h fun _ => (0 : R)) r_1 + 1 * ∑ c ∈ range r.linear.w,
      r.linear.get r_1 c * ve x c) (by rw [length_tab, h.h]) (by
      intro m y hm hy
      have hb := (List.getElem?_eq_some_iff.1 (h.size m hm)).1
      have hbd := block_bound z (h.size m hm)
      unfold multBlock
      rw [h.midxs, rd_tab hm, ok_bind,
        show (((blk m : Nat) : Int) + 1) = ((blk m + 1 : Nat) : Int) from by push_cast; rfl,
        rdI_nat, rdI_nat, rd_eq_ok.2 (h.offs.value (by omega)), ok_bind,
        rd_eq_ok.2 (h.offs.value (by omega)), ok_bind, Blocks.take_sum_succ z (h.size m hm),
        Nat.add_sub_cancel_left, getSeg_eq (by omega), ok_bind, getSeg_eq (by omega), ok_bind,
        rd_eq_ok.2 (h.hs m hm), ok_bind]
      unfold deref
      rw [ok_bind, tensorAddScaledContract_spec (T m) 1 _ _ _ junk (h.tok m hm) (by rw [length_tab])
        (by rw [length_tab, h.cubeJ m hm]), ok_bind, if_pos (by rw [h.cubeK m hm])]
      obtain ⟨y', e1, e2, e3⟩ := setSeg_eq (y := y) (off := (z.take (blk m)).sum)
        (l := tab (T m).nK fun k => (if (T m).nK ≤ (tab (T m).nI fun k =>
          ve y ((List.take (blk m) z).sum + k)).length then ve (tab (T m).nI fun k =>
          ve y ((List.take (blk m) z).sum + k)) k else junk k) +
          1 * ∑ j ∈ range (T m).nJ, ∑ i ∈ range (T m).nI, tent (T m) i j k *
            ve (tab (T m).nI fun k => ve x ((List.take (blk m) z).sum + k)) i *
            ve (tab (T m).nI fun k => ve x ((List.take (blk m) z).sum + k)) j)
        (by rw [length_tab, h.cubeK m hm]; omega)
      refine ⟨y', e1, e2.trans hy, ?_⟩
      funext t
      rw [e3 t, length_tab, h.cubeK m hm]
      rw [Pi.add_apply]
      by_cases ht : (z.take (blk m)).sum ≤ t ∧ t < (z.take (blk m)).sum + (T m).nI
      · rw [if_pos ht, if_pos ht, ve_tab (by omega), length_tab, if_pos (Nat.le_refl _), ve_tab (by omega),
          Nat.add_sub_cancel' ht.1, one_mul]
        congr 1
        unfold quad
        refine sum_congr rfl fun j hj => sum_congr rfl fun i hi => ?_
        rw [ve_tab (mem_range.1 hi), ve_tab (by have := mem_range.1 hj; rw [h.cubeJ m hm] at this; exact this)]
        rfl
      · rw [if_neg ht, if_neg ht, add_zero])
  refine ⟨y, e, h1, fun t ht => ?_⟩
  rw [h2]
  rw [Pi.add_apply, Finset.sum_apply, ve_tab (by rw [h.h]; exact ht), vof_eq,
    ve_tab (by rw [h.h]; exact ht), zero_add, one_mul]
  rfl

/-- A loop whose steps either add a term or abort. -/
theorem loop_acc_or {σ V : Type} [AddCommMonoid V] {n : Nat} {body : Nat → σ → Outcome σ}
    (Inv : σ → Prop) (val : σ → V) (term : Nat → V) (Bad : Prop) {s : σ} (h0 : Inv s)
    (hstep : ∀ k s, k < n → Inv s → (∃ s', body k s = .ok s' ∧ Inv s' ∧ val s' = val s + term k) ∨
      (body k s = .error .abort ∧ Bad)) :
    (∃ s', loop n body s = .ok s' ∧ Inv s' ∧ val s' = val s + ∑ k ∈ range n, term k) ∨
      (loop n body s = .error .abort ∧ Bad) := by
  by_cases hb : Bad
  · have key : ∀ n' i s, i + n' = n → Inv s →
        (∃ s', loopFrom body i n' s = .ok s' ∧ Inv s' ∧ val s' = val s + ∑ k ∈ range n', term (i + k)) ∨
        loopFrom body i n' s = .error .abort := by
      intro n'
      induction n' with
      | zero => intro i s _ hs; exact Or.inl ⟨s, rfl, hs, by simp⟩
      | succ n' ih =>
        intro i s hi hs
        rcases hstep i s (by omega) hs with ⟨s1, e1, i1, v1⟩ | ⟨e1, -⟩
        · rcases ih (i + 1) s1 (by omega) i1 with ⟨s2, e2, i2, v2⟩ | e2
          · refine Or.inl ⟨s2, ?_, i2, ?_⟩
            · simp only [loopFrom, e1, e2]
            · rw [v2, v1, sum_range_succ', add_assoc]
              congr 1
              rw [add_comm]
              simp only [Nat.add_zero, Nat.add_assoc, Nat.add_comm 1]
          · refine Or.inr ?_
            simp only [loopFrom, e1, e2]
        · refine Or.inr ?_
          simp only [loopFrom, e1]
    rcases key n 0 s (by omega) h0 with ⟨s', e, i', v⟩ | e
    · exact Or.inl ⟨s', e, i', by simpa using v⟩
    · exact Or.inr ⟨e, hb⟩
  · exact Or.inl (loop_acc Inv val term h0 fun k s hk hs => by
      rcases hstep k s hk hs with h | ⟨-, h⟩
      · exact h
      · exact absurd h hb)

/-- The derivative of `quad`. -/
def jacAt (t : Tensor R) (x : Nat → R) (k l : Nat) : R :=
  ∑ i ∈ range t.nI, tent t i l k * x i + ∑ j ∈ range t.nJ, tent t l j k * x j

theorem jacBlock_spec {r : Rom R} {z : List Nat} {n : Nat} {blk : Nat → Nat} {T : Nat → Tensor R}
    (h : Wired r z n blk T) {x : List R} (hx : x.length = z.sum) {m : Nat} (hm : m < n) :
    ∃ j, jacBlock r x m = .ok j ∧ j.h = (T m).nI ∧ j.w = (T m).nI ∧ MatOk j ∧
      ∀ k l, k < (T m).nI → l < (T m).nI → ent j k l = jacAt (T m) (blockAt z (blk m) x) k l := by
  have hb := (List.getElem?_eq_some_iff.1 (h.size m hm)).1
  have hbd := block_bound z (h.size m hm)
  have cj := h.cubeJ m hm
  have ck := h.cubeK m hm
  unfold jacBlock
  rw [h.midxs, rd_tab hm, ok_bind,
    show (((blk m : Nat) : Int) + 1) = ((blk m + 1 : Nat) : Int) from by push_cast; rfl,
    rdI_nat, rdI_nat, rd_eq_ok.2 (h.offs.value (by omega)), ok_bind,
    rd_eq_ok.2 (h.offs.value (by omega)), ok_bind, Blocks.take_sum_succ z (h.size m hm),
    Nat.add_sub_cancel_left, getSeg_eq (by omega), ok_bind, rd_eq_ok.2 (h.hs m hm), ok_bind]
  unfold deref tensorAddMultTranspose
  rw [ok_bind]
  have hz : MatOk (zeroMat (T m).nI : Mat R) := of_ok _ _ _
  obtain ⟨j1, e1, a1, a2, a3, a4⟩ := (tensorAddScaledMultTranspose_spec (T m) 1
    (tab (T m).nI fun k => ve x ((z.take (blk m)).sum + k)) (zeroMat (T m).nI) (h.tok m hm) hz
    (by rw [ck]; rfl)).1 (by rw [length_tab]) (by rw [cj]; rfl)
  rw [e1, ok_bind]
  replace a1 : j1.h = (T m).nI := a1
  replace a2 : j1.w = (T m).nI := a2
  obtain ⟨j2, e2, b1, b2, b3, b4⟩ := (tensorAddScaledMultTranspose_spec (T m) 1
    (tab (T m).nI fun k => ve x ((z.take (blk m)).sum + k)) j1 (h.tok m hm) a3
    (by rw [ck, a1])).2 (by rw [length_tab, cj]) a2
  refine ⟨j2, e2, b1.trans a1, b2.trans a2, b3, ?_⟩
  intro k l hk hl
  rw [b4 k l (by omega) hl, a4 k l (by omega) (by omega), ent_zeroMat hk hl, zero_add, one_mul, one_mul]
  unfold jacAt blockAt
  congr 1
  · exact sum_congr rfl fun i hi => by rw [ve_tab (mem_range.1 hi)]
  · exact sum_congr rfl fun i hi => by
      rw [ve_tab (by have := mem_range.1 hi; omega)]

/-- Shape of the linear operator, and at least its stored entries. -/
def Grown (L s : Sp R) : Prop := (s.h = L.h ∧ s.w = L.w) ∧ ∀ i j, Stored L i j → Stored s i j

theorem addStored_spec {L s : Sp R} (hg : Grown L s) {i j : Nat} (hi : i < L.h) (hj : j < L.w) (v : R) :
    (∃ s', addStored s i j v = .ok s' ∧ Grown L s' ∧
      (fun r c => s'.get r c) = (fun r c => s.get r c) + fun r c => if i = r ∧ j = c then v else 0) ∨
    (addStored s i j v = .error .abort ∧ ¬ Stored L i j) := by
  unfold addStored
  rw [if_pos (by rw [hg.1.1, hg.1.2]; exact ⟨hi, hj⟩)]
  by_cases hs : s.ents.any (fun e => e.1 == (i, j)) = true
  · rw [if_pos hs]
    obtain ⟨s', e, h1, h2⟩ := InterfaceForm.spAdd_spec (s := s) (v := v) (by rw [hg.1.1]; exact hi)
      (by rw [hg.1.2]; exact hj)
    refine Or.inl ⟨s', e, ⟨⟨h1.1.trans hg.1.1, h1.2.trans hg.1.2⟩, ?_⟩, ?_⟩
    · intro a b hab
      obtain ⟨w, hw⟩ := hg.2 a b hab
      unfold Sp.add Sp.set at e
      split at e
      · cases e; exact ⟨w, List.mem_cons_of_mem _ hw⟩
      · cases e
    · funext r c; exact h2 r c
  · rw [if_neg hs]
    refine Or.inr ⟨rfl, fun hst => hs ?_⟩
    obtain ⟨w, hw⟩ := hg.2 i j hst
    exact List.any_eq_true.2 ⟨_, hw, by simp⟩

/-- Some position of the square block at `o` is not stored. -/
def Missing (L : Sp R) (o n : Nat) : Prop := ∃ k l, k < n ∧ l < n ∧ ¬ Stored L (o + k) (o + l)

theorem addSubStored_spec [DecidableEq R] {L s : Sp R} (hg : Grown L s) {o n : Nat} (h1 : o + n ≤ L.h)
    (h2 : o + n ≤ L.w) {a : Mat R} (ah : a.h = n) (aw : a.w = n) (ha : MatOk a) :
    (∃ s', addSubStored (tab n (fun k => ((o + k : Nat) : Int))) a s = .ok s' ∧ Grown L s' ∧
      (fun r c => s'.get r c) = (fun r c => s.get r c) + ∑ k ∈ range n, ∑ l ∈ range n,
        fun r c => if o + k = r ∧ o + l = c then ent a k l else 0) ∨
    (addSubStored (tab n (fun k => ((o + k : Nat) : Int))) a s = .error .abort ∧ Missing L o n) := by
  unfold addSubStored
  rw [length_tab]
  have hlt : ∀ k l, k < n → l < n → k + l * a.h < a.data.length := by
    intro k l hk hl
    have := idx_lt (h := n) (w := n) hk hl
    unfold MatOk at ha
    rw [ah, aw] at ha
    rw [ah]; omega
  refine loop_acc_or (Grown L) (fun s : Sp R => fun r c => s.get r c) _ _ hg fun k s hk hs => ?_
  refine loop_acc_or (Grown L) (fun s : Sp R => fun r c => s.get r c) _ _ hs fun l s hl hs => ?_
  rw [rd_tab hk, ok_bind, rd_tab hl, ok_bind, rd_of_lt (hlt k l hk hl), ok_bind,
    rd_of_lt (hlt l k hl hk), ok_bind]
  have hv : a.data[k + l * a.h]'(hlt k l hk hl) = ent a k l := by
    unfold ent ve; simp [hlt k l hk hl]
  have p1 : ∀ q : Nat, dofIdx (q : Int) = q := by intro q; unfold dofIdx; rw [if_neg (by omega)]; rfl
  have p2 : ∀ q : Nat, (dofSgn (q : Int) : R) = 1 := by intro q; unfold dofSgn; rw [if_neg (by omega)]
  rw [hv, p1, p1, p2, p2, one_mul, one_mul]
  split
  · next hz =>
    refine Or.inl ⟨s, rfl, hs, ?_⟩
    funext r c
    show s.get r c = s.get r c + _
    rw [hz.1]
    simp
  · rcases addStored_spec hs (i := o + k) (j := o + l) (by omega) (by omega) (ent a k l) with h | ⟨e, hm⟩
    · exact Or.inl h
    · exact Or.inr ⟨e, k, l, hk, hl, hm⟩

theorem sum_block {o n r c : Nat} (f : Nat → Nat → R) :
    (∑ k ∈ range n, ∑ l ∈ range n, if o + k = r ∧ o + l = c then f k l else 0) =
      if (o ≤ r ∧ r < o + n) ∧ o ≤ c ∧ c < o + n then f (r - o) (c - o) else 0 := by
  by_cases h : (o ≤ r ∧ r < o + n) ∧ o ≤ c ∧ c < o + n
  · rw [if_pos h, sum_eq_single (r - o), sum_eq_single (c - o)]
    · rw [if_pos (by omega)]
    · intro b _ hb; rw [if_neg (by omega)]
    · intro hb; exact absurd (mem_range.2 (by omega)) hb
    · intro b _ hb; exact sum_eq_zero fun l _ => by rw [if_neg (by omega)]
    · intro hb; exact absurd (mem_range.2 (by omega)) hb
  · rw [if_neg h]
    refine sum_eq_zero fun k hk => sum_eq_zero fun l hl => ?_
    have := mem_range.1 hk
    have := mem_range.1 hl
    rw [if_neg (by omega)]

theorem getGradient_sum [DecidableEq R] {r : Rom R} {z : List Nat} {n : Nat} {blk : Nat → Nat}
    {T : Nat → Tensor R} (h : Wired r z n blk T) {x : List R} (hx : x.length = z.sum) :
    (∃ J, getGradient r x = .ok J ∧ J.h = z.sum ∧ J.w = z.sum ∧ ∀ t s, J.get t s = r.linear.get t s +
      ∑ m ∈ range n, if ((z.take (blk m)).sum ≤ t ∧ t < (z.take (blk m)).sum + (T m).nI) ∧
          (z.take (blk m)).sum ≤ s ∧ s < (z.take (blk m)).sum + (T m).nI then
        jacAt (T m) (blockAt z (blk m) x) (t - (z.take (blk m)).sum) (s - (z.take (blk m)).sum) else 0) ∨
    (getGradient r x = .error .abort ∧ ∃ m, m < n ∧ Missing r.linear (z.take (blk m)).sum (T m).nI) := by
  have key := loop_acc_or (n := n) (body := fun m jac => (do
      let j ← jacBlock r x m
      let idx ← rd r.idxs m
      addSubStored idx j jac : Outcome (Sp R))) (Grown r.linear) (fun s : Sp R => fun r c => s.get r c)
    (fun m => fun t s => if ((z.take (blk m)).sum ≤ t ∧ t < (z.take (blk m)).sum + (T m).nI) ∧
          (z.take (blk m)).sum ≤ s ∧ s < (z.take (blk m)).sum + (T m).nI then
        jacAt (T m) (blockAt z (blk m) x) (t - (z.take (blk m)).sum) (s - (z.take (blk m)).sum) else 0)
    (∃ m, m < n ∧ Missing r.linear (z.take (blk m)).sum (T m).nI) (s := r.linear)
    ⟨⟨rfl, rfl⟩, fun _ _ h => h⟩ (by
      intro m s hm hs
      obtain ⟨j, e, j1, j2, j3, j4⟩ := jacBlock_spec h hx hm
      have hbd := block_bound z (h.size m hm)
      rw [e, ok_bind, h.idxs, rd_tab hm, ok_bind]
      rcases addSubStored_spec hs (o := (z.take (blk m)).sum) (n := (T m).nI) (by rw [h.h]; exact hbd)
        (by rw [h.w]; exact hbd) j1 j2 j3 with ⟨s', e1, g1, v1⟩ | ⟨e1, hmiss⟩
      · refine Or.inl ⟨s', e1, g1, ?_⟩
        rw [v1]
        congr 1
        funext t c
        simp only [Finset.sum_apply]
        rw [sum_block]
        by_cases ht : ((z.take (blk m)).sum ≤ t ∧ t < (z.take (blk m)).sum + (T m).nI) ∧
          (z.take (blk m)).sum ≤ c ∧ c < (z.take (blk m)).sum + (T m).nI
        · rw [if_pos ht, if_pos ht, j4 _ _ (by omega) (by omega)]
        · rw [if_neg ht, if_neg ht]
      · exact Or.inr ⟨e1, m, hm, hmiss⟩)
  unfold getGradient
  rw [h.midxs, length_tab]
  rcases key with ⟨J, e, g, v⟩ | ⟨e, hmiss⟩
  · refine Or.inl ⟨J, e, g.1.1.trans h.h, g.1.2.trans h.w, fun t s => ?_⟩
    have := congrFun (congrFun v t) s
    rw [Pi.add_apply, Pi.add_apply, Finset.sum_apply, Finset.sum_apply] at this
    exact this
  · exact Or.inr ⟨e, hmiss⟩

end Verif.TensorRom
