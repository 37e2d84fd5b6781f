import Verif.Spec.InterfaceForm
import Verif.Props.RomHandler
import Verif.Props.LinAlg
import Mathlib.Algebra.BigOperators.Group.List.Basic

/-! # Lemmas about interface forms -/

namespace Verif

/-- A loop each of whose steps adds a term to a value. -/
theorem loop_acc {σ V : Type} [AddCommMonoid V] {n : Nat} {body : Nat → σ → Outcome σ}
    (Inv : σ → Prop) (val : σ → V) (term : Nat → V) {s : σ} (h0 : Inv s)
    (hstep : ∀ k s, k < n → Inv s → ∃ s', body k s = .ok s' ∧ Inv s' ∧ val s' = val s + term k) :
    ∃ s', loop n body s = .ok s' ∧ Inv s' ∧ val s' = val s + ∑ k ∈ Finset.range n, term k := by
  obtain ⟨t, e, h1, h2⟩ := loop_total (n := n) (body := body)
    (fun k t => Inv t ∧ val t = val s + ∑ r ∈ Finset.range k, term r) (s := s) ⟨h0, by simp⟩
    (by
      rintro k u hk ⟨a, b⟩
      obtain ⟨v, e1, e2, e3⟩ := hstep k u hk a
      exact ⟨v, e1, e2, by rw [e3, b, Finset.sum_range_succ, add_assoc]⟩)
  exact ⟨t, e, h1, h2⟩

theorem sum_range_getD {α V : Type} [AddCommMonoid V] (l : List α) (g : α → V) :
    ∑ k ∈ Finset.range l.length, ((l[k]?).map g).getD 0 = (l.map g).sum := by
  induction l with
  | nil => simp
  | cons a l ih => rw [List.length_cons, Finset.sum_range_succ']; simp [ih, add_comm]

/-- A loop over a list each of whose steps adds a term to a value. -/
theorem loop_list_acc {α σ V : Type} [AddCommMonoid V] {l : List α} {body : Nat → σ → Outcome σ}
    (Inv : σ → Prop) (val : σ → V) (term : α → V) {s : σ} (h0 : Inv s)
    (hstep : ∀ k x s, x ∈ l → rd l k = .ok x → Inv s →
      ∃ s', body k s = .ok s' ∧ Inv s' ∧ val s' = val s + term x) :
    ∃ s', loop l.length body s = .ok s' ∧ Inv s' ∧ val s' = val s + (l.map term).sum := by
  rw [← sum_range_getD]
  refine loop_acc Inv val _ h0 fun k s hk hs => ?_
  obtain ⟨s', h⟩ := hstep k l[k] s (List.getElem_mem hk) (rd_of_lt hk) hs
  exact ⟨s', by simpa [hk] using h⟩

end Verif

namespace Verif.InterfaceForm

open Verif Verif.LinAlg Verif.LinAlg.Spec Verif.Blocks Verif.Blocks.Spec Verif.InterfaceForm.Spec
open Verif.Ports (InterfaceInfo)
open Verif.RomHandler (bent_eq readBlock_eq)
open Verif.RomHandler.Spec (bent)
open Finset

variable {R δ : Type} [CommRing R]

theorem dofAt_mem {l : List Int} {k : Nat} (h : k < l.length) :
    rd l k = .ok (dofAt l k) ∧ dofAt l k ∈ l := by
  rw [rd_of_lt h]
  unfold dofAt
  simp [h]

theorem spAdd_spec {s : Sp R} {i j : Nat} {v : R} (hi : i < s.h) (hj : j < s.w) :
    ∃ s', s.add i j v = .ok s' ∧ (s'.h = s.h ∧ s'.w = s.w) ∧
      ∀ r c, s'.get r c = s.get r c + if i = r ∧ j = c then v else 0 := by
  have e : s.add i j v = .ok { s with ents := ((i, j), s.get i j + v) :: s.ents } := by
    unfold Sp.add Sp.set; rw [if_pos ⟨hi, hj⟩]
  refine ⟨_, e, ⟨rfl, rfl⟩, fun r c => ?_⟩
  rw [Sp.get_set (s := s) (v := s.get i j + v) e]
  by_cases h : r = i ∧ c = j
  · rw [if_pos h, if_pos ⟨h.1.symm, h.2.symm⟩, h.1, h.2]
  · rw [if_neg h, if_neg (fun h' => h ⟨h'.1.symm, h'.2.symm⟩), add_zero]

theorem addSubMatrix_spec {rows cols : List Int} {a : Mat R} {s : Sp R}
    (hr : ∀ d ∈ rows, dofPos d < s.h) (hc : ∀ d ∈ cols, dofPos d < s.w)
    (h1 : a.h = rows.length) (h2 : a.w = cols.length) (ha : MatOk a) :
    ∃ s', addSubMatrix rows cols a s = .ok s' ∧ (s'.h = s.h ∧ s'.w = s.w) ∧
      ∀ r c, s'.get r c = s.get r c + scatter rows cols a r c := by
  unfold addSubMatrix
  obtain ⟨s', e, hi, hv⟩ := loop_acc (n := rows.length)
    (body := fun i s => loop cols.length (fun j s => do
      let r ← rd rows i
      let c ← rd cols j
      let v ← rd a.data (i + j * a.h)
      s.add (dofPos r) (dofPos c) (dofSign r * dofSign c * v)) s)
    (fun t : Sp R => t.h = s.h ∧ t.w = s.w) (fun t => fun r c => t.get r c)
    (fun k => fun r c => ∑ l ∈ range cols.length,
      if dofPos (dofAt rows k) = r ∧ dofPos (dofAt cols l) = c then
      dofSign (dofAt rows k) * dofSign (dofAt cols l) * ent a k l else 0) (s := s) ⟨rfl, rfl⟩
    (by
      intro k t hk ht
      obtain ⟨t', e, hi, hv⟩ := loop_acc (n := cols.length)
        (body := fun j s => do
          let r ← rd rows k
          let c ← rd cols j
          let v ← rd a.data (k + j * a.h)
          s.add (dofPos r) (dofPos c) (dofSign r * dofSign c * v))
        (fun t : Sp R => t.h = s.h ∧ t.w = s.w) (fun t => fun r c => t.get r c)
        (fun l => fun r c => if dofPos (dofAt rows k) = r ∧ dofPos (dofAt cols l) = c then
          dofSign (dofAt rows k) * dofSign (dofAt cols l) * ent a k l else 0) (s := t) ht
        (by
          intro l u hl hu
          obtain ⟨e1, m1⟩ := dofAt_mem hk
          obtain ⟨e2, m2⟩ := dofAt_mem hl
          have := idx_lt (w := a.w) (h := a.h) (i := k) (j := l) (by omega) (by omega)
          obtain ⟨u', e3, hh, hv⟩ := spAdd_spec (s := u) (i := dofPos (dofAt rows k))
            (j := dofPos (dofAt cols l)) (v := dofSign (dofAt rows k) * dofSign (dofAt cols l) * ent a k l)
            (by rw [hu.1]; exact hr _ m1) (by rw [hu.2]; exact hc _ m2)
          refine ⟨u', ?_, ⟨hh.1.trans hu.1, hh.2.trans hu.2⟩, funext fun r => funext fun c => hv r c⟩
          show (rd rows k >>= fun r => rd cols l >>= fun c => rd a.data (k + l * a.h) >>= fun v =>
            u.add (dofPos r) (dofPos c) (dofSign r * dofSign c * v)) = _
          rw [e1, ok_bind, e2, ok_bind, rd_ve (lt_of_lt_of_le this ha), ok_bind]
          exact e3)
      refine ⟨t', e, hi, ?_⟩
      rw [hv]; congr 1
      funext r c; simp only [Finset.sum_apply])
  refine ⟨s', e, hi, fun r c => ?_⟩
  have := congrFun (congrFun hv r) c
  simp only [Pi.add_apply, Finset.sum_apply] at this
  exact this

/-- Updating one matrix of an array. -/
theorem modify_spec {mats : MatArr R} {n : Nat} {rz cz : Nat → Nat} (hm : MatsOk mats n rz cz)
    {i j : Nat} (hi : i < n) (hj : j < n) {f : Sp R → Outcome (Sp R)} {g : Nat → Nat → R}
    (hf : ∀ s : Sp R, s.h = rz i → s.w = cz j →
      ∃ s', f s = .ok s' ∧ (s'.h = s.h ∧ s'.w = s.w) ∧ ∀ r c, s'.get r c = s.get r c + g r c) :
    ∃ m', mats.modify i j f = .ok m' ∧ MatsOk m' n rz cz ∧
      mget m' = mget mats + fun a b r c => if i = a ∧ j = b then g r c else 0 := by
  obtain ⟨h1, h2, h3⟩ := hm
  obtain ⟨s, e, a1, a2⟩ := h3 i j hi hj
  obtain ⟨s', e', ⟨b1, b2⟩, hv⟩ := hf s a1 a2
  refine ⟨{ mats with at_ := fun i' j' => if i' = i ∧ j' = j then some s' else mats.at_ i' j' }, ?_,
    ⟨h1, h2, ?_⟩, ?_⟩
  · unfold MatArr.modify
    rw [if_pos ⟨by omega, by omega⟩, e]
    show (do let s ← Except.ok s; _) = _
    rw [ok_bind, e']; rfl
  · intro a b ha hb
    by_cases h : a = i ∧ b = j
    · obtain ⟨rfl, rfl⟩ := h
      exact ⟨s', by simp, by rw [b1, a1], by rw [b2, a2]⟩
    · obtain ⟨t, ht⟩ := h3 a b ha hb
      exact ⟨t, by simpa [h] using ht⟩
  · funext a b r c
    show mget _ a b r c = mget mats a b r c + _
    unfold mget
    by_cases h : a = i ∧ b = j
    · obtain ⟨rfl, rfl⟩ := h
      simp [e, hv]
    · have h' : ¬ (i = a ∧ j = b) := fun h' => h ⟨h'.1.symm, h'.2.symm⟩
      simp only [if_neg h, if_neg h', add_zero]

theorem addBlocks_spec {mats : MatArr R} {n : Nat} {rz cz : Nat → Nat} (hm : MatsOk mats n rz cz)
    {a b : Nat} (ha : a < n) (hb : b < n) {rows cols : Nat → List Int} {em : Nat → Nat → Mat R}
    (hr : ∀ i, i < 2 → ∀ d ∈ rows i, dofPos d < rz (side a b i))
    (hc : ∀ i, i < 2 → ∀ d ∈ cols i, dofPos d < cz (side a b i))
    (he : ∀ i j, i < 2 → j < 2 → (em i j).h = (rows i).length ∧ (em i j).w = (cols j).length ∧
      MatOk (em i j)) :
    ∃ m', addBlocks a b rows cols em mats = .ok m' ∧ MatsOk m' n rz cz ∧
      mget m' = mget mats + blockTerm a b rows cols em := by
  have hs : ∀ i, side a b i < n := by intro i; unfold side; split <;> assumption
  obtain ⟨m', e, h1, h2⟩ := loop_acc (n := 2)
    (body := fun i mats => loop 2 (fun j mats =>
      mats.modify (side a b i) (side a b j) (addSubMatrix (rows i) (cols j) (em i j))) mats)
    (fun m => MatsOk m n rz cz) mget
    (fun i => fun p q r c => ∑ j ∈ range 2, if side a b i = p ∧ side a b j = q then
      scatter (rows i) (cols j) (em i j) r c else 0) hm (by
      intro i m hi hm
      obtain ⟨m', e, h1, h2⟩ := loop_acc (n := 2)
        (body := fun j mats =>
          mats.modify (side a b i) (side a b j) (addSubMatrix (rows i) (cols j) (em i j)))
        (fun m => MatsOk m n rz cz) mget
        (fun j => fun p q r c => if side a b i = p ∧ side a b j = q then
          scatter (rows i) (cols j) (em i j) r c else 0) hm (by
          intro j m hj hm
          exact modify_spec hm (hs i) (hs j) fun s s1 s2 =>
            addSubMatrix_spec (by rw [s1]; exact hr i hi) (by rw [s2]; exact hc j hj)
              (he i j hi hj).1 (he i j hi hj).2.1 (he i j hi hj).2.2)
      refine ⟨m', e, h1, ?_⟩
      rw [h2]; congr 1)
  refine ⟨m', e, h1, ?_⟩
  rw [h2]; congr 1

/-- All integrators on one face. -/
theorem addIntegs_spec {mats : MatArr R} {n : Nat} {rz cz : Nat → Nat} (hm : MatsOk mats n rz cz)
    {a b : Nat} (ha : a < n) (hb : b < n) {rows cols : Nat → List Int}
    {fnfi : List (Option (Integ R δ))} {em : Integ R δ → Nat → Nat → Mat R}
    (hr : ∀ i, i < 2 → ∀ d ∈ rows i, dofPos d < rz (side a b i))
    (hc : ∀ i, i < 2 → ∀ d ∈ cols i, dofPos d < cz (side a b i))
    (he : ∀ g ∈ fnfi, ∃ g', g = some g' ∧ ∀ i j, i < 2 → j < 2 → (em g' i j).h = (rows i).length ∧
      (em g' i j).w = (cols j).length ∧ MatOk (em g' i j)) :
    ∃ m', addIntegs a b rows cols fnfi em mats = .ok m' ∧ MatsOk m' n rz cz ∧
      mget m' = mget mats + (fnfi.map (fun g => match g with
        | none => 0
        | some g => blockTerm a b rows cols (em g))).sum := by
  unfold addIntegs
  refine loop_list_acc (fun m => MatsOk m n rz cz) mget _ hm ?_
  intro k g m hg e hm
  obtain ⟨g', rfl, hs⟩ := he g hg
  rw [e, ok_bind]
  exact addBlocks_spec hm ha hb hr hc hs

omit [CommRing R] in
theorem sideTr_eq {m : FMesh δ} {be : Nat} {inf : Int} (h : m.inf be = inf ∨ m.face be ≠ none) :
    sideTr m be inf = .ok (trOf m be inf) := by
  unfold sideTr trOf
  by_cases e : m.inf be = inf
  · rw [if_pos e]; simp [e]
  · rw [if_neg e]
    rcases hf : m.face be with _ | t
    · exact absurd hf (h.resolve_left e)
    · simp [e, deref, pure, Except.pure]

omit [CommRing R] in
theorem transformations_eq {s : Sides δ} {infos : List InterfaceInfo} (h : SidesOk s infos)
    {i : InterfaceInfo} (hi : i ∈ infos) :
    transformations false s.mesh1 s.mesh2 i =
      .ok (trOf s.mesh1 i.be1 i.inf1, trOf s.mesh2 i.be2 i.inf2) := by
  unfold transformations
  rw [Bool.not_false, require_true, ok_bind, sideTr_eq (h.orient1 i hi), ok_bind,
    sideTr_eq (h.orient2 i hi)]
  rfl

omit [CommRing R] in
theorem rd_dofs {s : Space} {e : Nat} (h : e < s.vdofs.length) :
    rd s.vdofs e = .ok (dofsOf s e) := by
  rw [rd_of_lt h]; simp [dofsOf, h]

theorem dofs_lt {s : Space} (h : SpaceOk s) {e : Nat} : ∀ d ∈ dofsOf s e, dofPos d < s.vsize := by
  intro d hd
  unfold dofsOf at hd
  rcases he : s.vdofs[e]? with _ | l
  · rw [he] at hd; simp at hd
  · rw [he] at hd
    exact h l (List.mem_of_getElem? he) d hd

/-- The sizes of the blocks are those of the spaces of the sides. -/
def Sized (s : Sides δ) (a b : Nat) (rz cz : Nat → Nat) : Prop :=
  rz a = s.test1.vsize ∧ rz b = s.test2.vsize ∧ cz a = s.trial1.vsize ∧ cz b = s.trial2.vsize

theorem rows_lt {s : Sides δ} {infos : List InterfaceInfo} (h : SidesOk s infos) {a b : Nat}
    {rz cz : Nat → Nat} (hz : Sized s a b rz cz) (t1 t2 : Tr δ) :
    (∀ i, i < 2 → ∀ d ∈ s.rows t1 t2 i, dofPos d < rz (side a b i)) ∧
    (∀ i, i < 2 → ∀ d ∈ s.cols t1 t2 i, dofPos d < cz (side a b i)) := by
  obtain ⟨z1, z2, z3, z4⟩ := hz
  obtain ⟨s1, s2, s3, s4⟩ := h.spaces
  constructor <;>
  · intro i hi d hd
    first | unfold Sides.rows at hd | unfold Sides.cols at hd
    unfold side
    by_cases h0 : i = 0
    · simp only [h0, if_true] at hd ⊢
      first | (rw [z1]; exact dofs_lt s1 d hd) | (rw [z3]; exact dofs_lt s3 d hd)
    · simp only [h0, if_false] at hd ⊢
      first | (rw [z2]; exact dofs_lt s2 d hd) | (rw [z4]; exact dofs_lt s4 d hd)

theorem face_cases (s : Sides δ) (i : InterfaceInfo) :
    (∃ t1 t2, trOf s.mesh1 i.be1 i.inf1 = some t1 ∧ trOf s.mesh2 i.be2 i.inf2 = some t2 ∧
      s.face i = some (t1, t2)) ∨
    (s.face i = none ∧ (trOf s.mesh1 i.be1 i.inf1 = none ∨ trOf s.mesh2 i.be2 i.inf2 = none)) := by
  unfold Sides.face
  rcases trOf s.mesh1 i.be1 i.inf1 with _ | t1
  · right; simp
  · rcases trOf s.mesh2 i.be2 i.inf2 with _ | t2
    · right; simp
    · left; exact ⟨t1, t2, rfl, rfl, rfl⟩

/-- The faces of one port. -/
theorem assembleMatrix_spec {mats : MatArr R} {n : Nat} {rz cz : Nat → Nat}
    (hm : MatsOk mats n rz cz) {a b : Nat} (ha : a < n) (hb : b < n) {s : Sides δ}
    {infos : List InterfaceInfo} {fnfi : List (Option (Integ R δ))} (hs : SidesOk s infos)
    (hz : Sized s a b rz cz) (hf : IntegsOk s infos fnfi (fun g => g.mat)) :
    ∃ m', assembleMatrix false a b s.mesh1 s.mesh2 s.test1 s.test2 s.trial1 s.trial2 fnfi infos mats
        = .ok m' ∧ MatsOk m' n rz cz ∧
      mget m' = mget mats + (infos.map (faceTerm a b s fnfi (fun g => g.mat))).sum := by
  unfold assembleMatrix
  refine loop_list_acc (fun m => MatsOk m n rz cz) mget _ hm ?_
  intro k i m hi e hm
  rw [e, ok_bind, transformations_eq hs hi, ok_bind]
  rcases face_cases s i with ⟨t1, t2, e1, e2, e3⟩ | ⟨e3, e4⟩
  · rw [e1, e2]
    obtain ⟨l1, l2, l3, l4⟩ := hs.elem i hi t1 t2 e3
    unfold faceTerm
    rw [e3]
    simp only [faceMatrix]
    rw [rd_dofs l3, ok_bind, rd_dofs l4, ok_bind, rd_dofs l1, ok_bind, rd_dofs l2, ok_bind]
    obtain ⟨r1, r2⟩ := rows_lt hs hz t1 t2
    refine addIntegs_spec (em := fun g => g.mat t1 t2) hm ha hb r1 r2 ?_
    intro g hg
    obtain ⟨g', rfl, h⟩ := hf g hg
    exact ⟨g', rfl, h i hi t1 t2 e3⟩
  · refine ⟨m, ?_, hm, ?_⟩
    · rcases e4 with e4 | e4
      · rw [e4]; simp only [faceMatrix]
      · rw [e4]; rcases trOf s.mesh1 i.be1 i.inf1 with _ | t <;> simp only [faceMatrix]
    · unfold faceTerm; rw [e3]; exact (add_zero _).symm

/-- The faces of one port, for the gradient. -/
theorem faceGrad_spec {mats : MatArr R} {n : Nat} {rz : Nat → Nat}
    (hm : MatsOk mats n rz rz) {a b : Nat} (ha : a < n) (hb : b < n) {s : Sides δ}
    {infos : List InterfaceInfo} {fnfi : List (Option (Integ R δ))} (hs : SidesOk s infos)
    (hz : Sized s a b rz rz) (t1' : s.trial1 = s.test1) (t2' : s.trial2 = s.test2)
    {x1 x2 : List R} {em : Integ R δ → Tr δ → Tr δ → Nat → Nat → Mat R}
    (hem : ∀ g t1 t2 e1 e2, getSubVector x1 (s.rows t1 t2 0) = .ok e1 →
      getSubVector x2 (s.rows t1 t2 1) = .ok e2 → em g t1 t2 = g.grad t1 t2 e1 e2)
    (hx : ∀ i ∈ infos, ∀ t1 t2, s.face i = some (t1, t2) →
      ∃ e1 e2, getSubVector x1 (s.rows t1 t2 0) = .ok e1 ∧ getSubVector x2 (s.rows t1 t2 1) = .ok e2)
    (hf : IntegsOk s infos fnfi em) :
    ∃ m', loop infos.length (fun k mats => do
        let i ← rd infos k
        let t ← transformations false s.mesh1 s.mesh2 i
        faceGrad a b s.test1 s.test2 fnfi x1 x2 mats t) mats = .ok m' ∧ MatsOk m' n rz rz ∧
      mget m' = mget mats + (infos.map (faceTerm a b s fnfi em)).sum := by
  refine loop_list_acc (fun m => MatsOk m n rz rz) mget _ hm ?_
  intro k i m hi e hm
  rw [e, ok_bind, transformations_eq hs hi, ok_bind]
  rcases face_cases s i with ⟨t1, t2, e1, e2, e3⟩ | ⟨e3, e4⟩
  · rw [e1, e2]
    obtain ⟨l1, l2, l3, l4⟩ := hs.elem i hi t1 t2 e3
    obtain ⟨u1, u2, g1, g2⟩ := hx i hi t1 t2 e3
    unfold faceTerm
    rw [e3]
    simp only [faceGrad]
    rw [rd_dofs l1, ok_bind, rd_dofs l2, ok_bind]
    have g1' : getSubVector x1 (dofsOf s.test1 t1.elem) = .ok u1 := g1
    have g2' : getSubVector x2 (dofsOf s.test2 t2.elem) = .ok u2 := g2
    rw [g1', ok_bind, g2', ok_bind]
    obtain ⟨r1, r2⟩ := rows_lt hs hz t1 t2
    have hcr : s.cols t1 t2 = s.rows t1 t2 := by
      funext j; unfold Sides.cols Sides.rows; rw [t1', t2']
    have key := addIntegs_spec (em := fun g => em g t1 t2) (rows := s.rows t1 t2)
      (cols := s.cols t1 t2) (fnfi := fnfi) hm ha hb r1 r2 (by
        intro g hg
        obtain ⟨g', rfl, h⟩ := hf g hg
        exact ⟨g', rfl, h i hi t1 t2 e3⟩)
    have : (fun g : Integ R δ => em g t1 t2) = fun g => g.grad t1 t2 u1 u2 := by
      funext g; exact hem g t1 t2 u1 u2 g1 g2
    rw [hcr] at key ⊢
    have e5 : addIntegs a b (s.rows t1 t2) (s.rows t1 t2) fnfi (fun g => em g t1 t2) m =
        addIntegs a b (fun i => if i = 0 then dofsOf s.test1 t1.elem else dofsOf s.test2 t2.elem)
          (fun i => if i = 0 then dofsOf s.test1 t1.elem else dofsOf s.test2 t2.elem) fnfi
          (fun g => g.grad t1 t2 u1 u2) m := by rw [this]; rfl
    rw [e5] at key
    exact key
  · refine ⟨m, ?_, hm, ?_⟩
    · rcases e4 with e4 | e4
      · rw [e4]; simp only [faceGrad]
      · rw [e4]; rcases trOf s.mesh1 i.be1 i.inf1 with _ | t <;> simp only [faceGrad]
    · unfold faceTerm; rw [e3]; exact (add_zero _).symm

/-! ## Vectors -/

theorem getSubVector_eq {s : Nat} {x : Nat → R} {dofs : List Int} (h : ∀ d ∈ dofs, dofPos d < s) :
    getSubVector (tab s x) dofs = .ok (gather x dofs) := by
  unfold getSubVector gather
  have := loop_spec (n := dofs.length) (body := fun k acc => do
      let d ← rd dofs k
      let v ← rd (tab s x) (dofPos d)
      return acc ++ [dofSign d * v])
    (fun k => (dofs.take k).map (fun d => dofSign d * x (dofPos d))) (s := []) (by simp)
    (by
      intro k hk
      show (rd dofs k >>= fun d => rd (tab s x) (dofPos d) >>= fun v => _) = _
      rw [rd_of_lt hk, ok_bind, rd_tab (h _ (List.getElem_mem hk)), ok_bind]
      show Except.ok _ = Except.ok (List.map _ (List.take (k + 1) dofs))
      rw [List.take_succ_eq_append_getElem hk, List.map_append]; rfl)
  refine this.trans ?_
  rw [List.take_length]

theorem addElementVector_spec {y : List R} {off : Nat} {dofs : List Int} {el : List R}
    (h : ∀ d ∈ dofs, off + dofPos d < y.length) (hl : dofs.length ≤ el.length) :
    ∃ y', addElementVector y off dofs el = .ok y' ∧ y'.length = y.length ∧
      ve y' = ve y + fun t => ∑ k ∈ range dofs.length,
        if off + dofPos (dofAt dofs k) = t then dofSign (dofAt dofs k) * ve el k else 0 := by
  unfold addElementVector
  obtain ⟨y', e, h1, h2⟩ := loop_acc (n := dofs.length) (body := fun k y => do
      let d ← rd dofs k
      let v ← rd el k
      upd y (off + dofPos d) (fun z => z + dofSign d * v))
    (fun u : List R => u.length = y.length) ve
    (fun k => fun t => if off + dofPos (dofAt dofs k) = t then dofSign (dofAt dofs k) * ve el k else 0)
    (s := y) rfl (by
      intro k u hk hu
      obtain ⟨e1, m1⟩ := dofAt_mem hk
      have hlt : off + dofPos (dofAt dofs k) < u.length := by rw [hu]; exact h _ m1
      refine ⟨u.set (off + dofPos (dofAt dofs k)) (ve u (off + dofPos (dofAt dofs k)) +
        dofSign (dofAt dofs k) * ve el k), ?_, by simpa using hu, ?_⟩
      · show (rd dofs k >>= fun d => rd el k >>= fun v => _) = _
        rw [e1, ok_bind, rd_ve (by omega), ok_bind, upd_of_lt hlt]
      · funext t
        rw [ve_set hlt]
        simp only [Pi.add_apply]
        by_cases ht : off + dofPos (dofAt dofs k) = t
        · rw [if_pos ht, if_pos ht, ht]
        · rw [if_neg ht, if_neg ht, add_zero])
  refine ⟨y', e, h1, ?_⟩
  rw [h2]; congr 1
  funext t; rw [Finset.sum_apply]

theorem bent_zero {b : BlockVector R} {z : List Nat} (h : HasSizes b z) {i k : Nat}
    (hk : z[i]?.getD 0 ≤ k) : bent b i k = 0 := by
  unfold bent
  rcases hz : z[i]? with _ | s
  · have hi := List.getElem?_eq_none_iff.1 hz
    have : b.offsets[i + 1]? = none := List.getElem?_eq_none_iff.2 (by rw [h.1.1]; omega)
    unfold blockOf
    rw [this]; simp [ve]
  · rw [hz] at hk
    have := length_blockOf h hz
    unfold ve
    rw [List.getElem?_eq_none (by simp at hk; omega)]; rfl

/-- Adding an element vector to one block. -/
theorem addElementVector_block {d : List R} {offs z : List Nat} (h : HasSizes ⟨d, offs⟩ z) {m s : Nat}
    (hs : z[m]? = some s) {dofs : List Int} {el : List R} (hd : ∀ x ∈ dofs, dofPos x < s)
    (hl : dofs.length ≤ el.length) :
    ∃ d', addElementVector d ((z.take m).sum) dofs el = .ok d' ∧ HasSizes ⟨d', offs⟩ z ∧
      bent ⟨d', offs⟩ = bent (⟨d, offs⟩ : BlockVector R) +
        fun p r => if m = p then scatterVec dofs el r else 0 := by
  have hb := block_bound z hs
  have hlen : d.length = z.sum := h.2
  obtain ⟨d', e, h1, h2⟩ := addElementVector_spec (y := d) (off := (z.take m).sum) (dofs := dofs)
    (el := el) (by intro x hx; have := hd x hx; omega) hl
  have hz' : HasSizes (⟨d', offs⟩ : BlockVector R) z := ⟨h.1, h1.trans hlen⟩
  refine ⟨d', e, hz', ?_⟩
  funext p r
  show bent (⟨d', offs⟩ : BlockVector R) p r = bent (⟨d, offs⟩ : BlockVector R) p r + _
  by_cases hr : r < z[p]?.getD 0
  · rcases hp : z[p]? with _ | s'
    · rw [hp] at hr; simp at hr
    · rw [hp] at hr
      have hr : r < s' := by simpa using hr
      rw [bent_eq hz' hp hr, bent_eq h hp hr]
      show ve d' _ = ve d _ + _
      rw [h2]
      simp only [Pi.add_apply]
      congr 1
      by_cases hmp : m = p
      · subst hmp
        rw [if_pos rfl]
        unfold scatterVec
        refine sum_congr rfl fun k _ => ?_
        by_cases hk : dofPos (dofAt dofs k) = r
        · rw [if_pos (by omega), if_pos hk]
        · rw [if_neg (by omega), if_neg hk]
      · rw [if_neg hmp]
        refine sum_eq_zero fun k hk => ?_
        have := hd _ (dofAt_mem (mem_range.1 hk)).2
        rw [if_neg]
        intro h'
        exact block_disjoint z hs hp hr hmp ⟨by omega, by omega⟩
  · have hr : z[p]?.getD 0 ≤ r := by omega
    rw [bent_zero hz' hr, bent_zero h hr, zero_add]
    show 0 = if m = p then scatterVec dofs el r else 0
    by_cases hmp : m = p
    · subst hmp
      rw [if_pos rfl]
      unfold scatterVec
      rw [hs] at hr
      have hr : s ≤ r := by simpa using hr
      refine (sum_eq_zero fun k hk => ?_).symm
      have := hd _ (dofAt_mem (mem_range.1 hk)).2
      rw [if_neg (by omega)]
    · rw [if_neg hmp]

theorem faceVector_spec {a b : Nat} {s : Sides δ} {infos : List InterfaceInfo}
    {fnfi : List (Option (Integ R δ))} (hs : SidesOk s infos) (hf : VecsOk s infos fnfi)
    {x : BlockVector R} {d : List R} {offs z : List Nat} (h : HasSizes ⟨d, offs⟩ z)
    (z1 : z[a]? = some s.test1.vsize) (z2 : z[b]? = some s.test2.vsize) :
    ∃ d', loop infos.length (fun k d => do
        let i ← rd infos k
        let t ← transformations false s.mesh1 s.mesh2 i
        faceVector (z.take a).sum (z.take b).sum s.test1 s.test2 fnfi
          (tab s.test1.vsize (bent x a)) (tab s.test2.vsize (bent x b)) d t) d = .ok d' ∧
      HasSizes ⟨d', offs⟩ z ∧
      bent ⟨d', offs⟩ = bent (⟨d, offs⟩ : BlockVector R) + (infos.map (faceVec a b s fnfi x)).sum := by
  refine loop_list_acc (fun d => HasSizes (⟨d, offs⟩ : BlockVector R) z)
    (fun d => bent (⟨d, offs⟩ : BlockVector R)) _ h ?_
  intro k i d hi e hd
  rw [e, ok_bind, transformations_eq hs hi, ok_bind]
  rcases face_cases s i with ⟨t1, t2, e1, e2, e3⟩ | ⟨e3, e4⟩
  · rw [e1, e2]
    obtain ⟨l1, l2, l3, l4⟩ := hs.elem i hi t1 t2 e3
    obtain ⟨s1, s2, -, -⟩ := hs.spaces
    unfold faceVec
    rw [e3]
    simp only [faceVector]
    rw [rd_dofs l1, ok_bind, rd_dofs l2, ok_bind, getSubVector_eq (dofs_lt s1), ok_bind,
      getSubVector_eq (dofs_lt s2), ok_bind]
    refine loop_list_acc (fun d => HasSizes (⟨d, offs⟩ : BlockVector R) z)
      (fun d => bent (⟨d, offs⟩ : BlockVector R)) _ hd ?_
    intro k g d hg e hd
    obtain ⟨g', rfl, hl⟩ := hf g hg
    have hl := hl i hi t1 t2 e3 (gather (bent x a) (dofsOf s.test1 t1.elem))
      (gather (bent x b) (dofsOf s.test2 t2.elem))
    rw [e, ok_bind]
    show ∃ s', addVecs _ _ _ _ _ _ _ = _ ∧ _
    unfold addVecs
    obtain ⟨d1, f1, f2, f3⟩ := addElementVector_block hd z1 (dofs := dofsOf s.test1 t1.elem)
      (el := g'.vec t1 t2 (gather (bent x a) (dofsOf s.test1 t1.elem))
        (gather (bent x b) (dofsOf s.test2 t2.elem)) 0) (dofs_lt s1) (hl 0 (by omega))
    obtain ⟨d2, f4, f5, f6⟩ := addElementVector_block f2 z2 (dofs := dofsOf s.test2 t2.elem)
      (el := g'.vec t1 t2 (gather (bent x a) (dofsOf s.test1 t1.elem))
        (gather (bent x b) (dofsOf s.test2 t2.elem)) 1) (dofs_lt s2) (hl 1 (by omega))
    refine ⟨d2, by rw [f1, ok_bind, f4], f5, ?_⟩
    rw [f6, f3, add_assoc]
    congr 1
    funext p r
    simp only [Pi.add_apply, vecBlockTerm, sum_range_succ, sum_range_zero, zero_add]
    rfl
  · refine ⟨d, ?_, hd, ?_⟩
    · rcases e4 with e4 | e4
      · rw [e4]; simp only [faceVector]
      · rw [e4]; rcases trOf s.mesh1 i.be1 i.inf1 with _ | t <;> simp only [faceVector]
    · unfold faceVec; rw [e3]; exact (add_zero _).symm

end Verif.InterfaceForm
