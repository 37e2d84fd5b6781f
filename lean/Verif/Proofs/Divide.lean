import Verif.Spec.Divide
import Verif.Props.SubMesh
import Verif.Proofs.RomForms

/-! # Lemmas about the operator of a divided mesh -/

namespace Verif.Divide

open Verif Verif.LinAlg Verif.LinAlg.Spec Verif.SubMesh Verif.SubMesh.Spec Finset Spec
open Verif.InterfaceForm (Space FMesh Integ Tr MatArr side)
open Verif.InterfaceForm.Spec (scatter dofAt dofPos dofSign dofsOf trOf SpaceOk sizeIn MatsOk mget
  blockTerm faceTerm portTerm formTerm sidesOf matOf FormOk SidesOk IntegsOk Sides)
open Verif.RomAssembly (BFace BForm loop_collect weakTerm domainMatrix_spec maxOr maxOr_ge)
open Verif.RomAssembly.Spec (Weak faceVal BFormOk)
open Verif.Boundary (BC)

variable {R δ F : Type} [CommRing R]

/-! ## Scattering at the degrees of freedom of elements -/

/-- `scatter` for a matrix given by its entries. -/
def scat (rows cols : List Int) (E : Nat → Nat → R) (r c : Nat) : R :=
  ∑ k ∈ range rows.length, ∑ l ∈ range cols.length,
    if dofPos (dofAt rows k) = r ∧ dofPos (dofAt cols l) = c then
      dofSign (dofAt rows k) * dofSign (dofAt cols l) * E k l else 0

theorem scatter_eq (rows cols : List Int) (m : Mat R) (r c : Nat) :
    scatter rows cols m r c = scat rows cols (ent m) r c := rfl

theorem dofAt_append (l l' : List Int) (k : Nat) :
    dofAt (l ++ l') k = if k < l.length then dofAt l k else dofAt l' (k - l.length) := by
  unfold dofAt
  split
  · rename_i h; rw [List.getElem?_append_left h]
  · rename_i h; rw [List.getElem?_append_right (by omega)]

theorem scat_append (r1 r2 c1 c2 : List Int) (E : Nat → Nat → R) (r c : Nat) :
    scat (r1 ++ r2) (c1 ++ c2) E r c = ∑ I : Bool, ∑ J : Bool,
      scat (if I then r2 else r1) (if J then c2 else c1)
        (fun a b => E (if I then r1.length + a else a) (if J then c1.length + b else b)) r c := by
  have h1 : ∀ k, k ∈ range r1.length → dofAt (r1 ++ r2) k = dofAt r1 k := by
    intro k hk; rw [dofAt_append, if_pos (mem_range.1 hk)]
  have h2 : ∀ k, dofAt (r1 ++ r2) (r1.length + k) = dofAt r2 k := by
    intro k; rw [dofAt_append, if_neg (by omega), Nat.add_sub_cancel_left]
  have h3 : ∀ k, k ∈ range c1.length → dofAt (c1 ++ c2) k = dofAt c1 k := by
    intro k hk; rw [dofAt_append, if_pos (mem_range.1 hk)]
  have h4 : ∀ k, dofAt (c1 ++ c2) (c1.length + k) = dofAt c2 k := by
    intro k; rw [dofAt_append, if_neg (by omega), Nat.add_sub_cancel_left]
  unfold scat
  simp only [Fintype.sum_bool, if_true, Bool.false_eq_true, if_false]
  rw [List.length_append, List.length_append, sum_range_add]
  have e1 : ∀ k, (∑ l ∈ range (c1.length + c2.length),
      if dofPos (dofAt (r1 ++ r2) k) = r ∧ dofPos (dofAt (c1 ++ c2) l) = c then
        dofSign (dofAt (r1 ++ r2) k) * dofSign (dofAt (c1 ++ c2) l) * E k l else 0) =
      (∑ l ∈ range c1.length, if dofPos (dofAt (r1 ++ r2) k) = r ∧ dofPos (dofAt c1 l) = c then
        dofSign (dofAt (r1 ++ r2) k) * dofSign (dofAt c1 l) * E k l else 0) +
      ∑ l ∈ range c2.length, if dofPos (dofAt (r1 ++ r2) k) = r ∧ dofPos (dofAt c2 l) = c then
        dofSign (dofAt (r1 ++ r2) k) * dofSign (dofAt c2 l) * E k (c1.length + l) else 0 := by
    intro k
    rw [sum_range_add]
    congr 1
    · exact sum_congr rfl fun l hl => by rw [h3 l hl]
    · exact sum_congr rfl fun l _ => by rw [h4 l]
  rw [sum_congr rfl fun k _ => e1 k, sum_congr rfl fun k _ => e1 (r1.length + k)]
  rw [sum_add_distrib, sum_add_distrib]
  simp only [h2]
  rw [sum_congr rfl fun k hk => by rw [h1 k hk],
    sum_congr (s₁ := range r1.length) (f := fun k => ∑ l ∈ range c2.length, _) rfl
      fun k hk => by rw [h1 k hk]]
  abel

theorem dof_plain {em : List Nat} {n : Nat → Nat} {s : Space} (h : SpaceFits em n s) {i a : Nat}
    (ha : a < (dofsOf s i).length) : 0 ≤ dofAt (dofsOf s i) a := by
  unfold dofsOf at ha ⊢
  cases hv : s.vdofs[i]? with
  | none => rw [hv] at ha; simp at ha
  | some l =>
    rw [hv] at ha
    simp only [Option.getD_some] at ha ⊢
    unfold dofAt
    rw [List.getElem?_eq_getElem ha]
    exact h.plain l (List.mem_of_getElem? hv) _ (List.getElem_mem ha)

theorem pos_eq {em : List Nat} {n : Nat → Nat} {s : Space} (h : SpaceFits em n s) {i i' a a' : Nat}
    (ha : a < (dofsOf s i).length) (ha' : a' < (dofsOf s i').length) :
    dofPos (dofAt (dofsOf s i) a) = pos s i' a' ↔ i = i' ∧ a = a' := by
  constructor
  · intro e
    have h1 := dof_plain h ha
    have h2 := dof_plain h ha'
    unfold pos dofPos at e
    rw [if_neg (by omega), if_neg (by omega)] at e
    exact h.once i i' a a' ha ha' (by omega)
  · rintro ⟨rfl, rfl⟩; rfl

theorem scat_at {em em' : List Nat} {n n' : Nat → Nat} {s s' : Space} (h : SpaceFits em n s)
    (h' : SpaceFits em' n' s') {i0 j0 i j a b : Nat} (ha : a < (dofsOf s i).length)
    (hb : b < (dofsOf s' j).length) (E : Nat → Nat → R) :
    scat (dofsOf s i0) (dofsOf s' j0) E (pos s i a) (pos s' j b) =
      if i0 = i ∧ j0 = j then E a b else 0 := by
  unfold scat
  have key : ∀ k ∈ range (dofsOf s i0).length, ∀ l ∈ range (dofsOf s' j0).length,
      (if dofPos (dofAt (dofsOf s i0) k) = pos s i a ∧ dofPos (dofAt (dofsOf s' j0) l) = pos s' j b then
        dofSign (dofAt (dofsOf s i0) k) * dofSign (dofAt (dofsOf s' j0) l) * E k l else 0) =
      if k = a then if l = b then if i0 = i ∧ j0 = j then E a b else 0 else 0 else 0 := by
    intro k hk l hl
    rw [mem_range] at hk hl
    have p1 := dof_plain h hk
    have p2 := dof_plain h' hl
    have s1 : (dofSign (dofAt (dofsOf s i0) k) : R) = 1 := if_neg (by omega)
    have s2 : (dofSign (dofAt (dofsOf s' j0) l) : R) = 1 := if_neg (by omega)
    rw [s1, s2]
    simp only [pos_eq h hk ha, pos_eq h' hl hb]
    by_cases c1 : k = a
    · by_cases c2 : l = b
      · subst c1; subst c2
        simp
      · simp [c2]
    · simp [c1]
  rw [sum_congr rfl fun k hk => sum_congr rfl fun l hl => key k hk l hl]
  by_cases hc : i0 = i ∧ j0 = j
  · obtain ⟨rfl, rfl⟩ := hc
    rw [sum_eq_single a, sum_eq_single b]
    · simp
    · intro l _ hl; simp [hl]
    · intro hl; exact absurd (mem_range.2 hb) hl
    · intro k _ hk; simp [hk]
    · intro hk; exact absurd (mem_range.2 ha) hk
  · simp [hc]

/-! ## Sums over lists of faces -/

theorem list_sum_eq {L1 L2 : List Nat} (h1 : L1.Nodup) (h2 : L2.Nodup) (T : Nat → R)
    (h : ∀ f, T f ≠ 0 → (f ∈ L1 ↔ f ∈ L2)) : (L1.map T).sum = (L2.map T).sum := by
  classical
  rw [← List.sum_toFinset T h1, ← List.sum_toFinset T h2]
  rw [← sum_filter_ne_zero, ← sum_filter_ne_zero (s := L2.toFinset)]
  apply sum_congr _ fun _ _ => rfl
  ext f
  simp only [mem_filter, List.mem_toFinset]
  constructor
  · rintro ⟨a, b⟩; exact ⟨(h f b).1 a, b⟩
  · rintro ⟨a, b⟩; exact ⟨(h f b).2 a, b⟩

theorem sum_range_list (n : Nat) (T : Nat → R) : ∑ f ∈ range n, T f = ((List.range n).map T).sum := by
  classical
  rw [← List.sum_toFinset T List.nodup_range]
  apply sum_congr _ fun _ _ => rfl
  ext; simp

/-! ## Ownership -/

/-- Element `i` of submesh `k` is element `e` of the parent mesh. -/
def At (subs : List Sub) (k i e : Nat) : Prop := ∃ s, subs[k]? = some s ∧ s.elemMap[i]? = some e

variable {pm : Parent} {subs : List Sub} {φ : Nat → Nat → Nat} {g : Int}

omit [CommRing R] in
theorem At.owns {k i e : Nat} (h : At subs k i e) : Owns subs k e := by
  obtain ⟨s, h1, h2⟩ := h
  exact ⟨s, h1, e, List.mem_of_getElem? h2, rfl⟩

omit [CommRing R] in
theorem At.inj (D : Division pm subs φ g) {k i k' i' e : Nat} (h : At subs k i e) (h' : At subs k' i' e) :
    k = k' ∧ i = i' := by
  have hk := D.wf.disjoint e k k' h.owns h'.owns
  subst hk
  obtain ⟨s, h1, h2⟩ := h
  obtain ⟨s', h3, h4⟩ := h'
  rw [h1] at h3; cases h3
  refine ⟨rfl, ?_⟩
  obtain ⟨l1, e1⟩ := List.getElem?_eq_some_iff.1 h2
  obtain ⟨l2, e2⟩ := List.getElem?_eq_some_iff.1 h4
  exact ((D.nodup k s h1).getElem_inj_iff).1 (e1.trans e2.symm)

omit [CommRing R] in
/-- Two elements are the same element of the parent mesh exactly if they are the same element. -/
theorem At.eq_iff (D : Division pm subs φ g) {k i k' i' e e' : Nat} (h : At subs k i e)
    (h' : At subs k' i' e') : (k = k' ∧ i = i') ↔ e = e' := by
  constructor
  · rintro ⟨rfl, rfl⟩
    obtain ⟨s, h1, h2⟩ := h
    obtain ⟨s', h3, h4⟩ := h'
    rw [h1] at h3; cases h3
    rw [h2] at h4; exact Option.some.inj h4
  · rintro rfl; exact At.inj D h h'

omit [CommRing R] in
theorem owns_at {k : Nat} {e : Int} (h : Owns subs k e) : ∃ i x, At subs k i x ∧ (x : Int) = e := by
  obtain ⟨s, h1, x, h2, h3⟩ := h
  obtain ⟨i, hi⟩ := List.mem_iff_getElem?.1 h2
  exact ⟨i, x, ⟨s, h1, hi⟩, h3⟩

/-! ## The form of a subdomain -/

theorem sized_dofs {em : List Nat} {n : Nat → Nat} {s : Space} (h : SpaceFits em n s) {i e : Nat}
    (hi : em[i]? = some e) : s.vdofs[i]? = some (dofsOf s i) ∧ (dofsOf s i).length = n e ∧
      ∀ d ∈ dofsOf s i, dofPos d < s.vsize := by
  have hlt : i < s.vdofs.length := by rw [h.count]; exact (List.getElem?_eq_some_iff.1 hi).1
  have hv : s.vdofs[i]? = some (dofsOf s i) := by
    unfold dofsOf; rw [List.getElem?_eq_getElem hlt]; rfl
  exact ⟨hv, h.size i e hi, h.inside _ (List.mem_of_getElem? hv)⟩

variable {W : Whole R} {ints : List (ITr δ → Mat R)} {k : Nat} {sm : Sub} {v : View R δ}

theorem addElems_spec (hv : ViewFits W pm subs φ ints k sm v) {s : Sp R} (hh : s.h = v.test.vsize)
    (hw : s.w = v.trial.vsize) :
    ∃ s', addElems v s = .ok s' ∧ (s'.h = v.test.vsize ∧ s'.w = v.trial.vsize) ∧
      (fun r c => s'.get r c) = (fun r c => s.get r c) + ∑ i ∈ range sm.elemMap.length,
        scat (dofsOf v.test i) (dofsOf v.trial i) (ent (v.vols[i]?.getD ⟨0, 0, []⟩)) := by
  unfold addElems
  rw [← hv.volCount]
  refine loop_acc (fun t : Sp R => t.h = v.test.vsize ∧ t.w = v.trial.vsize) (fun t => fun r c => t.get r c) _ ⟨hh, hw⟩ ?_
  rintro i t hi ⟨t1, t2⟩
  have hi' : i < sm.elemMap.length := by rw [← hv.volCount]; exact hi
  have he := List.getElem?_eq_getElem hi'
  have hm := List.getElem?_eq_getElem hi
  obtain ⟨a1, a2, a3, _⟩ := hv.vol i _ _ he hm
  obtain ⟨b1, b2, b3⟩ := sized_dofs hv.test he
  obtain ⟨c1, c2, c3⟩ := sized_dofs hv.trial he
  obtain ⟨t', e, ⟨d1, d2⟩, d3⟩ := InterfaceForm.addSubMatrix_spec (s := t) (by rw [t1]; exact b3)
    (by rw [t2]; exact c3) (a1.trans b2.symm) (a2.trans c2.symm) a3
  refine ⟨t', ?_, ⟨d1.trans t1, d2.trans t2⟩, ?_⟩
  · rw [rd_eq_ok.2 hm, ok_bind, rd_eq_ok.2 b1, ok_bind, rd_eq_ok.2 c1, ok_bind, e]
  · funext r c
    rw [hm]
    exact d3 r c

/-- What face `s` of a submesh adds. -/
def innerTerm (v : View R δ) (ints : List (ITr δ → Mat R)) (s : Nat) : Nat → Nat → R :=
  match v.faces[s]? with
  | some (some t) => (ints.map fun g => scat (dofsOf v.test t.elem1 ++ dofsOf v.test t.elem2)
      (dofsOf v.trial t.elem1 ++ dofsOf v.trial t.elem2) (ent (g t))).sum
  | _ => 0

theorem list_sum_apply2' {α : Type} (l : List α) (G : α → Nat → Nat → R) (r c : Nat) :
    (l.map G).sum r c = (l.map fun x => G x r c).sum := by
  induction l with
  | nil => rfl
  | cons x l ih => simp [ih]

omit [CommRing R] in
theorem inside_dec (subs : List Sub) (k : Nat) (fc : Face) : Inside subs k fc ∨ ¬ Inside subs k fc :=
  Classical.em _

theorem addFace_spec (D : Division pm subs φ g) (hk : subs[k]? = some sm)
    (hv : ViewFits W pm subs φ ints k sm v) {s : Nat} (hs : s < sm.numFaces) {t : Option (ITr δ)}
    (ht : v.faces[s]? = some t) {m : Sp R} (hh : m.h = v.test.vsize) (hw : m.w = v.trial.vsize) :
    ∃ m', addFace v ints t m = .ok m' ∧ (m'.h = v.test.vsize ∧ m'.w = v.trial.vsize) ∧
      (fun r c => m'.get r c) = (fun r c => m.get r c) + innerTerm v ints s := by
  unfold innerTerm
  rw [ht]
  cases t with
  | none => exact ⟨m, rfl, ⟨hh, hw⟩, by simp⟩
  | some t =>
    have hfc := List.getElem?_eq_getElem (D.faceIn k sm s hk hs)
    rcases inside_dec subs k (pm.faces[φ k s]'(D.faceIn k sm s hk hs)) with hi | hi
    swap
    · have := hv.outer s _ hs hfc hi
      rw [ht] at this; cases this
    obtain ⟨t', o, x1, x2, h1, h2, h3, -, -, h4, -⟩ := hv.inner s _ hs hfc hi
    rw [ht] at h1; cases h1
    obtain ⟨b1, b2, b3⟩ := sized_dofs hv.test h2
    obtain ⟨c1, c2, c3⟩ := sized_dofs hv.trial h2
    obtain ⟨b4, b5, b6⟩ := sized_dofs hv.test h3
    obtain ⟨c4, c5, c6⟩ := sized_dofs hv.trial h3
    dsimp only [addFace]
    rw [rd_eq_ok.2 c1, ok_bind, rd_eq_ok.2 b1, ok_bind, rd_eq_ok.2 c4, ok_bind, rd_eq_ok.2 b4, ok_bind]
    unfold addInts
    refine loop_list_acc (l := ints) (fun t : Sp R => t.h = v.test.vsize ∧ t.w = v.trial.vsize)
      (fun t => fun r c => t.get r c) _ ⟨hh, hw⟩ ?_
    rintro j gg u hg hj ⟨u1, u2⟩
    obtain ⟨g1, g2, g3⟩ := h4 gg hg
    obtain ⟨u', e, ⟨d1, d2⟩, d3⟩ := InterfaceForm.addSubMatrix_spec (s := u)
      (rows := dofsOf v.test t.elem1 ++ dofsOf v.test t.elem2)
      (cols := dofsOf v.trial t.elem1 ++ dofsOf v.trial t.elem2) (a := gg t)
      (by
        intro d hd
        rw [u1]
        rcases List.mem_append.1 hd with hd | hd
        · exact b3 d hd
        · exact b6 d hd)
      (by
        intro d hd
        rw [u2]
        rcases List.mem_append.1 hd with hd | hd
        · exact c3 d hd
        · exact c6 d hd)
      (by rw [List.length_append, b2, b5, g1]) (by rw [List.length_append, c2, c5, g2]) g3
    refine ⟨u', by rw [hj, ok_bind, e], ⟨d1.trans u1, d2.trans u2⟩, ?_⟩
    funext r c
    exact d3 r c

theorem base_spec (D : Division pm subs φ g) (hk : subs[k]? = some sm)
    (hv : ViewFits W pm subs φ ints k sm v) :
    ∃ s, base v ints = .ok s ∧ (s.h = v.test.vsize ∧ s.w = v.trial.vsize) ∧
      (fun r c => s.get r c) = ∑ i ∈ range sm.elemMap.length,
        scat (dofsOf v.test i) (dofsOf v.trial i) (ent (v.vols[i]?.getD ⟨0, 0, []⟩)) +
        ∑ s ∈ range sm.numFaces, innerTerm v ints s := by
  unfold base
  obtain ⟨s1, e1, hs1, hg1⟩ := addElems_spec hv (s := ⟨v.test.vsize, v.trial.vsize, []⟩) rfl rfl
  rw [e1, ok_bind]
  have h0 : (fun r c => Sp.get (⟨v.test.vsize, v.trial.vsize, []⟩ : Sp R) r c) = 0 := rfl
  rw [h0, zero_add] at hg1
  unfold addInterior
  by_cases hz : ints.length = 0
  · rw [if_pos hz]
    refine ⟨s1, rfl, hs1, ?_⟩
    have hn : ints = [] := List.length_eq_zero_iff.1 hz
    have : ∀ s, innerTerm v ints s = 0 := by
      intro s
      unfold innerTerm
      rw [hn]
      split <;> rfl
    rw [sum_congr rfl fun s _ => this s, sum_const_zero, add_zero, hg1]
  rw [if_neg hz, hv.faceCount, ← hg1]
  refine loop_acc (fun t : Sp R => t.h = v.test.vsize ∧ t.w = v.trial.vsize) (fun t => fun r c => t.get r c) _ hs1 ?_
  rintro s t hs ⟨t1, t2⟩
  have hlt : s < v.faces.length := by rw [hv.faceCount]; exact hs
  have hf := List.getElem?_eq_getElem hlt
  obtain ⟨t', e, d1, d2⟩ := addFace_spec D hk hv hs hf t1 t2
  exact ⟨t', by rw [rd_eq_ok.2 hf, ok_bind, e], d1, d2⟩

/-! ## Evaluation at the degrees of freedom of elements -/

theorem sum_xor (o : Bool) (G : Bool → Bool → R) :
    ∑ I : Bool, ∑ J : Bool, G (o ^^ I) (o ^^ J) = ∑ I : Bool, ∑ J : Bool, G I J := by
  cases o
  · simp
  · simp only [Fintype.sum_bool, Bool.true_xor, Bool.not_true, Bool.not_false]
    abel

theorem list_sum_bool {α : Type} (l : List α) (G : α → Bool → Bool → R) :
    (l.map fun x => ∑ I : Bool, ∑ J : Bool, G x I J).sum =
      ∑ I : Bool, ∑ J : Bool, (l.map fun x => G x I J).sum := by
  simp only [Fintype.sum_bool]
  induction l with
  | nil => simp
  | cons x l ih =>
    simp only [List.map_cons, List.sum_cons, ih]
    abel

theorem list_sum_if {α : Type} (l : List α) (P : Prop) [Decidable P] (G : α → R) :
    (l.map fun x => if P then G x else 0).sum = if P then (l.map G).sum else 0 := by
  by_cases h : P <;> simp [h]

open Classical in
theorem inner_at (D : Division pm subs φ g) (hk : subs[k]? = some sm)
    (hv : ViewFits W pm subs φ ints k sm v) {s : Nat} (hs : s < sm.numFaces) {fc : Face}
    (hfc : pm.faces[φ k s]? = some fc) {i e i' e' a b : Nat} (hi : sm.elemMap[i]? = some e)
    (hi' : sm.elemMap[i']? = some e') (ha : a < W.nt e) (hb : b < W.ns e') :
    innerTerm v ints s (pos v.test i a) (pos v.trial i' b) =
      if Inside subs k fc then faceSum W pm e a e' b (φ k s) else 0 := by
  by_cases hin : Inside subs k fc
  swap
  · rw [if_neg hin]
    unfold innerTerm
    rw [hv.outer s fc hs hfc hin]
    rfl
  rw [if_pos hin]
  obtain ⟨t, o, x1, x2, h1, h2, h3, h4, h5, -, h6⟩ := hv.inner s fc hs hfc hin
  obtain ⟨b1, b2, b3⟩ := sized_dofs hv.test h2
  obtain ⟨c1, c2, c3⟩ := sized_dofs hv.trial h2
  obtain ⟨_, b4, _⟩ := sized_dofs hv.test hi
  obtain ⟨_, c4, _⟩ := sized_dofs hv.trial hi'
  have A1 : At subs k t.elem1 x1 := ⟨sm, hk, h2⟩
  have A2 : At subs k t.elem2 x2 := ⟨sm, hk, h3⟩
  have Ai : At subs k i e := ⟨sm, hk, hi⟩
  have Ai' : At subs k i' e' := ⟨sm, hk, hi'⟩
  have side : ∀ (I : Bool) (j y : Nat), At subs k j y →
      ((if I then t.elem2 else t.elem1) = j ↔ elemAt fc (o ^^ I) = y) := by
    intro I j y hj
    cases I
    · have := At.eq_iff D A1 hj
      simp only [true_and] at this
      rw [Bool.xor_false, ← h4]
      simp only [Bool.false_eq_true, if_false]
      rw [this]; norm_cast
    · have := At.eq_iff D A2 hj
      simp only [true_and] at this
      rw [Bool.xor_true, ← h5]
      simp only [if_true]
      rw [this]; norm_cast
  have parent : ∀ (I : Bool) (j y : Nat), At subs k j y → (if I then t.elem2 else t.elem1) = j →
      (if I then x2 else x1) = y := by
    intro I j y hj hI
    cases I
    · exact ((At.eq_iff D A1 hj).1 ⟨rfl, hI⟩)
    · exact ((At.eq_iff D A2 hj).1 ⟨rfl, hI⟩)
  unfold innerTerm faceSum
  rw [h1, hfc]
  dsimp only
  rw [if_neg (by have := hin.1; omega), list_sum_apply2']
  have e1 : ∀ (I : Bool) (s : Space), (if I then dofsOf s t.elem2 else dofsOf s t.elem1) =
      dofsOf s (if I then t.elem2 else t.elem1) := by intro I s; cases I <;> rfl
  have e2 : ∀ gg : ITr δ → Mat R, scat (dofsOf v.test t.elem1 ++ dofsOf v.test t.elem2)
      (dofsOf v.trial t.elem1 ++ dofsOf v.trial t.elem2) (ent (gg t)) (pos v.test i a)
      (pos v.trial i' b) = ∑ I : Bool, ∑ J : Bool,
        if (if I then t.elem2 else t.elem1) = i ∧ (if J then t.elem2 else t.elem1) = i' then
          ent (gg t) (if I then W.nt x1 + a else a) (if J then W.ns x1 + b else b) else 0 := by
    intro gg
    rw [scat_append]
    refine sum_congr rfl fun I _ => sum_congr rfl fun J _ => ?_
    rw [e1, e1, scat_at hv.test hv.trial (by rw [b4]; exact ha) (by rw [c4]; exact hb), b2, c2]
  simp only [e2]
  rw [list_sum_bool]
  simp only [list_sum_if]
  rw [← sum_xor o (fun I J => if elemAt fc I = e ∧ elemAt fc J = e' then
    W.face (φ k s) I J a b else 0)]
  refine sum_congr rfl fun I _ => sum_congr rfl fun J _ => ?_
  by_cases hc : (if I then t.elem2 else t.elem1) = i ∧ (if J then t.elem2 else t.elem1) = i'
  · refine (if_pos hc).trans (Eq.trans ?_
      (if_pos ⟨(side I i e Ai).1 hc.1, (side J i' e' Ai').1 hc.2⟩).symm)
    exact h6 I J a b (by rw [parent I i e Ai hc.1]; exact ha) (by rw [parent J i' e' Ai' hc.2]; exact hb)
  · rw [if_neg hc, if_neg]
    rintro ⟨q1, q2⟩
    exact hc ⟨(side I i e Ai).2 q1, (side J i' e' Ai').2 q2⟩

/-- A face whose two elements have different owners. -/
def Split (pm : Parent) (subs : List Sub) (f : Nat) : Prop :=
  ∃ fc, pm.faces[f]? = some fc ∧ 0 ≤ fc.e1 ∧ ¬ ∃ k, Inside subs k fc

/-- A face inside submesh `k`. -/
def InsideAt (pm : Parent) (subs : List Sub) (k f : Nat) : Prop :=
  ∃ fc, pm.faces[f]? = some fc ∧ Inside subs k fc

open Classical in
/-- The interior faces of a submesh are the faces of the parent mesh inside it. -/
theorem inner_sum (D : Division pm subs φ g) (hk : subs[k]? = some sm)
    (hv : ViewFits W pm subs φ ints k sm v) {i e i' e' a b : Nat} (hi : sm.elemMap[i]? = some e)
    (hi' : sm.elemMap[i']? = some e') (ha : a < W.nt e) (hb : b < W.ns e') :
    ∑ s ∈ range sm.numFaces, innerTerm v ints s (pos v.test i a) (pos v.trial i' b) =
      ∑ f ∈ range pm.faces.length, if InsideAt pm subs k f then faceSum W pm e a e' b f else 0 := by
  have h1 : ∀ s ∈ range sm.numFaces, innerTerm v ints s (pos v.test i a) (pos v.trial i' b) =
      if InsideAt pm subs k (φ k s) then faceSum W pm e a e' b (φ k s) else 0 := by
    intro s hs
    rw [mem_range] at hs
    have hfc := List.getElem?_eq_getElem (D.faceIn k sm s hk hs)
    rw [inner_at D hk hv hs hfc hi hi' ha hb]
    congr 1
    apply propext
    constructor
    · exact fun h => ⟨_, hfc, h⟩
    · rintro ⟨fc, q1, q2⟩
      rw [hfc] at q1; cases q1; exact q2
  rw [sum_congr rfl h1, sum_range_list, sum_range_list]
  rw [show (fun s => if InsideAt pm subs k (φ k s) then faceSum W pm e a e' b (φ k s) else 0) =
    (fun f => if InsideAt pm subs k f then faceSum W pm e a e' b f else 0) ∘ φ k from rfl,
    ← List.map_map]
  refine list_sum_eq ?_ List.nodup_range _ ?_
  · rw [List.nodup_map_iff_inj_on List.nodup_range]
    intro x hx y hy hxy
    exact D.faceOnce k sm x y hk (List.mem_range.1 hx) (List.mem_range.1 hy) hxy
  · intro f hf
    have hin : InsideAt pm subs k f := by
      by_contra hc
      rw [if_neg hc] at hf; exact hf rfl
    obtain ⟨fc, q1, q2⟩ := hin
    rw [List.mem_map, List.mem_range]
    constructor
    · intro _; exact (List.getElem?_eq_some_iff.1 q1).1
    · intro _
      obtain ⟨s, s1, s2⟩ := D.faceAll k sm f fc hk q1 q2
      exact ⟨s, List.mem_range.2 s1, s2⟩

theorem elem_sum (D : Division pm subs φ g) (hk : subs[k]? = some sm)
    (hv : ViewFits W pm subs φ ints k sm v) {i e i' e' a b : Nat} (hi : sm.elemMap[i]? = some e)
    (hi' : sm.elemMap[i']? = some e') (ha : a < W.nt e) (hb : b < W.ns e') :
    ∑ j ∈ range sm.elemMap.length, scat (dofsOf v.test j) (dofsOf v.trial j)
      (ent (v.vols[j]?.getD ⟨0, 0, []⟩)) (pos v.test i a) (pos v.trial i' b) =
      if e = e' then W.vol e a b else 0 := by
  obtain ⟨_, b4, _⟩ := sized_dofs hv.test hi
  obtain ⟨_, c4, _⟩ := sized_dofs hv.trial hi'
  rw [sum_congr rfl fun j _ => scat_at hv.test hv.trial (by rw [b4]; exact ha) (by rw [c4]; exact hb) _]
  have hiff := At.eq_iff D (k := k) (k' := k) ⟨sm, hk, hi⟩ ⟨sm, hk, hi'⟩
  simp only [true_and] at hiff
  have hlt := (List.getElem?_eq_some_iff.1 hi).1
  rw [sum_eq_single i]
  · by_cases hc : i = i'
    · have hee := hiff.1 hc
      subst hc
      subst hee
      rw [if_pos ⟨rfl, rfl⟩, if_pos rfl]
      have hlt' : i < v.vols.length := by rw [hv.volCount]; exact hlt
      have hm := List.getElem?_eq_getElem hlt'
      obtain ⟨_, _, _, q⟩ := hv.vol i e _ hi hm
      rw [hm]
      exact q a b ha hb
    · rw [if_neg fun h => hc h.2, if_neg fun h => hc (hiff.2 h)]
  · intro j _ hj
    rw [if_neg fun h => hj h.1]
  · intro h; exact absurd (mem_range.2 hlt) h

/-! ## Boundary elements after the division -/

/-- The result of the division of a mesh. -/
structure Result (pm : Parent) (subs : List Sub) (φ : Nat → Nat → Nat) (g : Int) (st : IState)
    (fms : List (List Int)) (bes : List (List BE)) : Prop where
  correct : Correct pm subs fms bes g st
  each : ∀ (k : Nat) sm, subs[k]? = some sm →
    fms[k]? = some (tab sm.numFaces fun s => (φ k s : Int)) ∧
    ∃ bes', bes[k]? = some bes' ∧ Inherited pm sm (φ k) g bes'

variable {st : IState} {fms : List (List Int)} {bes : List (List BE)}

omit [CommRing R] in
theorem onFace_iff (D : Division pm subs φ g) (T : Result pm subs φ g st fms bes) {m : Nat}
    (hm : subs[m]? = some sm) (b f : Nat) :
    OnFace fms bes m b f ↔ ∃ be, sm.bes[b]? = some be ∧ φ m be.face = f := by
  obtain ⟨e1, bes', e2, e3, e4⟩ := T.each m sm hm
  constructor
  · rintro ⟨l, be, fm, k1, k2, k3, k4⟩
    rw [e2] at k1; cases k1
    rw [e1] at k3; cases k3
    have hb : b < sm.bes.length := e3 ▸ (List.getElem?_eq_some_iff.1 k2).1
    have hbe := List.getElem?_eq_getElem hb
    obtain ⟨be', q1, q2, _⟩ := e4 b _ hbe
    rw [k2] at q1; cases q1
    refine ⟨_, hbe, ?_⟩
    rw [getElem?_tab, q2] at k4
    split at k4
    · simpa using k4
    · cases k4
  · rintro ⟨be, k2, k3⟩
    obtain ⟨be', q1, q2, _⟩ := e4 b be k2
    obtain ⟨fc, x, e6, _⟩ := D.wf.onFace m b sm be hm k2
    refine ⟨bes', be', _, e2, q1, e1, ?_⟩
    rw [getElem?_tab, q2, if_pos e6, k3]

omit [CommRing R] in
/-- After the division a boundary element has the attribute of the boundary element of the parent mesh
on its face, or an attribute that the parent mesh does not use. -/
theorem final_bes (D : Division pm subs φ g) (T : Result pm subs φ g st fms bes)
    (hk : subs[k]? = some sm) : ∃ l', st.bes[k]? = some l' ∧ l'.length = sm.bes.length ∧
      ∀ (b : Nat) be, sm.bes[b]? = some be → ∃ be', l'[b]? = some be' ∧
        ((∃ q ∈ pm.bdr, q.1 = φ k be.face ∧ be'.attr = q.2) ∨
          (Free pm (φ k be.face) ∧ g < be'.attr)) := by
  obtain ⟨e1, bes', e2, e3, e4⟩ := T.each k sm hk
  have hne : 0 < sm.bes.length := List.length_pos_of_ne_nil (D.bdrSome k sm hk)
  obtain ⟨be0, z1, _⟩ := e4 0 _ (List.getElem?_eq_getElem hne)
  obtain ⟨l', _, z2, z3, _⟩ := T.correct.attr_kept k 0 bes' be0 e2 z1
  refine ⟨l', z2, z3.trans e3, ?_⟩
  intro b be hb
  obtain ⟨be0, q1, q2, q3, q4⟩ := e4 b be hb
  obtain ⟨l'', be', y1, y2, y3, y4, y5, y6⟩ := T.correct.attr_kept k b bes' be0 e2 q1
  rw [z2] at y1; cases y1
  refine ⟨be', y3, ?_⟩
  have hon : ∀ f, OnFace fms bes k b f → f = φ k be.face := by
    intro f hf
    obtain ⟨be2, w1, w2⟩ := (onFace_iff D T hk b f).1 hf
    rw [hb] at w1; cases w1; exact w2.symm
  rcases q4 with ⟨q, hq, hqf, hqa⟩ | ⟨hfree, hqa⟩
  · left
    refine ⟨q, hq, hqf, ?_⟩
    rw [← hqa]
    apply y6
    intro p P l I hP hl hI
    obtain ⟨f, fc, s1, s2, _, s4, _⟩ := T.correct.sound p P l I hP hl hI
    constructor
    · rintro ⟨c1, c2⟩
      rw [c1, c2] at s1
      exact s4 q hq (hqf.trans (hon f s1).symm)
    · rintro ⟨c1, c2⟩
      rw [c1, c2] at s2
      exact s4 q hq (hqf.trans (hon f s2).symm)
  · right
    refine ⟨hfree, ?_⟩
    by_cases hin : ∀ (p : Nat) (P : PortInfo) (l : List InterfaceInfo) (I : InterfaceInfo),
        st.ports[p]? = some P → st.infos[p]? = some l → I ∈ l →
        ¬ (P.mesh1 = k ∧ I.be1 = b) ∧ ¬ (P.mesh2 = k ∧ I.be2 = b)
    · rw [y6 hin, hqa]; omega
    · push Not at hin
      obtain ⟨p, P, l, I, hP, hl, hI, hor⟩ := hin
      obtain ⟨⟨l1, b1, a1, a2, a3⟩, ⟨l2, b2, a4, a5, a6⟩⟩ := T.correct.attr_set p P l I hP hl hI
      obtain ⟨_, _, hpa, _⟩ := T.correct.port p P hP
      by_cases hc : P.mesh1 = k ∧ I.be1 = b
      · rw [hc.1, z2] at a1; cases a1
        rw [hc.2, y3] at a2; cases a2
        omega
      · obtain ⟨c1, c2⟩ := hor fun h1 h2 => hc ⟨h1, h2⟩
        rw [c1, z2] at a4; cases a4
        rw [c2, y3] at a5; cases a5
        omega

omit [CommRing R] in
theorem weak_attr {bc : BC F} {a : Int} (h : Weak bc a) : a ∈ bc.attrs := by
  obtain ⟨j, _, h1, _⟩ := h
  exact List.mem_of_getElem? h1

omit [CommRing R] in
theorem bdr_unique (D : Division pm subs φ g) {q q' : Nat × Int} (h : q ∈ pm.bdr) (h' : q' ∈ pm.bdr)
    (he : q.1 = q'.1) : q = q' := List.inj_on_of_nodup_map D.bdrOnce h h' he

theorem bform_ok (D : Division pm subs φ g) (hk : subs[k]? = some sm)
    (hv : ViewFits W pm subs φ ints k sm v) {s : Sp R} (hh : s.h = v.test.vsize)
    (hw : s.w = v.trial.vsize) : BFormOk ⟨s, v.bel⟩ sm.bes.length := by
  refine ⟨hv.belCount, ?_⟩
  intro x hx
  obtain ⟨b, hb⟩ := List.mem_iff_getElem?.1 hx
  have hlt : b < sm.bes.length := by rw [← hv.belCount]; exact (List.getElem?_eq_some_iff.1 hb).1
  have hbe := List.getElem?_eq_getElem hlt
  obtain ⟨h1, h2, h3, h4, h5⟩ := hv.bel b _ x hbe hb
  obtain ⟨fc, y, _, _, h6, _⟩ := D.wf.onFace k b sm _ hk hbe
  obtain ⟨_, _, b3⟩ := sized_dofs hv.test h6
  obtain ⟨_, _, c3⟩ := sized_dofs hv.trial h6
  refine ⟨h3, h4, h5, ?_, ?_⟩
  · intro d hd; rw [h1] at hd
    show _ < s.h
    rw [hh]; exact b3 d hd
  · intro d hd; rw [h2] at hd
    show _ < s.w
    rw [hw]; exact c3 d hd

theorem weak_sum (D : Division pm subs φ g) (T : Result pm subs φ g st fms bes) {bc : BC F}
    (hbc : Conditions pm bc) (hk : subs[k]? = some sm)
    (hv : ViewFits W pm subs φ ints k sm v) {l' : List BE} (hl : l'.length = sm.bes.length)
    (hfin : ∀ (b : Nat) be, sm.bes[b]? = some be → ∃ be', l'[b]? = some be' ∧
        ((∃ q ∈ pm.bdr, q.1 = φ k be.face ∧ be'.attr = q.2) ∨
          (Free pm (φ k be.face) ∧ g < be'.attr))) {s : Sp R}
    {i e i' e' a b : Nat} (hi : sm.elemMap[i]? = some e)
    (hi' : sm.elemMap[i']? = some e') (ha : a < W.nt e) (hb : b < W.ns e') :
    weakTerm bc (l'.map fun b => b.attr) ⟨s, v.bel⟩ (pos v.test i a) (pos v.trial i' b) =
      (pm.bdr.map (bdrSum W pm bc e a e' b)).sum := by
  classical
  set B : Nat → R := fun f => if e = e' ∧ (∃ q ∈ pm.bdr, q.1 = f ∧ Weak bc q.2) ∧
    (∃ fc, pm.faces[f]? = some fc ∧ fc.e0 = e) then W.bdr f a b else 0 with hB
  obtain ⟨_, b4, _⟩ := sized_dofs hv.test hi
  obtain ⟨_, c4, _⟩ := sized_dofs hv.trial hi'
  have hR : pm.bdr.map (bdrSum W pm bc e a e' b) = (pm.bdr.map Prod.fst).map B := by
    rw [List.map_map]
    apply List.map_congr_left
    intro q hq
    unfold bdrSum
    simp only [hB, Function.comp]
    congr 1
    apply propext
    constructor
    · rintro ⟨h1, h2, h3⟩; exact ⟨h1, ⟨q, hq, rfl, h2⟩, h3⟩
    · rintro ⟨h1, ⟨q', hq', h4, h2⟩, h3⟩
      rw [bdr_unique D hq' hq h4] at h2
      exact ⟨h1, h2, h3⟩
  have hL : weakTerm bc (l'.map fun b => b.attr) ⟨s, v.bel⟩ (pos v.test i a) (pos v.trial i' b) =
      ((sm.bes.map fun be => φ k be.face).map B).sum := by
    unfold weakTerm
    rw [Finset.sum_apply, Finset.sum_apply, List.length_map, hl, List.map_map, ← sum_range_getD]
    apply sum_congr rfl
    intro j hj
    rw [mem_range] at hj
    have hbe := List.getElem?_eq_getElem hj
    obtain ⟨be', h1, h2⟩ := hfin j _ hbe
    obtain ⟨fc, x, _, h3, h4, h5⟩ := D.wf.onFace k j sm _ hk hbe
    rw [List.getElem?_map, h1, hbe]
    simp only [Option.map_some, Option.getD_some, Function.comp]
    rcases h2 with ⟨q, hq, hqf, hqa⟩ | ⟨hfree, hgt⟩
    · by_cases hw' : Weak bc be'.attr
      · rw [if_pos hw']
        have hw : Weak bc q.2 := hqa ▸ hw'
        have hout := D.bdrOuter q hq fc (by rw [hqf]; exact h3)
        have hx0 : (x : Int) = fc.e0 := by
          rcases h5 with h | h
          · exact h.1
          · have := h.1; omega
        obtain ⟨y, y1, y2⟩ := hv.outerBdr j _ x q hbe hq hqf h4
        obtain ⟨r1, r2, _⟩ := hv.bel j _ y hbe y1
        unfold faceVal
        dsimp only
        rw [y1]
        dsimp only
        rw [scatter_eq, r1, r2, scat_at hv.test hv.trial (by rw [b4]; exact ha) (by rw [c4]; exact hb)]
        have A : At subs k sm.bes[j].elem x := ⟨sm, hk, h4⟩
        have e1 := At.eq_iff D A (k' := k) ⟨sm, hk, hi⟩
        have e2 := At.eq_iff D A (k' := k) ⟨sm, hk, hi'⟩
        simp only [true_and] at e1 e2
        simp only [hB]
        by_cases hc : sm.bes[j].elem = i ∧ sm.bes[j].elem = i'
        · have hxe := e1.1 hc.1
          have hxe' := e2.1 hc.2
          rw [if_pos hc, if_pos ⟨hxe.symm.trans hxe', ⟨q, hq, hqf, hw⟩, fc, h3, by rw [← hx0, hxe]⟩, ← hqf]
          exact y2.2.2.2 a b (by rw [hxe]; exact ha) (by rw [hxe']; exact hb)
        · rw [if_neg hc, if_neg]
          rintro ⟨g1, _, fc', g2, g3⟩
          rw [h3] at g2; cases g2
          have hxe : x = e := by rw [← hx0] at g3; exact_mod_cast g3
          exact hc ⟨e1.2 hxe, e2.2 (hxe.trans g1)⟩
      · rw [if_neg hw']
        simp only [hB]
        rw [if_neg]
        · rfl
        · rintro ⟨_, ⟨q', hq', h6, h7⟩, _⟩
          rw [bdr_unique D hq' hq (h6.trans hqf.symm), ← hqa] at h7
          exact hw' h7
    · have hnw : ¬ Weak bc be'.attr := by
        intro h
        obtain ⟨q, hq, hqa⟩ := hbc.occur _ (weak_attr h)
        have := (D.wf.parent_bdr q hq).2
        omega
      rw [if_neg hnw]
      simp only [hB]
      rw [if_neg]
      · rfl
      · rintro ⟨_, ⟨q, hq, h6, _⟩, _⟩
        exact hfree q hq h6
  rw [hL, hR]
  refine list_sum_eq ?_ D.bdrOnce B ?_
  · rw [List.nodup_iff_pairwise_ne, List.pairwise_iff_getElem]
    intro x y hx hy hxy heq
    rw [List.length_map] at hx hy
    rw [List.getElem_map, List.getElem_map] at heq
    have := D.wf.onceFace k x y sm _ _ hk (List.getElem?_eq_getElem hx) (List.getElem?_eq_getElem hy) heq
    omega
  · intro f hf
    have hP : e = e' ∧ (∃ q ∈ pm.bdr, q.1 = f ∧ Weak bc q.2) ∧
        (∃ fc, pm.faces[f]? = some fc ∧ fc.e0 = e) := by
      by_contra hc
      exact hf (if_neg hc)
    obtain ⟨_, ⟨q, hq, hqf, _⟩, fc, h3, h4⟩ := hP
    constructor
    · intro _; exact List.mem_map.2 ⟨q, hq, hqf⟩
    · intro _
      have hown : Owns subs k fc.e0 := by
        rw [h4]; exact At.owns ⟨sm, hk, hi⟩
      obtain ⟨be, hbe, hbf⟩ := D.bdrAll q hq k sm fc hk (by rw [hqf]; exact h3) hown
      exact List.mem_map.2 ⟨be, hbe, hbf.trans hqf⟩

/-! ## Interfaces -/

theorem sum_two (G : Nat → Nat → R) : ∑ s ∈ range 2, ∑ l ∈ range 2, G s l =
    ∑ I : Bool, ∑ J : Bool, G I.toNat J.toNat := by
  simp only [sum_range_succ, range_zero, sum_empty, zero_add, Fintype.sum_bool, Bool.toNat_true,
    Bool.toNat_false]
  abel

variable {views : List (View R δ)} {fnfi : List (Option (Integ R δ))}

/-- What is known about an interface found by the division. -/
structure InfoAt (pm : Parent) (subs : List Sub) (φ : Nat → Nat → Nat) (P : PortInfo)
    (I : InterfaceInfo) (f : Nat) (fc : Face) (o : Bool) (si sj : Sub) (bei bej : BE) (x1 x2 : Nat) :
    Prop where
  ne : P.mesh1 ≠ P.mesh2
  sub1 : subs[P.mesh1]? = some si
  sub2 : subs[P.mesh2]? = some sj
  be1 : si.bes[I.be1]? = some bei
  be2 : sj.bes[I.be2]? = some bej
  face1 : φ P.mesh1 bei.face = f
  face2 : φ P.mesh2 bej.face = f
  face : pm.faces[f]? = some fc
  par1 : si.elemMap[bei.elem]? = some x1
  par2 : sj.elemMap[bej.elem]? = some x2
  side1 : (x1 : Int) = elemAt fc o
  side2 : (x2 : Int) = elemAt fc (!o)
  inf1 : I.inf1 = infAt fc o
  inf2 : I.inf2 = infAt fc (!o)
  split : Split pm subs f

omit [CommRing R] in
theorem info_at (D : Division pm subs φ g) (T : Result pm subs φ g st fms bes) {p : Nat} {P : PortInfo}
    {l : List InterfaceInfo} {I : InterfaceInfo} (hP : st.ports[p]? = some P)
    (hl : st.infos[p]? = some l) (hI : I ∈ l) :
    ∃ f fc o si sj bei bej x1 x2, InfoAt pm subs φ P I f fc o si sj bei bej x1 x2 := by
  obtain ⟨f, fc, s1, s2, ⟨hne, fc', hb1, hb2⟩, _, hfc, hor⟩ := T.correct.sound p P l I hP hl hI
  rw [hfc] at hb1; cases hb1
  obtain ⟨p1, p2, _⟩ := T.correct.port p P hP
  have hs1 := List.getElem?_eq_getElem (show P.mesh1 < subs.length by omega)
  have hs2 := List.getElem?_eq_getElem p2
  obtain ⟨bei, b1, b2⟩ := (onFace_iff D T hs1 _ _).1 s1
  obtain ⟨bej, b3, b4⟩ := (onFace_iff D T hs2 _ _).1 s2
  obtain ⟨fc1, x1, _, c1, c2, c3⟩ := D.wf.onFace _ _ _ _ hs1 b1
  obtain ⟨fc2, x2, _, d1, d2, d3⟩ := D.wf.onFace _ _ _ _ hs2 b3
  rw [b2, hfc] at c1; cases c1
  rw [b4, hfc] at d1; cases d1
  have hdis := D.wf.disjoint
  have hnoinside : ∀ o1 o2, (o1 = fc.e0 ∧ o2 = fc.e1 ∨ o1 = fc.e1 ∧ o2 = fc.e0) →
      Owns subs P.mesh1 o1 → Owns subs P.mesh2 o2 → Split pm subs f := by
    rintro o1 o2 (⟨rfl, rfl⟩ | ⟨rfl, rfl⟩) q1 q2
    · refine ⟨fc, hfc, ?_, ?_⟩
      · obtain ⟨_, _, x, _, hx⟩ := q2; omega
      · rintro ⟨k, _, w1, w2⟩
        exact hne ((hdis _ _ _ q1 w1).trans (hdis _ _ _ w2 q2))
    · refine ⟨fc, hfc, ?_, ?_⟩
      · obtain ⟨_, _, x, _, hx⟩ := q1; omega
      · rintro ⟨k, _, w1, w2⟩
        exact hne ((hdis _ _ _ q1 w2).trans (hdis _ _ _ w1 q2))
  rcases hor with ⟨o1, i1, i2⟩ | ⟨o1, i1, i2⟩
  · have o2 : Owns subs P.mesh2 fc.e1 := by
      rcases hb2 with h | h
      · exact h.2
      · exact absurd (hdis _ _ _ o1 h.2) hne
    have e1 : (x1 : Int) = fc.e0 := by
      rcases c3 with h | h
      · exact h.1
      · exact absurd o1 h.2
    have e2 : (x2 : Int) = fc.e1 := by
      rcases d3 with h | h
      · exact absurd o2 h.2
      · exact h.1
    exact ⟨f, fc, false, _, _, bei, bej, x1, x2, hne, hs1, hs2, b1, b3, b2, b4, hfc, c2, d2, e1, e2, i1, i2,
      hnoinside _ _ (.inl ⟨rfl, rfl⟩) o1 o2⟩
  · have o2 : Owns subs P.mesh2 fc.e0 := by
      rcases hb2 with h | h
      · exact absurd (hdis _ _ _ o1 h.2) hne
      · exact h.2
    have e1 : (x1 : Int) = fc.e1 := by
      rcases c3 with h | h
      · exact absurd o1 h.2
      · exact h.1
    have e2 : (x2 : Int) = fc.e0 := by
      rcases d3 with h | h
      · exact h.1
      · exact absurd o2 h.2
    exact ⟨f, fc, true, _, _, bei, bej, x1, x2, hne, hs1, hs2, b1, b3, b2, b4, hfc, c2, d2, e1, e2, i1, i2,
      hnoinside _ _ (.inr ⟨rfl, rfl⟩) o1 o2⟩

/-- The port of an interface form that belongs to a port of the division. -/
def portOf (P : PortInfo) (l : List InterfaceInfo) : InterfaceForm.Port :=
  ⟨P.mesh1, P.mesh2, l.map fun i => ⟨i.be1, i.be2, i.inf1, i.inf2⟩⟩

omit [CommRing R] in
theorem sides_eq {P : PortInfo} {l : List InterfaceInfo} {vi vj : View R δ}
    (h1 : views[P.mesh1]? = some vi) (h2 : views[P.mesh2]? = some vj) :
    sidesOf (itf views fnfi st) (portOf P l) =
      ⟨vi.fmesh, vj.fmesh, vi.test, vj.test, vi.trial, vj.trial⟩ := by
  unfold sidesOf itf portOf
  simp [h1, h2]

theorem fits_at (hF : Fits W pm subs φ views ints fnfi) {P : PortInfo} {I : InterfaceInfo} {f : Nat}
    {fc : Face} {o : Bool} {si sj : Sub} {bei bej : BE} {x1 x2 : Nat}
    (h : InfoAt pm subs φ P I f fc o si sj bei bej x1 x2) :
    ∃ vi vj, views[P.mesh1]? = some vi ∧ views[P.mesh2]? = some vj ∧
      ViewFits W pm subs φ ints P.mesh1 si vi ∧ ViewFits W pm subs φ ints P.mesh2 sj vj ∧
      InterfaceFits W fnfi f fc o vi vj I.be1 I.be2 bei bej x1 x2 := by
  have l1 : P.mesh1 < views.length := by rw [hF.count]; exact (List.getElem?_eq_some_iff.1 h.sub1).1
  have l2 : P.mesh2 < views.length := by rw [hF.count]; exact (List.getElem?_eq_some_iff.1 h.sub2).1
  have v1 := List.getElem?_eq_getElem l1
  have v2 := List.getElem?_eq_getElem l2
  exact ⟨_, _, v1, v2, hF.view _ _ _ h.sub1 v1, hF.view _ _ _ h.sub2 v2,
    hF.itf _ _ _ _ _ _ _ _ _ _ _ _ _ _ _ h.sub1 h.sub2 v1 v2 h.ne h.be1 h.be2 h.face1 h.face2 h.face
      h.par1 h.par2 h.side1 h.side2⟩

theorem itf_at (D : Division pm subs φ g) (hF : Fits W pm subs φ views ints fnfi) {P : PortInfo}
    {l : List InterfaceInfo} {I : InterfaceInfo} {f : Nat} {fc : Face} {o : Bool} {si sj : Sub}
    {bei bej : BE} {x1 x2 : Nat} (h : InfoAt pm subs φ P I f fc o si sj bei bej x1 x2)
    {k k' i i' e e' a b : Nat} {sm sm' : Sub} {v v' : View R δ} (hk : subs[k]? = some sm)
    (hk' : subs[k']? = some sm') (hv : views[k]? = some v) (hv' : views[k']? = some v')
    (hi : sm.elemMap[i]? = some e) (hi' : sm'.elemMap[i']? = some e') (ha : a < W.nt e)
    (hb : b < W.ns e') :
    faceTerm P.mesh1 P.mesh2 (sidesOf (itf views fnfi st) (portOf P l)) fnfi (fun g => g.mat)
      ⟨I.be1, I.be2, I.inf1, I.inf2⟩ k k' (pos v.test i a) (pos v'.trial i' b) =
      faceSum W pm e a e' b f := by
  obtain ⟨vi, vj, v1, v2, w1, w2, t1, t2, q1, q2, q3, q4, -, q6⟩ := fits_at hF h
  have V := hF.view _ _ _ hk hv
  have V' := hF.view _ _ _ hk' hv'
  obtain ⟨_, b4, _⟩ := sized_dofs V.test hi
  obtain ⟨_, c4, _⟩ := sized_dofs V'.trial hi'
  rw [sides_eq v1 v2]
  have hface : Sides.face (⟨vi.fmesh, vj.fmesh, vi.test, vj.test, vi.trial, vj.trial⟩ : Sides δ)
      ⟨I.be1, I.be2, I.inf1, I.inf2⟩ = some (t1, t2) := by
    unfold Sides.face
    dsimp only
    rw [h.inf1, h.inf2, q1, q3]
  unfold faceTerm
  rw [hface]
  dsimp only
  rw [InterfaceForm.list_sum_apply4]
  set mesh : Bool → Nat := fun J => if J then P.mesh2 else P.mesh1 with hmesh
  set el : Bool → Nat := fun J => if J then bej.elem else bei.elem with hel
  set vw : Bool → View R δ := fun J => if J then vj else vi with hvw
  set par : Bool → Nat := fun J => if J then x2 else x1 with hpar
  have A : ∀ J, At subs (mesh J) (el J) (par J) := by
    intro J
    cases J
    · exact ⟨si, h.sub1, h.par1⟩
    · exact ⟨sj, h.sub2, h.par2⟩
  have E : ∀ J, elemAt fc (o ^^ J) = par J := by
    intro J
    cases J
    · rw [Bool.xor_false]; exact h.side1.symm
    · rw [Bool.xor_true]; exact h.side2.symm
  have Vw : ∀ J, views[mesh J]? = some (vw J) := by
    intro J
    cases J
    · exact v1
    · exact v2
  have Ai : At subs k i e := ⟨sm, hk, hi⟩
  have Ai' : At subs k' i' e' := ⟨sm', hk', hi'⟩
  have term : ∀ gg ∈ fnfi, (match gg with
      | none => (0 : Nat → Nat → Nat → Nat → R)
      | some gg => blockTerm P.mesh1 P.mesh2
          (Sides.rows ⟨vi.fmesh, vj.fmesh, vi.test, vj.test, vi.trial, vj.trial⟩ t1 t2)
          (Sides.cols ⟨vi.fmesh, vj.fmesh, vi.test, vj.test, vi.trial, vj.trial⟩ t1 t2)
          (gg.mat t1 t2)) k k' (pos v.test i a) (pos v'.trial i' b) =
      ∑ I : Bool, ∑ J : Bool, if (mesh I = k ∧ el I = i) ∧ (mesh J = k' ∧ el J = i') then
        (gg.map fun gg => ent (gg.mat t1 t2 I.toNat J.toNat) a b).getD 0 else 0 := by
    intro gg hgg
    cases gg with
    | none => exact absurd hgg hF.integrators
    | some gg =>
      dsimp only
      unfold blockTerm
      rw [sum_two]
      refine sum_congr rfl fun I _ => sum_congr rfl fun J _ => ?_
      have s1 : side P.mesh1 P.mesh2 I.toNat = mesh I := by cases I <;> rfl
      have s2 : side P.mesh1 P.mesh2 J.toNat = mesh J := by cases J <;> rfl
      have r1 : Sides.rows (⟨vi.fmesh, vj.fmesh, vi.test, vj.test, vi.trial, vj.trial⟩ : Sides δ) t1 t2
          I.toNat = dofsOf (vw I).test (el I) := by
        cases I
        · show dofsOf vi.test t1.elem = dofsOf vi.test bei.elem
          rw [q2]
        · show dofsOf vj.test t2.elem = dofsOf vj.test bej.elem
          rw [q4]
      have r2 : Sides.cols (⟨vi.fmesh, vj.fmesh, vi.test, vj.test, vi.trial, vj.trial⟩ : Sides δ) t1 t2
          J.toNat = dofsOf (vw J).trial (el J) := by
        cases J
        · show dofsOf vi.trial t1.elem = dofsOf vi.trial bei.elem
          rw [q2]
        · show dofsOf vj.trial t2.elem = dofsOf vj.trial bej.elem
          rw [q4]
      rw [r1, r2]
      simp only [s1, s2]
      by_cases hm : mesh I = k ∧ mesh J = k'
      · rw [if_pos hm]
        have u1 : vw I = v := by
          have := Vw I
          rw [hm.1, hv] at this; exact (Option.some.inj this).symm
        have u2 : vw J = v' := by
          have := Vw J
          rw [hm.2, hv'] at this; exact (Option.some.inj this).symm
        rw [u1, u2, scatter_eq, scat_at V.test V'.trial (by rw [b4]; exact ha) (by rw [c4]; exact hb)]
        simp only [hm.1, hm.2, true_and, Option.map_some, Option.getD_some]
      · rw [if_neg hm, if_neg]
        rintro ⟨⟨m1, _⟩, m2, _⟩
        exact hm ⟨m1, m2⟩
  refine (congrArg List.sum (List.map_congr_left term)).trans ?_
  rw [list_sum_bool]
  simp only [list_sum_if]
  obtain ⟨fc', z1, z2, _⟩ := h.split
  rw [h.face] at z1; cases z1
  unfold faceSum
  rw [h.face]
  dsimp only
  rw [if_neg (by omega)]
  rw [← sum_xor o (fun I J => if elemAt fc I = e ∧ elemAt fc J = e' then W.face f I J a b else 0)]
  refine sum_congr rfl fun I _ => sum_congr rfl fun J _ => ?_
  have d1 : (I.toNat = 0 ↔ I = false) := by cases I <;> decide
  have p1 : (if I.toNat = 0 then x1 else x2) = par I := by cases I <;> rfl
  have p2 : (if J.toNat = 0 then x1 else x2) = par J := by cases J <;> rfl
  have b1 : decide (I.toNat = 1) = I := by cases I <;> rfl
  have b2 : decide (J.toNat = 1) = J := by cases J <;> rfl
  have lt : ∀ J : Bool, J.toNat < 2 := by decide
  by_cases hc : (mesh I = k ∧ el I = i) ∧ (mesh J = k' ∧ el J = i')
  · have y1 := (At.eq_iff D (A I) Ai).1 hc.1
    have y2 := (At.eq_iff D (A J) Ai').1 hc.2
    refine (if_pos hc).trans (Eq.trans ?_ (if_pos ⟨by rw [E, y1], by rw [E, y2]⟩).symm)
    have := q6 I.toNat J.toNat a b (lt I) (lt J) (by rw [p1, y1]; exact ha) (by rw [p2, y2]; exact hb)
    rw [b1, b2] at this
    exact this
  · rw [if_neg hc, if_neg]
    rintro ⟨m1, m2⟩
    rw [E] at m1 m2
    exact hc ⟨(At.eq_iff D (A I) Ai).2 (by exact_mod_cast m1), (At.eq_iff D (A J) Ai').2 (by exact_mod_cast m2)⟩

/-! ## All interfaces -/

/-- The face of the parent mesh of an interface. -/
def faceOf (subs : List Sub) (φ : Nat → Nat → Nat) (P : PortInfo) (I : InterfaceInfo) : Nat :=
  φ P.mesh1 ((((subs[P.mesh1]?).bind fun s => s.bes[I.be1]?).map (·.face)).getD 0)

omit [CommRing R] in
theorem faceOf_eq {P : PortInfo} {I : InterfaceInfo} {f : Nat} {fc : Face} {o : Bool} {si sj : Sub}
    {bei bej : BE} {x1 x2 : Nat} (h : InfoAt pm subs φ P I f fc o si sj bei bej x1 x2) :
    faceOf subs φ P I = f := by
  unfold faceOf
  rw [h.sub1]
  simp only [Option.bind_some, h.be1, Option.map_some, Option.getD_some]
  exact h.face1

omit [CommRing R] in
theorem mem_zip {α β : Type} {l : List α} {l' : List β} {x : α × β} (h : x ∈ List.zip l l') :
    ∃ p : Nat, l[p]? = some x.1 ∧ l'[p]? = some x.2 := by
  obtain ⟨p, hp⟩ := List.mem_iff_getElem?.1 h
  exact ⟨p, List.getElem?_zip_eq_some.1 hp⟩

theorem sum_flatMap {α : Type} (l : List α) (G : α → List R) :
    (l.flatMap G).sum = (l.map fun x => (G x).sum).sum := by
  induction l with
  | nil => rfl
  | cons x l ih => simp [ih]

omit [CommRing R] in
theorem faces_nodup (D : Division pm subs φ g) (T : Result pm subs φ g st fms bes) :
    ((List.zip st.ports st.infos).flatMap fun x => x.2.map (faceOf subs φ x.1)).Nodup := by
  have onf : ∀ {p : Nat} {P : PortInfo} {l : List InterfaceInfo} {I : InterfaceInfo},
      st.ports[p]? = some P → st.infos[p]? = some l → I ∈ l →
      OnFace fms bes P.mesh1 I.be1 (faceOf subs φ P I) := by
    intro p P l I hP hl hI
    obtain ⟨f, fc, o, si, sj, bei, bej, x1, x2, h⟩ := info_at D T hP hl hI
    rw [faceOf_eq h]
    exact (onFace_iff D T h.sub1 _ _).2 ⟨bei, h.be1, h.face1⟩
  rw [List.nodup_flatMap]
  constructor
  · intro x hx
    obtain ⟨p, h1, h2⟩ := mem_zip hx
    rw [List.nodup_iff_pairwise_ne, List.pairwise_iff_getElem]
    intro a b ha hb hab heq
    rw [List.length_map] at ha hb
    rw [List.getElem_map, List.getElem_map] at heq
    have g1 := onf h1 h2 (List.getElem_mem ha)
    have g2 := onf h1 h2 (List.getElem_mem hb)
    rw [← heq] at g2
    have := (T.correct.unique p p x.1 x.1 x.2 x.2 a b _ _ _ h1 h1 h2 h2 (List.getElem?_eq_getElem ha)
      (List.getElem?_eq_getElem hb) g1 g2).2
    omega
  · rw [List.pairwise_iff_getElem]
    intro p q hp hq hpq f hf1 hf2
    have z1 := List.getElem?_zip_eq_some.1 (List.getElem?_eq_getElem hp)
    have z2 := List.getElem?_zip_eq_some.1 (List.getElem?_eq_getElem hq)
    obtain ⟨I, hI, hIf⟩ := List.mem_map.1 hf1
    obtain ⟨J, hJ, hJf⟩ := List.mem_map.1 hf2
    obtain ⟨a, ha⟩ := List.mem_iff_getElem?.1 hI
    obtain ⟨b, hb⟩ := List.mem_iff_getElem?.1 hJ
    have g1 := onf z1.1 z1.2 hI
    have g2 := onf z2.1 z2.2 hJ
    rw [hIf] at g1
    rw [hJf] at g2
    have := (T.correct.unique p q _ _ _ _ a b _ _ _ z1.1 z2.1 z1.2 z2.2 ha hb g1 g2).1
    omega

omit [CommRing R] in
/-- Every face between submeshes is found. -/
theorem split_found (D : Division pm subs φ g) (T : Result pm subs φ g st fms bes) {f : Nat}
    (hf : Split pm subs f) :
    f ∈ (List.zip st.ports st.infos).flatMap fun x => x.2.map (faceOf subs φ x.1) := by
  obtain ⟨fc, h1, h2, h3⟩ := hf
  obtain ⟨⟨k0, o0⟩, ho1⟩ := D.owned f fc h1
  obtain ⟨k1, o1⟩ := ho1 h2
  have hne : k0 ≠ k1 := by
    rintro rfl
    exact h3 ⟨k0, h2, o0, o1⟩
  have hfree : Free pm f := by
    intro q hq hqf
    have := D.bdrOuter q hq fc (by rw [hqf]; exact h1)
    omega
  have key : ∀ i j, Between pm subs f i j → i < j →
      f ∈ (List.zip st.ports st.infos).flatMap fun x => x.2.map (faceOf subs φ x.1) := by
    intro i j hb hij
    obtain ⟨p, P, l, I, hP, hm, _, hl, hI, hon, _⟩ := T.correct.complete f i j hb hfree hij
    obtain ⟨f', fc', o, si, sj, bei, bej, x1, x2, h⟩ := info_at D T hP hl hI
    have hff : faceOf subs φ P I = f := by
      rw [faceOf_eq h]
      rw [← hm] at hon
      obtain ⟨be, w1, w2⟩ := (onFace_iff D T h.sub1 _ _).1 hon
      rw [h.be1] at w1; cases w1
      rw [← w2]; exact h.face1.symm
    refine List.mem_flatMap.2 ⟨(P, l), ?_, List.mem_map.2 ⟨I, hI, hff⟩⟩
    exact List.mem_iff_getElem?.2 ⟨p, List.getElem?_zip_eq_some.2 ⟨hP, hl⟩⟩
  rcases Nat.lt_or_gt_of_ne hne with h | h
  · exact key k0 k1 ⟨hne, fc, h1, .inl ⟨o0, o1⟩⟩ h
  · exact key k1 k0 ⟨hne.symm, fc, h1, .inr ⟨o1, o0⟩⟩ h

omit [CommRing R] in
theorem itf_ports : (itf views fnfi st).ports =
    (List.zip st.ports st.infos).map fun x => portOf x.1 x.2 := by
  show List.zipWith portOf st.ports st.infos = _
  rw [← List.map_uncurry_zip_eq_zipWith]
  rfl

open Classical in
theorem form_sum (D : Division pm subs φ g) (T : Result pm subs φ g st fms bes)
    (hF : Fits W pm subs φ views ints fnfi) {k k' i i' e e' a b : Nat} {sm sm' : Sub}
    {v v' : View R δ} (hk : subs[k]? = some sm) (hk' : subs[k']? = some sm') (hv : views[k]? = some v)
    (hv' : views[k']? = some v') (hi : sm.elemMap[i]? = some e) (hi' : sm'.elemMap[i']? = some e')
    (ha : a < W.nt e) (hb : b < W.ns e') :
    formTerm (itf views fnfi st) matOf k k' (pos v.test i a) (pos v'.trial i' b) =
      ∑ f ∈ range pm.faces.length, if Split pm subs f then faceSum W pm e a e' b f else 0 := by
  have hL : formTerm (itf views fnfi st) matOf k k' (pos v.test i a) (pos v'.trial i' b) =
      (((List.zip st.ports st.infos).flatMap fun x => x.2.map (faceOf subs φ x.1)).map
        fun f => if Split pm subs f then faceSum W pm e a e' b f else 0).sum := by
    unfold formTerm
    rw [itf_ports, List.map_map, InterfaceForm.list_sum_apply4, List.map_flatMap, sum_flatMap]
    congr 1
    apply List.map_congr_left
    intro x hx
    obtain ⟨p, h1, h2⟩ := mem_zip hx
    simp only [Function.comp]
    unfold portTerm
    rw [InterfaceForm.list_sum_apply4]
    show (List.map _ (x.2.map _)).sum = _
    rw [List.map_map, List.map_map]
    congr 1
    apply List.map_congr_left
    intro I hI
    obtain ⟨f, fc, o, si, sj, bei, bej, x1, x2, h⟩ := info_at D T h1 h2 hI
    simp only [Function.comp]
    rw [faceOf_eq h, if_pos h.split]
    exact itf_at D hF h hk hk' hv hv' hi hi' ha hb
  rw [hL, sum_range_list]
  refine list_sum_eq (faces_nodup D T) List.nodup_range _ ?_
  intro f hf
  have hs : Split pm subs f := by
    by_contra hc
    exact hf (if_neg hc)
  constructor
  · intro _
    obtain ⟨fc, h1, _⟩ := hs
    exact List.mem_range.2 (List.getElem?_eq_some_iff.1 h1).1
  · intro _; exact split_found D T hs

theorem itf_ok (D : Division pm subs φ g) (T : Result pm subs φ g st fms bes)
    (hF : Fits W pm subs φ views ints fnfi) : FormOk (itf views fnfi st) ∧
      ∀ p ∈ (itf views fnfi st).ports, IntegsOk (sidesOf (itf views fnfi st) p) p.infos fnfi
        (fun g => g.mat) := by
  have hlen : (itf views fnfi st).meshes.length = subs.length := by
    show (views.map _).length = _
    rw [List.length_map, hF.count]
  have hport : ∀ p ∈ (itf views fnfi st).ports, ∃ (j : Nat) (P : PortInfo) (l : List InterfaceInfo),
      st.ports[j]? = some P ∧ st.infos[j]? = some l ∧ p = portOf P l := by
    intro p hp
    rw [itf_ports] at hp
    obtain ⟨x, hx, rfl⟩ := List.mem_map.1 hp
    obtain ⟨j, h1, h2⟩ := mem_zip hx
    exact ⟨j, x.1, x.2, h1, h2, rfl⟩
  refine ⟨⟨?_, ?_, ?_⟩, ?_⟩
  · show (views.map _).length = (views.map _).length
    rw [List.length_map, List.length_map]
  · show (views.map _).length = (views.map _).length
    rw [List.length_map, List.length_map]
  · intro p hp
    obtain ⟨j, P, l, h1, h2, rfl⟩ := hport p hp
    obtain ⟨p1, p2, _⟩ := T.correct.port j P h1
    have hs1 := List.getElem?_eq_getElem (show P.mesh1 < subs.length by omega)
    have hs2 := List.getElem?_eq_getElem p2
    have l1 : P.mesh1 < views.length := by rw [hF.count]; omega
    have l2 : P.mesh2 < views.length := by rw [hF.count]; omega
    have v1 := List.getElem?_eq_getElem l1
    have v2 := List.getElem?_eq_getElem l2
    have w1 := hF.view _ _ _ hs1 v1
    have w2 := hF.view _ _ _ hs2 v2
    refine ⟨?_, ?_, ?_, ?_⟩
    · rw [hlen]; show P.mesh1 < _; omega
    · rw [hlen]; show P.mesh2 < _; omega
    · show P.mesh1 ≠ P.mesh2; omega
    rw [sides_eq v1 v2]
    have info : ∀ i ∈ (portOf P l).infos, ∃ I ∈ l, i = ⟨I.be1, I.be2, I.inf1, I.inf2⟩ := by
      intro i hi
      obtain ⟨I, hI, rfl⟩ := List.mem_map.1 hi
      exact ⟨I, hI, rfl⟩
    have fits : ∀ I ∈ l, ∃ f fc o si sj bei bej x1 x2, InfoAt pm subs φ P I f fc o si sj bei bej x1 x2 ∧
        InterfaceFits W fnfi f fc o views[P.mesh1] views[P.mesh2] I.be1 I.be2 bei bej x1 x2 := by
      intro I hI
      obtain ⟨f, fc, o, si, sj, bei, bej, x1, x2, h⟩ := info_at D T h1 h2 hI
      obtain ⟨vi, vj, u1, u2, _, _, u3⟩ := fits_at hF h
      rw [v1] at u1; cases u1
      rw [v2] at u2; cases u2
      exact ⟨f, fc, o, si, sj, bei, bej, x1, x2, h, u3⟩
    refine ⟨?_, ?_, ?_, w1.test.inside, w2.test.inside, w1.trial.inside, w2.trial.inside⟩
    · intro i hi
      obtain ⟨I, hI, rfl⟩ := info i hi
      obtain ⟨f, fc, o, si, sj, bei, bej, x1, x2, h, t1, t2, q1, _⟩ := fits I hI
      right
      intro hn
      unfold trOf at q1
      rw [hn] at q1; cases q1
    · intro i hi
      obtain ⟨I, hI, rfl⟩ := info i hi
      obtain ⟨f, fc, o, si, sj, bei, bej, x1, x2, h, t1, t2, _, _, q3, _⟩ := fits I hI
      right
      intro hn
      unfold trOf at q3
      rw [hn] at q3; cases q3
    · intro i hi t1' t2' ht
      obtain ⟨I, hI, rfl⟩ := info i hi
      obtain ⟨f, fc, o, si, sj, bei, bej, x1, x2, h, t1, t2, q1, q2, q3, q4, _⟩ := fits I hI
      unfold Sides.face at ht
      dsimp only at ht
      rw [h.inf1, h.inf2, q1, q3] at ht
      cases ht
      have a1 := h.par1
      have a2 := h.par2
      have b1 := h.sub1
      have b2 := h.sub2
      rw [hs1] at b1; cases b1
      rw [hs2] at b2; cases b2
      rw [q2, q4]
      dsimp only
      rw [w1.test.count, w2.test.count, w1.trial.count, w2.trial.count]
      have c1 := (List.getElem?_eq_some_iff.1 a1).1
      have c2 := (List.getElem?_eq_some_iff.1 a2).1
      exact ⟨c1, c2, c1, c2⟩
  · intro p hp gg hgg
    obtain ⟨j, P, l, h1, h2, rfl⟩ := hport p hp
    cases gg with
    | none => exact absurd hgg hF.integrators
    | some gg =>
      refine ⟨gg, rfl, ?_⟩
      intro i hi t1' t2' ht kk ll hkk hll
      obtain ⟨I, hI, rfl⟩ := List.mem_map.1 hi
      obtain ⟨f, fc, o, si, sj, bei, bej, x1, x2, h⟩ := info_at D T h1 h2 hI
      obtain ⟨vi, vj, u1, u2, w1, w2, t1, t2, q1, q2, q3, q4, q5, _⟩ := fits_at hF h
      rw [sides_eq u1 u2] at ht ⊢
      unfold Sides.face at ht
      dsimp only at ht
      rw [h.inf1, h.inf2, q1, q3] at ht
      cases ht
      obtain ⟨r1, r2, r3⟩ := q5 gg hgg kk ll hkk hll
      obtain ⟨_, b4, _⟩ := sized_dofs w1.test h.par1
      obtain ⟨_, b5, _⟩ := sized_dofs w2.test h.par2
      obtain ⟨_, c4, _⟩ := sized_dofs w1.trial h.par1
      obtain ⟨_, c5, _⟩ := sized_dofs w2.trial h.par2
      refine ⟨?_, ?_, r3⟩
      · rw [r1]
        unfold Sides.rows
        dsimp only
        rw [q2, q4]
        split
        · exact b4.symm
        · exact b5.symm
      · rw [r2]
        unfold Sides.cols
        dsimp only
        rw [q2, q4]
        split
        · exact c4.symm
        · exact c5.symm

/-! ## Attributes and markers -/

omit [CommRing R] in
theorem attributes_spec (D : Division pm subs φ g) (T : Result pm subs φ g st fms bes) :
    ∃ mesh, attributes subs.length st = .ok mesh ∧ mesh.length = subs.length ∧
      ∀ (k : Nat) sm, subs[k]? = some sm → ∃ (l' : List BE) (u : List Int), mesh[k]? = some (l'.map fun b => b.attr, u) ∧
        Topology.Spec.AttributeList (l'.map fun b => b.attr) u ∧ l'.length = sm.bes.length ∧
        ∀ (b : Nat) be, sm.bes[b]? = some be → ∃ be', l'[b]? = some be' ∧
          ((∃ q ∈ pm.bdr, q.1 = φ k be.face ∧ be'.attr = q.2) ∨
            (Free pm (φ k be.face) ∧ g < be'.attr)) := by
  unfold attributes
  obtain ⟨mesh, e, hl, h⟩ := loop_collect (n := subs.length)
    (body := fun k (acc : List (List Int × List Int)) => do
      let l ← rd st.bes k
      let u ← Topology.updateAttributes (l.map fun b => b.attr)
      return acc ++ [(l.map fun b => b.attr, u)])
    (fun k x => ∃ l', st.bes[k]? = some l' ∧ x.1 = (l'.map fun b => b.attr) ∧
      Topology.Spec.AttributeList (l'.map fun b => b.attr) x.2) (by
      intro k acc hk
      obtain ⟨l', h1, _⟩ := final_bes D T (List.getElem?_eq_getElem hk)
      obtain ⟨u, h2, h3⟩ := Topology.updateAttributes_spec (l'.map fun b => b.attr)
      refine ⟨(l'.map fun b => b.attr, u), ?_, l', h1, rfl, h3⟩
      rw [rd_eq_ok.2 h1, ok_bind, h2, ok_bind]
      rfl)
  refine ⟨mesh, e, hl, ?_⟩
  intro k sm hk
  obtain ⟨x, hx, l', h1, h2, h3⟩ := h k (List.getElem?_eq_some_iff.1 hk).1
  obtain ⟨l'', g1, g2, g3⟩ := final_bes D T hk
  rw [h1] at g1; cases g1
  refine ⟨l', x.2, ?_, h3, g2, g3⟩
  rw [hx, ← h2]

omit [CommRing R] in
theorem bdrMarkers_total {battrs : List Int} {mesh : List (List Int × List Int)}
    (h1 : ∀ e ∈ mesh, e.2 ≠ []) (h2 : ∀ a ∈ battrs, 0 < a ∧ ∃ e ∈ mesh, a ∈ e.2) :
    ∃ mks, RomAssembly.bdrMarkers battrs mesh = .ok mks := by
  unfold RomAssembly.bdrMarkers
  obtain ⟨mx, e, h⟩ := loop_total (n := mesh.length) (s := (-1 : Int)) (body := fun m x => do
      let e ← rd mesh m
      let a ← CompSetup.arrMax e.2
      return max x a)
    (fun j x => ∀ i, i < j → ∀ e, mesh[i]? = some e → ∀ a ∈ e.2, a ≤ x)
    (by intro i hi; omega) (by
      intro j x hj hI
      have hm := List.getElem?_eq_getElem hj
      have hmem := h1 _ (List.getElem_mem hj)
      cases hc : mesh[j].2 with
      | nil => exact absurd hc hmem
      | cons y ys =>
        refine ⟨max x (ys.foldl max y), ?_, ?_⟩
        · rw [rd_eq_ok.2 hm, ok_bind, hc]; rfl
        · intro i hi e he a ha
          by_cases hij : i = j
          · subst hij
            rw [hm] at he; cases he
            rw [hc] at ha
            exact le_trans (maxOr_ge (l := y :: ys) ha) (le_max_right _ _)
          · exact le_trans (hI i (by omega) e he a ha) (le_max_left _ _))
  rw [e, ok_bind]
  obtain ⟨ms, hms, _⟩ := Boundary.markers_spec (attrs := battrs) (maxAttr := mx) (by
    intro a ha
    obtain ⟨p, e', he', hae⟩ := h2 a ha
    obtain ⟨i, hi⟩ := List.mem_iff_getElem?.1 he'
    exact ⟨p, h i (List.getElem?_eq_some_iff.1 hi).1 e' hi a hae⟩)
  exact ⟨ms, hms⟩

end Verif.Divide
