import Verif.Model.Snapshots
import Verif.Proofs.Basic
import Mathlib.Data.List.Nodup

/-! Helper lemmas about the snapshot bookkeeping. -/

namespace Verif.Snapshots

open Verif

/-! ### Orders on tags -/

theorem string_lt_of_ne {a b : String} (h : a ≠ b) : a < b ∨ b < a := by
  by_cases h1 : a < b
  · exact .inl h1
  · by_cases h2 : b < a
    · exact .inr h2
    · exact absurd (String.le_antisymm (String.not_lt.1 h2) (String.not_lt.1 h1)) h

theorem basisTag_equiv {a b : BasisTag} : keyEquiv BasisTag.lt a b = true ↔ a = b := by
  obtain ⟨ac, av⟩ := a
  obtain ⟨bc, bv⟩ := b
  unfold keyEquiv BasisTag.lt
  by_cases h : ac = bc
  · subst h
    by_cases h2 : av = bv
    · subst h2; simp
    · rcases string_lt_of_ne h2 with h3 | h3 <;> simp [h2, h3]
  · have h' : bc ≠ ac := fun e => h e.symm
    rcases string_lt_of_ne h with h3 | h3 <;> simp [h, h', h3]

theorem portTag_equiv {a b : PortTag} : keyEquiv PortTag.lt a b = true ↔ a = b := by
  obtain ⟨a1, a2, a3, a4⟩ := a
  obtain ⟨b1, b2, b3, b4⟩ := b
  unfold keyEquiv PortTag.lt
  by_cases h1 : a1 = b1
  · subst h1
    by_cases h2 : a2 = b2
    · subst h2
      by_cases h3 : a3 = b3
      · subst h3
        by_cases h4 : a4 = b4
        · subst h4; simp
        · have h4' : b4 ≠ a4 := fun e => h4 e.symm
          simp [h4, h4']; omega
      · have h3' : b3 ≠ a3 := fun e => h3 e.symm
        simp [h3, h3']; omega
    · have h2' : b2 ≠ a2 := fun e => h2 e.symm
      rcases string_lt_of_ne h2 with h3 | h3 <;> simp [h2, h2', h3]
  · have h1' : b1 ≠ a1 := fun e => h1 e.symm
    rcases string_lt_of_ne h1 with h3 | h3 <;> simp [h1, h1', h3]

/-! ### A registry: keys in first-seen order, an ordered index map and one payload per key -/

structure RegWF {K A : Type} (keys : List K) (idx : List (K × Nat)) (pay : List (List A)) : Prop where
  idx_eq : idx = keys.zipIdx
  nodup : keys.Nodup
  len : pay.length = keys.length

/-- The payload registered for a key (empty when the key is unknown). -/
def regGet {K A : Type} [DecidableEq K] : List K → List (List A) → K → List A
  | k :: ks, p :: ps, x => if k = x then p else regGet ks ps x
  | _, _, _ => []

section Registry
variable {K A : Type} [DecidableEq K] {lt : K → K → Bool}

theorem mapFind_zipIdx (hlt : ∀ a b, keyEquiv lt a b = true ↔ a = b) (keys : List K) (x : K) (n : Nat) :
    (mapFind lt (keys.zipIdx n) x = none ↔ x ∉ keys) ∧
    (∀ i, mapFind lt (keys.zipIdx n) x = some i → ∃ j, i = j + n ∧ keys[j]? = some x) := by
  induction keys generalizing n with
  | nil => simp [mapFind]
  | cons k ks ih =>
    obtain ⟨ih1, ih2⟩ := ih (n + 1)
    rw [List.zipIdx_cons]
    unfold mapFind
    by_cases h : k = x
    · subst h
      simp [(hlt k k).2 rfl]
    · have h' : ¬ keyEquiv lt k x = true := fun e => h ((hlt _ _).1 e)
      constructor
      · rw [if_neg h', ih1]; simp [Ne.symm h]
      · intro i hi
        rw [if_neg h'] at hi
        obtain ⟨j, rfl, hj⟩ := ih2 i hi
        exact ⟨j + 1, by omega, by simpa using hj⟩

omit [DecidableEq K] in
theorem mapSet_zipIdx (hlt : ∀ a b, keyEquiv lt a b = true ↔ a = b) (keys : List K) (x : K) (n : Nat)
    (hx : x ∉ keys) : mapSet lt (keys.zipIdx n) x (keys.length + n) = (keys ++ [x]).zipIdx n := by
  induction keys generalizing n with
  | nil => simp [mapSet]
  | cons k ks ih =>
    have h' : ¬ keyEquiv lt k x = true := fun e => hx (by rw [(hlt _ _).1 e]; simp)
    rw [List.zipIdx_cons, mapSet, if_neg h', List.cons_append, List.zipIdx_cons]
    have := ih (n + 1) (fun h => hx (by simp [h]))
    rw [← this]
    simp only [List.length_cons]
    congr 2; omega

theorem mapFind_none (hlt : ∀ a b, keyEquiv lt a b = true ↔ a = b) {keys : List K} {idx pay}
    (w : RegWF (A := A) keys idx pay) (x : K) : mapFind lt idx x = none ↔ x ∉ keys := by
  rw [w.idx_eq]; exact (mapFind_zipIdx hlt keys x 0).1

theorem regGet_of_index : ∀ {keys : List K} {pay : List (List A)} {i : Nat} {x : K} {p : List A},
    keys.Nodup → keys[i]? = some x → pay[i]? = some p → regGet keys pay x = p
  | [], _, i, _, _, _, h, _ => by simp at h
  | k :: ks, [], i, _, _, _, _, h => by simp at h
  | k :: ks, q :: qs, 0, x, p, _, h1, h2 => by
    simp at h1 h2; subst h1; subst h2; simp [regGet]
  | k :: ks, q :: qs, i + 1, x, p, hn, h1, h2 => by
    simp only [List.getElem?_cons_succ] at h1 h2
    have hk : k ≠ x := by
      rintro rfl
      exact (List.nodup_cons.1 hn).1 (List.mem_of_getElem? h1)
    rw [regGet, if_neg hk]
    exact regGet_of_index (List.nodup_cons.1 hn).2 h1 h2

theorem regGet_append_new : ∀ {keys : List K} {pay : List (List A)} {x : K},
    pay.length = keys.length → x ∉ keys →
    ∀ y, regGet (keys ++ [x]) (pay ++ [[]]) y = regGet keys pay y
  | [], [], x, _, _, y => by simp [regGet]
  | [], _ :: _, _, h, _, _ => by simp at h
  | _ :: _, [], _, h, _, _ => by simp at h
  | k :: ks, p :: ps, x, h, hx, y => by
    simp only [List.cons_append, regGet]
    rw [regGet_append_new (by simpa using h) (fun h => hx (by simp [h]))]

theorem regGet_not_mem : ∀ {keys : List K} {pay : List (List A)} {x : K},
    x ∉ keys → regGet keys pay x = []
  | [], _, _, _ => by simp [regGet]
  | _ :: _, [], _, _ => by simp [regGet]
  | k :: ks, p :: ps, x, hx => by
    have hk : k ≠ x := by rintro rfl; exact hx (by simp)
    rw [regGet, if_neg hk]
    exact regGet_not_mem (fun h => hx (by simp [h]))

theorem regGet_set : ∀ {keys : List K} {pay : List (List A)} {i : Nat} {x : K} {q : List A},
    keys.Nodup → pay.length = keys.length → keys[i]? = some x →
    ∀ y, regGet keys (pay.set i q) y = if y = x then q else regGet keys pay y
  | [], _, i, _, _, _, _, h, _ => by simp at h
  | k :: ks, [], _, _, _, _, h, _, _ => by simp at h
  | k :: ks, p :: ps, 0, x, q, hn, hl, h, y => by
    simp at h; subst h
    simp only [List.set_cons_zero, regGet]
    by_cases hy : k = y
    · simp [hy]
    · simp [hy, Ne.symm hy]
  | k :: ks, p :: ps, i + 1, x, q, hn, hl, h, y => by
    simp only [List.getElem?_cons_succ] at h
    simp only [List.set_cons_succ, regGet]
    have hk : k ≠ x := by
      rintro rfl
      exact (List.nodup_cons.1 hn).1 (List.mem_of_getElem? h)
    by_cases hy : k = y
    · subst hy; simp [hk]
    · simp only [hy, if_false]
      exact regGet_set (List.nodup_cons.1 hn).2 (by simpa using hl) h y

omit [DecidableEq K] in
theorem RegWF.register (hlt : ∀ a b, keyEquiv lt a b = true ↔ a = b) {keys : List K} {idx pay}
    (w : RegWF (A := A) keys idx pay) {x : K} (hx : x ∉ keys) :
    RegWF (keys ++ [x]) (mapSet lt idx x keys.length) (pay ++ [[]]) := by
  refine ⟨?_, ?_, ?_⟩
  · rw [w.idx_eq]
    have := mapSet_zipIdx hlt keys x 0 hx
    simpa using this
  · rw [List.nodup_append]
    refine ⟨w.nodup, by simp, ?_⟩
    intro a ha b hb
    simp at hb; subst hb
    rintro rfl; exact hx ha
  · simp [w.len]

theorem RegWF.find (hlt : ∀ a b, keyEquiv lt a b = true ↔ a = b) {keys : List K} {idx pay}
    (w : RegWF (A := A) keys idx pay) {x : K} (hx : x ∈ keys) :
    ∃ i, mapFind lt idx x = some i ∧ mapGet lt idx x = i ∧ keys[i]? = some x ∧
      pay[i]? = some (regGet keys pay x) := by
  cases h : mapFind lt idx x with
  | none => exact absurd hx ((mapFind_none hlt w x).1 h)
  | some i =>
    have h2 := h
    rw [w.idx_eq] at h2
    obtain ⟨j, hij, hj⟩ := (mapFind_zipIdx hlt keys x 0).2 i h2
    obtain rfl : i = j := by simpa using hij
    have hlt' : i < pay.length := by
      rw [w.len]; exact (List.getElem?_eq_some_iff.1 hj).1
    refine ⟨i, rfl, by simp [mapGet, h], hj, ?_⟩
    have hp : pay[i]? = some pay[i] := by simp [hlt']
    rw [regGet_of_index w.nodup hj hp]
    exact hp

omit [DecidableEq K] in
theorem RegWF.update {keys : List K} {idx} {pay : List (List A)}
    (w : RegWF keys idx pay) (i : Nat) (q : List A) : RegWF keys idx (pay.set i q) :=
  ⟨w.idx_eq, w.nodup, by simp [w.len]⟩

end Registry

/-! ### Store invariant -/

structure WF {V : Type} (st : Store V) : Prop where
  basis : RegWF st.basisTags st.tag2idx st.gens
  port : RegWF st.portTags st.port2idx st.portCols

/-- Columns filed under a tag. -/
def Store.cols {V : Type} (st : Store V) (t : BasisTag) : List V := regGet st.basisTags st.gens t

/-- Rows filed under a port tag. -/
def Store.rows {V : Type} (st : Store V) (t : PortTag) : List (Nat × Nat) :=
  regGet st.portTags st.portCols t

theorem WF.empty (V : Type) : WF (Store.empty V) :=
  ⟨⟨rfl, List.nodup_nil, rfl⟩, ⟨rfl, List.nodup_nil, rfl⟩⟩

theorem firstIdx_eq {K : Type} [DecidableEq K] (keys : List K) (x : K) :
    (x ∉ keys → firstIdx (fun t => decide (t = x)) keys = none) ∧
    (∀ i, keys.Nodup → keys[i]? = some x → firstIdx (fun t => decide (t = x)) keys = some i) := by
  induction keys with
  | nil => simp [firstIdx]
  | cons k ks ih =>
    constructor
    · intro h
      have hk : ¬ k = x := by rintro rfl; exact h (by simp)
      have := ih.1 (fun h' => h (by simp [h']))
      simp [firstIdx, hk, this]
    · intro i hn h
      cases i with
      | zero => simp at h; subst h; simp [firstIdx]
      | succ i =>
        simp only [List.getElem?_cons_succ] at h
        have hk : k ≠ x := by
          rintro rfl; exact (List.nodup_cons.1 hn).1 (List.mem_of_getElem? h)
        have := ih.2 i (List.nodup_cons.1 hn).2 h
        simp [firstIdx, hk, this]

theorem eqOp_iff (a b : BasisTag) : BasisTag.eqOp a b = decide (a = b) := by
  obtain ⟨a1, a2⟩ := a
  obtain ⟨b1, b2⟩ := b
  by_cases h1 : a1 = b1 <;> by_cases h2 : a2 = b2 <;> simp [BasisTag.eqOp, h1, h2]

theorem lookUp_mem {V : Type} {st : Store V} (w : WF st) {t : BasisTag} (h : t ∈ st.basisTags) :
    lookUpSnapshot st t = .ok (st.cols t) := by
  obtain ⟨i, _, _, hk, hp⟩ := w.basis.find (lt := BasisTag.lt) (fun a b => basisTag_equiv) h
  have hl : i < st.basisTags.length := (List.getElem?_eq_some_iff.1 hk).1
  have hpos : st.gens.length > 0 := by rw [w.basis.len]; omega
  unfold lookUpSnapshot
  simp only [eqOp_iff]
  rw [(firstIdx_eq st.basisTags t).2 i w.basis.nodup hk]
  have e : (st.gens.length == st.basisTags.length) = true := by simp [w.basis.len]
  rw [e, decide_eq_true hpos]
  simp only [require_true, ok_bind]
  exact rd_eq_ok.2 hp

theorem lookUp_not_mem {V : Type} {st : Store V} (w : WF st) {t : BasisTag}
    (h : t ∉ st.basisTags) : lookUpSnapshot st t = .error .abort := by
  unfold lookUpSnapshot
  by_cases h0 : st.gens.length > 0
  · have e : (st.gens.length == st.basisTags.length) = true := by simp [w.basis.len]
    rw [e, decide_eq_true h0]
    simp only [require_true, ok_bind, eqOp_iff]
    rw [(firstIdx_eq st.basisTags t).1 h]
  · simp [h0]

theorem lookUpPort_mem {V : Type} {st : Store V} (w : WF st) {t : PortTag} (h : t ∈ st.portTags) :
    lookUpPort st t = .ok (st.rows t) := by
  obtain ⟨i, hf, _, hk, hp⟩ := w.port.find (lt := PortTag.lt) (fun a b => portTag_equiv) h
  have hl : i < st.portTags.length := (List.getElem?_eq_some_iff.1 hk).1
  have hpos : st.portCols.length > 0 := by rw [w.port.len]; omega
  unfold lookUpPort
  have e : (st.portCols.length == st.portTags.length) = true := by simp [w.port.len]
  rw [e, decide_eq_true hpos, hf]
  simp only [require_true, ok_bind]
  exact rd_eq_ok.2 hp

theorem lookUpPort_not_mem {V : Type} {st : Store V} (w : WF st) {t : PortTag}
    (h : t ∉ st.portTags) : lookUpPort st t = .error .abort := by
  unfold lookUpPort
  by_cases h0 : st.portCols.length > 0
  · have e : (st.portCols.length == st.portTags.length) = true := by simp [w.port.len]
    rw [e, decide_eq_true h0]
    simp only [require_true, ok_bind]
    rw [(mapFind_none (lt := PortTag.lt) (fun a b => portTag_equiv) w.port t).2 h]
  · simp [h0]

end Verif.Snapshots
