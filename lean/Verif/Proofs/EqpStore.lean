import Verif.Proofs.Basic
import Verif.Proofs.Hdf5
import Verif.Spec.EqpStore
import Mathlib.Tactic.Linarith

/-! Helper lemmas about the storage of interface samples. -/

namespace Verif.EqpStore

open Verif Verif.Hdf5 Verif.EqpStore.Spec

variable {R : Type}

theorem idx_inj {nr r k r' k' : Nat} (h : r < nr) (h' : r' < nr) (e : r + k * nr = r' + k' * nr) :
    r = r' ∧ k = k' := by
  have h1 : (r + k * nr) % nr = r := by rw [Nat.add_mul_mod_self_right, Nat.mod_eq_of_lt h]
  have h2 : (r' + k' * nr) % nr = r' := by rw [Nat.add_mul_mod_self_right, Nat.mod_eq_of_lt h']
  have h3 : (r + k * nr) / nr = k := by
    rw [Nat.add_mul_div_right _ _ (by omega), Nat.div_eq_of_lt h, Nat.zero_add]
  have h4 : (r' + k' * nr) / nr = k' := by
    rw [Nat.add_mul_div_right _ _ (by omega), Nat.div_eq_of_lt h', Nat.zero_add]
  rw [e] at h1 h3
  exact ⟨h1.symm.trans h2, h3.symm.trans h4⟩

theorem idx_bound {nr r k n : Nat} (h : r < nr) (hk : k < n) : r + k * nr < n * nr := by
  have : (k + 1) * nr ≤ n * nr := Nat.mul_le_mul_right _ hk
  rw [Nat.add_mul] at this
  omega

theorem idx_split {nr n i : Nat} (h : i < n * nr) : ∃ r k, r < nr ∧ k < n ∧ i = r + k * nr := by
  have hp : 0 < nr := by
    rcases Nat.eq_zero_or_pos nr with rfl | hp
    · simp at h
    · exact hp
  refine ⟨i % nr, i / nr, Nat.mod_lt _ hp, (Nat.div_lt_iff_lt_mul hp).2 h, ?_⟩
  have := Nat.mod_add_div i nr
  rw [Nat.mul_comm] at this
  exact this.symm

/-- The samples at an address. -/
def cell (h : Heap R) (a : Nat) : Option (Samples R) := h[a]?.join

theorem cell_some {h : Heap R} {a : Nat} {v : Samples R} : cell h a = some v ↔ h[a]? = some (some v) := by
  unfold cell
  cases e : h[a]? <;> simp

theorem get_of_cell {h : Heap R} {a : Nat} {v : Samples R} (e : cell h a = some v) : h.get a = .ok v := by
  unfold Heap.get
  rw [cell_some.1 e]

theorem delete_of_cell {h : Heap R} {a : Nat} {v : Samples R} (e : cell h a = some v) :
    h.delete a = .ok (h.set a none) := by
  unfold Heap.delete
  rw [cell_some.1 e]

theorem cell_set {h : Heap R} {a b : Nat} (hne : a ≠ b) : cell (h.set a none) b = cell h b := by
  unfold cell
  rw [List.getElem?_set_ne hne]

theorem cell_set_self {h : Heap R} {a : Nat} : cell (h.set a none) a = none := by
  unfold cell
  rw [List.getElem?_set_self']
  cases h[a]? <;> rfl

theorem cell_new {h : Heap R} {v : Samples R} {b : Nat} :
    cell (h ++ [some v]) b = if b = h.length then some v else cell h b := by
  unfold cell
  by_cases e : b = h.length
  · subst e; simp
  · rw [if_neg e]
    by_cases hb : b < h.length
    · rw [List.getElem?_append_left hb]
    · rw [List.getElem?_eq_none (by simp; omega), List.getElem?_eq_none (by omega)]

theorem cell_len {h : Heap R} : cell h h.length = none := by
  unfold cell; simp

/-- The reference lists are live, distinct, own every live element, and hold `m`. -/
structure RefOk (nr : Nat) (s : Itf R) (m : Nat → Nat → Option (Samples R)) : Prop where
  len : s.refs.length = s.numInteg * nr
  val : ∀ k, k < s.numInteg → ∀ r, r < nr → (s.refs[r + k * nr]?.join).bind (cell s.heap) = m k r
  live : ∀ i a : Nat, s.refs[i]? = some (some a) → (cell s.heap a).isSome
  inj : ∀ i j a : Nat, s.refs[i]? = some (some a) → s.refs[j]? = some (some a) → i = j
  own : ∀ a : Nat, (cell s.heap a).isSome → ∃ i : Nat, s.refs[i]? = some (some a)

/-- The whole state: the views of every port are its reference port's pointer. -/
structure StateOk (t : Topo) (s : Itf R) (m : Nat → Nat → Option (Samples R)) : Prop where
  ref : RefOk t.refPorts.length s m
  vlen : s.views.length = s.numInteg * t.types.length
  view : ∀ k, k < s.numInteg → ∀ p, p < t.types.length → ∀ ty : Nat, t.types[p]? = some (ty : Int) →
    s.views[p + k * t.types.length]? = s.refs[ty + k * t.refPorts.length]?
  fresh : ∀ k r, s.numInteg ≤ k → m k r = none

/-- `m` with one entry replaced. -/
def put (m : Nat → Nat → Option (Samples R)) (k r : Nat) (v : Samples R) : Nat → Nat → Option (Samples R) :=
  fun k' r' => if k' = k ∧ r' = r then some v else m k' r'

theorem rdI_ok {α : Type} {b : List α} {i : Int} {v : α} (h : rdI b i = .ok v) :
    ∃ j : Nat, i = j ∧ b[j]? = some v := by
  unfold rdI at h
  split at h
  · next h0 => exact ⟨i.toNat, by omega, rd_eq_ok.1 h⟩
  · cases h

theorem rdI_nat {α : Type} (b : List α) (j : Nat) : rdI b (j : Int) = rd b j := by
  unfold rdI; rw [if_pos (by omega)]; rfl

theorem wrI_nat {α : Type} (b : List α) (j : Nat) (v : α) : wrI b (j : Int) v = wr b j v := by
  unfold wrI; rw [if_pos (by omega)]; rfl

theorem wrI_ok {α : Type} {b c : List α} {i : Int} {v : α} (h : wrI b i v = .ok c) :
    ∃ j : Nat, i = j ∧ j < b.length ∧ c = b.set j v := by
  unfold wrI at h
  split at h
  · next h0 =>
    unfold wr at h
    split at h
    · next h1 => cases h; exact ⟨i.toNat, by omega, h1, rfl⟩
    · cases h
  · cases h

/-- A signed index that is in range names an existing integrator. -/
theorem idx_cast {nr n p : Nat} {k : Int} {j : Nat} (hp : p < nr) (e : (p : Int) + k * nr = j)
    (hj : j < n * nr) : ∃ kk : Nat, k = kk ∧ kk < n ∧ j = p + kk * nr := by
  have hnr : (0 : Int) < nr := by omega
  have h0 : 0 ≤ k := by
    by_contra hneg
    have : k * nr ≤ (-1) * nr := Int.mul_le_mul_of_nonneg_right (by omega) (by omega)
    omega
  refine ⟨k.toNat, by omega, ?_, ?_⟩
  · by_contra hge
    have : (n : Int) * nr ≤ k * nr := Int.mul_le_mul_of_nonneg_right (by omega) (by omega)
    have : (j : Int) < (n : Int) * nr := by exact_mod_cast hj
    omega
  · have : ((k.toNat : Nat) : Int) = k := by omega
    have h3 : ((p + k.toNat * nr : Nat) : Int) = j := by push_cast; rw [this]; exact e
    exact_mod_cast h3.symm

theorem replace_ref {nr : Nat} {s : Itf R} {m : Nat → Nat → Option (Samples R)} (h : RefOk nr s m)
    {k r : Nat} (hk : k < s.numInteg) (hr : r < nr) (v : Samples R) :
    ∃ s' a, replace s ((r + k * nr : Nat) : Int) v = .ok s' ∧ RefOk nr s' (put m k r v) ∧
      s'.views = s.views ∧ s'.numInteg = s.numInteg ∧ s'.refs = s.refs.set (r + k * nr) (some a) := by
  have hlt : r + k * nr < s.refs.length := by rw [h.len]; exact idx_bound hr hk
  unfold replace
  rw [rdI_nat, rd_of_lt hlt, ok_bind]
  -- the heap after the delete
  obtain ⟨h1, e1, hc, hlen⟩ : ∃ h1 : Heap R,
      s.heap.release s.refs[r + k * nr] = .ok h1 ∧
      (∀ b, cell h1 b = if s.refs[r + k * nr] = some b then none else cell s.heap b) ∧
      h1.length = s.heap.length := by
    cases e : s.refs[r + k * nr] with
    | none => exact ⟨s.heap, rfl, fun b => by simp, rfl⟩
    | some a =>
      obtain ⟨w, hw⟩ := Option.isSome_iff_exists.1 (h.live _ a (by rw [List.getElem?_eq_getElem hlt, e]))
      refine ⟨s.heap.set a none, delete_of_cell hw, fun b => ?_, by simp⟩
      by_cases hb : a = b
      · subst hb; simp [cell_set_self]
      · rw [if_neg (by simpa using hb), cell_set hb]
  rw [e1, ok_bind]
  dsimp only [Heap.new]
  rw [wrI_nat, wr_of_lt hlt, ok_bind]
  refine ⟨_, h1.length, rfl, ⟨?_, ?_, ?_, ?_, ?_⟩, rfl, rfl, rfl⟩
  · simpa using h.len
  · intro k' hk' r' hr'
    show ((s.refs.set (r + k * nr) (some h1.length))[r' + k' * nr]?.join).bind (cell (h1 ++ [some v])) = _
    unfold put
    by_cases e : r + k * nr = r' + k' * nr
    · obtain ⟨rfl, rfl⟩ := idx_inj hr hr' e
      rw [List.getElem?_set_self hlt]
      simp [cell_new]
    · have hlt' : r' + k' * nr < s.refs.length := by rw [h.len]; exact idx_bound hr' hk'
      rw [List.getElem?_set_ne e, if_neg (by rintro ⟨rfl, rfl⟩; exact e rfl), ← h.val k' hk' r' hr',
        List.getElem?_eq_getElem hlt']
      cases ea : s.refs[r' + k' * nr] with
      | none => rfl
      | some a =>
        have hl := h.live _ a (by rw [List.getElem?_eq_getElem hlt', ea])
        show cell (h1 ++ [some v]) a = cell s.heap a
        rw [cell_new, if_neg, hc, if_neg]
        · intro e2
          exact e (h.inj _ _ a (by rw [List.getElem?_eq_getElem hlt, e2])
            (by rw [List.getElem?_eq_getElem hlt', ea]))
        · rintro rfl
          rw [hlen, cell_len] at hl
          cases hl
  · intro i a hi
    show (cell (h1 ++ [some v]) a).isSome
    have hi' : (s.refs.set (r + k * nr) (some h1.length))[i]? = some (some a) := hi
    by_cases e : r + k * nr = i
    · subst e
      rw [List.getElem?_set_self hlt] at hi'
      cases hi'
      simp [cell_new]
    · rw [List.getElem?_set_ne e] at hi'
      have hl := h.live i a hi'
      rw [cell_new]
      split
      · rfl
      · rw [hc, if_neg]
        · exact hl
        · intro e2
          exact e (h.inj _ _ a (by rw [List.getElem?_eq_getElem hlt, e2]) hi')
  · intro i j a hi hj
    have hi' : (s.refs.set (r + k * nr) (some h1.length))[i]? = some (some a) := hi
    have hj' : (s.refs.set (r + k * nr) (some h1.length))[j]? = some (some a) := hj
    have hnew : ∀ i : Nat, s.refs[i]? ≠ some (some h1.length) := by
      intro i hi
      have := h.live _ _ hi
      rw [hlen, cell_len] at this
      cases this
    by_cases ei : r + k * nr = i <;> by_cases ej : r + k * nr = j
    · exact ei.symm.trans ej
    · subst ei
      rw [List.getElem?_set_self hlt] at hi'
      cases hi'
      rw [List.getElem?_set_ne ej] at hj'
      exact absurd hj' (hnew j)
    · subst ej
      rw [List.getElem?_set_self hlt] at hj'
      cases hj'
      rw [List.getElem?_set_ne ei] at hi'
      exact absurd hi' (hnew i)
    · rw [List.getElem?_set_ne ei] at hi'
      rw [List.getElem?_set_ne ej] at hj'
      exact h.inj _ _ a hi' hj'
  · intro a ha
    show ∃ i : Nat, (s.refs.set (r + k * nr) (some h1.length))[i]? = some (some a)
    have ha' : (cell (h1 ++ [some v]) a).isSome := ha
    rw [cell_new] at ha'
    split at ha'
    · next e => subst e; exact ⟨_, List.getElem?_set_self hlt⟩
    · rw [hc] at ha'
      split at ha'
      · cases ha'
      · next hne =>
        obtain ⟨i, hi⟩ := h.own a ha'
        refine ⟨i, ?_⟩
        rw [List.getElem?_set_ne]
        · exact hi
        · rintro rfl
          rw [List.getElem?_eq_getElem hlt] at hi
          exact hne (by simpa using hi)

/-- A replacement that returns had its index in range. -/
theorem replace_inv {nr : Nat} {s s' : Itf R} {m : Nat → Nat → Option (Samples R)} (h : RefOk nr s m)
    {k : Int} {r : Nat} (hr : r < nr) {v : Samples R} (e : replace s ((r : Int) + k * nr) v = .ok s') :
    ∃ (kk : Nat) (a : Nat), k = kk ∧ kk < s.numInteg ∧ RefOk nr s' (put m kk r v) ∧
      s'.views = s.views ∧ s'.numInteg = s.numInteg ∧ s'.refs = s.refs.set (r + kk * nr) (some a) := by
  have e' := e
  unfold replace at e
  obtain ⟨old, h1, -⟩ := bind_eq_ok.1 e
  obtain ⟨j, hj, h2⟩ := rdI_ok h1
  obtain ⟨hlt, -⟩ := List.getElem?_eq_some_iff.1 h2
  rw [h.len] at hlt
  obtain ⟨kk, rfl, hkk, hj2⟩ := idx_cast hr hj hlt
  obtain ⟨s2, a, h3, h4, h5, h6, h7⟩ := replace_ref h hkk hr v
  have : replace s ((r : Int) + (kk : Int) * nr) v = .ok s2 := by
    rw [← h3]; congr 1
  rw [this] at e'
  cases e'
  exact ⟨kk, a, rfl, hkk, h4, h5, h6, h7⟩

theorem type_lt {t : Topo} (ht : TopoOk t) {p : Nat} {ty : Nat} (h : t.types[p]? = some (ty : Int)) :
    ty < t.refPorts.length := by
  have := (ht.types _ (List.mem_of_getElem? h)).2
  omega

theorem add_ok {t : Topo} (ht : TopoOk t) {s : Itf R} {m : Nat → Nat → Option (Samples R)}
    (h : StateOk t s m) :
    StateOk t (addInteg t s) m := by
  have hl := h.ref.len
  have hv := h.vlen
  have hold : ∀ {i a : Nat}, (s.refs ++ List.replicate t.refPorts.length none)[i]? = some (some a) →
      s.refs[i]? = some (some a) := by
    intro i a hi
    by_cases e : i < s.refs.length
    · rwa [List.getElem?_append_left e] at hi
    · rw [List.getElem?_append_right (by omega), List.getElem?_replicate] at hi
      split at hi <;> simp at hi
  refine ⟨⟨?_, ?_, ?_, ?_, ?_⟩, ?_, ?_, ?_⟩
  · simp [addInteg, hl, Nat.add_mul]
  · intro k hk r hr
    show ((s.refs ++ List.replicate t.refPorts.length none)[_]?.join).bind _ = _
    have hk' : k < s.numInteg + 1 := hk
    by_cases e : k < s.numInteg
    · rw [List.getElem?_append_left (by rw [hl]; exact idx_bound hr e)]
      exact h.ref.val k e r hr
    · have : k = s.numInteg := by omega
      subst this
      rw [List.getElem?_append_right (by omega), List.getElem?_replicate, h.fresh _ _ (Nat.le_refl _)]
      split <;> rfl
  · intro i a hi; exact h.ref.live i a (hold hi)
  · intro i j a hi hj; exact h.ref.inj i j a (hold hi) (hold hj)
  · intro a ha
    obtain ⟨i, hi⟩ := h.ref.own a ha
    refine ⟨i, ?_⟩
    show (s.refs ++ List.replicate t.refPorts.length none)[i]? = _
    rw [List.getElem?_append_left (List.getElem?_eq_some_iff.1 hi).1]
    exact hi
  · simp [addInteg, hv, Nat.add_mul]
  · intro k hk p hp ty hty
    show (s.views ++ List.replicate t.types.length none)[_]? =
      (s.refs ++ List.replicate t.refPorts.length none)[_]?
    have hk' : k < s.numInteg + 1 := hk
    by_cases e : k < s.numInteg
    · have h2 := h.view k e p hp ty hty
      have hp2 : p + k * t.types.length < s.views.length := by rw [hv]; exact idx_bound hp e
      rw [List.getElem?_append_left hp2, h2, List.getElem?_append_left]
      rw [List.getElem?_eq_getElem hp2] at h2
      exact (List.getElem?_eq_some_iff.1 h2.symm).1
    · have : k = s.numInteg := by omega
      subst this
      rw [List.getElem?_append_right (by omega), List.getElem?_append_right (by omega),
        List.getElem?_replicate, List.getElem?_replicate, if_pos (by omega),
        if_pos (by have := type_lt ht hty; omega)]
  · intro k r hk; exact h.fresh k r (by have : s.numInteg + 1 ≤ k := hk; omega)

/-- The loop that copies pointers of row `k` into the views of the ports selected by `c`. -/
theorem viewLoop {t : Topo} {s : Itf R} {k : Nat} (hk : k < s.numInteg)
    (hv : s.views.length = s.numInteg * t.types.length)
    {body : Nat → Itf R → Outcome (Itf R)} (c : Nat → Bool) (val : Nat → Option Nat)
    (hb : ∀ p u, p < t.types.length → u.refs = s.refs → u.heap = s.heap → u.numInteg = s.numInteg →
      u.views.length = s.views.length → body p u = .ok (if c p then
        { u with views := u.views.set (p + k * t.types.length) (val p) } else u)) :
    ∃ s', loop t.types.length body s = .ok s' ∧ s'.refs = s.refs ∧ s'.heap = s.heap ∧
      s'.numInteg = s.numInteg ∧ s'.views.length = s.views.length ∧
      (∀ p, p < t.types.length → s'.views[p + k * t.types.length]? =
        if c p then some (val p) else s.views[p + k * t.types.length]?) ∧
      (∀ p k', p < t.types.length → k' ≠ k →
        s'.views[p + k' * t.types.length]? = s.views[p + k' * t.types.length]?) := by
  obtain ⟨s', h1, h2, h3, h4, h5, h6, h7⟩ := loop_total (n := t.types.length) (body := body) (s := s)
    (fun q u => u.refs = s.refs ∧ u.heap = s.heap ∧ u.numInteg = s.numInteg ∧
      u.views.length = s.views.length ∧
      (∀ p, p < t.types.length → u.views[p + k * t.types.length]? =
        if p < q ∧ c p = true then some (val p) else s.views[p + k * t.types.length]?) ∧
      (∀ p k', p < t.types.length → k' ≠ k →
        u.views[p + k' * t.types.length]? = s.views[p + k' * t.types.length]?))
    ⟨rfl, rfl, rfl, rfl, fun p _ => by simp, fun _ _ _ _ => rfl⟩ (by
    intro q u hq ⟨a1, a2, a3, a4, a5, a6⟩
    refine ⟨_, hb q u hq a1 a2 a3 a4, ?_⟩
    by_cases e : c q = true
    · rw [if_pos e]
      refine ⟨a1, a2, a3, by simpa using a4, ?_, ?_⟩
      · intro p hp
        show (u.views.set _ _)[_]? = _
        by_cases e2 : q = p
        · subst e2
          rw [List.getElem?_set_self (by rw [a4, hv]; exact idx_bound hp hk), if_pos ⟨by omega, e⟩]
        · rw [List.getElem?_set_ne (by omega), a5 p hp]
          congr 1
          exact propext ⟨fun h => ⟨by omega, h.2⟩, fun h => ⟨by omega, h.2⟩⟩
      · intro p k' hp hne
        show (u.views.set _ _)[_]? = _
        rw [List.getElem?_set_ne (fun h => hne (idx_inj hq hp h).2.symm), a6 p k' hp hne]
    · rw [if_neg e]
      refine ⟨a1, a2, a3, a4, ?_, a6⟩
      intro p hp
      rw [a5 p hp]
      congr 1
      refine propext ⟨fun h => ⟨by omega, h.2⟩, fun h => ⟨?_, h.2⟩⟩
      have : p ≠ q := by rintro rfl; exact e h.2
      omega)
  refine ⟨s', h1, h2, h3, h4, h5, fun p hp => ?_, h7⟩
  rw [h6 p hp]
  by_cases e : c p = true
  · rw [if_pos ⟨hp, e⟩, if_pos e]
  · rw [if_neg (fun h => e h.2), if_neg e]

theorem types_nat {t : Topo} (ht : TopoOk t) {p : Nat} (hp : p < t.types.length) :
    ∃ ty : Nat, t.types[p]? = some (ty : Int) ∧ ty < t.refPorts.length := by
  have h1 := ht.types _ (List.getElem_mem hp)
  refine ⟨t.types[p].toNat, ?_, by omega⟩
  rw [List.getElem?_eq_getElem hp]
  congr 1
  omega

theorem RefOk.congr {nr : Nat} {s s' : Itf R} {m m' : Nat → Nat → Option (Samples R)} (h : RefOk nr s m)
    (h1 : s'.refs = s.refs) (h2 : s'.heap = s.heap) (h3 : s'.numInteg = s.numInteg)
    (h4 : ∀ k r, k < s.numInteg → r < nr → m' k r = m k r) : RefOk nr s' m' := by
  refine ⟨by rw [h1, h3, h.len], ?_, ?_, ?_, ?_⟩
  · intro k hk r hr
    rw [h1, h2, h4 k r (by omega) hr]
    exact h.val k (by omega) r hr
  · rw [h1, h2]; exact h.live
  · rw [h1]; exact h.inj
  · rw [h1, h2]; exact h.own

theorem update_ok {t : Topo} (ht : TopoOk t) {s : Itf R} {m : Nat → Nat → Option (Samples R)}
    (h : StateOk t s m) {i rp : Nat} (hi : i < s.numInteg) (hr : rp < t.refPorts.length)
    (v : Samples R) :
    ∃ s', update t s i rp v = .ok s' ∧ StateOk t s' (put m i rp v) ∧ s'.numInteg = s.numInteg := by
  unfold update
  rw [show (decide ((0 : Int) ≤ i) && decide ((i : Int) < s.numInteg)) = true by simp; omega,
    require_true, ok_bind,
    show (decide ((0 : Int) ≤ rp) && decide ((rp : Int) < t.refPorts.length)) = true by simp; omega,
    require_true, ok_bind, decide_eq_true h.ref.len, require_true, ok_bind]
  dsimp only
  rw [show (rp : Int) + (i : Int) * (t.refPorts.length : Int) = ((rp + i * t.refPorts.length : Nat) : Int) by
    push_cast; rfl]
  obtain ⟨s1, a, e1, h1, h2, h3, h4⟩ := replace_ref h.ref hi hr v
  rw [e1, ok_bind]
  have hlt : rp + i * t.refPorts.length < s.refs.length := by rw [h.ref.len]; exact idx_bound hr hi
  have hra : s1.refs[rp + i * t.refPorts.length]? = some (some a) := by
    rw [h4, List.getElem?_set_self hlt]
  obtain ⟨s2, e2, b1, b2, b3, b4, b5, b6⟩ := viewLoop (t := t) (s := s1) (k := i) (by omega)
    (by rw [h2, h3, h.vlen]) (fun p => decide (t.types[p]? = some (rp : Int))) (fun _ => some a)
    (body := fun p s => do
      let ty ← rd t.types p
      if ty ≠ rp then return s
      else do
        let r ← rdI s.refs ((rp + i * t.refPorts.length : Nat) : Int)
        let vs ← wrI s.views ((p : Int) + i * t.types.length) r
        return { s with views := vs }) (by
      intro p u hp u1 u2 u3 u4
      rw [rd_of_lt hp, ok_bind, List.getElem?_eq_getElem hp]
      by_cases e : t.types[p] = (rp : Int)
      · rw [if_neg (by simpa using e), rdI_nat, u1, rd_eq_ok.2 hra, ok_bind,
          show (p : Int) + (i : Int) * (t.types.length : Int) = ((p + i * t.types.length : Nat) : Int) by
            push_cast; rfl, wrI_nat, wr_of_lt (by rw [u4, h2, h.vlen]; exact idx_bound hp hi), ok_bind]
        simp [e]
        rfl
      · rw [if_pos (by simpa using e)]
        simp [e]
        rfl)
  refine ⟨s2, e2, ⟨h1.congr b1 b2 b3 (fun _ _ _ _ => rfl), by rw [b4, b3, h2, h3, h.vlen], ?_, ?_⟩,
    by omega⟩
  · intro k hk p hp ty hty
    rw [b1]
    have hty' := type_lt ht hty
    by_cases e : k = i
    · subst e
      rw [b5 p hp, hty]
      by_cases e2 : ty = rp
      · subst e2; simp [hra]
      · rw [if_neg (by simp; omega), h2, h4, List.getElem?_set_ne (fun e3 => e2 (idx_inj hr hty' e3).1.symm)]
        exact h.view k (by omega) p hp ty hty
    · rw [b6 p k hp e, h2, h4, List.getElem?_set_ne (fun e3 => e (idx_inj hr hty' e3).2.symm)]
      exact h.view k (by omega) p hp ty hty
  · intro k r hk
    unfold put
    rw [if_neg (by rintro ⟨rfl, -⟩; omega)]
    exact h.fresh k r (by omega)

/-- A call of `update` that returns had its arguments in range. -/
theorem update_range {t : Topo} {s s' : Itf R} {i rp : Int} {v : Samples R}
    (e : update t s i rp v = .ok s') :
    ∃ i' rp' : Nat, i = i' ∧ rp = rp' ∧ i' < s.numInteg ∧ rp' < t.refPorts.length := by
  unfold update at e
  obtain ⟨⟨⟩, h1, e⟩ := bind_eq_ok.1 e
  obtain ⟨⟨⟩, h2, e⟩ := bind_eq_ok.1 e
  have h1 := require_eq_ok.1 h1
  have h2 := require_eq_ok.1 h2
  simp at h1 h2
  exact ⟨i.toNat, rp.toNat, by omega, by omega, by omega, by omega⟩

/-- The samples a load assigns. -/
def loadPut (m : Nat → Nat → Option (Samples R)) (k q : Nat) (val : Nat → Option (Samples R)) :
    Nat → Nat → Option (Samples R) :=
  fun k' r => if k' = k ∧ r < q then val r else m k' r

theorem portName_ok {t : Topo} (ht : TopoOk t) {r : Nat} (hr : r < t.refPorts.length) :
    ∃ n, portName t r = .ok n := by
  have := ht.comps _ (List.getElem_mem hr)
  unfold portName
  rw [rd_of_lt hr, ok_bind, rd_of_lt this.1, ok_bind, rd_of_lt this.2, ok_bind]
  exact ⟨_, rfl⟩

theorem load_ok {t : Topo} (ht : TopoOk t) {s : Itf R} {m : Nat → Nat → Option (Samples R)}
    (h : StateOk t s m) {k : Nat} (hk : k < s.numInteg) {f : File R} {loc : Loc} {dset : String}
    (hg : find f ⟨loc, dset, false⟩ = some .group)
    (hf : ∀ r, r < t.refPorts.length → (stored t f loc dset r).isSome) :
    ∃ s', load t s k f loc dset = .ok s' ∧
      StateOk t s' (loadPut m k t.refPorts.length (stored t f loc dset)) ∧
      s'.numInteg = s.numInteg := by
  unfold load
  rw [openGroup_of hg, ok_bind]
  obtain ⟨s1, e1, a1, a2, a3, a4⟩ := loop_total (n := t.refPorts.length) (s := s)
    (body := fun p s => do
      let name ← portName t p
      let v ← readSamples f (dset :: loc) name .interface
      replace s ((p : Int) + (k : Int) * t.refPorts.length) v)
    (fun q u => RefOk t.refPorts.length u (loadPut m k q (stored t f loc dset)) ∧
      u.views = s.views ∧ u.numInteg = s.numInteg ∧
      ∀ r k', r < t.refPorts.length → k' ≠ k →
        u.refs[r + k' * t.refPorts.length]? = s.refs[r + k' * t.refPorts.length]?)
    ⟨h.ref.congr rfl rfl rfl (fun k' r _ _ => by simp [loadPut]), rfl, rfl, fun _ _ _ _ => rfl⟩ (by
    intro q u hq ⟨b1, b2, b3, b4⟩
    obtain ⟨n, hn⟩ := portName_ok ht hq
    have hs := hf q hq
    obtain ⟨v, hv⟩ : ∃ v, readSamples f (dset :: loc) n .interface = .ok v := by
      unfold stored at hs
      rw [hn] at hs
      dsimp only at hs
      cases e : readSamples f (dset :: loc) n .interface with
      | ok v => exact ⟨v, rfl⟩
      | error e' => rw [e] at hs; cases hs
    have hsv : stored t f loc dset q = some v := by
      unfold stored; rw [hn]; dsimp only; rw [hv]; rfl
    rw [hn, ok_bind, hv, ok_bind,
      show (q : Int) + (k : Int) * (t.refPorts.length : Int) = ((q + k * t.refPorts.length : Nat) : Int) by
        push_cast; rfl]
    obtain ⟨u', a, e1, c1, c2, c3, c4⟩ := replace_ref b1 (k := k) (by omega) hq v
    refine ⟨u', e1, c1.congr rfl rfl rfl ?_, by rw [c2, b2], by omega, ?_⟩
    · intro k' r _ _
      unfold loadPut put
      by_cases e : k' = k
      · subst e
        by_cases e2 : r = q
        · subst e2; simp [hsv]
        · simp [e2]
          congr 1
          exact propext ⟨fun h => by omega, fun h => by omega⟩
      · simp [e]
    · intro r k' hr' hne
      rw [c4, List.getElem?_set_ne (fun e => hne (idx_inj hq hr' e).2.symm), b4 r k' hr' hne])
  rw [e1, ok_bind]
  obtain ⟨s2, e2, b1, b2, b3, b4, b5, b6⟩ := viewLoop (t := t) (s := s1) (k := k) (by omega)
    (by rw [a2, a3, h.vlen]) (fun _ => true)
    (fun p => (s1.refs[(t.types[p]?.getD 0).toNat + k * t.refPorts.length]?).join)
    (body := fun p s => do
      let rp ← rd t.types p
      let r ← rdI s.refs (rp + (k : Int) * t.refPorts.length)
      let vs ← wrI s.views ((p : Int) + (k : Int) * t.types.length) r
      return { s with views := vs }) (by
      intro p u hp u1 u2 u3 u4
      obtain ⟨ty, hty, hlt⟩ := types_nat ht hp
      rw [rd_eq_ok.2 hty, ok_bind,
        show (ty : Int) + (k : Int) * (t.refPorts.length : Int) = ((ty + k * t.refPorts.length : Nat) : Int) by
          push_cast; rfl, rdI_nat, u1,
        rd_of_lt (by rw [a1.len]; exact idx_bound hlt (by omega)), ok_bind,
        show (p : Int) + (k : Int) * (t.types.length : Int) = ((p + k * t.types.length : Nat) : Int) by
            push_cast; rfl, wrI_nat, wr_of_lt (by rw [u4, a2, h.vlen]; exact idx_bound hp hk), ok_bind,
        hty, Option.getD_some, Int.toNat_natCast,
        List.getElem?_eq_getElem (by rw [a1.len]; exact idx_bound hlt (by omega))]
      rfl)
  refine ⟨s2, e2, ⟨a1.congr b1 b2 b3 (fun _ _ _ _ => rfl), by rw [b4, b3, a2, a3, h.vlen], ?_, ?_⟩,
    by omega⟩
  · intro k' hk' p hp ty hty
    rw [b1]
    have hty' := type_lt ht hty
    by_cases e : k' = k
    · subst e
      rw [b5 p hp, hty, if_pos rfl, Option.getD_some, Int.toNat_natCast,
        List.getElem?_eq_getElem (by rw [a1.len]; exact idx_bound hty' (by omega))]
      rfl
    · rw [b6 p k' hp e, a2, a4 ty k' hty' e]
      exact h.view k' (by omega) p hp ty hty
  · intro k' r hk'
    unfold loadPut
    rw [if_neg (by rintro ⟨rfl, -⟩; omega)]
    exact h.fresh k' r (by omega)

/-- A load that returns found its group and its samples, and its integrator (unless there are no
reference ports). -/
theorem load_range {t : Topo} {s s' : Itf R} {m : Nat → Nat → Option (Samples R)}
    (h : RefOk t.refPorts.length s m) {k : Int} {f : File R} {loc : Loc}
    {dset : String} (e : load t s k f loc dset = .ok s') :
    find f ⟨loc, dset, false⟩ = some .group ∧
    (∀ r, r < t.refPorts.length → (stored t f loc dset r).isSome) ∧
    (0 < t.refPorts.length → ∃ k' : Nat, k = k' ∧ k' < s.numInteg) := by
  unfold load at e
  obtain ⟨g, hg, e⟩ := bind_eq_ok.1 e
  obtain ⟨s1, h1, -⟩ := bind_eq_ok.1 e
  have hg' : find f ⟨loc, dset, false⟩ = some .group ∧ g = dset :: loc := by
    unfold openGroup at hg
    split at hg
    · next he => cases hg; exact ⟨he, rfl⟩
    · cases hg
  obtain ⟨hg1, rfl⟩ := hg'
  have := loop_inv (n := t.refPorts.length) (s := s) (t := s1)
    (fun q u => (∃ m', RefOk t.refPorts.length u m') ∧ u.numInteg = s.numInteg ∧
      (∀ r, r < q → (stored t f loc dset r).isSome) ∧
      (0 < q → ∃ k' : Nat, k = k' ∧ k' < s.numInteg))
    ⟨⟨m, h⟩, rfl, by simp, by simp⟩ (by
    intro q u u' hq ⟨⟨m', b1⟩, b2, b3, b4⟩ hb
    obtain ⟨n, hn, hb⟩ := bind_eq_ok.1 hb
    obtain ⟨v, hv, hb⟩ := bind_eq_ok.1 hb
    obtain ⟨kk, a, c1, c2, c3, c4, c5, c6⟩ := replace_inv b1 hq hb
    refine ⟨⟨_, c3⟩, by omega, ?_, fun _ => ⟨kk, c1, by omega⟩⟩
    intro r hr
    by_cases e : r = q
    · subst e
      unfold stored
      rw [hn]; dsimp only; rw [hv]; rfl
    · exact b3 r (by omega)) h1
  exact ⟨hg1, this.2.2.1, this.2.2.2⟩

/-- A form without reference ports has no ports, and a load changes nothing. -/
theorem load_trivial {t : Topo} (ht : TopoOk t) (h0 : t.refPorts.length = 0) {s s' : Itf R} {k : Int}
    {f : File R} {loc : Loc} {dset : String} (e : load t s k f loc dset = .ok s') : s' = s := by
  have hp : t.types.length = 0 := by
    by_contra hne
    obtain ⟨ty, -, hlt⟩ := types_nat ht (p := 0) (by omega)
    omega
  unfold load at e
  rw [h0, hp] at e
  obtain ⟨g, -, e⟩ := bind_eq_ok.1 e
  cases e
  rfl

/-! ### Data set names -/

theorem digits_not_mem (n : Nat) {c : Char} (hc : c.isDigit = false) :
    c ∉ (toString n : String).toList := by
  rw [show (toString n : String) = Nat.repr n from rfl, Nat.toList_repr]
  intro h
  have := Nat.isDigit_of_mem_toDigits (by decide) (by decide) h
  rw [hc] at this
  cases this

theorem toString_int (n : Nat) : (toString (n : Int) : String) = toString n := rfl

/-- A separator that occurs in neither suffix splits uniquely. -/
theorem split_last {α : Type} {u : α} {a b x y : List α} (hx : u ∉ x) (hy : u ∉ y)
    (h : a ++ u :: x = b ++ u :: y) : a = b ∧ x = y := by
  have h2 := congrArg List.reverse h
  simp only [List.reverse_append, List.reverse_cons, List.append_assoc, List.singleton_append] at h2
  have := list_split_unique (u := u) (a := x.reverse) (b := y.reverse) (by simpa using hx)
    (by simpa using hy) h2
  exact ⟨List.reverse_injective this.2, List.reverse_injective this.1⟩

theorem name_inj {n1 n2 m1 m2 : String} {a1 a2 b1 b2 : Nat} (h1 : ':' ∉ n1.toList)
    (h2 : ':' ∉ n2.toList) (h3 : ':' ∉ m1.toList) (h4 : ':' ∉ m2.toList)
    (e : n1 ++ ":" ++ n2 ++ ("-" ++ toString a1 ++ ":" ++ toString a2)
      = m1 ++ ":" ++ m2 ++ ("-" ++ toString b1 ++ ":" ++ toString b2)) :
    n1 = m1 ∧ n2 = m2 ∧ a1 = b1 ∧ a2 = b2 := by
  have h := congrArg String.toList e
  simp only [String.toList_append, List.append_assoc] at h
  have c1 : (":" : String).toList = [':'] := rfl
  have c2 : ("-" : String).toList = ['-'] := rfl
  rw [c1, c2] at h
  simp only [List.singleton_append] at h
  obtain ⟨e1, h⟩ := list_split_unique h1 h3 h
  have hd : ∀ (n : String) (a b : Nat), n.toList ++ '-' :: ((toString a).toList ++ ':' :: (toString b).toList)
      = (n.toList ++ '-' :: (toString a).toList) ++ ':' :: (toString b).toList := by
    intros; simp
  rw [hd, hd] at h
  obtain ⟨h, e4⟩ := split_last (digits_not_mem _ (by decide)) (digits_not_mem _ (by decide)) h
  obtain ⟨e2, e3⟩ := split_last (digits_not_mem _ (by decide)) (digits_not_mem _ (by decide)) h
  exact ⟨String.toList_injective e1, String.toList_injective e2,
    Nat.repr_injective (String.toList_injective e3), Nat.repr_injective (String.toList_injective e4)⟩

end Verif.EqpStore
