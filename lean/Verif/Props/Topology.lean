import Verif.Model.Topology
import Verif.Spec.Topology
import Verif.Proofs.Basic
import Mathlib.Tactic.Ring
import Mathlib.Tactic.LinearCombination

/-!
# Properties C28, C29, C30: attribute lists, transforms, component bookkeeping
-/

namespace Verif.Topology

theorem arrFind_neg {a : List Int} {v : Int} : arrFind a v < 0 ↔ v ∉ a := by
  unfold arrFind
  cases h : a.findIdx? (· == v) with
  | none =>
    simp only [List.findIdx?_eq_none_iff, beq_eq_false_iff_ne] at h
    simp only [show (-1 : Int) < 0 by decide, true_iff]
    exact fun hm => h v hm rfl
  | some i =>
    have := List.findIdx?_eq_some_iff_getElem.1 h
    obtain ⟨hi, hv, _⟩ := this
    have hv' : a[i] = v := by simpa using hv
    constructor
    · intro h'; have h'' : (i : Int) < 0 := h'; omega
    · intro h'; exact absurd (hv' ▸ List.getElem_mem hi) h'

theorem arrFind_spec {a : List Int} {v : Int} (h : v ∈ a) :
    ∃ i : Nat, arrFind a v = i ∧ a[i]? = some v := by
  unfold arrFind
  cases hf : a.findIdx? (· == v) with
  | none =>
    simp only [List.findIdx?_eq_none_iff, beq_eq_false_iff_ne] at hf
    exact absurd rfl (hf v h)
  | some i =>
    obtain ⟨hi, hv, _⟩ := List.findIdx?_eq_some_iff_getElem.1 hf
    refine ⟨i, rfl, ?_⟩
    rw [List.getElem?_eq_getElem hi]; simpa using hv

/-- C28: the updated attribute list holds every occurring attribute exactly once and no other, in
order of first occurrence. -/
theorem updateAttributes_spec (elemAttr : List Int) :
    ∃ l, updateAttributes elemAttr = .ok l ∧ Spec.AttributeList elemAttr l := by
  unfold updateAttributes
  obtain ⟨l, hl, hI⟩ := loop_total (n := elemAttr.length)
    (body := fun k attrs => do
      let attr ← rd elemAttr k
      if arrFind attrs attr < 0 then .ok (attrs ++ [attr]) else .ok attrs)
    (fun k l => Spec.AttributeList (elemAttr.take k) l) (s := [])
    ⟨List.nodup_nil, by simp, by simp⟩
    (by
      intro k l hk ⟨hn, hc, ho⟩
      simp only [rd_of_lt hk, ok_bind]
      have ht : elemAttr.take (k + 1) = elemAttr.take k ++ [elemAttr[k]] := by
        rw [List.take_add_one, List.getElem?_eq_getElem hk]; rfl
      by_cases hf : arrFind l elemAttr[k] < 0
      · rw [if_pos hf]
        have hm := arrFind_neg.1 hf
        refine ⟨_, rfl, ?_, ?_, ?_⟩
        · rw [List.nodup_append]
          exact ⟨hn, by simp, by
            intro a ha b hb hab
            simp only [List.mem_singleton] at hb
            exact hm (hb ▸ hab ▸ ha)⟩
        · intro a; rw [ht]; simp only [List.mem_append, hc]
        · rw [ht]; exact ho.append (List.Sublist.refl _)
      · rw [if_neg hf]
        have hm : elemAttr[k] ∈ l := by
          by_contra h; exact hf (arrFind_neg.2 h)
        refine ⟨_, rfl, hn, ?_, ?_⟩
        · intro a; rw [ht]
          simp only [List.mem_append, hc, List.mem_singleton]
          constructor
          · exact Or.inl
          · rintro (h | rfl)
            · exact h
            · exact (hc _).1 hm
        · rw [ht]; exact ho.trans (List.sublist_append_left _ _))
  rw [List.take_length] at hI
  exact ⟨l, hl, hI⟩

example : updateAttributes [3, 1, 3, 2, 1] = .ok [3, 1, 2] := by decide

theorem bdrAttrCheckGo_iff : ∀ (l tmp : List Int), tmp.Nodup →
    (bdrAttrCheckGo tmp l = true ↔ (tmp ++ l).Nodup)
  | [], tmp, h => by simp [bdrAttrCheckGo, h]
  | a :: l, tmp, h => by
    unfold bdrAttrCheckGo
    by_cases hf : arrFind tmp a < 0
    · rw [if_pos hf]
      have hm := arrFind_neg.1 hf
      have : (tmp ++ [a]).Nodup := by
        rw [List.nodup_append]
        exact ⟨h, by simp, by
          intro x hx y hy hxy
          simp only [List.mem_singleton] at hy
          exact hm (hy ▸ hxy ▸ hx)⟩
      rw [bdrAttrCheckGo_iff l _ this, List.append_assoc]; rfl
    · rw [if_neg hf]
      have hm : a ∈ tmp := by by_contra h'; exact hf (arrFind_neg.2 h')
      simp only [Bool.false_eq_true, false_iff]
      intro hn
      rw [List.nodup_append] at hn
      exact hn.2.2 a hm a (by simp) rfl

/-- C28: the duplicate check of component meshes answers `true` exactly when the boundary attribute
list has no duplicate. -/
theorem bdrAttrCheck_iff (l : List Int) : bdrAttrCheck l = true ↔ l.Nodup := by
  simpa [bdrAttrCheck] using bdrAttrCheckGo_iff l [] List.nodup_nil

/-- C28: a list produced by `UpdateBdrAttributes` always passes the duplicate check. -/
theorem updated_passes_check (elemAttr l : List Int) (h : updateAttributes elemAttr = .ok l) :
    bdrAttrCheck l = true := by
  obtain ⟨l', h1, h2⟩ := updateAttributes_spec elemAttr
  rw [h] at h1; cases h1
  exact (bdrAttrCheck_iff l).2 h2.nodup

example : bdrAttrCheck [1, 2, 1] = false ∧ bdrAttrCheck [1, 2, 5] = true := by decide

/-- C29: in two dimensions the inverse transformation undoes the transformation. -/
theorem inverse_transform2D (c : MeshConfig) (a b : ℝ) :
    (transform2D c [a, b] >>= inverseTransform2D c) = .ok [a, b] := by
  unfold transform2D inverseTransform2D
  simp only [rd, List.length_cons, List.length_nil, require, beq_self_eq_true, if_true, ok_bind,
    List.getElem?_cons_zero, List.getElem?_cons_succ, Real.sin_neg, Real.cos_neg]
  have h := Real.sin_sq_add_cos_sq (c.rotate 0)
  congr 2
  · linear_combination a * h
  · congr 1
    linear_combination b * h

/-- C29: in two dimensions the transformation undoes the inverse transformation. -/
theorem transform_inverse2D (c : MeshConfig) (a b : ℝ) :
    (inverseTransform2D c [a, b] >>= transform2D c) = .ok [a, b] := by
  unfold transform2D inverseTransform2D
  simp only [rd, List.length_cons, List.length_nil, require, beq_self_eq_true, if_true, ok_bind,
    List.getElem?_cons_zero, List.getElem?_cons_succ, Real.sin_neg, Real.cos_neg]
  have h := Real.sin_sq_add_cos_sq (c.rotate 0)
  congr 2
  · linear_combination (a - c.trans 0) * h
  · congr 1
    linear_combination (b - c.trans 1) * h

/-- C29: the two-dimensional transformation is a rigid motion: it keeps distances. -/
theorem transform2D_isometry (c : MeshConfig) (p q : ℝ × ℝ) :
    ∃ p' q' : ℝ × ℝ, transform2D c [p.1, p.2] = .ok [p'.1, p'.2] ∧
      transform2D c [q.1, q.2] = .ok [q'.1, q'.2] ∧ Spec.dist2 p' q' = Spec.dist2 p q := by
  refine ⟨(Real.cos (c.rotate 0) * p.1 - Real.sin (c.rotate 0) * p.2 + c.trans 0,
    Real.sin (c.rotate 0) * p.1 + Real.cos (c.rotate 0) * p.2 + c.trans 1),
    (Real.cos (c.rotate 0) * q.1 - Real.sin (c.rotate 0) * q.2 + c.trans 0,
    Real.sin (c.rotate 0) * q.1 + Real.cos (c.rotate 0) * q.2 + c.trans 1), rfl, rfl, ?_⟩
  have h := Real.sin_sq_add_cos_sq (c.rotate 0)
  unfold Spec.dist2
  linear_combination ((p.1 - q.1) ^ 2 + (p.2 - q.2) ^ 2) * h

/-- C29: a quarter turn without translation sends `(1, 0)` to `(0, 1)`: rotation is
counter-clockwise. -/
theorem transform2D_quarter_turn :
    transform2D ⟨fun _ => 0, fun _ => Real.pi / 2⟩ [1, 0] = .ok [0, 1] := by
  unfold transform2D
  simp [rd, require]

/-- C29: with angle zero the transformation is the translation. -/
theorem transform2D_translation (t : Nat → ℝ) (a b : ℝ) :
    transform2D ⟨t, fun _ => 0⟩ [a, b] = .ok [a + t 0, b + t 1] := by
  unfold transform2D
  simp [rd, require]

theorem transform3D_eq (c : MeshConfig) (x y z : ℝ) :
    transform3D c [x, y, z] = .ok [x + c.trans 0, y + c.trans 1, z + c.trans 2] := by
  unfold transform3D
  simp [rd, wr, require, loop, loopFrom]

theorem inverseTransform3D_eq (c : MeshConfig) (x y z : ℝ) :
    inverseTransform3D c [x, y, z] = .ok [x - c.trans 0, y - c.trans 1, z - c.trans 2] := by
  unfold inverseTransform3D
  simp [rd, wr, require, loop, loopFrom]

/-- C29: in three dimensions the two transformations undo each other. -/
theorem inverse_transform3D (c : MeshConfig) (x y z : ℝ) :
    (transform3D c [x, y, z] >>= inverseTransform3D c) = .ok [x, y, z] ∧
    (inverseTransform3D c [x, y, z] >>= transform3D c) = .ok [x, y, z] := by
  simp [transform3D_eq, inverseTransform3D_eq]

/-- C29, limitation of the code: in three dimensions the rotation of a component is ignored, so
meshes configured with different rotations coincide. -/
theorem transform3D_ignores_rotation (t r r' : Nat → ℝ) (p : List ℝ) :
    transform3D ⟨t, r⟩ p = transform3D ⟨t, r'⟩ p := rfl

/-- C29: a point of the wrong dimension is rejected by every transformation. -/
theorem transform_wrong_size (c : MeshConfig) (p : List ℝ) :
    (p.length ≠ 2 → transform2D c p = .error .abort ∧ inverseTransform2D c p = .error .abort) ∧
    (p.length ≠ 3 → transform3D c p = .error .abort ∧ inverseTransform3D c p = .error .abort) := by
  constructor <;> intro h
  · have e : (p.length == 2) = false := by simp [h]
    simp [transform2D, inverseTransform2D, e]
  · have e : (p.length == 3) = false := by simp [h]
    simp [transform3D, inverseTransform3D, e]

/-- C29: a configuration row is split into translation and rotation. -/
theorem readConfig_spec (t0 t1 t2 r0 r1 r2 : ℝ) (rest : List ℝ) :
    ∃ c, readConfig (t0 :: t1 :: t2 :: r0 :: r1 :: r2 :: rest) = .ok c ∧
      c.trans 0 = t0 ∧ c.trans 1 = t1 ∧ c.trans 2 = t2 ∧
      c.rotate 0 = r0 ∧ c.rotate 1 = r1 ∧ c.rotate 2 = r2 :=
  ⟨_, rfl, rfl, rfl, rfl, rfl, rfl, rfl⟩

theorem rdI_of_lt {α : Type _} {b : List α} {i : Int} (h0 : 0 ≤ i) (h : i.toNat < b.length) :
    rdI b i = .ok b[i.toNat] := by
  rw [rdI, if_pos h0, rd_of_lt h]

theorem wrI_of_lt {α : Type _} {b : List α} {i : Int} {v : α} (h0 : 0 ≤ i)
    (h : i.toNat < b.length) : wrI b i v = .ok (b.set i.toNat v) := by
  rw [wrI, if_pos h0, wr_of_lt h]

/-- C30: for every list of valid component types, the bookkeeping succeeds; each component's count
is the number of its subdomains and each subdomain's local index is the number of earlier
subdomains of the same component. -/
theorem countComponents_spec (numComp : Nat) (meshTypes : List Int) (junk : Int)
    (hvalid : ∀ t ∈ meshTypes, 0 ≤ t ∧ t < numComp) :
    ∃ s, countComponents numComp meshTypes junk = .ok s ∧
      s.subComposition.length = numComp ∧ s.meshCompIdx.length = meshTypes.length ∧
      (∀ c : Nat, c < numComp → s.subComposition[c]? = some (meshTypes.count (c : Int) : Int)) ∧
      (∀ m c k, Spec.IsNth meshTypes m c k → s.meshCompIdx[m]? = some (k : Int)) := by
  unfold countComponents
  obtain ⟨s, hs, hI⟩ := loop_total (n := meshTypes.length)
    (body := fun m s => do
      let t ← rd meshTypes m
      let c ← rdI s.subComposition t
      let idx ← wr s.meshCompIdx m c
      let comp ← wrI s.subComposition t (c + 1)
      .ok (⟨comp, idx⟩ : Composition))
    (fun j s => s.subComposition.length = numComp ∧ s.meshCompIdx.length = meshTypes.length ∧
      (∀ c : Nat, c < numComp →
        s.subComposition[c]? = some ((meshTypes.take j).count (c : Int) : Int)) ∧
      (∀ m c k, m < j → Spec.IsNth meshTypes m c k → s.meshCompIdx[m]? = some (k : Int)))
    (s := ⟨List.replicate numComp 0, List.replicate meshTypes.length junk⟩)
    ⟨by simp, by simp, by intro c hc; simp [hc], by intro m c k h; omega⟩
    (by
      intro j s hj ⟨h1, h2, h3, h4⟩
      have hv := hvalid meshTypes[j] (List.getElem_mem hj)
      have htl : meshTypes[j].toNat < s.subComposition.length := by omega
      have hcnt := h3 meshTypes[j].toNat (by omega)
      have hcast : ((meshTypes[j].toNat : Nat) : Int) = meshTypes[j] := by omega
      rw [List.getElem?_eq_getElem htl, Option.some.injEq, hcast] at hcnt
      simp only [rd_of_lt hj, ok_bind, rdI_of_lt hv.1 htl, wr_of_lt (h2 ▸ hj),
        wrI_of_lt hv.1 htl]
      have ht : meshTypes.take (j + 1) = meshTypes.take j ++ [meshTypes[j]] := by
        rw [List.take_add_one, List.getElem?_eq_getElem hj]; rfl
      refine ⟨_, rfl, by simp [h1], by simp [h2], ?_, ?_⟩
      · intro c hc
        rw [ht, List.count_append, List.getElem?_set]
        by_cases hce : meshTypes[j].toNat = c
        · rw [if_pos hce, if_pos htl, hcnt]
          subst hce
          rw [hcast]; simp
        · have hne : meshTypes[j] ≠ (c : Int) := by omega
          rw [if_neg hce, h3 c hc]
          simp [hne]
      · intro m c k hm hn
        rw [List.getElem?_set]
        by_cases hmj : j = m
        · subst hmj
          rw [if_pos rfl, if_pos (h2 ▸ hj), hcnt]
          obtain ⟨e1, e2⟩ := hn
          rw [List.getElem?_eq_getElem hj, Option.some.injEq] at e1
          rw [e1, e2]
        · rw [if_neg hmj]
          exact h4 m c k (by omega) hn)
  refine ⟨s, hs, hI.1, hI.2.1, ?_, ?_⟩
  · intro c hc; simpa using hI.2.2.1 c hc
  · intro m c k hn
    refine hI.2.2.2 m c k ?_ hn
    have := hn.1
    exact (List.getElem?_eq_some_iff.1 this).1

example : countComponents 2 [1, 0, 1, 1] 77 = .ok ⟨[1, 3], [0, 0, 1, 2]⟩ := by decide

theorem count_take_lt {l : List Int} {c : Int} {a b : Nat} (hab : a < b) (ha : l[a]? = some c)
    : (l.take a).count c < (l.take b).count c := by
  have hal : a < l.length := (List.getElem?_eq_some_iff.1 ha).1
  have h1 : (l.take (a + 1)).count c = (l.take a).count c + 1 := by
    rw [List.take_add_one, ha, List.count_append]; simp
  have h2 : (l.take (a + 1)).count c ≤ (l.take b).count c := by
    have : l.take (a + 1) = (l.take b).take (a + 1) := by
      rw [List.take_take]; congr 1; omega
    rw [this]
    exact List.Sublist.count_le _ (List.take_sublist _ _)
  omega

/-- C30: the pair (component, local index) determines the subdomain. -/
theorem local_index_injective (numComp : Nat) (meshTypes : List Int) (junk : Int) (s : Composition)
    (hvalid : ∀ t ∈ meshTypes, 0 ≤ t ∧ t < numComp)
    (h : countComponents numComp meshTypes junk = .ok s) (m m' : Nat)
    (hm : m < meshTypes.length) (hm' : m' < meshTypes.length)
    (ht : meshTypes[m]? = meshTypes[m']?) (hi : s.meshCompIdx[m]? = s.meshCompIdx[m']?) :
    m = m' := by
  obtain ⟨s', h1, _, _, _, hn⟩ := countComponents_spec numComp meshTypes junk hvalid
  rw [h] at h1; cases h1
  have e1 := hn m meshTypes[m] _ ⟨List.getElem?_eq_getElem hm, rfl⟩
  have e2 := hn m' meshTypes[m'] _ ⟨List.getElem?_eq_getElem hm', rfl⟩
  rw [e1, e2, Option.some.injEq, Int.natCast_inj] at hi
  rw [List.getElem?_eq_getElem hm, List.getElem?_eq_getElem hm', Option.some.injEq] at ht
  rw [← ht] at hi
  rcases Nat.lt_trichotomy m m' with hlt | heq | hgt
  · have := count_take_lt (l := meshTypes) (c := meshTypes[m]) hlt (List.getElem?_eq_getElem hm)
    omega
  · exact heq
  · have := count_take_lt (l := meshTypes) (c := meshTypes[m]) hgt
      (by rw [List.getElem?_eq_getElem hm', ht])
    omega

theorem exists_nth (c : Int) : ∀ (l : List Int) (k : Nat), k < l.count c →
    ∃ m, Spec.IsNth l m c k
  | [], k, h => by simp at h
  | a :: l, k, h => by
    by_cases ha : a = c
    · subst ha
      cases k with
      | zero => exact ⟨0, by simp [Spec.IsNth]⟩
      | succ k =>
        rw [List.count_cons_self] at h
        obtain ⟨m, h1, h2⟩ := exists_nth a l k (by omega)
        refine ⟨m + 1, by simpa using h1, ?_⟩
        rw [List.take_succ_cons, List.count_cons_self, h2]
    · rw [List.count_cons_of_ne ha] at h
      obtain ⟨m, h1, h2⟩ := exists_nth c l k h
      refine ⟨m + 1, by simpa using h1, ?_⟩
      rw [List.take_succ_cons, List.count_cons_of_ne ha, h2]

/-- C30: the local indices used for a component are exactly `0 .. count-1`: every local index is
below the component's count, and every number below the count is the local index of one of the
component's subdomains. -/
theorem local_index_range (numComp : Nat) (meshTypes : List Int) (junk : Int) (s : Composition)
    (hvalid : ∀ t ∈ meshTypes, 0 ≤ t ∧ t < numComp)
    (h : countComponents numComp meshTypes junk = .ok s) (c : Nat) (hc : c < numComp) (k : Int) :
    (∃ m : Nat, meshTypes[m]? = some (c : Int) ∧ s.meshCompIdx[m]? = some k) ↔
      0 ≤ k ∧ ∃ n, s.subComposition[c]? = some n ∧ k < n := by
  obtain ⟨s', h1, _, _, hcount, hn⟩ := countComponents_spec numComp meshTypes junk hvalid
  rw [h] at h1; cases h1
  constructor
  · rintro ⟨m, hm, hk⟩
    have hml : m < meshTypes.length := (List.getElem?_eq_some_iff.1 hm).1
    have e := hn m c _ ⟨hm, rfl⟩
    rw [e, Option.some.injEq] at hk
    refine ⟨by omega, _, hcount c hc, ?_⟩
    have := count_take_lt (l := meshTypes) (c := (c : Int)) hml hm
    rw [List.take_length] at this
    omega
  · rintro ⟨h0, n, hcn, hk⟩
    rw [hcount c hc, Option.some.injEq] at hcn
    obtain ⟨m, hm⟩ := exists_nth (c : Int) meshTypes k.toNat (by omega)
    refine ⟨m, hm.1, ?_⟩
    rw [hn m c _ hm]; congr 1; omega

/-- C30: a component index outside the list of components is an out-of-bounds access. -/
theorem bad_component_ub (numComp : Nat) (t : Int) (rest : List Int) (junk : Int)
    (h : t < 0 ∨ (numComp : Int) ≤ t) :
    countComponents numComp (t :: rest) junk = .error .ub := by
  have : rdI (List.replicate numComp (0 : Int)) t = .error .ub := by
    unfold rdI rd
    by_cases h0 : 0 ≤ t
    · rw [if_pos h0, List.getElem?_eq_none (by simp; omega)]
    · rw [if_neg h0]
  simp [countComponents, loop, loopFrom, rd, this]

end Verif.Topology
