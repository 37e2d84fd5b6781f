import Verif.Spec.GenConf
import Mathlib.Data.List.Perm.Subperm
import Mathlib.Tactic.Ring
import Mathlib.Tactic.Linarith

/-! # Lemmas about generated configurations -/

namespace Verif.GenConf

open Verif Verif.CompSetup Verif.GenConf.Spec

theorem replicate_tab {α : Type} (n : Nat) (v : α) : List.replicate n v = tab n (fun _ => v) := by
  unfold tab
  rw [List.map_const', List.length_range]

theorem mem_tab {α : Type} {n : Nat} {f : Nat → α} {v : α} : v ∈ tab n f ↔ ∃ k, k < n ∧ f k = v := by
  unfold tab
  simp

/-- Two nested loops that fill a part of a table. -/
theorem fill_grid {α : Type} {N I J o : Nat} {g : Nat → α} {f : Nat → Nat → α} {idx : Nat → Nat → Nat}
    (hidx : ∀ i j, idx i j = o + (j * I + i)) (hN : o + J * I ≤ N) :
    loop J (fun j t => loop I (fun i t => wr t (idx i j) (f i j)) t) (tab N g) =
      .ok (tab N (fun k => if o ≤ k ∧ k < o + J * I then f ((k - o) % I) ((k - o) / I) else g k)) := by
  rw [loop_spec (n := J) (fun j => tab N (fun k => if o ≤ k ∧ k < o + j * I then
    f ((k - o) % I) ((k - o) / I) else g k))]
  · refine tab_congr fun k _ => ?_
    rw [if_neg (by omega)]
  · intro j hj
    have hJ : j * I + I ≤ J * I := by
      have := Nat.mul_le_mul_right I (show j + 1 ≤ J from hj)
      rwa [Nat.succ_mul] at this
    rw [loop_spec (n := I) (fun i => tab N (fun k => if o ≤ k ∧ k < o + (j * I + i) then
      f ((k - o) % I) ((k - o) / I) else g k))]
    · congr 1
      refine tab_congr fun k _ => ?_
      rw [Nat.succ_mul]
    · congr 1
    · intro i hi
      rw [hidx, wr_tab (by omega)]
      congr 1
      refine tab_congr fun k _ => ?_
      by_cases hk : k = o + (j * I + i)
      · subst hk
        have e : o + (j * I + i) - o = j * I + i := by omega
        rw [Function.update_self, if_pos ⟨by omega, by omega⟩, e,
          Nat.mul_comm j I, Nat.mul_add_mod, Nat.mod_eq_of_lt hi, Nat.mul_add_div (by omega),
          Nat.div_eq_of_lt hi, Nat.add_zero]
      · rw [Function.update_of_ne hk]
        by_cases h2 : o ≤ k ∧ k < o + (j * I + i)
        · rw [if_pos h2, if_pos ⟨h2.1, by omega⟩]
        · rw [if_neg h2, if_neg (by omega)]

/-- A loop that appends. -/
theorem loop_append {α : Type} {n : Nat} {g : Nat → List α} {l : List α} :
    loop n (fun i l => (.ok (l ++ g i) : Outcome (List α))) l = .ok (l ++ (List.range n).flatMap g) := by
  rw [loop_spec (n := n) (fun i => l ++ (List.range i).flatMap g)]
  · simp
  · intro i _
    rw [List.range_succ, List.flatMap_append, List.append_assoc]
    simp

/-! ## Covering -/

theorem mem_allFaces {faces : Int → List Int} {types : List Int} {m a : Int} :
    (m, a) ∈ allFaces faces types ↔ ∃ (k : Nat) (c : Int), m = k ∧ types[k]? = some c ∧ a ∈ faces c := by
  unfold allFaces
  rw [List.mem_flatMap]
  constructor
  · rintro ⟨⟨c, k⟩, hc, hm⟩
    rw [List.mem_zipIdx_iff_getElem?] at hc
    rw [List.mem_map] at hm
    obtain ⟨b, hb, e⟩ := hm
    injection e with e1 e2
    exact ⟨k, c, e1.symm, hc, e2 ▸ hb⟩
  · rintro ⟨k, c, rfl, hc, ha⟩
    exact ⟨(c, k), List.mem_zipIdx_iff_getElem?.2 hc, List.mem_map.2 ⟨a, ha, rfl⟩⟩

theorem nodup_allFaces {faces : Int → List Int} (h : ∀ c, (faces c).Nodup) (types : List Int) :
    (allFaces faces types).Nodup := by
  unfold allFaces
  rw [List.nodup_flatMap]
  refine ⟨fun c _ => (h c.1).map fun a b e => by injection e, ?_⟩
  have hp : (types.zipIdx.map Prod.snd).Pairwise (· ≠ ·) := by
    rw [List.zipIdx_map_snd]
    exact List.nodup_range'
  rw [List.pairwise_map] at hp
  refine hp.imp fun {c d} hne => ?_
  rw [Function.onFun, List.disjoint_left]
  rintro ⟨m, a⟩ h1 h2
  rw [List.mem_map] at h1 h2
  obtain ⟨_, _, e1⟩ := h1
  obtain ⟨_, _, e2⟩ := h2
  injection e1 with e1
  injection e2 with e2
  omega

theorem length_allFaces (types : List Int) : (allFaces fourFaces types).length = 4 * types.length := by
  unfold allFaces
  rw [List.length_flatMap]
  have : (fun c : Int × Nat => ((fourFaces c.1).map fun a => ((c.2 : Int), a)).length) = fun _ => 4 := by
    funext c; rfl
  rw [this, List.map_const', List.sum_replicate, List.length_zipIdx, smul_eq_mul, Nat.mul_comm]

theorem length_mentioned {R : Type} (L : Layout R) :
    (mentioned L).length = L.bdr.length + 2 * L.ports.length := by
  unfold mentioned
  rw [List.length_append, List.length_map, List.length_flatMap]
  have : (fun r : PortRow => [(r.mesh1, r.attr1), (r.mesh2, r.attr2)].length) = fun _ => 2 := by
    funext c; rfl
  rw [this, List.map_const', List.sum_replicate, smul_eq_mul, Nat.mul_comm]

theorem mem_mentioned {R : Type} {L : Layout R} {m a : Int} : (m, a) ∈ mentioned L ↔
    (∃ r ∈ L.bdr, r.mesh = m ∧ r.cattr = a) ∨
    ∃ r ∈ L.ports, (r.mesh1 = m ∧ r.attr1 = a) ∨ (r.mesh2 = m ∧ r.attr2 = a) := by
  unfold mentioned
  simp only [List.mem_append, List.mem_map, List.mem_flatMap, List.mem_cons, List.not_mem_nil, or_false,
    Prod.mk.injEq]
  constructor
  · rintro (⟨r, hr, h1, h2⟩ | ⟨r, hr, h | h⟩)
    · exact .inl ⟨r, hr, h1, h2⟩
    · exact .inr ⟨r, hr, .inl ⟨h.1.symm, h.2.symm⟩⟩
    · exact .inr ⟨r, hr, .inr ⟨h.1.symm, h.2.symm⟩⟩
  · rintro (⟨r, hr, h1, h2⟩ | ⟨r, hr, h | h⟩)
    · exact .inl ⟨r, hr, h1, h2⟩
    · exact .inr ⟨r, hr, .inl ⟨h.1.symm, h.2.symm⟩⟩
    · exact .inr ⟨r, hr, .inr ⟨h.1.symm, h.2.symm⟩⟩

/-- Counting suffices: if every face is mentioned and there are as many mentions as faces. -/
theorem covers_of {R : Type} {L : Layout R}
    (hlen : L.bdr.length + 2 * L.ports.length = 4 * L.types.length)
    (hsub : ∀ (k : Nat) (a : Int), k < L.types.length → a ∈ [(1 : Int), 2, 3, 4] →
      (∃ r ∈ L.bdr, r.mesh = k ∧ r.cattr = a) ∨
      ∃ r ∈ L.ports, (r.mesh1 = k ∧ r.attr1 = a) ∨ (r.mesh2 = k ∧ r.attr2 = a)) :
    Covers fourFaces L := by
  have hnd : (allFaces fourFaces L.types).Nodup := nodup_allFaces (fun _ => by unfold fourFaces; decide) _
  have hs : allFaces fourFaces L.types ⊆ mentioned L := by
    rintro ⟨m, a⟩ h
    obtain ⟨k, c, rfl, hc, ha⟩ := mem_allFaces.1 h
    exact mem_mentioned.2 (hsub k a (List.getElem?_eq_some_iff.1 hc).1 ha)
  refine ((List.subperm_of_subset hnd hs).perm_of_length_le ?_).symm
  rw [length_mentioned, length_allFaces, hlen]

end Verif.GenConf
