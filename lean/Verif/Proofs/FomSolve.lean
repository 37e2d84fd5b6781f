import Verif.Proofs.Mumps
import Verif.Spec.FomSolve
import Verif.Props.SteadyNS
import Verif.Props.Unsteady

/-!
# Lemmas for C95
-/

namespace Verif.FomSolve

open Verif Verif.LinAlg Verif.LinAlg.Spec Verif.FomSolve.Spec Verif.Mumps Finset
open Verif.InterfaceForm (MatArr)
open Verif.InterfaceForm.Spec (mget MatsOk)
open Verif.Blocks (BlockVector)
open Verif.Blocks.Spec (IsOffsets HasSizes)
open Verif.RomAssembly.Spec (saddle)
open Verif.Unsteady
open Verif.Unsteady.Spec (first vecOf Direct)
open Verif.SteadyNS (sum_blocks_eq two_offsets saddle_rows Sol)
open Verif.EqpRom (tab_take_sum tab_sum)

variable {R : Type}

section
variable [CommRing R]

/-- All blocks set: sizes, shapes and entries of the monolithic matrix. -/
theorem setBlocks_ok {n : Nat} {rz cz : Nat → Nat} {ro co : List Nat} (hr : IsOffsets ro (tab n rz))
    (hc : IsOffsets co (tab n cz)) {M : MatArr R} (hM : MatsOk M n rz cz) :
    ∃ b, setBlocks n ro co M = .ok b ∧ b.roffs = ro ∧ b.coffs = co ∧ Shapes b (tab n rz) (tab n cz) ∧
      (mono b).h = first rz n ∧ (mono b).w = first cz n ∧
      ∀ i j k l, i < n → j < n → k < rz i → l < cz j →
        (mono b).val (first rz i + k) (first cz j + l) = mget M i j k l := by
  have zr : ∀ i, i < n → (tab n rz)[i]? = some (rz i) := fun i hi => by rw [getElem?_tab, if_pos hi]
  have zc : ∀ i, i < n → (tab n cz)[i]? = some (cz i) := fun i hi => by rw [getElem?_tab, if_pos hi]
  let P : Nat → Nat → BlockMat R → Prop := fun i j b => ∃ s, M.at_ i j = some s ∧ b.blk i j = some (blkOf s)
  obtain ⟨b, e, h1, h2, h3, h4⟩ := loop_total (n := n)
    (body := fun i b => loop n (fun j b => do
      let s ← deref (M.at_ i j)
      setBlock b i j (blkOf s)) b)
    (fun a (b : BlockMat R) => b.roffs = ro ∧ b.coffs = co ∧ Shapes b (tab n rz) (tab n cz) ∧
      ∀ i j, i < a → j < n → P i j b)
    (s := ⟨ro, co, false, fun _ _ => none⟩)
    ⟨rfl, rfl, (fun i j m h => by cases h), fun i j hi => by omega⟩ (by
      rintro a b ha ⟨h1, h2, h3, h4⟩
      obtain ⟨b', e', g1, g2, g3, g4⟩ := loop_total (n := n)
        (body := fun j b => do
          let s ← deref (M.at_ a j)
          setBlock b a j (blkOf s))
        (fun c (b : BlockMat R) => b.roffs = ro ∧ b.coffs = co ∧ Shapes b (tab n rz) (tab n cz) ∧
          ∀ i j, i < a ∧ j < n ∨ i = a ∧ j < c → P i j b)
        (s := b) ⟨h1, h2, h3, fun i j hij => h4 i j (by omega) (by omega)⟩ (by
          rintro c b hc' ⟨h1, h2, h3, h4⟩
          obtain ⟨s, es, sh, sw⟩ := hM.2.2 a c ha hc'
          have zi : (tab n rz)[a]? = some (blkOf s).h := by rw [zr a ha, ← sh]; rfl
          have zj : (tab n cz)[c]? = some (blkOf s).w := by rw [zc c hc', ← sw]; rfl
          rw [es]
          show ∃ s', setBlock b a c (blkOf s) = _ ∧ _
          rw [setBlock_ok (by rw [h1]; exact hr) (by rw [h2]; exact hc) zi zj]
          refine ⟨_, rfl, h1, h2, h3.setBlock zi zj, fun i j hij => ?_⟩
          by_cases q : i = a ∧ j = c
          · obtain ⟨rfl, rfl⟩ := q
            exact ⟨s, es, if_pos ⟨rfl, rfl⟩⟩
          · obtain ⟨s', e1, e2⟩ := h4 i j (by omega)
            exact ⟨s', e1, by dsimp only; rw [if_neg q, e2]⟩)
      exact ⟨b', e', g1, g2, g3, fun i j hi hj => g4 i j (by omega)⟩)
  have hr' : IsOffsets b.roffs (tab n rz) := by rw [h1]; exact hr
  have hc' : IsOffsets b.coffs (tab n cz) := by rw [h2]; exact hc
  obtain ⟨d1, d2⟩ := mono_dims hr' hc'
  refine ⟨b, e, h1, h2, h3, by rw [d1, tab_sum]; rfl, by rw [d2, tab_sum]; rfl, fun i j k l hi hj hk hl => ?_⟩
  have := mono_entry hr' hc' h3 (zr i hi) (zc j hj) hk hl
  rw [tab_take_sum _ _ (by omega), tab_take_sum _ _ (by omega)] at this
  obtain ⟨s, e1, e2⟩ := h4 i j hi hj
  show (mono b).val ((∑ i ∈ range i, rz i) + k) ((∑ i ∈ range j, cz i) + l) = _
  rw [this]
  unfold bval mget
  rw [e1, e2]
  rfl

theorem apply_isMatrix {a : Blk R} {N : Nat} (h : a.h = N) (w : a.w = N) : IsMatrix (apply a) N a.val := by
  intro v hv
  refine ⟨_, blkAddMult_ok 1 (by rw [hv, w]) (by simp), by simp [h], fun t ht => ?_⟩
  rw [ve_tab (by omega), SteadyNS.ve_zero, zero_add, one_mul, w]

theorem addMult_isMatrix {b : BlockMat R} {z : List Nat} (hr : IsOffsets b.roffs z) (hc : IsOffsets b.coffs z)
    (hs : Shapes b z z) {N : Nat} (hN : z.sum = N) :
    IsMatrix (fun v => addMult b v (List.replicate N 0) 1) N (mono b).val := by
  subst hN
  intro v hv
  obtain ⟨y, e, l, h⟩ := addMult_ok hr hc hs 1 hv (y := List.replicate z.sum 0) (by simp)
  exact ⟨y, e, l, fun t _ => by rw [h, SteadyNS.ve_zero, zero_add, one_mul]⟩

/-- A row of the monolithic matrix, block by block. -/
theorem row_lhs {n : Nat} {w : Nat → Nat} {M : MatArr R} {A : Nat → Nat → R}
    (hA : ∀ i j k l, i < n → j < n → k < w i → l < w j → A (first w i + k) (first w j + l) = mget M i j k l)
    (x : Nat → R) {m k : Nat} (hm : m < n) (hk : k < w m) :
    ∑ c ∈ range (first w n), A (first w m + k) c * x c = lhs n w M x m k := by
  rw [sum_blocks_eq n w fun c => A (first w m + k) c * x c]
  exact sum_congr rfl fun m' hm' => sum_congr rfl fun l hl => by
    rw [hA m m' k l hm (mem_range.1 hm') hk (mem_range.1 hl)]

theorem symm_mono {n : Nat} {w : Nat → Nat} {M : MatArr R} (hs : Symmetric n w M) {A : Nat → Nat → R}
    (hA : ∀ i j k l, i < n → j < n → k < w i → l < w j → A (first w i + k) (first w j + l) = mget M i j k l) :
    ∀ r c, r < first w n → c < first w n → A r c = A c r := by
  intro r c hr hc
  obtain ⟨m, k, hm, hk, rfl⟩ := locate n w hr
  obtain ⟨m', l, hm', hl, rfl⟩ := locate n w hc
  rw [hA _ _ _ _ hm hm' hk hl, hA _ _ _ _ hm' hm hl hk, hs _ _ _ _ hm hm' hk hl]

end

end Verif.FomSolve
