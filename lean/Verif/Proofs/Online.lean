import Verif.Spec.Online
import Verif.Proofs.UnsteadyRom
import Verif.Proofs.EqpRom
import Verif.Props.RomHandler
import Verif.Props.RomAssembly
import Mathlib.LinearAlgebra.FiniteDimensional.Basic
import Mathlib.LinearAlgebra.Matrix.ToLin
import Mathlib.LinearAlgebra.Dimension.StrongRankCondition

/-! # Lemmas on the online phase -/

namespace Verif.Online

open Verif Verif.LinAlg Verif.LinAlg.Spec Verif.Online.Spec Finset
open Verif.RomAssembly
open Verif.RomAssembly.Spec (galerkin)
open Verif.Blocks (BlockVector)
open Verif.Blocks.Spec (IsOffsets HasSizes)
open Verif.RomHandler (Handler bent_eq bent_ext romBlock_lt romBlock_inj romBlock_surj numBlocks_eq fomBlock_surj)
open Verif.RomHandler.Spec
open Verif.Unsteady (mono Shapes mono_entry mono_dims)
open Verif.Unsteady.Spec (first)
open Verif.EqpRom (tab_take_sum)

variable {R F : Type} [CommRing R]

theorem sum_firsts (n : Nat) (w : Nat → Nat) (f : Nat → R) :
    ∑ q ∈ range (first w n), f q = ∑ i ∈ range n, ∑ j ∈ range (w i), f (first w i + j) := by
  induction n with
  | zero => rfl
  | succ n ih => rw [Unsteady.first_succ, sum_range_add, ih, sum_range_succ]

theorem sum_blocks (z : List Nat) (f : Nat → R) :
    ∑ c ∈ range z.sum, f c = ∑ i ∈ range z.length, ∑ k ∈ range (z[i]?.getD 0), f ((z.take i).sum + k) := by
  have hz : z = tab z.length fun i => z[i]?.getD 0 := by
    apply List.ext_getElem?
    intro i
    rw [getElem?_tab]
    by_cases h : i < z.length
    · rw [if_pos h, List.getElem?_eq_getElem h]; rfl
    · rw [if_neg h, List.getElem?_eq_none (by omega)]
  have h1 : z.sum = first (fun i => z[i]?.getD 0) z.length := by
    have := tab_take_sum z.length (fun i => z[i]?.getD 0) le_rfl
    rw [← hz, List.take_length] at this
    exact this
  rw [h1, sum_firsts]
  refine sum_congr rfl fun i hi => sum_congr rfl fun k _ => ?_
  have := tab_take_sum z.length (fun i => z[i]?.getD 0) (mem_range.1 hi).le
  rw [← hz] at this
  rw [this]; rfl

theorem sum_romBlock (h : Handler R) (g : Nat → R) :
    ∑ i ∈ range h.numBlocks, g i = ∑ m ∈ range h.numSub, ∑ v ∈ range (vars h), g (romBlock h m v) := by
  rw [← sum_product']
  symm
  refine sum_bij (fun a _ => romBlock h a.1 a.2) ?_ ?_ ?_ ?_
  · intro a ha
    rw [mem_product, mem_range, mem_range] at ha
    exact mem_range.2 (romBlock_lt h ha.1 ha.2)
  · intro a ha b hb e
    rw [mem_product, mem_range, mem_range] at ha hb
    obtain ⟨x, y⟩ := romBlock_inj h ha.1 hb.1 ha.2 hb.2 e
    exact Prod.ext x y
  · intro i hi
    obtain ⟨m, v, hm, hv, e⟩ := romBlock_surj h (mem_range.1 hi)
    exact ⟨(m, v), by rw [mem_product, mem_range, mem_range]; exact ⟨hm, hv⟩, e⟩
  · intro a _; rfl

/-- Position of coordinate `p` of variable `v` of subdomain `m` in a reduced vector. -/
def pos (h : Handler R) (zr : List Nat) (m v p : Nat) : Nat := (zr.take (romBlock h m v)).sum + p

theorem bound_of_get {z : List Nat} {i s k : Nat} (h : z[i]? = some s) (hk : k < s) :
    (z.take i).sum + k < z.sum := by
  have h1 : (z.take (i + 1)).sum ≤ z.sum := by
    conv_rhs => rw [← List.take_append_drop (i + 1) z]
    rw [List.sum_append]; omega
  have : (z.take (i + 1)).sum = (z.take i).sum + s := by
    rw [List.take_add_one, h, List.sum_append]; simp
  omega

omit [CommRing R] in
theorem pos_lt {h : Handler R} {zr zf : List Nat} (hr : Ready h zr zf) {m v p : Nat} (hm : m < h.numSub)
    (hv : v < vars h) (hp : p < (V h m v).w) : pos h zr m v p < zr.sum :=
  bound_of_get (hr.szR m v hm hv) hp

theorem pos_surj {h : Handler R} {zr zf : List Nat} (hr : Ready h zr zf) {r : Nat} (h0 : r < zr.sum) :
    ∃ m v p, m < h.numSub ∧ v < vars h ∧ p < (V h m v).w ∧ r = pos h zr m v p := by
  have key : ∀ z : List Nat, ∀ r < z.sum, ∃ i s k, z[i]? = some s ∧ k < s ∧ r = (z.take i).sum + k := by
    intro z
    induction z with
    | nil => intro r h; simp at h
    | cons a z ih =>
      intro r h
      by_cases hr : r < a
      · exact ⟨0, a, r, rfl, hr, by simp⟩
      · rw [List.sum_cons] at h
        obtain ⟨i, s, k, h1, h2, h3⟩ := ih (r - a) (by omega)
        refine ⟨i + 1, s, k, by simpa using h1, h2, ?_⟩
        rw [List.take_succ_cons, List.sum_cons]; omega
  obtain ⟨i, s, k, h1, h2, h3⟩ := key zr r h0
  have hi : i < h.numBlocks := by
    rw [numBlocks_eq, ← hr.lenR]; exact (List.getElem?_eq_some_iff.1 h1).1
  obtain ⟨m, v, hm, hv, rfl⟩ := romBlock_surj h hi
  rw [hr.szR m v hm hv] at h1
  cases h1
  exact ⟨m, v, k, hm, hv, h2, h3⟩

theorem sum_pos {h : Handler R} {zr zf : List Nat} (hr : Ready h zr zf) (f : Nat → R) :
    ∑ c ∈ range zr.sum, f c =
      ∑ m ∈ range h.numSub, ∑ v ∈ range (vars h), ∑ p ∈ range (V h m v).w, f (pos h zr m v p) := by
  rw [sum_blocks, hr.lenR, ← numBlocks_eq, sum_romBlock]
  refine sum_congr rfl fun m hm => sum_congr rfl fun v hv => ?_
  rw [hr.szR m v (mem_range.1 hm) (mem_range.1 hv)]
  rfl

theorem bent_pos {h : Handler R} {zr zf : List Nat} (hr : Ready h zr zf) {x : BlockVector R}
    (hx : HasSizes x zr) {m v p : Nat} (hm : m < h.numSub) (hv : v < vars h) (hp : p < (V h m v).w) :
    bent x (romBlock h m v) p = ve x.data (pos h zr m v p) :=
  bent_eq hx (hr.szR m v hm hv) hp

/-- The reduced operator is the Galerkin projection of `A`. -/
structure Projects (h : Handler R) (zr : List Nat) (A : Nat → Nat → Nat → Nat → Nat → Nat → R)
    (rom : BlockMat R) : Prop where
  roffs : rom.roffs = h.romOffs
  coffs : rom.coffs = h.romOffs
  shapes : Shapes rom zr zr
  val : ∀ m m' v w p q, m < h.numSub → m' < h.numSub → v < vars h → w < vars h →
    p < (V h m v).w → q < (V h m' w).w → bval rom (romBlock h m v) (romBlock h m' w) p q =
      galerkin (V h m v) (V h m' w) (A m m' v w) p q

theorem mono_projects {h : Handler R} {zr zf : List Nat} (hr : Ready h zr zf)
    {A : Nat → Nat → Nat → Nat → Nat → Nat → R} {rom : BlockMat R} (hp : Projects h zr A rom)
    {m m' v w p q : Nat} (hm : m < h.numSub) (hm' : m' < h.numSub) (hv : v < vars h) (hw : w < vars h)
    (hpp : p < (V h m v).w) (hq : q < (V h m' w).w) :
    (mono rom).val (pos h zr m v p) (pos h zr m' w q) = galerkin (V h m v) (V h m' w) (A m m' v w) p q := by
  rw [← hp.val m m' v w p q hm hm' hv hw hpp hq]
  exact mono_entry (by rw [hp.roffs]; exact hr.offs) (by rw [hp.coffs]; exact hr.offs) hp.shapes
    (hr.szR m v hm hv) (hr.szR m' w hm' hw) hpp hq

/-- `Vᵀ A u` for `u = V c`. -/
theorem apply_combines {h : Handler R} (A : Nat → Nat → Nat → Nat → Nat → Nat → R)
    {c : Nat → Nat → Nat → R} {u : BlockVector R} (hc : Combines h c u) (m v p : Nat) :
    ∑ k ∈ range (V h m v).h, ent (V h m v) k p * apply h A u m v k =
      ∑ m' ∈ range h.numSub, ∑ w ∈ range (vars h), ∑ q ∈ range (V h m' w).w,
        galerkin (V h m v) (V h m' w) (A m m' v w) p q * c m' w q := by
  unfold apply galerkin
  simp only [mul_sum]
  rw [sum_comm]
  refine sum_congr rfl fun m' hm' => ?_
  rw [sum_comm]
  refine sum_congr rfl fun w hw => ?_
  rw [sum_congr rfl fun k _ => sum_congr rfl fun l hl => by
    rw [hc m' w l (mem_range.1 hm') (mem_range.1 hw) (mem_range.1 hl)]]
  simp only [mul_sum, sum_mul]
  rw [sum_comm (s := range (V h m' w).w)]
  refine sum_congr rfl fun k _ => ?_
  rw [sum_comm]
  exact sum_congr rfl fun q _ => sum_congr rfl fun l _ => by ring

theorem orthogonal_iff {h : Handler R} (A : Nat → Nat → Nat → Nat → Nat → Nat → R)
    {c : Nat → Nat → Nat → R} {b u : BlockVector R} (hc : Combines h c u) :
    Orthogonal h A b u ↔ ∀ m v p, m < h.numSub → v < vars h → p < (V h m v).w →
      ∑ m' ∈ range h.numSub, ∑ w ∈ range (vars h), ∑ q ∈ range (V h m' w).w,
        galerkin (V h m v) (V h m' w) (A m m' v w) p q * c m' w q =
      ∑ k ∈ range (V h m v).h, ent (V h m v) k p * bent b (fomBlock h m v) k := by
  unfold Orthogonal
  refine forall_congr' fun m => forall_congr' fun v => forall_congr' fun p => forall_congr' fun _ =>
    forall_congr' fun _ => forall_congr' fun _ => ?_
  rw [← apply_combines A hc]
  simp only [mul_sub, sum_sub_distrib]
  rw [sub_eq_zero, eq_comm]

/-- Over a field a square system with trivial kernel has a solution. -/
theorem solvable {K : Type} [Field K] (n : Nat) (A : Nat → Nat → K) (b : Nat → K)
    (hinj : ∀ x : Nat → K, (∀ r, r < n → ∑ c ∈ range n, A r c * x c = 0) → ∀ r, r < n → x r = 0) :
    ∃ x : Nat → K, ∀ r, r < n → ∑ c ∈ range n, A r c * x c = b r := by
  let M : Matrix (Fin n) (Fin n) K := fun i j => A i j
  have hs : ∀ (x : Nat → K) (i : Fin n), M.mulVec (fun j => x j) i = ∑ c ∈ range n, A i c * x c := by
    intro x i
    show ∑ j : Fin n, A i j * x j = _
    exact Fin.sum_univ_eq_sum_range (fun c => A i c * x c) n
  have h1 : Function.Injective M.mulVecLin := by
    rw [← LinearMap.ker_eq_bot, LinearMap.ker_eq_bot']
    intro x hx
    let y : Nat → K := fun r => if h : r < n then x ⟨r, h⟩ else 0
    have hy : (fun j : Fin n => y j) = x := by funext j; simp [y]
    have := hinj y (fun r hr => by
      rw [← hs y ⟨r, hr⟩, hy]
      exact congrFun hx ⟨r, hr⟩)
    funext j
    rw [← hy]; exact this j j.2
  have h2 : Function.Surjective M.mulVecLin := LinearMap.injective_iff_surjective.1 h1
  obtain ⟨x, hx⟩ := h2 (fun i => b i)
  let y : Nat → K := fun r => if h : r < n then x ⟨r, h⟩ else 0
  have hy : (fun j : Fin n => y j) = x := by funext j; simp [y]
  refine ⟨y, fun r hr => ?_⟩
  rw [← hs y ⟨r, hr⟩, hy]
  exact congrFun hx ⟨r, hr⟩

/-! ## Shapes of the assembled operator -/

theorem assembleROM_shapes {h : Handler R} {zr : List Nat} (ho : IsOffsets h.romOffs zr)
    {bc : Boundary.BC F} {c2g : List (List Int)} {ports : List CompSetup.PortRow} {el : RomElems R}
    {rom : BlockMat R} (e : assembleROM h bc c2g ports el = .ok rom) :
    Shapes rom zr zr ∧ IsOffsets rom.roffs zr ∧ IsOffsets rom.coffs zr := by
  let Inv : Nat → BlockMat R → Prop := fun _ u =>
    EqpRom.BShapes u zr ∧ IsOffsets u.roffs zr ∧ IsOffsets u.coffs zr
  have step : ∀ {idx : List Int} {x : MatBlocks R} {u v : BlockMat R} {i j : Nat}, Inv i u →
      addToBlockMatrix idx idx x u = .ok v → Inv j v := by
    rintro idx x u v i j ⟨h1, h2, h3⟩ e
    have hoff := e
    refine ⟨EqpRom.addToBlockMatrix_shapes e h2 h3 h1, ?_⟩
    unfold addToBlockMatrix at hoff
    iterate 9 obtain ⟨_, _, hoff⟩ := bind_eq_ok.1 hoff
    refine (loop_inv (fun _ u => EqpRom.BShapes u zr ∧ IsOffsets u.roffs zr ∧ IsOffsets u.coffs zr)
      ⟨h1, h2, h3⟩ ?_ hoff).2
    intro i u u' _ hu e
    refine loop_inv (fun _ u => EqpRom.BShapes u zr ∧ IsOffsets u.roffs zr ∧ IsOffsets u.coffs zr) hu ?_ e
    rintro j v v' _ ⟨h1, h2, h3⟩ e
    obtain ⟨g1, g2, g3⟩ := EqpRom.addToBlockStep_shapes e h2 h3 h1
    exact ⟨g1, by rw [g2]; exact h2, by rw [g3]; exact h3⟩
  unfold assembleROM at e
  obtain ⟨u, e1, e2⟩ := bind_eq_ok.1 e
  have hu : Inv 0 u := loop_inv Inv (by
      refine ⟨?_, ho, ho⟩
      intro i j m hm; cases hm) (by
    intro j u v _ hu e
    unfold addSubdomain at e
    obtain ⟨c, _, e⟩ := bind_eq_ok.1 e
    obtain ⟨idx, _, e⟩ := bind_eq_ok.1 e
    obtain ⟨a, _, e⟩ := bind_eq_ok.1 e
    obtain ⟨u1, e1, e⟩ := bind_eq_ok.1 e
    obtain ⟨row, _, e⟩ := bind_eq_ok.1 e
    obtain ⟨act, _, e⟩ := bind_eq_ok.1 e
    refine loop_inv Inv (step (i := 0) (j := 0) hu e1) ?_ e
    intro k u v _ hu e
    obtain ⟨b, _, e⟩ := bind_eq_ok.1 e
    obtain ⟨bs, _, e⟩ := bind_eq_ok.1 e
    obtain ⟨x, _, e⟩ := bind_eq_ok.1 e
    exact step (i := 0) (j := 0) hu e) e1
  refine (loop_inv Inv hu ?_ e2 : Inv _ _)
  intro j u v _ hu e
  unfold addPort at e
  obtain ⟨_, _, e⟩ := bind_eq_ok.1 e
  obtain ⟨_, _, e⟩ := bind_eq_ok.1 e
  obtain ⟨_, _, e⟩ := bind_eq_ok.1 e
  obtain ⟨_, _, e⟩ := bind_eq_ok.1 e
  exact step (i := 0) (j := 0) hu e

theorem sparseRtAP_dims {r p : Mat R} {a : Op R} {s : Sp R} (e : sparseRtAP r a p = .ok s) :
    s.h = r.w ∧ s.w = p.w := by
  unfold sparseRtAP at e
  obtain ⟨_, _, e⟩ := bind_eq_ok.1 e
  obtain ⟨_, _, e⟩ := bind_eq_ok.1 e
  refine loop_inv (fun _ s => s.h = r.w ∧ s.w = p.w) ⟨rfl, rfl⟩ ?_ e
  intro i u v _ hu e
  refine loop_inv (fun _ s => s.h = r.w ∧ s.w = p.w) hu ?_ e
  intro j u v _ hu e
  obtain ⟨_, _, e⟩ := bind_eq_ok.1 e
  obtain ⟨_, _, e⟩ := bind_eq_ok.1 e
  obtain ⟨_, _, e⟩ := bind_eq_ok.1 e
  unfold Sp.set at e
  split at e <;> cases e
  exact hu

theorem projectFom_shapes {h : Handler R} {zr zf : List Nat} (hr : Ready h zr zf)
    {L : Nat → Nat → Outcome (Local R)} {rom : BlockMat R} (e : projectFom h L = .ok rom) :
    Shapes rom zr zr ∧ rom.roffs = h.romOffs ∧ rom.coffs = h.romOffs := by
  unfold projectFom at e
  obtain ⟨tmp, _, e⟩ := bind_eq_ok.1 e
  unfold projectArray at e
  let Inv : Nat → BlockMat R → Prop := fun _ u =>
    Shapes u zr zr ∧ u.roffs = h.romOffs ∧ u.coffs = h.romOffs
  refine (loop_inv Inv ⟨fun i j m hm => (by cases hm), rfl, rfl⟩ ?_ e : Inv _ _)
  intro a u v ha hu e
  refine (loop_inv Inv hu ?_ e : Inv _ _)
  rintro b u v hb ⟨h1, h2, h3⟩ e
  obtain ⟨s, es, e⟩ := bind_eq_ok.1 e
  cases e
  refine ⟨?_, h2, h3⟩
  obtain ⟨m, x, hm, hx, rfl⟩ := romBlock_surj h ha
  obtain ⟨m', x', hm', hx', rfl⟩ := romBlock_surj h hb
  unfold Handler.projectDomainMat at es
  obtain ⟨_, _, es⟩ := bind_eq_ok.1 es
  obtain ⟨_, _, es⟩ := bind_eq_ok.1 es
  obtain ⟨_, _, es⟩ := bind_eq_ok.1 es
  rw [Int.toNat_natCast, Int.toNat_natCast, RomHandler.domainBasis_eq hr hm hx, ok_bind,
    RomHandler.domainBasis_eq hr hm' hx', ok_bind] at es
  have hd : s.h = (V h m x).w ∧ s.w = (V h m' x').w := by
    unfold RomHandler.projectMatOr at es
    split at es
    · unfold RomHandler.projectMat at es
      obtain ⟨_, _, es⟩ := bind_eq_ok.1 es
      obtain ⟨_, _, es⟩ := bind_eq_ok.1 es
      exact sparseRtAP_dims es
    · cases es; exact ⟨rfl, rfl⟩
  intro i j mm hmm
  dsimp only at hmm
  split at hmm
  · rename_i hij
    cases hmm
    rw [hij.1, hij.2]
    dsimp only
    rw [hd.1, hd.2]
    exact ⟨hr.szR m x hm hx, hr.szR m' x' hm' hx'⟩
  · exact h1 i j mm hmm

end Verif.Online
