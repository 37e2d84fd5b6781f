import Verif.Spec.TrainItf
import Verif.Props.Training
import Verif.Proofs.EqpItf

/-! # Lemmas on training of interface forms -/

namespace Verif.TrainItf

open Verif Verif.LinAlg Verif.LinAlg.Spec Verif.TrainItf.Spec Finset
open Verif.Ports (InterfaceInfo)
open Verif.InterfaceForm (Tr FMesh Space Port transformations sideTr_eq rd_dofs)
open Verif.InterfaceForm.Spec (dofsOf trOf Sides)
open Verif.Convection.Spec (project)
open Verif.Eqp (Sample)
open Verif.Eqp.Spec (restrict)
open Verif.EqpItf (Integ Form)
open Verif.EqpItf.Spec
open Verif.Training (put weights transposeMult trainIntegrator Step loop_step put_step getSub_rows
  get_snap divmod_add weights_eq SysOk RankOk)

variable {P R δ : Type}

section
variable [CommRing R]

theorem basis_col {b : Mat R} (hb : MatOk b) {n j o : Nat} (hn : o + n ≤ b.h) (hj : j < b.w) :
    getSeg b.data (j * b.h + o) n = .ok (tab n (fun k => ent b (o + k) j)) := by
  unfold MatOk at hb
  rw [getSeg_eq]
  · congr 1
    refine tab_congr fun k _ => ?_
    unfold ent
    rw [show o + k + j * b.h = j * b.h + o + k by ring]
  · calc j * b.h + o + n ≤ j * b.h + b.h := by omega
      _ = b.h * (j + 1) := by ring
      _ ≤ b.h * b.w := Nat.mul_le_mul_left _ hj
      _ ≤ _ := hb

theorem rowAt_shift {dofs : List Int} {n : Nat} (h : RowsOk dofs n) {o : Int} (ho : 0 ≤ o) {k : Nat}
    (hk : k < dofs.length) : rowAt (dofs.map (fun v => v + o)) k = o.toNat + rowAt dofs k := by
  unfold rowAt
  have := (h.2 _ (List.getElem_mem hk)).1
  rw [List.getElem?_map, List.getElem?_eq_getElem hk]
  simp only [Option.map_some, Option.getD_some]
  omega

/-- The tests of one side of one interface: all points, all basis vectors. -/
theorem fillSide_step {b : Mat R} (hb : MatOk b) {o : Int} (ho : 0 ≤ o) {n : Nat} (hn : o + n ≤ b.h)
    {dofs : List Int} (hd : RowsOk dofs n) {V : Nat → List R} {nq eidx col : Nat}
    {T : Nat → Nat → R} {m : CMat R} (hm : CMatOk m)
    (hrow : eidx * nq + nq ≤ m.rows) (hcol : col + b.w ≤ m.cols)
    (hT : ∀ q j, q < nq → j < b.w → T (eidx * nq + q) (col + j) =
      project b (dofs.map (fun v => v + o)) (V q) j) :
    ∃ m', fillSide b o n nq eidx col dofs (tab nq V) m = .ok m' ∧ CMatOk m' ∧
      Step T (fun r c => (∃ q < nq, r = eidx * nq + q) ∧ ∃ j < b.w, c = col + j) m m' := by
  unfold fillSide
  obtain ⟨m', e1, h1, h2⟩ := loop_step (T := T) (n := b.w) (m := m) (body := fun j gt => do
      let vj ← basisColumn b o j n
      let eltr ← getSubVector vj dofs
      loop nq (fun m gt => do
        let q ← rd (tab nq V) m
        put gt (m + eidx * nq) (j + col)
          (∑ k ∈ Finset.range dofs.length, q[k]?.getD 0 * eltr[k]?.getD 0)) gt)
    (Reg := fun j r c => ∃ q < nq, r = q + eidx * nq ∧ c = j + col) hm (by
      intro j hj a ha ar ac
      rw [show basisColumn b o j n = .ok (tab n (fun k => ent b (o.toNat + k) j)) by
        unfold basisColumn; rw [if_neg (by omega), basis_col hb (by omega) hj], ok_bind, getSub_rows hd, ok_bind]
      refine loop_step ha fun q hq a' ha' ar' ac' => ?_
      have hv : ∑ k ∈ Finset.range dofs.length, (V q)[k]?.getD 0 *
          (restrict (fun k => ent b (o.toNat + k) j) dofs)[k]?.getD 0 = T (q + eidx * nq) (j + col) := by
        rw [Nat.add_comm q, Nat.add_comm j, hT q j hq hj]
        unfold project
        rw [List.length_map]
        refine sum_congr rfl fun k hk => ?_
        rw [rowAt_shift hd ho (mem_range.1 hk), mul_comm]
        congr 1
        exact ve_tab (f := fun k => ent b (o.toNat + rowAt dofs k) j) (mem_range.1 hk)
      rw [rd_tab hq, ok_bind, hv]
      exact put_step ha' (by rw [ar', ar]; omega) (by rw [ac', ac]; omega))
  refine ⟨m', e1, h1, h2.mono fun r c _ _ => ?_⟩
  constructor
  · rintro ⟨j, hj, q, hq, rfl, rfl⟩
    exact ⟨⟨q, hq, Nat.add_comm ..⟩, j, hj, Nat.add_comm ..⟩
  · rintro ⟨⟨q, hq, rfl⟩, j, hj, rfl⟩
    exact ⟨j, hj, q, hq, Nat.add_comm .., Nat.add_comm ..⟩

/-- Two steps towards the same target. -/
theorem Step.trans {T : Nat → Nat → R} {A B : Nat → Nat → Prop} {a b c : CMat R} (h1 : Step T A a b)
    (h2 : Step T B b c) : Step T (fun r k => A r k ∨ B r k) a c := by
  classical
  obtain ⟨a1, a2, a3, a4⟩ := h1
  obtain ⟨b1, b2, b3, b4⟩ := h2
  refine ⟨b1.trans a1, b2.trans a2, b3.trans a3, fun r k hr hk => ?_⟩
  obtain ⟨u1, u2⟩ := a4 r k hr hk
  obtain ⟨v1, v2⟩ := b4 r k (by rw [a1]; exact hr) (by rw [a2]; exact hk)
  by_cases hB : B r k
  · exact ⟨fun _ => v1 hB, fun h => absurd (.inr hB) h⟩
  · rw [v2 hB]
    exact ⟨fun h => u1 (h.resolve_right hB), fun h => u2 fun hA => h (.inl hA)⟩

theorem quads_eq {g : Integ P R δ} {t1 t2 : Tr δ} {d1 d2 : List Int}
    (h : ∀ q u1 u2, (g.vec t1 t2 q 1 u1 u2 0).length = d1.length ∧
      (g.vec t1 t2 q 1 u1 u2 1).length = d2.length) (nq : Nat) (x1 x2 : List R) :
    quads g nq t1 t2 d1 d2 x1 x2 = .ok (tab nq fun q => g.vec t1 t2 q 1 x1 x2 0,
      tab nq fun q => g.vec t1 t2 q 1 x1 x2 1) := by
  unfold quads
  rw [loop_spec (fun k => (tab k fun q => g.vec t1 t2 q 1 x1 x2 0,
    tab k fun q => g.vec t1 t2 q 1 x1 x2 1)) (by simp [tab])]
  intro k _
  dsimp only
  rw [if_pos (h k x1 x2)]
  unfold tab
  rw [List.range_succ]
  simp

theorem column_eq {s : CMat R} (hs : CMatOk s) {n i : Nat} (hn : n ≤ s.rows) (hi : i < s.cols) :
    column s n i = .ok (tab n (field s i)) := Training.snapshot_eq hs hn hi

/-! ## One side -/

/-- The side of component `c`. -/
def sideRec (f : RefForm P R δ) (c : Nat) : Side R δ :=
  ⟨f.meshes[c]?.getD ⟨fun _ => none, fun _ => 0, fun t _ => t⟩, spaceOf (asForm f) c, basisOf (asForm f) c,
    offOf (asForm f) c⟩

theorem compOk_off {f : RefForm P R δ} {c : Nat} (h : CompOk f c) : 0 ≤ offOf (asForm f) c := by
  obtain ⟨b, o, e, h0, -⟩ := h.basis
  unfold offOf asForm
  rw [e]; exact h0

theorem compOk_mat {f : RefForm P R δ} {c : Nat} (h : CompOk f c) : MatOk (basisOf (asForm f) c) := by
  obtain ⟨b, o, e, h0, h1, -⟩ := h.basis
  unfold basisOf asForm
  rw [e]; exact h1

theorem compOk_height {f : RefForm P R δ} {c : Nat} (h : CompOk f c) :
    offOf (asForm f) c + (spaceOf (asForm f) c).vsize ≤ (basisOf (asForm f) c).h := by
  obtain ⟨b, o, e, h0, h1, h2⟩ := h.basis
  have e1 : offOf (asForm f) c = o := by unfold offOf asForm; rw [e]; rfl
  have e2 : basisOf (asForm f) c = b := by unfold basisOf asForm; rw [e]; rfl
  rw [e1, e2]; exact h2

theorem side_eq {f : RefForm P R δ} {c : Nat} (h : CompOk f c) : f.side c = .ok (sideRec f c) := by
  obtain ⟨s, hs⟩ := h.fes
  obtain ⟨b, o, hb, -⟩ := h.basis
  unfold RefForm.side
  rw [rd_eq_ok.2 hs, ok_bind, show nonNull (some s) = .ok s from rfl, ok_bind, rd_of_lt h.mesh, ok_bind,
    rd_eq_ok.2 hb, ok_bind, show nonNull (some (b, o)) = .ok (b, o) from rfl, ok_bind]
  have e1 : spaceOf (asForm f) c = s := by
    unfold spaceOf asForm
    simp [hs]
  have e2 : basisOf (asForm f) c = b := by unfold basisOf asForm; rw [hb]; rfl
  have e3 : offOf (asForm f) c = o := by unfold offOf asForm; rw [hb]; rfl
  unfold sideRec
  rw [e1, e2, e3, List.getElem?_eq_getElem h.mesh]
  rfl

theorem transformations_face {f : RefForm P R δ} {rp : RefPort} {e : Nat} {t1 t2 : Tr δ}
    (h : faceOf (asForm f) (asPort rp) e = some (t1, t2)) :
    ∃ info, rp.infos[e]? = some info ∧
      transformations false (sideRec f rp.c1).mesh (sideRec f rp.c2).mesh info = .ok (some t1, some t2) := by
  unfold faceOf at h
  obtain ⟨i, hi, hs⟩ := Option.bind_eq_some_iff.1 h
  refine ⟨i, hi, ?_⟩
  unfold Sides.face at hs
  split at hs
  · rename_i u1 u2 e1 e2
    cases hs
    have n1 : (sidesOf (asForm f) (asPort rp)).mesh1.face i.be1 ≠ none := by
      intro h; unfold trOf at e1; rw [h] at e1; cases e1
    have n2 : (sidesOf (asForm f) (asPort rp)).mesh2.face i.be2 ≠ none := by
      intro h; unfold trOf at e2; rw [h] at e2; cases e2
    have m1 : (sideRec f rp.c1).mesh = (sidesOf (asForm f) (asPort rp)).mesh1 := rfl
    have m2 : (sideRec f rp.c2).mesh = (sidesOf (asForm f) (asPort rp)).mesh2 := rfl
    unfold transformations
    rw [m1, m2, Bool.not_false, require_true, ok_bind, sideTr_eq (.inr n1), ok_bind, sideTr_eq (.inr n2),
      e1, e2]
    rfl
  · cases hs

/-- Entry of the global system: row `row` stands for point `row % nq` of interface `row / nq`; column
`col` for a test at pair number `col / numTests`. -/
def target (F : Form P R δ) (p : Port) (g : Integ P R δ) (snap1 snap2 : CMat R) (pairs : List (Nat × Nat))
    (nq row col : Nat) : R :=
  let k := col / numTests F p
  let j := col % numTests F p
  let pr := pairs[k]?.getD (0, 0)
  if j < (basisOf F p.mesh1).w then
    sidePoint F p g (field snap1 pr.1) (field snap2 pr.2) 0 (row / nq) (row % nq) 1 j
  else sidePoint F p g (field snap1 pr.1) (field snap2 pr.2) 1 (row / nq) (row % nq) 1
    (j - (basisOf F p.mesh1).w)

theorem testCol_lt {F : Form P R δ} {p : Port} {k i c n : Nat} (hk : k < n) (hi : i < 2)
    (hc : c < (basisOf F (sideOf p i)).w) : testCol F p k i c < numTests F p * n ∧
      testCol F p k i c = k * numTests F p + (c + (if i = 0 then 0 else (basisOf F p.mesh1).w)) ∧
      c + (if i = 0 then 0 else (basisOf F p.mesh1).w) < numTests F p := by
  have h1 : c + (if i = 0 then 0 else (basisOf F p.mesh1).w) < numTests F p := by
    unfold numTests
    unfold sideOf at hc
    split_ifs at hc ⊢ <;> omega
  have h2 : testCol F p k i c = k * numTests F p + (c + (if i = 0 then 0 else (basisOf F p.mesh1).w)) := by
    unfold testCol; ring
  refine ⟨?_, h2, h1⟩
  calc testCol F p k i c < k * numTests F p + numTests F p := by rw [h2]; omega
    _ = numTests F p * (k + 1) := by ring
    _ ≤ _ := Nat.mul_le_mul_left _ hk

theorem target_eq {F : Form P R δ} {p : Port} {g : Integ P R δ} {snap1 snap2 : CMat R}
    {pairs : List (Nat × Nat)} {nq e q k i c : Nat} {pr : Nat × Nat} (hq : q < nq)
    (hk : pairs[k]? = some pr) (hi : i < 2) (hc : c < (basisOf F (sideOf p i)).w) :
    target F p g snap1 snap2 pairs nq (e * nq + q) (testCol F p k i c) =
      sidePoint F p g (field snap1 pr.1) (field snap2 pr.2) i e q 1 c := by
  have hkl := (List.getElem?_eq_some_iff.1 hk).1
  obtain ⟨-, h2, h3⟩ := testCol_lt (n := pairs.length) hkl hi hc
  unfold target
  rw [h2, (divmod_add hq).1, (divmod_add hq).2, (divmod_add h3).1, (divmod_add h3).2]
  dsimp only
  rw [hk, Option.getD_some]
  unfold sideOf at hc
  by_cases h0 : i = 0
  · subst h0
    rw [if_pos rfl] at hc
    rw [if_pos rfl, Nat.add_zero, if_pos hc]
  · have : i = 1 := by omega
    subst this
    rw [if_neg h0, if_neg (by omega), Nat.add_sub_cancel]

theorem fillRank_eq {f : RefForm P R δ} {rp : RefPort} (hp : PortOk f rp) {g : Integ P R δ} {nq : Nat}
    {w : List R} (hg : IntegOk (asForm f) (asPort rp) g nq w) {snap1 snap2 : CMat R}
    {pairs : List (Nat × Nat)} (hs : SnapsOk f rp snap1 snap2 pairs) {lo ne : Nat}
    (hlo : lo + ne ≤ rp.infos.length) {gt : CMat R} (hgt : CMatOk gt) (hr : gt.rows = ne * nq)
    (hc : gt.cols = numTests (asForm f) (asPort rp) * pairs.length) :
    ∃ gt', fillRank (sideRec f rp.c1) (sideRec f rp.c2) g nq rp.infos snap1 snap2 pairs lo ne gt = .ok gt' ∧
      CMatOk gt' ∧ gt'.rows = ne * nq ∧ gt'.cols = numTests (asForm f) (asPort rp) * pairs.length ∧
      ∀ r c, r < ne * nq → c < numTests (asForm f) (asPort rp) * pairs.length →
        cent gt' r c = target (asForm f) (asPort rp) g snap1 snap2 pairs nq (lo * nq + r) c := by
  unfold fillRank
  generalize hF : asForm f = F at *
  generalize hP : asPort rp = p at *
  have hm1 : p.mesh1 = rp.c1 := by rw [← hP]; rfl
  have hm2 : p.mesh2 = rp.c2 := by rw [← hP]; rfl
  have hb1 : (sideRec f rp.c1).basis = basisOf F p.mesh1 := by rw [← hF, hm1]; rfl
  have hb2 : (sideRec f rp.c2).basis = basisOf F p.mesh2 := by rw [← hF, hm2]; rfl
  have ho1 : (sideRec f rp.c1).off = offOf F p.mesh1 := by rw [← hF, hm1]; rfl
  have ho2 : (sideRec f rp.c2).off = offOf F p.mesh2 := by rw [← hF, hm2]; rfl
  have hs1 : (sideRec f rp.c1).space = spaceOf F p.mesh1 := by rw [← hF, hm1]; rfl
  have hs2 : (sideRec f rp.c2).space = spaceOf F p.mesh2 := by rw [← hF, hm2]; rfl
  have c1 := hp.comp1
  have c2 := hp.comp2
  have hm : ∀ i, i < pairs.length → i * numTests F p + numTests F p ≤ numTests F p * pairs.length := by
    intro i hi
    calc i * numTests F p + numTests F p = numTests F p * (i + 1) := by ring
      _ ≤ _ := Nat.mul_le_mul_left _ hi
  have hmr : ∀ e, e < ne → e * nq + nq ≤ ne * nq := by
    intro i hi
    calc i * nq + nq = (i + 1) * nq := by ring
      _ ≤ _ := Nat.mul_le_mul_right _ hi
  have hnt : numTests F p = (basisOf F p.mesh1).w + (basisOf F p.mesh2).w := rfl
  rw [hb1, hb2, ho1, ho2, hs1, hs2]
  obtain ⟨gt', e1, h1, h2, h3, _, h5⟩ := loop_step
    (T := fun r c => target F p g snap1 snap2 pairs nq (lo * nq + r) c)
    (n := pairs.length) (m := gt) (body := fun i gt => do
      let pr ← rd pairs i
      let v1 ← column snap1 (spaceOf F p.mesh1).vsize pr.1
      let v2 ← column snap2 (spaceOf F p.mesh2).vsize pr.2
      loop ne (fun eidx gt => do
        let info ← rd rp.infos (lo + eidx)
        let t ← transformations false (sideRec f rp.c1).mesh (sideRec f rp.c2).mesh info
        let t1 ← nonNull t.1
        let t2 ← nonNull t.2
        let d1 ← rd (spaceOf F p.mesh1).vdofs t1.elem
        let d2 ← rd (spaceOf F p.mesh2).vdofs t2.elem
        let x1 ← getSubVector v1 d1
        let x2 ← getSubVector v2 d2
        let q ← quads g nq t1 t2 d1 d2 x1 x2
        let gt ← fillSide (basisOf F p.mesh1) (offOf F p.mesh1) (spaceOf F p.mesh1).vsize nq eidx
          (i * ((basisOf F p.mesh1).w + (basisOf F p.mesh2).w)) d1 q.1 gt
        fillSide (basisOf F p.mesh2) (offOf F p.mesh2) (spaceOf F p.mesh2).vsize nq eidx
          ((basisOf F p.mesh1).w + i * ((basisOf F p.mesh1).w + (basisOf F p.mesh2).w)) d2 q.2 gt) gt)
    (Reg := fun i r c => ∃ eidx < ne, (∃ q < nq, r = eidx * nq + q) ∧
      ∃ j < numTests F p, c = i * numTests F p + j)
    hgt (by
      intro i hi a ha ar ac
      have hpr : pairs[i]? = some pairs[i] := List.getElem?_eq_getElem hi
      obtain ⟨q1, q2⟩ := hs.pairs _ (List.getElem_mem hi)
      have r1 := hs.rows1
      have r2 := hs.rows2
      rw [hF, ← hm1] at r1
      rw [hF, ← hm2] at r2
      rw [rd_of_lt hi, ok_bind, column_eq hs.ok1 r1 q1, ok_bind, column_eq hs.ok2 r2 q2, ok_bind]
      refine loop_step ha fun eidx he a' ha' ar' ac' => ?_
      obtain ⟨t1, t2, hface, l1, l2⟩ := hp.faces (lo + eidx) (by omega)
      obtain ⟨info, hinfo, htr⟩ := transformations_face hface
      rw [hF, ← hm1] at l1
      rw [hF, ← hm2] at l2
      rw [hF, hP] at hface
      rw [rd_eq_ok.2 hinfo, ok_bind, htr, ok_bind]
      rw [show nonNull (some t1) = .ok t1 from rfl, ok_bind, show nonNull (some t2) = .ok t2 from rfl,
        ok_bind, rd_dofs l1, ok_bind, rd_dofs l2, ok_bind]
      have D1 : RowsOk (dofsOf (spaceOf F p.mesh1) t1.elem) (spaceOf F p.mesh1).vsize := by
        have := c1.dofs (dofsOf (spaceOf F p.mesh1) t1.elem)
        rw [hF, ← hm1] at this
        refine this ?_
        unfold dofsOf
        rw [List.getElem?_eq_getElem l1]
        exact List.getElem_mem l1
      have D2 : RowsOk (dofsOf (spaceOf F p.mesh2) t2.elem) (spaceOf F p.mesh2).vsize := by
        have := c2.dofs (dofsOf (spaceOf F p.mesh2) t2.elem)
        rw [hF, ← hm2] at this
        refine this ?_
        unfold dofsOf
        rw [List.getElem?_eq_getElem l2]
        exact List.getElem_mem l2
      rw [getSub_rows D1, ok_bind, getSub_rows D2, ok_bind, quads_eq (d1 := dofsOf (spaceOf F p.mesh1) t1.elem)
        (d2 := dofsOf (spaceOf F p.mesh2) t2.elem) (fun q u1 u2 =>
        ⟨hg.vec _ _ _ hface q 1 u1 u2 0 (by omega), hg.vec _ _ _ hface q 1 u1 u2 1 (by omega)⟩), ok_bind]
      have M1 := compOk_mat c1
      have O1 := compOk_off c1
      have H1 := compOk_height c1
      have M2 := compOk_mat c2
      have O2 := compOk_off c2
      have H2 := compOk_height c2
      rw [hF, ← hm1] at M1 O1 H1
      rw [hF, ← hm2] at M2 O2 H2
      dsimp only
      have hcm := hm i hi
      have hrm := hmr eidx he
      obtain ⟨a1, f1, g1, s1⟩ := fillSide_step M1 O1 H1 D1
        (V := fun q => g.vec t1 t2 q 1 (restrict (field snap1 pairs[i].1) (dofsOf (spaceOf F p.mesh1) t1.elem))
          (restrict (field snap2 pairs[i].2) (dofsOf (spaceOf F p.mesh2) t2.elem)) 0)
        (nq := nq) (eidx := eidx) (col := i * ((basisOf F p.mesh1).w + (basisOf F p.mesh2).w))
        (T := fun r c => target F p g snap1 snap2 pairs nq (lo * nq + r) c) ha'
        (by rw [ar', ar, hr]; exact hrm) (by rw [ac', ac, hc, ← hnt]; omega) (by
          intro q j hq hj
          have := target_eq (F := F) (p := p) (g := g) (snap1 := snap1) (snap2 := snap2) (nq := nq)
            (e := lo + eidx) (i := 0) (c := j) hq hpr (by omega) hj
          rw [show lo * nq + (eidx * nq + q) = (lo + eidx) * nq + q by ring]
          rw [show testCol F p i 0 j = i * ((basisOf F p.mesh1).w + (basisOf F p.mesh2).w) + j by
            unfold testCol numTests; simp; ring] at this
          rw [this]
          unfold sidePoint
          rw [hface]
          rfl)
      rw [f1, ok_bind]
      obtain ⟨a2, f2, g2, s2⟩ := fillSide_step M2 O2 H2 D2
        (V := fun q => g.vec t1 t2 q 1 (restrict (field snap1 pairs[i].1) (dofsOf (spaceOf F p.mesh1) t1.elem))
          (restrict (field snap2 pairs[i].2) (dofsOf (spaceOf F p.mesh2) t2.elem)) 1)
        (nq := nq) (eidx := eidx)
        (col := (basisOf F p.mesh1).w + i * ((basisOf F p.mesh1).w + (basisOf F p.mesh2).w))
        (T := fun r c => target F p g snap1 snap2 pairs nq (lo * nq + r) c) g1
        (by rw [s1.1, ar', ar, hr]; exact hrm) (by rw [s1.2.1, ac', ac, hc, ← hnt]; omega) (by
          intro q j hq hj
          have := target_eq (F := F) (p := p) (g := g) (snap1 := snap1) (snap2 := snap2) (nq := nq)
            (e := lo + eidx) (i := 1) (c := j) hq hpr (by omega) hj
          rw [show lo * nq + (eidx * nq + q) = (lo + eidx) * nq + q by ring]
          rw [show testCol F p i 1 j = (basisOf F p.mesh1).w +
            i * ((basisOf F p.mesh1).w + (basisOf F p.mesh2).w) + j by
            unfold testCol numTests; simp; ring] at this
          rw [this]
          unfold sidePoint
          rw [hface]
          rfl)
      refine ⟨a2, f2, g2, (Step.trans s1 s2).mono fun r c _ _ => ?_⟩
      constructor
      · rintro (⟨hr, j, hj, rfl⟩ | ⟨hr, j, hj, rfl⟩)
        · exact ⟨hr, j, by rw [hnt]; omega, rfl⟩
        · exact ⟨hr, (basisOf F p.mesh1).w + j, by rw [hnt]; omega, by rw [hnt]; omega⟩
      · rintro ⟨hr, j, hj, rfl⟩
        by_cases hlt : j < (basisOf F p.mesh1).w
        · exact .inl ⟨hr, j, hlt, rfl⟩
        · exact .inr ⟨hr, j - (basisOf F p.mesh1).w, by omega, by rw [hnt]; omega⟩)
  refine ⟨gt', e1, h1, by rw [h2, hr], by rw [h3, hc], fun r c hr' hc' => ?_⟩
  refine (h5 r c (by rw [hr]; exact hr') (by rw [hc]; exact hc')).1 ?_
  have hnq : 0 < nq := Nat.pos_of_ne_zero (by rintro rfl; simp at hr')
  have hbw : 0 < numTests F p := Nat.pos_of_ne_zero (by intro h; rw [h] at hc'; simp at hc')
  refine ⟨c / numTests F p, Nat.div_lt_of_lt_mul hc', r / nq,
    Nat.div_lt_of_lt_mul (by rwa [Nat.mul_comm]), ⟨r % nq, Nat.mod_lt _ hnq, ?_⟩, c % numTests F p,
    Nat.mod_lt _ hbw, ?_⟩
  · rw [Nat.mul_comm]; exact (Nat.div_add_mod r nq).symm
  · rw [Nat.mul_comm]; exact (Nat.div_add_mod c (numTests F p)).symm

theorem setup_sys {f : RefForm P R δ} {rp : RefPort} (hp : PortOk f rp) {g : Integ P R δ} {nq : Nat}
    {w : List R} (hg : IntegOk (asForm f) (asPort rp) g nq w) {snap1 snap2 : CMat R}
    {pairs : List (Nat × Nat)} (hs : SnapsOk f rp snap1 snap2 pairs)
    {split : Nat → List Nat} (hsp : ∀ m, (split m).sum = m) (junk : R) :
    ∃ sys, setup (sideRec f rp.c1) (sideRec f rp.c2) g nq w rp.infos snap1 snap2 pairs split junk =
        .ok (sys, transposeMult (numTests (asForm f) (asPort rp) * pairs.length) sys) ∧
      SysOk (target (asForm f) (asPort rp) g snap1 snap2 pairs nq) w nq
        (numTests (asForm f) (asPort rp) * pairs.length) (split rp.infos.length) sys := by
  have hsum := hsp rp.infos.length
  have hnt : (sideRec f rp.c1).basis.w + (sideRec f rp.c2).basis.w = numTests (asForm f) (asPort rp) := rfl
  unfold setup
  rw [show (decide ((sideRec f rp.c1).space.vsize ≤ snap1.rows)) = true from
      decide_eq_true hs.rows1, show (decide ((sideRec f rp.c2).space.vsize ≤ snap2.rows)) = true from
      decide_eq_true hs.rows2]
  dsimp only
  rw [hsum, hnt]
  simp only [beq_self_eq_true, require_true, ok_bind]
  generalize split rp.infos.length = sizes at hsum
  obtain ⟨sys, e, h1, h2⟩ := loop_total (n := sizes.length) (body := fun r acc => do
      let ne ← rd sizes r
      let gt ← fillRank (sideRec f rp.c1) (sideRec f rp.c2) g nq rp.infos snap1 snap2 pairs (sizes.take r).sum ne
        ⟨ne * nq, numTests (asForm f) (asPort rp) * pairs.length, true,
          List.replicate (ne * nq * (numTests (asForm f) (asPort rp) * pairs.length)) junk⟩
      let wr ← weights w nq ne
      return acc ++ [(gt, wr)])
    (fun k acc => acc.length = k ∧ ∀ r < k, ∃ s, acc[r]? = some s ∧
      RankOk (target (asForm f) (asPort rp) g snap1 snap2 pairs nq) w nq
        (numTests (asForm f) (asPort rp) * pairs.length) (sizes.take r).sum (sizes[r]?.getD 0) s) (s := [])
    ⟨rfl, fun r hr => absurd hr (by omega)⟩ (by
      rintro k acc hk ⟨h1, h2⟩
      rw [rd_of_lt hk, ok_bind]
      have hle : (sizes.take k).sum + sizes[k] ≤ sizes.sum := by
        have := List.sum_take_add_sum_drop sizes (k + 1)
        rw [List.take_add_one, List.sum_append, List.getElem?_eq_getElem hk] at this
        simp at this
        omega
      obtain ⟨gt, e1, g1, g2, g3, g4⟩ := fillRank_eq hp hg hs
        (lo := (sizes.take k).sum) (ne := sizes[k])
        (gt := ⟨sizes[k] * nq, numTests (asForm f) (asPort rp) * pairs.length, true,
          List.replicate (sizes[k] * nq * (numTests (asForm f) (asPort rp) * pairs.length)) junk⟩)
        (by rw [← hsum]; exact hle) (by unfold CMatOk; simp) rfl rfl
      rw [e1, ok_bind, weights_eq hg.weights, ok_bind]
      refine ⟨_, rfl, by simp [h1], fun r hr => ?_⟩
      by_cases hrk : r = k
      · subst hrk
        refine ⟨(gt, _), by rw [List.getElem?_append_right (by omega), h1]; simp; rfl, ?_⟩
        rw [List.getElem?_eq_getElem hk]
        exact ⟨g1, g2, g3, g4, rfl⟩
      · obtain ⟨s, e2, h3⟩ := h2 r (by omega)
        exact ⟨s, by rw [List.getElem?_append_left (by omega)]; exact e2, h3⟩)
  exact ⟨sys, by rw [e]; rfl, h1, h2⟩

end

/-! ## Storing -/

theorem slot_inj {n it q it' q' : Nat} (h : q < n) (h' : q' < n) (he : q + it * n = q' + it' * n) :
    it = it' ∧ q = q' := by
  have h1 := divmod_add (a := it) h
  have h2 := divmod_add (a := it') h'
  rw [Nat.add_comm] at he
  rw [he, Nat.add_comm q'] at h1
  rw [h1.1] at h2
  exact ⟨h2.1, h1.2.symm.trans h2.2⟩

theorem slot_lt {n m it q : Nat} (h : q < n) (h' : it < m) : q + it * n < m * n := by
  calc q + it * n < n + it * n := by omega
    _ = (it + 1) * n := by ring
    _ ≤ _ := Nat.mul_le_mul_right _ h'

theorem update_eq {f : RefForm P R δ} (hs : Slots f) {i rp : Nat} (hi : i < f.fnfi.length)
    (hrp : rp < f.ports.length) (v : List (Sample P R)) :
    ∃ refs views, f.update i rp v = .ok { f with refs := refs, views := views } ∧
      refs.length = f.refs.length ∧ views.length = f.views.length ∧
      (∀ it q, q < f.ports.length → refs[q + it * f.ports.length]? =
        if it = i ∧ q = rp then some (some v) else f.refs[q + it * f.ports.length]?) ∧
      ∀ it k ty, f.types[k]? = some ty → views[k + it * f.types.length]? =
        if it = i ∧ ty = (rp : Int) then some (some v) else f.views[k + it * f.types.length]? := by
  unfold RefForm.update
  rw [decide_eq_true hi, require_true, ok_bind, decide_eq_true hrp, require_true, ok_bind, hs.refs,
    beq_self_eq_true, require_true, ok_bind, wr_of_lt (by rw [hs.refs]; exact slot_lt hrp hi), ok_bind]
  obtain ⟨views, e, h1, h2⟩ := loop_total (n := f.types.length)
    (body := fun p views => do
      let ty ← rd f.types p
      if ty ≠ rp then .ok views else wr views (p + i * f.types.length) (some v))
    (fun n views => views.length = f.views.length ∧ ∀ it k ty, f.types[k]? = some ty →
      views[k + it * f.types.length]? = if it = i ∧ ty = (rp : Int) ∧ k < n then some (some v)
        else f.views[k + it * f.types.length]?) (s := f.views)
    ⟨rfl, fun it k ty _ => by simp⟩ (by
      rintro n views hn ⟨h1, h2⟩
      rw [rd_of_lt hn, ok_bind]
      by_cases ht : f.types[n] = (rp : Int)
      · rw [if_neg (not_not.2 ht)]
        have hlt : n + i * f.types.length < views.length := by
          rw [h1, hs.views]; exact slot_lt hn hi
        rw [wr_of_lt hlt]
        refine ⟨_, rfl, by simp [h1], fun it k ty hk => ?_⟩
        have hkl := (List.getElem?_eq_some_iff.1 hk).1
        rw [List.getElem?_set]
        by_cases he : n + i * f.types.length = k + it * f.types.length
        · obtain ⟨rfl, rfl⟩ := slot_inj hn hkl he
          have hty : ty = f.types[n] := by
            rw [List.getElem?_eq_getElem hn] at hk; exact (Option.some.inj hk).symm
          rw [if_pos rfl, if_pos hlt, if_pos ⟨rfl, hty.trans ht, by omega⟩]
        · rw [if_neg he, h2 it k ty hk]
          by_cases hc : it = i ∧ ty = (rp : Int) ∧ k < n
          · rw [if_pos hc, if_pos ⟨hc.1, hc.2.1, by omega⟩]
          · rw [if_neg hc, if_neg]
            rintro ⟨rfl, h4, h5⟩
            have : k ≠ n := by rintro rfl; exact he rfl
            exact hc ⟨rfl, h4, by omega⟩
      · rw [if_pos ht]
        refine ⟨_, rfl, h1, fun it k ty hk => ?_⟩
        rw [h2 it k ty hk]
        by_cases hc : it = i ∧ ty = (rp : Int) ∧ k < n
        · rw [if_pos hc, if_pos ⟨hc.1, hc.2.1, by omega⟩]
        · rw [if_neg hc, if_neg]
          rintro ⟨rfl, h4, h5⟩
          have : k ≠ n := by
            rintro rfl
            rw [List.getElem?_eq_getElem hn] at hk
            exact ht ((Option.some.inj hk).trans h4)
          exact hc ⟨rfl, h4, by omega⟩)
  rw [e]
  refine ⟨_, views, rfl, by simp [hs.refs], h1, fun it q hq => ?_, fun it k ty hk => ?_⟩
  · rw [List.getElem?_set]
    by_cases he : rp + i * f.ports.length = q + it * f.ports.length
    · obtain ⟨rfl, rfl⟩ := slot_inj hrp hq he
      rw [if_pos rfl, if_pos (by rw [hs.refs]; exact slot_lt hrp hi), if_pos ⟨rfl, rfl⟩]
    · rw [if_neg he, if_neg]
      rintro ⟨rfl, rfl⟩
      exact he rfl
  · rw [h2 it k ty hk]
    have hkl := (List.getElem?_eq_some_iff.1 hk).1
    simp only [hkl, and_true]

end Verif.TrainItf
