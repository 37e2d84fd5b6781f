import Verif.Spec.EqpItf
import Verif.Proofs.Eqp
import Verif.Proofs.InterfaceForm

/-! # Lemmas on hyper-reduced interface forms -/

namespace Verif.EqpItf

open Verif Verif.LinAlg Verif.LinAlg.Spec Verif.Blocks Verif.Blocks.Spec Verif.EqpItf.Spec Finset
open Verif.InterfaceForm (Tr FMesh Space Port MatArr side transformations sideTr_eq rd_dofs)
open Verif.InterfaceForm.Spec (Sides dofsOf trOf MatsOk mget)
open Verif.RomHandler (readBlock writeBlock readBlock_eq writeBlock_spec)
open Verif.RomHandler.Spec (bent)
open Verif.Convection.Spec (lift project)
open Verif.Eqp (Sample intPoint intPoint_eq multSub_lift rdI_get)

variable {P R δ : Type} [CommRing R]

/-! ## Blocks -/

/-- Positions of the entries of a block vector. -/
abbrev Pos (z : List Nat) := {q : Nat × Nat // ∃ w, z[q.1]? = some w ∧ q.2 < w}

/-- The entries of a block vector. -/
def vals (z : List Nat) (y : BlockVector R) : Pos z → R := fun q => bent y q.1.1 q.1.2

/-- Updating one block by adding `t`. -/
theorem block_step {z : List Nat} {y : BlockVector R} (hy : HasSizes y z) {m w : Nat}
    (hm : z[m]? = some w) {u : List R → Outcome (List R)} {t : Nat → R}
    (hu : ∀ l : List R, l.length = w → ∃ l', u l = .ok l' ∧ l'.length = w ∧
      ∀ c < w, ve l' c = ve l c + t c) :
    ∃ l l' y', readBlock y m = .ok l ∧ u l = .ok l' ∧ writeBlock y m l' = .ok y' ∧ HasSizes y' z ∧
      y'.offsets = y.offsets ∧
      vals z y' = vals z y + fun q => if m = q.1.1 then t q.1.2 else 0 := by
  obtain ⟨l', e1, e2, e3⟩ := hu (tab w fun k => bent y m k) (by simp)
  obtain ⟨y', f1, f2, f3, f4⟩ := writeBlock_spec hy (i := m) (l := l') (by rw [e2]; exact hm)
  refine ⟨_, l', y', readBlock_eq hy hm, e1, f1, f2, ?_, ?_⟩
  · unfold writeBlock at f1
    obtain ⟨_, _, f1⟩ := bind_eq_ok.1 f1
    obtain ⟨_, _, f1⟩ := bind_eq_ok.1 f1
    cases f1; rfl
  · funext ⟨⟨a, c⟩, v, hv, hc⟩
    simp only [vals, Pi.add_apply]
    dsimp only at hv hc
    by_cases h : m = a
    · subst h
      rw [hm] at hv
      cases hv
      rw [if_pos rfl, f3 c (by omega), e3 c hc, ve_tab hc]
    · rw [if_neg h, add_zero, f4 a v c (Ne.symm h) hv hc]

/-! ## One port -/

/-- The port-level data are those of the form. -/
structure DataOk (f : Form P R δ) (x : BlockVector R) (pt : Port) (d : PortData R δ) : Prop where
  port : d.port = pt
  m1 : d.m1 = (sidesOf f pt).mesh1
  m2 : d.m2 = (sidesOf f pt).mesh2
  s1 : d.s1 = spaceOf f pt.mesh1
  s2 : d.s2 = spaceOf f pt.mesh2
  b1 : d.b1 = some (basisOf f pt.mesh1, offOf f pt.mesh1)
  b2 : d.b2 = some (basisOf f pt.mesh2, offOf f pt.mesh2)
  x1 : d.x1 = coeffs f x pt.mesh1
  x2 : d.x2 = coeffs f x pt.mesh2
  ne : pt.mesh1 ≠ pt.mesh2

/-- The basis of a subdomain of a form. -/
theorem basis_ok {f : Form P R δ} {z : List Nat} (hf : FormOk f z) {m : Nat}
    (hm : m < f.meshes.length) :
    f.basis[m]? = some (some (basisOf f m, offOf f m)) ∧ 0 ≤ offOf f m ∧ MatOk (basisOf f m) ∧
      0 < (basisOf f m).w ∧ z[m]? = some (basisOf f m).w := by
  have hz : m < z.length := by rw [hf.count]; exact hm
  obtain ⟨b, off, h1, h2, h3, h4, h5⟩ := hf.basis m z[m] (List.getElem?_eq_getElem hz)
  have e1 : basisOf f m = b := by unfold basisOf; rw [h1]; rfl
  have e2 : offOf f m = off := by unfold offOf; rw [h1]; rfl
  rw [e1, e2]
  exact ⟨h1, h2, h3, h4, by rw [List.getElem?_eq_getElem hz, h5]⟩

theorem portData_ok {f : Form P R δ} {z : List Nat} (hf : FormOk f z) {offs : List Nat} {x : List R}
    (hx : HasSizes (⟨x, offs⟩ : BlockVector R) z) {p : Nat} {pt : Port} (hp : f.ports[p]? = some pt) :
    ∃ d, f.portData offs x p = .ok d ∧ DataOk f ⟨x, offs⟩ pt d := by
  obtain ⟨p1, p2, p3⟩ := hf.ports pt (List.mem_of_getElem? hp)
  obtain ⟨a1, _, _, _, a5⟩ := basis_ok hf p1
  obtain ⟨c1, _, _, _, c5⟩ := basis_ok hf p2
  have q1 : pt.mesh1 < f.fes.length := by rw [hf.fes]; exact p1
  have q2 : pt.mesh2 < f.fes.length := by rw [hf.fes]; exact p2
  unfold Form.portData
  rw [rd_eq_ok.2 hp]
  simp only [ok_bind]
  rw [rd_of_lt p1, ok_bind, rd_of_lt p2, ok_bind, rd_of_lt q1, ok_bind, rd_of_lt q2, ok_bind,
    rd_eq_ok.2 a1, ok_bind, rd_eq_ok.2 c1, ok_bind, readBlock_eq hx a5, ok_bind, readBlock_eq hx c5]
  refine ⟨_, rfl, ⟨rfl, ?_, ?_, ?_, ?_, rfl, rfl, rfl, rfl, p3⟩⟩
  · simp [sidesOf, p1]
  · simp [sidesOf, p2]
  · simp [spaceOf, q1]
  · simp [spaceOf, q2]

/-- The transformations of a sampled interface. -/
theorem tr_ok {f : Form P R δ} {x : BlockVector R} {pt : Port} {d : PortData R δ}
    (hd : DataOk f x pt d) {el : Int} {t1 t2 : Tr δ} (h0 : 0 ≤ el)
    (hface : faceOf f pt el.toNat = some (t1, t2)) : d.tr el = .ok (some t1, some t2) := by
  unfold faceOf at hface
  obtain ⟨i, hi, hs⟩ := Option.bind_eq_some_iff.1 hface
  unfold Sides.face at hs
  split at hs
  · rename_i u1 u2 e1 e2
    cases hs
    have n1 : (sidesOf f pt).mesh1.face i.be1 ≠ none := by
      intro h; unfold trOf at e1; rw [h] at e1; cases e1
    have n2 : (sidesOf f pt).mesh2.face i.be2 ≠ none := by
      intro h; unfold trOf at e2; rw [h] at e2; cases e2
    unfold PortData.tr
    rw [hd.port, rdI_get h0 hi, ok_bind, hd.m1, hd.m2]
    unfold transformations
    have hb : (pt.mesh1 == pt.mesh2) = false := by simpa using hd.ne
    rw [hb, Bool.not_false, require_true, ok_bind, sideTr_eq (.inr n1), ok_bind, sideTr_eq (.inr n2),
      e1, e2]
    rfl
  · cases hs

theorem sideRows_ok {f : Form P R δ} {m : Nat} {t : Tr δ} (ho : 0 ≤ offOf f m)
    (ht : t.elem < (spaceOf f m).vdofs.length) :
    sideRows (spaceOf f m) (offOf f m) t = .ok (rowsOf f m t) := by
  unfold sideRows rowsOf
  rw [rd_dofs ht, ok_bind]
  split
  · rfl
  · have : offOf f m = 0 := by omega
    rw [this]; simp; rfl

theorem length_coeffs (f : Form P R δ) (x : BlockVector R) (m : Nat) :
    (coeffs f x m).length = (basisOf f m).w := by simp [coeffs]

/-- What a sample contributes, on the positions of the vector. -/
theorem vecTerm_eq {f : Form P R δ} {pt : Port} {g : Integ P R δ} {x : BlockVector R}
    {s : Sample P R} {t1 t2 : Tr δ} (h : faceOf f pt s.el.toNat = some (t1, t2)) (m c : Nat) :
    vecTerm f pt g x s m c =
      (if pt.mesh1 = m then
        project (basisOf f pt.mesh1) (rowsOf f pt.mesh1 t1) (sampleVec f pt g x s t1 t2 0) c else 0) +
      (if pt.mesh2 = m then
        project (basisOf f pt.mesh2) (rowsOf f pt.mesh2 t2) (sampleVec f pt g x s t1 t2 1) c else 0) := by
  unfold vecTerm; rw [h]

/-- The cached transformations are those of the interface `prev`. -/
def TrCacheOk (f : Form P R δ) (pt : Port) (c : TrCache δ) : Prop :=
  0 ≤ c.prev → ∃ t1 t2, faceOf f pt c.prev.toNat = some (t1, t2) ∧ c.tr = some (some t1, some t2)

theorem slowVecStep_ok {f : Form P R δ} {z : List Nat} (hf : FormOk f z) {x : BlockVector R}
    {pt : Port} (hpt : pt ∈ f.ports) {d : PortData R δ} (hd : DataOk f x pt d) {g : Integ P R δ}
    {nq : Nat} (junk : Nat → R) {s : Sample P R} (hs : SampleOk f pt nq g s) {t1 t2 : Tr δ}
    (ht : faceOf f pt s.el.toNat = some (t1, t2)) {y : BlockVector R} (hy : HasSizes y z) :
    ∃ y', slowVecStep g nq d junk s (some t1, some t2) y = .ok y' ∧
      (HasSizes y' z ∧ y'.offsets = y.offsets) ∧
      vals z y' = vals z y + fun q => vecTerm f pt g x s q.1.1 q.1.2 := by
  obtain ⟨p1, p2, p3⟩ := hf.ports pt hpt
  obtain ⟨_, a2, a3, a4, a5⟩ := basis_ok hf p1
  obtain ⟨_, c2, c3, c4, c5⟩ := basis_ok hf p2
  obtain ⟨q1, q2, q3, t1', t2', q4, q5, q6, q7, q8, q9⟩ := hs
  rw [ht] at q4
  cases q4
  obtain ⟨w1, w2, _⟩ := q9 s.qw (lifted f x pt.mesh1 t1) (lifted f x pt.mesh2 t2)
  obtain ⟨l1, l1', y1, r1, r2, r3, r4, r5, r6⟩ := block_step hy a5
    (u := addMultTransposeSubMatrix (basisOf f pt.mesh1) (rowsOf f pt.mesh1 t1)
      (sampleVec f pt g x s t1 t2 0))
    (t := project (basisOf f pt.mesh1) (rowsOf f pt.mesh1 t1) (sampleVec f pt g x s t1 t2 0)) (by
      intro l hl
      exact ⟨_, addMultTransposeSubMatrix_spec _ _ _ l a3 q7 w1 hl, by simp, fun c hc => by
        rw [ve_tab hc]; rfl⟩)
  obtain ⟨l2, l2', y2, v1, v2, v3, v4, v5, v6⟩ := block_step r4 c5
    (u := addMultTransposeSubMatrix (basisOf f pt.mesh2) (rowsOf f pt.mesh2 t2)
      (sampleVec f pt g x s t1 t2 1))
    (t := project (basisOf f pt.mesh2) (rowsOf f pt.mesh2 t2) (sampleVec f pt g x s t1 t2 1)) (by
      intro l hl
      exact ⟨_, addMultTransposeSubMatrix_spec _ _ _ l c3 q8 w2 hl, by simp, fun c hc => by
        rw [ve_tab hc]; rfl⟩)
  refine ⟨y2, ?_, ⟨v4, by rw [v5, r5]⟩, ?_⟩
  · unfold slowVecStep
    rw [hd.b1, hd.b2, hd.s1, hd.s2, hd.x1, hd.x2, hd.port]
    simp only [bothNonNull, nonNull, deref, ok_bind, pure_bind]
    rw [sideRows_ok a2 q5, ok_bind, sideRows_ok c2 q6, ok_bind,
      multSub_lift a3 a4 q7 (length_coeffs _ _ _), ok_bind,
      multSub_lift c3 c4 q8 (length_coeffs _ _ _), ok_bind, intPoint_eq q2 q3, ok_bind, r1, ok_bind]
    show (do
      let y1 ← addMultTransposeSubMatrix (basisOf f pt.mesh1) (rowsOf f pt.mesh1 t1)
        (sampleVec f pt g x s t1 t2 0) l1
      let y ← writeBlock y pt.mesh1 y1
      let y2 ← readBlock y pt.mesh2
      let y2 ← addMultTransposeSubMatrix (basisOf f pt.mesh2) (rowsOf f pt.mesh2 t2)
        (sampleVec f pt g x s t1 t2 1) y2
      writeBlock y pt.mesh2 y2) = _
    rw [r2, ok_bind, r3, ok_bind, v1, ok_bind, v2, ok_bind, v3]
  · rw [v6, r6, add_assoc]
    congr 1
    funext q
    rw [Pi.add_apply, vecTerm_eq ht]

theorem fastVecStep_ok {f : Form P R δ} {z : List Nat} (hf : FormOk f z) {x : BlockVector R}
    {pt : Port} (hpt : pt ∈ f.ports) {d : PortData R δ} (hd : DataOk f x pt d) {g : Integ P R δ}
    {nq : Nat} {s : Sample P R} (hs : SampleOk f pt nq g s) {t1 t2 : Tr δ}
    (ht : faceOf f pt s.el.toNat = some (t1, t2)) (hr : FastOk f pt g s t1 t2) {y : BlockVector R}
    (hy : HasSizes y z) :
    ∃ y', fastVecStep g nq d s (some t1, some t2) y = .ok y' ∧
      (HasSizes y' z ∧ y'.offsets = y.offsets) ∧
      vals z y' = vals z y + fun q => vecTerm f pt g x s q.1.1 q.1.2 := by
  obtain ⟨p1, p2, p3⟩ := hf.ports pt hpt
  obtain ⟨_, _, _, _, a5⟩ := basis_ok hf p1
  obtain ⟨_, _, _, _, c5⟩ := basis_ok hf p2
  obtain ⟨q1, q2, q3, _⟩ := hs
  obtain ⟨l1, l1', y1, r1, r2, r3, r4, r5, r6⟩ := block_step hy a5
    (u := g.fastVec s.pre t1 t2 s.qp.toNat s.qw (coeffs f x pt.mesh1) (coeffs f x pt.mesh2) 0)
    (t := project (basisOf f pt.mesh1) (rowsOf f pt.mesh1 t1) (sampleVec f pt g x s t1 t2 0)) (by
      intro l hl
      obtain ⟨y', e1, e2, e3⟩ := hr.vec x 0 l (by omega) hl
      exact ⟨y', e1, by rw [e2, hl], e3⟩)
  obtain ⟨l2, l2', y2, v1, v2, v3, v4, v5, v6⟩ := block_step r4 c5
    (u := g.fastVec s.pre t1 t2 s.qp.toNat s.qw (coeffs f x pt.mesh1) (coeffs f x pt.mesh2) 1)
    (t := project (basisOf f pt.mesh2) (rowsOf f pt.mesh2 t2) (sampleVec f pt g x s t1 t2 1)) (by
      intro l hl
      obtain ⟨y', e1, e2, e3⟩ := hr.vec x 1 l (by omega) hl
      exact ⟨y', e1, by rw [e2, hl], e3⟩)
  refine ⟨y2, ?_, ⟨v4, by rw [v5, r5]⟩, ?_⟩
  · unfold fastVecStep
    rw [hd.x1, hd.x2, hd.port]
    simp only [both, deref, ok_bind, pure_bind]
    rw [intPoint_eq q2 q3, ok_bind, r1, ok_bind, r2, ok_bind, r3, ok_bind, v1, ok_bind, v2, ok_bind, v3]
  · rw [v6, r6, add_assoc]
    congr 1
    funext q
    rw [Pi.add_apply, vecTerm_eq ht]

theorem vecSamples_ok {f : Form P R δ} {z : List Nat} (hf : FormOk f z) {x : BlockVector R}
    {pt : Port} (hpt : pt ∈ f.ports) {d : PortData R δ} (hd : DataOk f x pt d) {g : Integ P R δ}
    {nq : Nat} (junk : Nat → R) {l : List (Sample P R)} (hl : ∀ s ∈ l, SampleOk f pt nq g s)
    (hr : f.precompute = true → ∀ s ∈ l, ∀ t1 t2, faceOf f pt s.el.toNat = some (t1, t2) →
      FastOk f pt g s t1 t2) {y : BlockVector R} (hy : HasSizes y z) :
    ∃ y', vecSamples f.precompute g nq d junk l y = .ok y' ∧
      (HasSizes y' z ∧ y'.offsets = y.offsets) ∧
      vals z y' = vals z y + (l.map fun s => fun q : Pos z => vecTerm f pt g x s q.1.1 q.1.2).sum := by
  unfold vecSamples
  obtain ⟨⟨c, y'⟩, e, ⟨_, h1⟩, h2⟩ := loop_list_acc (l := l)
    (body := fun i (st : TrCache δ × BlockVector R) => (do
      let sm ← rd l i
      let c ← st.1.refresh d sm.el
      let t ← deref c.tr
      let y ← if f.precompute then fastVecStep g nq d sm t st.2 else slowVecStep g nq d junk sm t st.2
      return (c, y) : Outcome (TrCache δ × BlockVector R)))
    (fun st => TrCacheOk f pt st.1 ∧ HasSizes st.2 z ∧ st.2.offsets = y.offsets)
    (fun st => vals z st.2)
    (fun s => fun q : Pos z => vecTerm f pt g x s q.1.1 q.1.2) (s := (⟨-1, none⟩, y))
    ⟨fun h => absurd (show (0 : Int) ≤ -1 from h) (by decide), hy, rfl⟩ (by
      rintro k sm ⟨c, y1⟩ hm hk ⟨hc, hy1, ho⟩
      have hsm := hl sm hm
      obtain ⟨t1, t2, ht⟩ : ∃ t1 t2, faceOf f pt sm.el.toNat = some (t1, t2) := by
        obtain ⟨_, _, _, t1, t2, h, _⟩ := hsm; exact ⟨t1, t2, h⟩
      have hcr : ∃ c', c.refresh d sm.el = .ok c' ∧ TrCacheOk f pt c' ∧
          c'.tr = some (some t1, some t2) := by
        unfold TrCache.refresh
        split
        · rw [tr_ok hd hsm.1 ht]
          exact ⟨_, rfl, fun _ => ⟨t1, t2, ht, rfl⟩, rfl⟩
        · rename_i hp
          have hq : sm.el = c.prev := by simpa using hp
          obtain ⟨u1, u2, e1, e2⟩ := hc (hq ▸ hsm.1)
          rw [← hq, ht] at e1
          cases e1
          exact ⟨c, rfl, hc, e2⟩
      obtain ⟨c', r1, r2, r3⟩ := hcr
      have hstep : ∃ y', (if f.precompute then fastVecStep g nq d sm (some t1, some t2) y1
            else slowVecStep g nq d junk sm (some t1, some t2) y1) = .ok y' ∧
          (HasSizes y' z ∧ y'.offsets = y1.offsets) ∧
          vals z y' = vals z y1 + fun q => vecTerm f pt g x sm q.1.1 q.1.2 := by
        cases hpre : f.precompute with
        | false => exact slowVecStep_ok hf hpt hd junk hsm ht hy1
        | true => exact fastVecStep_ok hf hpt hd hsm ht (hr hpre sm hm t1 t2 ht) hy1
      obtain ⟨y2, s1, ⟨s2, s3⟩, s4⟩ := hstep
      refine ⟨(c', y2), ?_, ⟨r2, s2, by rw [s3]; exact ho⟩, s4⟩
      rw [hk, ok_bind, r1, ok_bind, r3]
      simp only [deref, ok_bind]
      by_cases hpre : f.precompute = true
      · rw [if_pos hpre] at s1 ⊢
        rw [s1]; rfl
      · rw [if_neg hpre] at s1 ⊢
        rw [s1]; rfl)
  refine ⟨y', ?_, h1, h2⟩
  rw [e]; rfl

/-! ## Matrices -/

/-- Positions of the entries of a block matrix. -/
abbrev MPos (z : List Nat) := {q : (Nat × Nat) × Nat × Nat //
  ∃ v w, z[q.1.1]? = some v ∧ z[q.1.2]? = some w ∧ q.2.1 < v ∧ q.2.2 < w}

/-- The entries of a block matrix. -/
def mvals (z : List Nat) (m : MatArr R) : MPos z → R := fun q => mget m q.1.1.1 q.1.1.2 q.1.2.1 q.1.2.2

/-- Width of block `m`. -/
def wz (z : List Nat) (m : Nat) : Nat := z[m]?.getD 0

theorem modify_ok {mats : MatArr R} {z : List Nat} (hm : MatsOk mats z.length (wz z) (wz z))
    {i j v w : Nat} (hi : z[i]? = some v) (hj : z[j]? = some w) {u : Sp R → Outcome (Sp R)}
    {t : Nat → Nat → R}
    (hu : ∀ s : Sp R, s.h = v → s.w = w →
      ∃ s', u s = .ok s' ∧ s'.h = s.h ∧ s'.w = s.w ∧
        ∀ r c, r < v → c < w → s'.get r c = s.get r c + t r c) :
    ∃ m', mats.modify i j u = .ok m' ∧ MatsOk m' z.length (wz z) (wz z) ∧
      mvals z m' = mvals z mats + fun q => if i = q.1.1.1 ∧ j = q.1.1.2 then t q.1.2.1 q.1.2.2 else 0 := by
  obtain ⟨h1, h2, h3⟩ := hm
  have li := (List.getElem?_eq_some_iff.1 hi).1
  have lj := (List.getElem?_eq_some_iff.1 hj).1
  obtain ⟨s, e, a1, a2⟩ := h3 i j li lj
  have wi : wz z i = v := by unfold wz; rw [hi]; rfl
  have wj : wz z j = w := by unfold wz; rw [hj]; rfl
  obtain ⟨s', e', b1, b2, hv⟩ := hu s (by rw [a1, wi]) (by rw [a2, wj])
  unfold MatArr.modify
  rw [if_pos ⟨by omega, by omega⟩, e]
  simp only [deref, ok_bind]
  rw [e']
  refine ⟨_, rfl, ⟨h1, h2, ?_⟩, ?_⟩
  · intro a b ha hb
    dsimp only
    split
    · rename_i hab
      obtain ⟨rfl, rfl⟩ := hab
      exact ⟨s', rfl, by rw [b1, a1], by rw [b2, a2]⟩
    · exact h3 a b ha hb
  · funext ⟨⟨⟨a, b⟩, r, c⟩, v', w', ha, hb, hr, hc⟩
    dsimp only at ha hb hr hc
    simp only [mvals, mget, Pi.add_apply]
    by_cases hab : a = i ∧ b = j
    · obtain ⟨rfl, rfl⟩ := hab
      rw [hi] at ha
      rw [hj] at hb
      cases ha
      cases hb
      rw [if_pos ⟨rfl, rfl⟩, if_pos ⟨rfl, rfl⟩, e]
      simp only [Option.map_some, Option.getD_some]
      exact hv r c hr hc
    · rw [if_neg hab, if_neg (fun h => hab ⟨h.1.symm, h.2.symm⟩), add_zero]

/-- Adding to the four blocks of a port. -/
theorem addFour_ok {f : Form P R δ} {z : List Nat} (hf : FormOk f z) {pt : Port} (hpt : pt ∈ f.ports)
    {mats : MatArr R} (hm : MatsOk mats z.length (wz z) (wz z))
    {u : Nat → Nat → Sp R → Outcome (Sp R)} {t : Nat → Nat → Nat → Nat → R}
    (hu : ∀ i j, i < 2 → j < 2 → ∀ s : Sp R, s.h = (basisOf f (sideOf pt i)).w →
      s.w = (basisOf f (sideOf pt j)).w → ∃ s', u i j s = .ok s' ∧ s'.h = s.h ∧ s'.w = s.w ∧
        ∀ r c, r < s.h → c < s.w → s'.get r c = s.get r c + t i j r c) :
    ∃ m', addFour pt.mesh1 pt.mesh2 u mats = .ok m' ∧ MatsOk m' z.length (wz z) (wz z) ∧
      mvals z m' = mvals z mats + fun q => ∑ i ∈ range 2, ∑ j ∈ range 2,
        if sideOf pt i = q.1.1.1 ∧ sideOf pt j = q.1.1.2 then t i j q.1.2.1 q.1.2.2 else 0 := by
  obtain ⟨p1, p2, _⟩ := hf.ports pt hpt
  have hz : ∀ i, z[sideOf pt i]? = some (basisOf f (sideOf pt i)).w := by
    intro i
    unfold sideOf
    split
    · exact (basis_ok hf p1).2.2.2.2
    · exact (basis_ok hf p2).2.2.2.2
  unfold addFour
  obtain ⟨m', e, h1, h2⟩ := loop_acc (n := 2)
    (body := fun i mats => loop 2 (fun j mats =>
      mats.modify (side pt.mesh1 pt.mesh2 i) (side pt.mesh1 pt.mesh2 j) (u i j)) mats)
    (fun m => MatsOk m z.length (wz z) (wz z)) (mvals z)
    (fun i => ∑ j ∈ range 2, fun q : MPos z =>
      if sideOf pt i = q.1.1.1 ∧ sideOf pt j = q.1.1.2 then t i j q.1.2.1 q.1.2.2 else 0) hm (by
      intro i m hi hm
      refine loop_acc _ _ _ hm ?_
      intro j m hj hm
      refine modify_ok hm (hz i) (hz j) ?_
      intro s h1 h2
      obtain ⟨s', e1, e2, e3, e4⟩ := hu i j hi hj s h1 h2
      exact ⟨s', e1, e2, e3, fun r c hr hc => e4 r c (by omega) (by omega)⟩)
  refine ⟨m', e, h1, ?_⟩
  rw [h2]
  congr 1

theorem gradTerm_eq {f : Form P R δ} {pt : Port} {g : Integ P R δ} {x : BlockVector R}
    {s : Sample P R} {t1 t2 : Tr δ} (h : faceOf f pt s.el.toNat = some (t1, t2)) (a b r c : Nat) :
    gradTerm f pt g x s a b r c = ∑ i ∈ range 2, ∑ j ∈ range 2,
      if sideOf pt i = a ∧ sideOf pt j = b then
        project2 (basisOf f (sideOf pt i)) (rowsOf f (sideOf pt i) (trSide t1 t2 i))
          (basisOf f (sideOf pt j)) (rowsOf f (sideOf pt j) (trSide t1 t2 j))
          (sampleGrad f pt g x s t1 t2 i j) r c else 0 := by
  unfold gradTerm
  rw [h]
  refine sum_congr rfl fun i _ => sum_congr rfl fun j _ => ?_
  split
  · rename_i h
    rw [h.1, h.2]
  · rfl

/-- The cached data are those of the interface `prev`. -/
def CacheOk (f : Form P R δ) (x : BlockVector R) (pt : Port) (c : Cache R δ) : Prop :=
  0 ≤ c.prev → ∃ t1 t2, faceOf f pt c.prev.toNat = some (t1, t2) ∧
    c = ⟨c.prev, some (t1, t2), rowsOf f pt.mesh1 t1, rowsOf f pt.mesh2 t2, lifted f x pt.mesh1 t1,
      lifted f x pt.mesh2 t2⟩

theorem refresh_ok {f : Form P R δ} {z : List Nat} (hf : FormOk f z) {x : BlockVector R}
    {pt : Port} (hpt : pt ∈ f.ports) {d : PortData R δ} (hd : DataOk f x pt d) {g : Integ P R δ}
    {nq : Nat} (junk : Nat → R) {s : Sample P R} (hs : SampleOk f pt nq g s) {t1 t2 : Tr δ}
    (ht : faceOf f pt s.el.toNat = some (t1, t2)) {c : Cache R δ} (hc : CacheOk f x pt c) :
    c.refresh d junk s.el (some t1, some t2) = .ok ⟨s.el, some (t1, t2), rowsOf f pt.mesh1 t1,
      rowsOf f pt.mesh2 t2, lifted f x pt.mesh1 t1, lifted f x pt.mesh2 t2⟩ := by
  obtain ⟨p1, p2, p3⟩ := hf.ports pt hpt
  obtain ⟨_, a2, a3, a4, a5⟩ := basis_ok hf p1
  obtain ⟨_, c2, c3, c4, c5⟩ := basis_ok hf p2
  obtain ⟨q1, q2, q3, t1', t2', q4, q5, q6, q7, q8, q9⟩ := hs
  rw [ht] at q4
  cases q4
  unfold Cache.refresh
  split
  · rw [hd.b1, hd.b2, hd.s1, hd.s2, hd.x1, hd.x2]
    simp only [bothNonNull, nonNull, deref, ok_bind, pure_bind]
    rw [sideRows_ok a2 q5, ok_bind, sideRows_ok c2 q6, ok_bind,
      multSub_lift a3 a4 q7 (length_coeffs _ _ _), ok_bind,
      multSub_lift c3 c4 q8 (length_coeffs _ _ _), ok_bind]
    rfl
  · rename_i hp
    have hq : s.el = c.prev := by simpa using hp
    obtain ⟨u1, u2, e1, e2⟩ := hc (hq ▸ q1)
    rw [← hq, ht] at e1
    cases e1
    rw [e2, ← hq]

theorem gradStep_ok {f : Form P R δ} {z : List Nat} (hf : FormOk f z) {x : BlockVector R}
    {pt : Port} (hpt : pt ∈ f.ports) {d : PortData R δ} (hd : DataOk f x pt d) {g : Integ P R δ}
    {nq : Nat} (junk : Nat → R) {s : Sample P R} (hs : SampleOk f pt nq g s) {t1 t2 : Tr δ}
    (ht : faceOf f pt s.el.toNat = some (t1, t2)) (hr : f.precompute = true → FastOk f pt g s t1 t2)
    {c : Cache R δ} (hc : CacheOk f x pt c) {m : MatArr R}
    (hm : MatsOk m z.length (wz z) (wz z)) :
    ∃ c' m', gradStep f.precompute g nq d junk s (c, m) = .ok (c', m') ∧
      (CacheOk f x pt c' ∧ MatsOk m' z.length (wz z) (wz z)) ∧
      mvals z m' = mvals z m +
        fun q => gradTerm f pt g x s q.1.1.1 q.1.1.2 q.1.2.1 q.1.2.2 := by
  obtain ⟨p1, p2, p3⟩ := hf.ports pt hpt
  obtain ⟨_, a2, a3, a4, a5⟩ := basis_ok hf p1
  obtain ⟨_, c2, c3, c4, c5⟩ := basis_ok hf p2
  have hs' := hs
  obtain ⟨q1, q2, q3, t1', t2', q4, q5, q6, q7, q8, q9⟩ := hs
  rw [ht] at q4
  cases q4
  unfold gradStep
  dsimp only
  rw [tr_ok hd q1 ht, ok_bind, intPoint_eq q2 q3, ok_bind]
  cases hpre : f.precompute with
  | true =>
    simp only [if_true]
    obtain ⟨m', e1, e2, e3⟩ := addFour_ok hf hpt hm
      (u := g.fastGrad s.pre t1 t2 s.qp.toNat s.qw (coeffs f x pt.mesh1) (coeffs f x pt.mesh2))
      (t := fun i j r c => project2 (basisOf f (sideOf pt i)) (rowsOf f (sideOf pt i) (trSide t1 t2 i))
          (basisOf f (sideOf pt j)) (rowsOf f (sideOf pt j) (trSide t1 t2 j))
          (sampleGrad f pt g x s t1 t2 i j) r c)
      (fun i j hi hj sp h1 h2 => (hr hpre).grad x i j sp hi hj h1 h2)
    refine ⟨c, m', ?_, ⟨hc, e2⟩, ?_⟩
    · simp only [both, deref, ok_bind, pure_bind]
      rw [hd.x1, hd.x2, hd.port, e1]; rfl
    · rw [e3]
      congr 1
      funext q
      rw [gradTerm_eq ht]
  | false =>
    simp only [Bool.false_eq_true, if_false]
    obtain ⟨_, _, w3⟩ := q9 s.qw (lifted f x pt.mesh1 t1) (lifted f x pt.mesh2 t2)
    have rok : ∀ i, RowsOk (rowsOf f (sideOf pt i) (trSide t1 t2 i)) (basisOf f (sideOf pt i)).h := by
      intro i
      unfold sideOf trSide
      split <;> assumption
    have mok : ∀ i, MatOk (basisOf f (sideOf pt i)) := by
      intro i
      unfold sideOf
      split <;> assumption
    obtain ⟨m', e1, e2, e3⟩ := addFour_ok hf hpt hm
      (u := fun i j sp => addSubMatrixRtAPSparse (basisOf f (sideOf pt i))
        (rowsOf f (sideOf pt i) (trSide t1 t2 i)) (sampleGrad f pt g x s t1 t2 i j)
        (basisOf f (sideOf pt j)) (rowsOf f (sideOf pt j) (trSide t1 t2 j)) sp junk)
      (t := fun i j r c => project2 (basisOf f (sideOf pt i)) (rowsOf f (sideOf pt i) (trSide t1 t2 i))
          (basisOf f (sideOf pt j)) (rowsOf f (sideOf pt j) (trSide t1 t2 j))
          (sampleGrad f pt g x s t1 t2 i j) r c)
      (by
        intro i j hi hj sp h1 h2
        obtain ⟨o1, o2, o3⟩ := w3 i j hi hj
        obtain ⟨sp', g1, g2, g3, g4⟩ := addSubMatrixRtAPSparse_spec (basisOf f (sideOf pt i))
          (sampleGrad f pt g x s t1 t2 i j) (basisOf f (sideOf pt j)) sp
          (rowsOf f (sideOf pt i) (trSide t1 t2 i)) (rowsOf f (sideOf pt j) (trSide t1 t2 j)) junk
          (mok i) o1 (mok j) (rok i) (rok j) o2 o3 h1 h2
        exact ⟨sp', g1, g2, g3, fun r c hr hc => g4 r c (by omega) (by omega)⟩)
    refine ⟨⟨s.el, some (t1, t2), rowsOf f pt.mesh1 t1, rowsOf f pt.mesh2 t2, lifted f x pt.mesh1 t1,
      lifted f x pt.mesh2 t2⟩, m', ?_, ⟨fun _ => ⟨t1, t2, ht, rfl⟩, e2⟩, ?_⟩
    · rw [refresh_ok hf hpt hd junk hs' ht hc, ok_bind]
      simp only [both, deref, ok_bind, pure_bind]
      rw [hd.b1, hd.b2, hd.port]
      simp only [ok_bind]
      have : addFour pt.mesh1 pt.mesh2 (fun i j m => addSubMatrixRtAPSparse
          (if i = 0 then basisOf f pt.mesh1 else basisOf f pt.mesh2)
          (if i = 0 then rowsOf f pt.mesh1 t1 else rowsOf f pt.mesh2 t2)
          (g.grad t1 t2 t1 t2 s.qp.toNat s.qw (lifted f x pt.mesh1 t1) (lifted f x pt.mesh2 t2) i j)
          (if j = 0 then basisOf f pt.mesh1 else basisOf f pt.mesh2)
          (if j = 0 then rowsOf f pt.mesh1 t1 else rowsOf f pt.mesh2 t2) m junk) m = .ok m' := by
        rw [← e1]
        congr 1
        funext i j sp
        unfold sideOf trSide sampleGrad
        split <;> split <;> rfl
      rw [this]; rfl
    · rw [e3]
      congr 1
      funext q
      rw [gradTerm_eq ht]

theorem gradSamples_ok {f : Form P R δ} {z : List Nat} (hf : FormOk f z) {x : BlockVector R}
    {pt : Port} (hpt : pt ∈ f.ports) {d : PortData R δ} (hd : DataOk f x pt d) {g : Integ P R δ}
    {nq : Nat} (junk : Nat → R) {l : List (Sample P R)} (hl : ∀ s ∈ l, SampleOk f pt nq g s)
    (hr : f.precompute = true → ∀ s ∈ l, ∀ t1 t2, faceOf f pt s.el.toNat = some (t1, t2) →
      FastOk f pt g s t1 t2) {m : MatArr R} (hm : MatsOk m z.length (wz z) (wz z)) :
    ∃ m', gradSamples f.precompute g nq d junk l m = .ok m' ∧ MatsOk m' z.length (wz z) (wz z) ∧
      mvals z m' = mvals z m + (l.map fun s => fun q : MPos z =>
        gradTerm f pt g x s q.1.1.1 q.1.1.2 q.1.2.1 q.1.2.2).sum := by
  unfold gradSamples
  obtain ⟨⟨c, m'⟩, e, ⟨_, h1⟩, h2⟩ := loop_list_acc (l := l)
    (body := fun i (st : Cache R δ × MatArr R) => (do
      let sm ← rd l i
      gradStep f.precompute g nq d junk sm st : Outcome (Cache R δ × MatArr R)))
    (fun st => CacheOk f x pt st.1 ∧ MatsOk st.2 z.length (wz z) (wz z))
    (fun st => mvals z st.2)
    (fun s => fun q : MPos z => gradTerm f pt g x s q.1.1.1 q.1.1.2 q.1.2.1 q.1.2.2)
    (s := ((⟨-1, none, [], [], [], []⟩ : Cache R δ), m))
    ⟨fun h => absurd (show (0 : Int) ≤ -1 from h) (by decide), hm⟩ (by
      rintro k sm ⟨c, m1⟩ hmem hk ⟨hc, hm1⟩
      have hsm := hl sm hmem
      obtain ⟨t1, t2, ht⟩ : ∃ t1 t2, faceOf f pt sm.el.toNat = some (t1, t2) := by
        obtain ⟨_, _, _, t1, t2, h, _⟩ := hsm; exact ⟨t1, t2, h⟩
      obtain ⟨c', m', r1, r2, r3⟩ := gradStep_ok hf hpt hd junk hsm ht
        (fun hp => hr hp sm hmem t1 t2 ht) hc hm1
      refine ⟨(c', m'), ?_, r2, r3⟩
      rw [hk, ok_bind, r1])
  refine ⟨m', ?_, h1, h2⟩
  rw [e]; rfl

end Verif.EqpItf
