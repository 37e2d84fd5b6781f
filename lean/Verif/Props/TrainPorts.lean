import Verif.Props.TrainItf

/-! # Training of all reference ports, and the reduced interface residual: C91 -/

namespace Verif.TrainItf

open Verif Verif.LinAlg Verif.LinAlg.Spec Verif.Blocks Verif.TrainItf.Spec
open Finset hiding restrict
open Verif.InterfaceForm (Tr FMesh Space Port)
open Verif.InterfaceForm.Spec (dofsOf)
open Verif.Convection.Spec (project lift)
open Verif.Eqp (Sample)
open Verif.Eqp.Spec (restrict liftAll)
open Verif.EqpItf (Integ Form)
open Verif.EqpItf.Spec
open Verif.Training (cutoff)
open Verif.Training.Spec (Solves)
open Verif.Snapshots (Store BasisTag PortTag lookUpSnapshot lookUpPort)
open Verif.Snapshots.Spec (runSamples occurrences compOf portTagOf IsBlock)

variable {P R δ : Type} [Field R]

/-! ## Only the degrees of freedom of the spaces matter -/

theorem restrict_congr {u v : Nat → R} {rows : List Int} {n : Nat} (h : RowsOk rows n)
    (huv : ∀ r < n, u r = v r) : restrict u rows = restrict v rows := by
  unfold restrict
  refine List.map_congr_left fun k hk => huv _ ?_
  have hk := List.mem_range.1 hk
  have := h.2 _ (List.getElem_mem hk)
  unfold rowAt
  rw [List.getElem?_eq_getElem hk]
  simp only [Option.getD_some]
  omega

omit [Field R] in
theorem portOk_rows {f : RefForm P R δ} {rp : RefPort} (hp : PortOk f rp) {e : Nat} {t1 t2 : Tr δ}
    (he : faceOf (asForm f) (asPort rp) e = some (t1, t2)) {i : Nat} (hi : i < 2) :
    RowsOk (dofsAt (asForm f) (asPort rp) t1 t2 i) (spaceOf (asForm f) (sideOf (asPort rp) i)).vsize := by
  have hlt : e < rp.infos.length := by
    by_contra hc
    unfold faceOf at he
    rw [show (asPort rp).infos = rp.infos from rfl, List.getElem?_eq_none (by omega)] at he
    simp at he
  obtain ⟨t1', t2', h1, h2, h3⟩ := hp.faces e hlt
  rw [he] at h1
  cases h1
  unfold dofsAt dofsOf
  interval_cases i
  · show RowsOk (((spaceOf (asForm f) rp.c1).vdofs[t1.elem]?).getD []) (spaceOf (asForm f) rp.c1).vsize
    rw [List.getElem?_eq_getElem h2]
    exact hp.comp1.dofs _ (List.getElem_mem h2)
  · show RowsOk (((spaceOf (asForm f) rp.c2).vdofs[t2.elem]?).getD []) (spaceOf (asForm f) rp.c2).vsize
    rw [List.getElem?_eq_getElem h3]
    exact hp.comp2.dofs _ (List.getElem_mem h3)

theorem sidePoint_congr {f : RefForm P R δ} {rp : RefPort} (hp : PortOk f rp) {g : Integ P R δ}
    {u1 u2 v1 v2 : Nat → R} (h1 : ∀ r < (spaceOf (asForm f) rp.c1).vsize, u1 r = v1 r)
    (h2 : ∀ r < (spaceOf (asForm f) rp.c2).vsize, u2 r = v2 r) :
    sidePoint (asForm f) (asPort rp) g u1 u2 = sidePoint (asForm f) (asPort rp) g v1 v2 := by
  funext i e q w c
  unfold sidePoint
  cases he : faceOf (asForm f) (asPort rp) e with
  | none => rfl
  | some t =>
    obtain ⟨t1, t2⟩ := t
    dsimp only
    rw [restrict_congr (portOk_rows hp he (i := 0) (by omega)) h1,
      restrict_congr (portOk_rows hp he (i := 1) (by omega)) h2]

/-! ## Snapshot matrices -/

theorem snapshotMatrix_ok (n : Nat) (cols : List (List R)) : CMatOk (snapshotMatrix n cols) := by
  unfold CMatOk snapshotMatrix
  simp

theorem field_snapshot {n c k : Nat} {cols : List (List R)} {u : List R} (hk : k < n)
    (hc : cols[c]? = some u) : field (snapshotMatrix n cols) c k = ve u k := by
  have hlt := (List.getElem?_eq_some_iff.1 hc).1
  unfold field cent snapshotMatrix ve
  dsimp only
  have h1 : k * cols.length + c < n * cols.length := by
    calc k * cols.length + c < k * cols.length + cols.length := by omega
      _ = (k + 1) * cols.length := by ring
      _ ≤ _ := Nat.mul_le_mul_right _ hk
  rw [List.getElem?_map, List.getElem?_range h1, Option.map_some, Option.getD_some,
    Nat.mul_comm k, Nat.mul_add_mod, Nat.mod_eq_of_lt hlt, hc,
    Nat.mul_add_div (by omega), Nat.div_eq_of_lt hlt, Nat.add_zero]
  rfl

variable [LinearOrder R]

theorem trainPorts_body {t : Setting R} {w : Integ P R δ → List R} {n : Names} {st : Store (List R)}
    {f : RefForm P R δ} {p : Nat} {rp : RefPort} (hrp : f.ports[p]? = some rp) {tag1 tag2 : BasisTag}
    {cols1 cols2 : List (List R)} {pairs : List (Nat × Nat)}
    (h : Found n st rp tag1 tag2 cols1 cols2 pairs) :
    (do
      let rp ← rd f.ports p
      let n1 ← rd n.comps rp.c1
      let n2 ← rd n.comps rp.c2
      let tag1 ← n.tagOf rp.c1
      let tag2 ← n.tagOf rp.c2
      let snap1 ← lookUpSnapshot st tag1
      let snap2 ← secondSnapshots st tag1 tag2 snap1
      let pairs ← lookUpPort st ⟨n1, n2, rp.a1, rp.a2⟩
      trainRefPort t w (snapshotMatrix (n.dim tag1) snap1) (snapshotMatrix (n.dim tag2) snap2) pairs p f) =
    trainRefPort t w (snapshotMatrix (n.dim tag1) cols1) (snapshotMatrix (n.dim tag2) cols2) pairs p f := by
  obtain ⟨n1, n2, e1, e2, e3⟩ := h.names
  rw [rd_eq_ok.2 hrp, ok_bind, rd_eq_ok.2 e1, ok_bind, rd_eq_ok.2 e2, ok_bind, h.first, ok_bind, h.second,
    ok_bind, h.snaps1, ok_bind]
  have : secondSnapshots st tag1 tag2 cols1 = .ok cols2 := by
    unfold secondSnapshots
    split
    · rename_i hc
      have := (Snapshots.basisTag_order.2.2.2.2 tag1 tag2).1 hc
      have ht : tag1 = tag2 := by cases tag1; cases tag2; simp_all
      have h1 := h.snaps1
      rw [ht, h.snaps2] at h1
      cases h1
      rfl
    · exact h.snaps2
  rw [this, ok_bind, e3, ok_bind]

theorem found_unique {n : Names} {st : Store (List R)} {rp : RefPort} {tag1 tag2 tag1' tag2' : BasisTag}
    {cols1 cols2 cols1' cols2' : List (List R)} {pairs pairs' : List (Nat × Nat)}
    (h : Found n st rp tag1 tag2 cols1 cols2 pairs) (h' : Found n st rp tag1' tag2' cols1' cols2' pairs') :
    tag1 = tag1' ∧ tag2 = tag2' ∧ cols1 = cols1' ∧ cols2 = cols2' ∧ pairs = pairs' := by
  obtain ⟨n1, n2, e1, e2, e3⟩ := h.names
  obtain ⟨n1', n2', e1', e2', e3'⟩ := h'.names
  rw [e1] at e1'
  rw [e2] at e2'
  cases e1'
  cases e2'
  rw [e3] at e3'
  cases e3'
  have a := h.first.symm.trans h'.first
  cases a
  have a := h.second.symm.trans h'.second
  cases a
  have a := h.snaps1.symm.trans h'.snaps1
  cases a
  have a := h.snaps2.symm.trans h'.snaps2
  cases a
  exact ⟨rfl, rfl, rfl, rfl, rfl⟩

variable [IsStrictOrderedRing R]

/-- **C91.** Training goes over all reference ports: the samples of every integrator at every reference
port reproduce, up to the tolerance, the full quadrature at every pair of snapshots recorded for the
port, and every port uses the samples of its reference port. -/
theorem train_ports {t : Setting R} {w : Integ P R δ → List R} {n : Names} {st : Store (List R)}
    {f : RefForm P R δ} (hslots : Slots f) (hp : ∀ rp ∈ f.ports, PortOk f rp ∧ HasSnapshots f n st rp)
    (hint : ∀ g ∈ f.fnfi, ∃ g' nq, g = some g' ∧ (∀ rp ∈ f.ports, IntegOk (asForm f) (asPort rp) g' nq (w g')) ∧
      g'.rule = some nq ∧ ∀ q < nq, 0 ≤ ve (w g') q)
    (hsp : ∀ m, (t.split m).sum = m) (hsol : Solves t.solve) (ht : 0 ≤ t.tol) :
    ∃ f', trainPorts t w n st f = .ok f' ∧ Slots f' ∧
      (∃ refs views, f' = { f with refs := refs, views := views }) ∧
      ∀ (p it : Nat) rp g nq, f.ports[p]? = some rp → f.fnfi[it]? = some (some g) → g.rule = some nq →
        ∃ samples, f'.refs[p + it * f.ports.length]? = some (some samples) ∧
          (∀ k : Nat, f.types[k]? = some (p : Int) →
            f'.views[k + it * f.types.length]? = some (some samples)) ∧
          Good t w n st f rp g nq samples := by
  unfold trainPorts
  obtain ⟨f', e, h1, h2, h3⟩ := loop_total (n := f.ports.length)
    (body := fun p f => do
      let rp ← rd f.ports p
      let n1 ← rd n.comps rp.c1
      let n2 ← rd n.comps rp.c2
      let tag1 ← n.tagOf rp.c1
      let tag2 ← n.tagOf rp.c2
      let snap1 ← lookUpSnapshot st tag1
      let snap2 ← secondSnapshots st tag1 tag2 snap1
      let pairs ← lookUpPort st ⟨n1, n2, rp.a1, rp.a2⟩
      trainRefPort t w (snapshotMatrix (n.dim tag1) snap1) (snapshotMatrix (n.dim tag2) snap2) pairs p f)
    (fun m f' => Slots f' ∧ (∃ refs views, f' = { f with refs := refs, views := views }) ∧
      ∀ (p it : Nat) rp g nq, p < m → f.ports[p]? = some rp → f.fnfi[it]? = some (some g) →
        g.rule = some nq → ∃ samples, f'.refs[p + it * f.ports.length]? = some (some samples) ∧
          (∀ k : Nat, f.types[k]? = some (p : Int) →
            f'.views[k + it * f.types.length]? = some (some samples)) ∧
          Good t w n st f rp g nq samples)
    (s := f) ⟨hslots, ⟨_, _, rfl⟩, fun p it rp g nq h => absurd h (by omega)⟩ (by
      rintro m f1 hm ⟨h1, ⟨refs, views, rfl⟩, h3⟩
      have hrp : f.ports[m]? = some f.ports[m] := List.getElem?_eq_getElem hm
      generalize f.ports[m] = rp at hrp
      obtain ⟨hpo, tag1, tag2, cols1, cols2, pairs, hfound, hd1, hd2, hpairs⟩ :=
        hp rp (List.mem_of_getElem? hrp)
      have hpo' : PortOk { f with refs := refs, views := views } rp :=
        ⟨⟨hpo.comp1.mesh, hpo.comp1.fes, hpo.comp1.basis, hpo.comp1.dofs⟩,
          ⟨hpo.comp2.mesh, hpo.comp2.fes, hpo.comp2.basis, hpo.comp2.dofs⟩, hpo.faces⟩
      have hso : SnapsOk { f with refs := refs, views := views } rp (snapshotMatrix (n.dim tag1) cols1)
          (snapshotMatrix (n.dim tag2) cols2) pairs :=
        ⟨snapshotMatrix_ok _ _, snapshotMatrix_ok _ _, rfl, rfl, hd1, hd2, hpairs⟩
      obtain ⟨f2, val, e2, st2, v2⟩ := train_port_error (t := t) (w := w) (p := m)
        (f := { f with refs := refs, views := views }) hrp hpo' h1 hso (by
          intro g hg
          obtain ⟨g', nq, a1, a2, -, a3⟩ := hint g hg
          have a2 := a2 rp (List.mem_of_getElem? hrp)
          exact ⟨g', nq, a1, ⟨a2.rule, a2.weights, a2.vec, a2.linear⟩, a3⟩) hsp hsol ht
      refine ⟨f2, (trainPorts_body (f := { f with refs := refs, views := views }) hrp hfound).trans e2,
        st2.slots, ?_, ?_⟩
      · obtain ⟨s1, s2, s3, s4, s5, s6⟩ := st2.same
        refine ⟨f2.refs, f2.views, ?_⟩
        obtain ⟨a1, a2, a3, a4, a5, a6, a7, a8⟩ := f2
        simp only at s1 s2 s3 s4 s5 s6
        subst s1 s2 s3 s4 s5 s6
        rfl
      · intro p it rp' g nq hpm hrp' hg hr
        have hit := (List.getElem?_eq_some_iff.1 hg).1
        have hplt := (List.getElem?_eq_some_iff.1 hrp').1
        by_cases hpe : p = m
        · subst hpe
          rw [hrp] at hrp'
          cases hrp'
          obtain ⟨b1, b2⟩ := v2 it g nq hg hr
          refine ⟨val it, ?_, fun k hk => ?_, b1, ?_⟩
          · exact (st2.refs it p hit hplt).trans (if_pos rfl)
          · exact (st2.views it k _ hit hk).trans (if_pos rfl)
          · rintro u1 u2 ⟨tag1', tag2', cols1', cols2', pairs', pr, hf', hpr, c1, c2⟩
            obtain ⟨rfl, rfl, rfl, rfl, rfl⟩ := found_unique hfound hf'
            have hb := b2 pr hpr
            have hsc : sidePoint (asForm f) (asPort rp) g (ve u1) (ve u2) =
                sidePoint (asForm f) (asPort rp) g (field (snapshotMatrix (n.dim tag1) cols1) pr.1)
                  (field (snapshotMatrix (n.dim tag2) cols2) pr.2) :=
              sidePoint_congr hpo
                (fun r hr => (field_snapshot (Nat.lt_of_lt_of_le hr hd1) c1).symm)
                (fun r hr => (field_snapshot (Nat.lt_of_lt_of_le hr hd2) c2).symm)
            intro i c hi hc
            have := hb i c hi hc
            unfold allowed fullTest at this ⊢
            rw [hsc]
            exact this
        · obtain ⟨samples, c1, c2, c3⟩ := h3 p it rp' g nq (by omega) hrp' hg hr
          refine ⟨samples, ?_, fun k hk => ?_, c3⟩
          · refine (st2.refs it p hit hplt).trans ?_
            rw [if_neg hpe]
            exact c1
          · refine (st2.views it k _ hit hk).trans ?_
            rw [if_neg (by exact_mod_cast hpe)]
            exact c2 k hk)
  exact ⟨f', e, h1, h2, fun p it rp g nq hrp => h3 p it rp g nq (List.getElem?_eq_some_iff.1 hrp).1 hrp⟩

/-! ## The reduced interface residual -/

omit [LinearOrder R] [IsStrictOrderedRing R] in
/-- The term of a port that is an instance of a reference port, at a state that carries the fields
`u1` and `u2`. -/
theorem vecTerm_instance {f : RefForm P R δ} {rp : RefPort} (hp : PortOk f rp) {F : Form P R δ} {p : Port}
    {g : Integ P R δ} (hi : Instance (asForm f) (asPort rp) F p g) {x : BlockVector R} {u1 u2 : List R}
    (h1 : Carries F p x 0 (spaceOf (asForm f) rp.c1).vsize u1)
    (h2 : Carries F p x 1 (spaceOf (asForm f) rp.c2).vsize u2) {s : Sample P R} {e q : Nat} (he : s.el = e)
    (hq : s.qp = q) (hlt : e < rp.infos.length) {i : Nat} (hi2 : i < 2) (c : Nat) :
    vecTerm F p g x s (sideOf p i) c =
      sidePoint (asForm f) (asPort rp) g (ve u1) (ve u2) i e q s.qw c := by
  obtain ⟨t1, t2, f1, -, -⟩ := hp.faces e hlt
  obtain ⟨t1', t2', f2, fd, fv⟩ := hi.faces e t1 t2 f1
  have off0 : ∀ i < 2, 0 ≤ offOf (asForm f) (sideOf (asPort rp) i) := by
    intro i hi
    interval_cases i
    · exact compOk_off hp.comp1
    · exact compOk_off hp.comp2
  have rows : ∀ i < 2, rowsOf F (sideOf p i) (trSide t1' t2' i) =
      rowsOf (asForm f) (sideOf (asPort rp) i) (trSide t1 t2 i) := by
    intro i hi'
    unfold rowsOf
    rw [(hi.basis i hi').2]
    exact congrArg _ (fd i hi')
  have lifts : ∀ i < 2, ∀ u : List R,
      Carries F p x i (spaceOf (asForm f) (sideOf (asPort rp) i)).vsize u →
      lifted F x (sideOf p i) (trSide t1' t2' i) =
        restrict (ve u) (dofsAt (asForm f) (asPort rp) t1 t2 i) := by
    intro i hi' u hu
    unfold lifted
    rw [← Eqp.restrict_lift, rows i hi']
    have hr := portOk_rows hp f1 hi'
    refine List.ext_getElem? fun k => ?_
    unfold restrict
    have hlen : (rowsOf (asForm f) (sideOf (asPort rp) i) (trSide t1 t2 i)).length =
        (dofsAt (asForm f) (asPort rp) t1 t2 i).length := by
      unfold rowsOf dofsAt
      rw [List.length_map]
    rw [hlen]
    by_cases hk : k < (dofsAt (asForm f) (asPort rp) t1 t2 i).length
    · rw [List.getElem?_map, List.getElem?_map, List.getElem?_range hk, Option.map_some, Option.map_some]
      congr 1
      have hs : rowAt (rowsOf (asForm f) (sideOf (asPort rp) i) (trSide t1 t2 i)) k =
          (offOf (asForm f) (sideOf (asPort rp) i)).toNat +
            rowAt (dofsAt (asForm f) (asPort rp) t1 t2 i) k := rowAt_shift hr (off0 i hi') hk
      rw [hs, ← (hi.basis i hi').2]
      refine hu _ ?_
      have := hr.2 _ (List.getElem_mem hk)
      unfold rowAt
      rw [List.getElem?_eq_getElem hk]
      simp only [Option.getD_some]
      omega
    · rw [List.getElem?_eq_none (by simp; omega), List.getElem?_eq_none (by simp; omega)]
  have l0 := lifts 0 (by omega) u1 h1
  have l1 := lifts 1 (by omega) u2 h2
  unfold vecTerm sidePoint
  rw [he, Int.toNat_natCast, f2, f1]
  dsimp only
  unfold sampleVec
  simp only [fv]
  rw [hq, Int.toNat_natCast, show lifted F x p.mesh1 t1' = _ from l0,
    show lifted F x p.mesh2 t2' = _ from l1]
  have hne := hi.ne
  interval_cases i
  · have e1 : p.mesh1 = sideOf p 0 := rfl
    have e2 : p.mesh2 ≠ sideOf p 0 := fun h => hne h.symm
    rw [if_pos e1, if_neg e2, add_zero]
    have hb := (hi.basis 0 (by omega)).1
    have hr := rows 0 (by omega)
    exact congrArg₂ (fun b r => project b r _ c) hb hr
  · have e1 : p.mesh1 ≠ sideOf p 1 := hne
    have e2 : p.mesh2 = sideOf p 1 := rfl
    rw [if_neg e1, if_pos e2, zero_add]
    have hb := (hi.basis 1 (by omega)).1
    have hr := rows 1 (by omega)
    exact congrArg₂ (fun b r => project b r (g.vec t1 t2 q s.qw
      (restrict (ve u1) (dofsAt (asForm f) (asPort rp) t1 t2 0))
      (restrict (ve u2) (dofsAt (asForm f) (asPort rp) t1 t2 1)) 1) c) hb hr

omit [LinearOrder R] [IsStrictOrderedRing R] in
theorem vecTerm_other {F : Form P R δ} {p : Port} {g : Integ P R δ} {x : BlockVector R} {s : Sample P R}
    {m : Nat} (h1 : p.mesh1 ≠ m) (h2 : p.mesh2 ≠ m) (c : Nat) : vecTerm F p g x s m c = 0 := by
  unfold vecTerm
  split
  · rw [if_neg h1, if_neg h2, add_zero]
  · rfl

/-- **C91.** The samples of a reference port at a port of its type: at every reduced state that carries,
on the two sides of the port, a pair of snapshots recorded for the reference port, the contribution of
the samples to each reduced equation is the one of the full quadrature, up to the tolerance. -/
theorem port_error {t : Setting R} {w : Integ P R δ → List R} {n : Names} {st : Store (List R)}
    {f : RefForm P R δ} {rp : RefPort} (hp : PortOk f rp) {g : Integ P R δ} {nq : Nat}
    {samples : List (Sample P R)} (hgood : Good t w n st f rp g nq samples) {F : Form P R δ} {p : Port}
    (hi : Instance (asForm f) (asPort rp) F p g) {x : BlockVector R} {u1 u2 : List R}
    (hrec : Recorded n st rp u1 u2) (h1 : Carries F p x 0 (spaceOf (asForm f) rp.c1).vsize u1)
    (h2 : Carries F p x 1 (spaceOf (asForm f) rp.c2).vsize u2) {m c : Nat} (hc : c < (basisOf F m).w) :
    |(samples.map fun s => vecTerm F p g x s m c).sum - fullTerm F p g nq (w g) x m c| ≤
      termAllowed F p g nq (w g) t.tol x m c := by
  by_cases hm : ∃ i < 2, m = sideOf p i
  · obtain ⟨i, hi2, rfl⟩ := hm
    have e1 : (samples.map fun s => vecTerm F p g x s (sideOf p i) c) =
        samples.map fun s => sidePoint (asForm f) (asPort rp) g (ve u1) (ve u2) i s.el.toNat s.qp.toNat s.qw c := by
      refine List.map_congr_left fun s hs => ?_
      obtain ⟨e, q, a1, a2, a3, -, -⟩ := hgood.points s hs
      rw [vecTerm_instance hp hi h1 h2 a1 a3 a2 hi2, a1, a3, Int.toNat_natCast, Int.toNat_natCast]
    have e2 : ∀ v : Nat → R, ∀ T : R → R, ∑ e ∈ range p.infos.length, ∑ q ∈ range nq,
        T (vecTerm F p g x (⟨(e : Int), (q : Int), v q, none⟩ : Sample P R) (sideOf p i) c) =
        ∑ e ∈ range (asPort rp).infos.length, ∑ q ∈ range nq,
          T (sidePoint (asForm f) (asPort rp) g (ve u1) (ve u2) i e q (v q) c) := by
      intro v T
      rw [hi.count]
      refine sum_congr rfl fun e he => sum_congr rfl fun q _ => ?_
      rw [vecTerm_instance hp hi h1 h2 rfl rfl (mem_range.1 he) hi2]
    have e3 := e2 (ve (w g)) id
    have e4 := e2 (fun _ => 1) (fun v => |v|)
    have := hgood.error u1 u2 hrec i c hi2 (by rw [← (hi.basis i hi2).1]; exact hc)
    unfold termAllowed fullTerm
    unfold allowed fullTest at this
    simp only [id] at e3
    rw [e1, e3, e4]
    exact this
  · have hz : ∀ s : Sample P R, vecTerm F p g x s m c = 0 := fun s =>
      vecTerm_other (fun h => hm ⟨0, by omega, h.symm⟩) (fun h => hm ⟨1, by omega, h.symm⟩) c
    unfold termAllowed fullTerm
    simp [hz]

/-- **C91.** The trained interface residual as a whole: the online form uses the samples of training,
every port is an instance of the reference port of its type, and the reduced state carries, on the two
sides of every port, a pair of snapshots recorded for it.  Then every reduced equation differs from the
one with the full quadrature by at most the allowed error. -/
theorem residual_error {t : Setting R} {w : Integ P R δ → List R} {n : Names} {st : Store (List R)}
    {f : RefForm P R δ} (hslots : Slots f) (hp : ∀ rp ∈ f.ports, PortOk f rp ∧ HasSnapshots f n st rp)
    (hint : ∀ g ∈ f.fnfi, ∃ g' nq, g = some g' ∧ (∀ rp ∈ f.ports, IntegOk (asForm f) (asPort rp) g' nq (w g')) ∧
      g'.rule = some nq ∧ ∀ q < nq, 0 ≤ ve (w g') q)
    (hsp : ∀ m, (t.split m).sum = m) (hsol : Solves t.solve) (ht : 0 ≤ t.tol) :
    ∃ f', trainPorts t w n st f = .ok f' ∧
      ∀ (F : Form P R δ) (x : BlockVector R), F.fnfi = f.fnfi → F.samples = f'.views →
        F.ports.length = f.types.length →
        (∀ (k : Nat) p, F.ports[k]? = some p → ∃ (ty : Nat) (rp : RefPort) (u1 u2 : List R),
          f.types[k]? = some (ty : Int) ∧ f.ports[ty]? = some rp ∧
          (∀ g, some g ∈ f.fnfi → Instance (asForm f) (asPort rp) F p g) ∧ Recorded n st rp u1 u2 ∧
          Carries F p x 0 (spaceOf (asForm f) rp.c1).vsize u1 ∧
          Carries F p x 1 (spaceOf (asForm f) rp.c2).vsize u2) →
        ∀ m c, c < (basisOf F m).w →
          |formVec F x m c - overPorts F fun p g nq => fullTerm F p g nq (w g) x m c| ≤
            overPorts F fun p g nq => termAllowed F p g nq (w g) t.tol x m c := by
  obtain ⟨f', e, -, -, h⟩ := train_ports hslots hp hint hsp hsol ht
  refine ⟨f', e, fun F x hF hS hL hports m c hc => ?_⟩
  unfold formVec total overPorts
  rw [← sum_sub_distrib]
  refine (abs_sum_le_sum_abs _ _).trans (sum_le_sum fun it hit => ?_)
  rw [← sum_sub_distrib]
  refine (abs_sum_le_sum_abs _ _).trans (sum_le_sum fun k hk => ?_)
  have hit := mem_range.1 hit
  have hk := mem_range.1 hk
  obtain ⟨p, hpk⟩ : ∃ p, F.ports[k]? = some p := ⟨_, List.getElem?_eq_getElem hk⟩
  rw [hF] at hit ⊢
  obtain ⟨g, nq, g1, g2, g3, g4⟩ := hint _ (List.getElem_mem hit)
  have hg : f.fnfi[it]? = some (some g) := by rw [List.getElem?_eq_getElem hit, g1]
  rw [hg, hpk]
  dsimp only
  obtain ⟨ty, rp, u1, u2, k1, k2, k3, k4, k5, k6⟩ := hports k p hpk
  obtain ⟨samples, -, s2, s3⟩ := h ty it rp g nq k2 hg g3
  have hsamp : samplesAt F it k = samples := by
    unfold samplesAt
    rw [hS, hL, s2 k k1]
    rfl
  rw [hsamp, g3]
  exact port_error (hp rp (List.mem_of_getElem? k2)).1 s3 (k3 g (List.mem_of_getElem? hg)) k4 k5 k6 hc

/-! ## Where the pairs come from -/

omit [LinearOrder R] [IsStrictOrderedRing R] in
/-- **C91.** After collecting a history of samples: for a reference port that occurs in it, the
snapshots are found, and the solutions on the two sides of every occurrence, in every sample, are a
recorded pair. -/
theorem history_recorded {rom : Snapshots.Rom (List R)} {hist : List (Snapshots.Spec.Sample (List R))}
    {st : Store (List R)} (h : runSamples rom (Store.empty (List R)) hist = .ok st) {n : Names}
    {rp : RefPort} {n1 n2 var : String} (c1 : n.comps[rp.c1]? = some n1)
    (c2 : n.comps[rp.c2]? = some n2) (t1 : n.tagOf rp.c1 = .ok ⟨n1, var⟩) (t2 : n.tagOf rp.c2 = .ok ⟨n2, var⟩)
    (hvar : ∀ s ∈ hist, var ∈ s.vars) (hocc : occurrences hist ⟨n1, n2, rp.a1, rp.a2⟩ ≠ []) :
    (∃ cols1 cols2 pairs, Found n st rp ⟨n1, var⟩ ⟨n2, var⟩ cols1 cols2 pairs ∧
      ∀ pr ∈ pairs, pr.1 < cols1.length ∧ pr.2 < cols2.length) ∧
    ∀ s p v u1 u2, (s, p) ∈ occurrences hist ⟨n1, n2, rp.a1, rp.a2⟩ → s.vars[v]? = some var →
      s.blocks[p.mesh1 * s.vars.length + v]? = some u1 → s.blocks[p.mesh2 * s.vars.length + v]? = some u2 →
      Recorded n st rp u1 u2 := by
  obtain ⟨rows, hr, hall⟩ := Snapshots.portColumns_history h ⟨n1, n2, rp.a1, rp.a2⟩ hocc
  obtain ⟨C, hC, hall⟩ : ∃ C : BasisTag → List (List R),
      (∀ b (c : Nat) u, (C b)[c]? = some u → ∃ l, lookUpSnapshot st b = .ok l ∧ l[c]? = some u) ∧
      List.Forall₂ (fun row (o : Snapshots.Spec.Sample (List R) × Snapshots.Port) =>
        IsBlock C o.1 o.2.mesh1 row.1 ∧ IsBlock C o.1 o.2.mesh2 row.2) rows
        (occurrences hist ⟨n1, n2, rp.a1, rp.a2⟩) := by
    refine ⟨_, ?_, hall⟩
    intro b c u hu
    cases hl : lookUpSnapshot st b with
    | error _ => simp only [hl] at hu; simp at hu
    | ok l => simp only [hl] at hu; exact ⟨l, rfl, hu⟩
  have hcomp : ∀ s p, (s, p) ∈ occurrences hist ⟨n1, n2, rp.a1, rp.a2⟩ → s ∈ hist ∧
      compOf s.topo p.mesh1 = some n1 ∧ compOf s.topo p.mesh2 = some n2 := by
    intro s p hsp
    unfold occurrences at hsp
    obtain ⟨s', hs', hm⟩ := List.mem_flatMap.1 hsp
    obtain ⟨p', hp', hpe⟩ := List.mem_map.1 hm
    cases hpe
    have := of_decide_eq_true (List.mem_filter.1 hp').2
    unfold portTagOf at this
    split at this
    · rename_i a b ha hb
      simp only [Option.some.injEq, PortTag.mk.injEq] at this
      exact ⟨hs', this.1 ▸ ha, this.2.1 ▸ hb⟩
    · exact absurd this (by simp)
  have key : ∀ (o : Snapshots.Spec.Sample (List R) × Snapshots.Port) (v : Nat), o.1.vars[v]? = some var →
      ∀ (nm : String) (m col : Nat), compOf o.1.topo m = some nm →
      IsBlock C o.1 m col →
      ∃ cols u, lookUpSnapshot st ⟨nm, var⟩ = .ok cols ∧ cols[col]? = some u ∧
        o.1.blocks[m * o.1.vars.length + v]? = some u := by
    rintro o v hv nm m col hcm ⟨comp, b1, b2⟩
    rw [b1] at hcm
    cases hcm
    obtain ⟨b3, b4⟩ := b2 v _ hv
    obtain ⟨u, hu⟩ := Option.isSome_iff_exists.1 b4
    rw [hu] at b3
    obtain ⟨l, hl, hlc⟩ := hC _ _ _ b3
    exact ⟨l, u, hl, hlc, hu⟩
  have hlen := hall.length_eq
  have zipOf : ∀ k (hk : k < rows.length), ∃ hk' : k < (occurrences hist ⟨n1, n2, rp.a1, rp.a2⟩).length,
      (rows[k], (occurrences hist ⟨n1, n2, rp.a1, rp.a2⟩)[k]) ∈
        rows.zip (occurrences hist ⟨n1, n2, rp.a1, rp.a2⟩) := by
    intro k hk
    refine ⟨by omega, ?_⟩
    have : k < (rows.zip (occurrences hist ⟨n1, n2, rp.a1, rp.a2⟩)).length := by simp; omega
    have := List.getElem_mem this
    rwa [List.getElem_zip] at this
  have both : ∀ row o, (row, o) ∈ rows.zip (occurrences hist ⟨n1, n2, rp.a1, rp.a2⟩) → ∀ v,
      o.1.vars[v]? = some var → ∃ cols1 cols2 u1 u2, lookUpSnapshot st ⟨n1, var⟩ = .ok cols1 ∧
        lookUpSnapshot st ⟨n2, var⟩ = .ok cols2 ∧ cols1[row.1]? = some u1 ∧ cols2[row.2]? = some u2 ∧
        o.1.blocks[o.2.mesh1 * o.1.vars.length + v]? = some u1 ∧
        o.1.blocks[o.2.mesh2 * o.1.vars.length + v]? = some u2 := by
    intro row o hz v hv
    obtain ⟨i1, i2⟩ := (List.forall₂_iff_zip.1 hall).2 hz
    obtain ⟨-, m1, m2⟩ := hcomp o.1 o.2 (List.of_mem_zip hz).2
    obtain ⟨cols1, u1, a1, a2, a3⟩ := key o v hv n1 _ _ m1 i1
    obtain ⟨cols2, u2, b1, b2, b3⟩ := key o v hv n2 _ _ m2 i2
    exact ⟨cols1, cols2, u1, u2, a1, b1, a2, b2, a3, b3⟩
  have hne : 0 < rows.length := by
    rw [hlen]
    exact List.length_pos_iff.2 hocc
  have varAt : ∀ s ∈ hist, ∃ v : Nat, s.vars[v]? = some var := fun s hs =>
    List.mem_iff_getElem?.1 (hvar s hs)
  obtain ⟨k0, z0⟩ := zipOf 0 hne
  obtain ⟨v0, hv0⟩ := varAt _ (hcomp _ _ (List.of_mem_zip z0).2).1
  obtain ⟨cols1, cols2, -, -, l1, l2, -⟩ := both _ _ z0 v0 hv0
  have hfound : Found n st rp ⟨n1, var⟩ ⟨n2, var⟩ cols1 cols2 rows :=
    ⟨⟨n1, n2, c1, c2, hr⟩, t1, t2, l1, l2⟩
  refine ⟨⟨cols1, cols2, rows, hfound, fun pr hpr => ?_⟩, fun s p v u1 u2 hsp hv b1 b2 => ?_⟩
  · obtain ⟨k, hk, rfl⟩ := List.mem_iff_getElem.1 hpr
    obtain ⟨k', z⟩ := zipOf k hk
    obtain ⟨v, hv⟩ := varAt _ (hcomp _ _ (List.of_mem_zip z).2).1
    obtain ⟨d1, d2, u1, u2, a1, a2, a3, a4, -⟩ := both _ _ z v hv
    have e1 := l1.symm.trans a1
    cases e1
    have e2 := l2.symm.trans a2
    cases e2
    exact ⟨(List.getElem?_eq_some_iff.1 a3).1, (List.getElem?_eq_some_iff.1 a4).1⟩
  · obtain ⟨k, hk, hke⟩ := List.mem_iff_getElem.1 hsp
    obtain ⟨k', z⟩ := zipOf k (by omega)
    rw [hke] at z
    obtain ⟨d1, d2, w1, w2, a1, a2, a3, a4, a5, a6⟩ := both _ _ z v hv
    have e1 := l1.symm.trans a1
    cases e1
    have e2 := l2.symm.trans a2
    cases e2
    dsimp only at a5 a6
    rw [b1] at a5
    rw [b2] at a6
    cases a5
    cases a6
    exact ⟨_, _, _, _, _, rows[k], hfound, List.getElem_mem _, a3, a4⟩

/-! ## Without collected ports -/

omit [IsStrictOrderedRing R] in
/-- **C91, what does not hold.** Snapshots collected by basis (the default mode of collection) carry no
pairs of columns: training stops at the first reference port. -/
theorem basis_mode_stops {t : Setting R} {w : Integ P R δ → List R} {n : Names} {st : Store (List R)}
    {f : RefForm P R δ} {rom : Snapshots.Rom (List R)} {fs : Snapshots.FS (List R)} {tags : List BasisTag}
    {files : List (List String)} (hst : collectByBasis rom fs tags files = .ok st) (hne : f.ports ≠ [])
    (f' : RefForm P R δ) : trainPorts t w n st f ≠ .ok f' := by
  have hcols : st.portCols = [] := by
    unfold collectByBasis at hst
    refine loop_inv (fun _ st => st.portCols = []) rfl (fun j u v _ hu hv => ?_) hst
    obtain ⟨tag, -, hv⟩ := bind_eq_ok.1 hv
    obtain ⟨fl, -, hv⟩ := bind_eq_ok.1 hv
    unfold Snapshots.collectSnapshotsByBasis at hv
    obtain ⟨f0, -, hv⟩ := bind_eq_ok.1 hv
    obtain ⟨-, -, hv⟩ := bind_eq_ok.1 hv
    obtain ⟨u', hg, hv⟩ := bind_eq_ok.1 hv
    have hu' : u'.portCols = [] := by
      unfold Snapshots.ensureGenerator at hg
      split at hg
      · unfold Snapshots.addSnapshotGenerator at hg
        obtain ⟨-, -, hg⟩ := bind_eq_ok.1 hg
        obtain ⟨-, -, hg⟩ := bind_eq_ok.1 hg
        cases hg
        exact hu
      · cases hg
        exact hu
    refine loop_inv (fun _ st => st.portCols = []) hu' (fun j a b _ ha hb => ?_) hv
    obtain ⟨fn, -, hb⟩ := bind_eq_ok.1 hb
    split at hb
    · cases hb
    · obtain ⟨cols, -, hb⟩ := bind_eq_ok.1 hb
      obtain ⟨cols, -, hb⟩ := bind_eq_ok.1 hb
      obtain ⟨gens, -, hb⟩ := bind_eq_ok.1 hb
      cases hb
      exact ha
  have hport : ∀ tag, lookUpPort st tag = .error .abort := by
    intro tag
    unfold lookUpPort
    rw [hcols]
    rfl
  intro h
  have : f.ports.length = 0 := loop_inv (fun j _ => j = 0) rfl (fun j u v _ _ hv => by
    simp only [hport] at hv
    obtain ⟨_, -, hv⟩ := bind_eq_ok.1 hv
    obtain ⟨_, -, hv⟩ := bind_eq_ok.1 hv
    obtain ⟨_, -, hv⟩ := bind_eq_ok.1 hv
    obtain ⟨_, -, hv⟩ := bind_eq_ok.1 hv
    obtain ⟨_, -, hv⟩ := bind_eq_ok.1 hv
    obtain ⟨_, -, hv⟩ := bind_eq_ok.1 hv
    obtain ⟨_, -, hv⟩ := bind_eq_ok.1 hv
    cases hv) h
  exact hne (List.length_eq_zero_iff.1 this)

/-! ## A concrete case -/

/-- Two points; the vectors are linear in the weight. -/
def exInteg : Integ Unit ℚ Unit where
  rule := some 2
  vec _ _ q w u1 u2 i := [w * ((q + 1) * (ve u1 0 - ve u2 0)), w * (ve u1 1 * ve u2 1 + i)]
  grad _ _ _ _ _ _ _ _ _ _ := ⟨0, 0, []⟩
  fastVec _ _ _ _ _ _ _ _ _ := .error .ub
  fastGrad _ _ _ _ _ _ _ _ _ _ := .error .ub

/-- Two components joined by a reference port with two interfaces, used by two ports; the basis of the
first component has a leading row of another variable. -/
def exRef : RefForm Unit ℚ Unit where
  meshes := [EqpItf.exMesh, EqpItf.exMesh]
  fes := [some ⟨4, [[0, 1], [2, 3]]⟩, some ⟨4, [[0, 1], [2, 3]]⟩]
  basis := [some (⟨5, 1, [9, 1, 2, 3, 4]⟩, 1), some (⟨4, 2, [1, 0, 2, 0, 0, 5, 0, 7]⟩, 0)]
  fnfi := [some exInteg]
  ports := [⟨0, 1, 1, 2, [⟨0, 1, 0, 0⟩, ⟨1, 0, 0, 0⟩]⟩]
  types := [0, 0]
  refs := [none]
  views := [none, none]

def exNames : Names := ⟨["A", "B"], true, 2, [⟨"A", "vel"⟩, ⟨"A", "p"⟩, ⟨"B", "vel"⟩, ⟨"B", "p"⟩], fun _ => 4⟩

/-- Two samples on the domain A - B - A. -/
def exHist : List (Snapshots.Spec.Sample (List ℚ)) :=
  [⟨⟨[0, 1, 0], ["A", "B"], [⟨0, 1, 1, 2⟩, ⟨2, 1, 1, 2⟩]⟩, ["vel", "p"],
      [[1, 2, 3, 4], [8], [1, 5, 2, 7], [9], [2, 4, 6, 8], [7]]⟩,
    ⟨⟨[0, 1, 0], ["A", "B"], [⟨0, 1, 1, 2⟩, ⟨2, 1, 1, 2⟩]⟩, ["vel", "p"],
      [[0, 2, 3, 4], [8], [1, 5, 0, 7], [9], [2, 4, 6, 0], [7]]⟩]

/-- The domain A - B - A with the samples of training. -/
def exForm (views : List (Option (List (Sample Unit ℚ)))) : Form Unit ℚ Unit where
  meshes := [EqpItf.exMesh, EqpItf.exMesh, EqpItf.exMesh]
  fes := [⟨4, [[0, 1], [2, 3]]⟩, ⟨4, [[0, 1], [2, 3]]⟩, ⟨4, [[0, 1], [2, 3]]⟩]
  basis := [some (⟨5, 1, [9, 1, 2, 3, 4]⟩, 1), some (⟨4, 2, [1, 0, 2, 0, 0, 5, 0, 7]⟩, 0),
    some (⟨5, 1, [9, 1, 2, 3, 4]⟩, 1)]
  offsets := some [0, 1, 3, 4]
  precompute := false
  fnfi := [some exInteg]
  ports := [⟨0, 1, [⟨0, 1, 0, 0⟩, ⟨1, 0, 0, 0⟩]⟩, ⟨2, 1, [⟨0, 1, 0, 0⟩, ⟨1, 0, 0, 0⟩]⟩]
  samples := views

theorem exRef_ok : ∀ rp ∈ exRef.ports, PortOk exRef rp := by
  intro rp hrp
  rw [List.mem_singleton.1 hrp]
  refine ⟨⟨by decide, ⟨_, rfl⟩, ⟨_, _, rfl, by decide, by unfold MatOk; decide, by decide⟩, ?_⟩,
    ⟨by decide, ⟨_, rfl⟩, ⟨_, _, rfl, by decide, by unfold MatOk; decide, by decide⟩, ?_⟩, ?_⟩
  · unfold RowsOk; decide
  · unfold RowsOk; decide
  · intro e he
    have : e < 2 := he
    interval_cases e
    · exact ⟨_, _, rfl, by decide, by decide⟩
    · exact ⟨_, _, rfl, by decide, by decide⟩

theorem exInteg_ok : ∀ rp ∈ exRef.ports, IntegOk (asForm exRef) (asPort rp) exInteg 2 [1, 1 / 2] := by
  intro rp hrp
  rw [List.mem_singleton.1 hrp]
  have hd : ∀ e t1 t2, faceOf (asForm exRef) (asPort ⟨0, 1, 1, 2, [⟨0, 1, 0, 0⟩, ⟨1, 0, 0, 0⟩]⟩) e =
      some (t1, t2) → ∀ i, i < 2 →
      (dofsAt (asForm exRef) (asPort ⟨0, 1, 1, 2, [⟨0, 1, 0, 0⟩, ⟨1, 0, 0, 0⟩]⟩) t1 t2 i).length = 2 := by
    intro e t1 t2 he i hi
    rcases e with _ | _ | e
    · cases he; interval_cases i <;> rfl
    · cases he; interval_cases i <;> rfl
    · simp [faceOf, asPort] at he
  refine ⟨rfl, le_rfl, fun e t1 t2 he q v u1 u2 i hi => ?_, fun e t1 t2 he q v u1 u2 i k hi hk => ?_⟩
  · rw [hd e t1 t2 he i hi]; rfl
  · rw [hd e t1 t2 he i hi] at hk
    interval_cases k <;> simp [exInteg, ve]

theorem exSlots : Slots exRef := ⟨rfl, rfl⟩

theorem exHist_ok : ∀ s ∈ exHist, Snapshots.Spec.WellFormed ["vel", "p"] s := by
  intro s hs
  simp only [exHist, List.mem_cons, List.not_mem_nil, or_false] at hs
  rcases hs with rfl | rfl <;> refine ⟨rfl, by decide, fun m hm => ?_, by decide, rfl⟩ <;>
    (have hm : m < 3 := hm) <;> interval_cases m <;> decide +kernel

theorem exHist_ports (k : Nat) (hk : k < 2) :
    ∃ p, (exHist[0], p) ∈ occurrences exHist ⟨"A", "B", 1, 2⟩ ∧ p.mesh1 = 2 * k ∧ p.mesh2 = 1 := by
  refine ⟨⟨2 * k, 1, 1, 2⟩, ?_, rfl, rfl⟩
  unfold occurrences
  refine List.mem_flatMap.2
    ⟨exHist[0], List.getElem_mem _, List.mem_map.2 ⟨_, List.mem_filter.2 ⟨?_, ?_⟩, rfl⟩⟩
  · interval_cases k <;> simp [exHist]
  · interval_cases k <;> decide +kernel

theorem exHist_occ : occurrences exHist ⟨"A", "B", 1, 2⟩ ≠ [] := by
  obtain ⟨p, h, -⟩ := exHist_ports 0 (by omega)
  exact List.ne_nil_of_mem h

/-- The samples are collected, and both solutions at the first port of the first sample are a recorded
pair. -/
theorem exHist_recorded : ∃ st, runSamples ⟨10, fun _ => true⟩ (Store.empty (List ℚ)) exHist = .ok st ∧
    (∀ rp ∈ exRef.ports, PortOk exRef rp ∧ HasSnapshots exRef exNames st rp) ∧
    ∀ rp ∈ exRef.ports, Recorded exNames st rp [1, 2, 3, 4] [1, 5, 2, 7] ∧
      Recorded exNames st rp [2, 4, 6, 8] [1, 5, 2, 7] := by
  obtain ⟨st, hst⟩ := Snapshots.portColumns_succeeds (rom := ⟨10, fun _ => true⟩) (vars := ["vel", "p"])
    (hist := exHist) (by decide +kernel) (by decide +kernel) exHist_ok (fun _ _ _ _ => rfl) (fun c => by
      unfold Snapshots.Spec.compCount
      rw [List.length_flatMap]
      refine (List.sum_le_sum (l := exHist) (g := fun s => s.topo.meshType.length) fun s _ => ?_).trans
        (by decide +kernel)
      exact (List.length_filter_le _ _).trans (by rw [List.length_range]))
  have hrec := history_recorded hst (n := exNames) (rp := ⟨0, 1, 1, 2, [⟨0, 1, 0, 0⟩, ⟨1, 0, 0, 0⟩]⟩)
      (n1 := "A") (n2 := "B") (var := "vel") rfl rfl rfl rfl (by decide +kernel) exHist_occ
  refine ⟨st, hst, fun rp hrp => ⟨exRef_ok rp hrp, ?_⟩, fun rp hrp => ?_⟩
  all_goals rw [List.mem_singleton.1 hrp]
  · obtain ⟨⟨cols1, cols2, pairs, h1, h2⟩, -⟩ := hrec
    exact ⟨_, _, cols1, cols2, pairs, h1, by decide, by decide, h2⟩
  · have h := hrec.2
    obtain ⟨p, p1, p2, p3⟩ := exHist_ports 0 (by omega)
    obtain ⟨q, q1, q2, q3⟩ := exHist_ports 1 (by omega)
    exact ⟨h _ p 0 _ _ p1 rfl (by rw [p2]; rfl) (by rw [p3]; rfl),
      h _ q 0 _ _ q1 rfl (by rw [q2]; rfl) (by rw [q3]; rfl)⟩

theorem exCarries {views : List (Option (List (Sample Unit ℚ)))} (a i n : Nat) (u : List ℚ)
    (h : ∀ r < n, liftField (basisOf (exForm []) (sideOf ⟨a, 1, []⟩ i)) (offOf (exForm []) (sideOf ⟨a, 1, []⟩ i))
      (coeffs (exForm []) ⟨[1, 1, 1, 2], [0, 1, 3, 4]⟩ (sideOf ⟨a, 1, []⟩ i)) r = ve u r) :
    Carries (exForm views) ⟨a, 1, [⟨0, 1, 0, 0⟩, ⟨1, 0, 0, 0⟩]⟩ ⟨[1, 1, 1, 2], [0, 1, 3, 4]⟩ i n u := h

/-- All the hypotheses of `residual_error` hold for the example, at the reduced state of the first
sample. -/
example : ∃ (st : Store (List ℚ)) (solve : List (CMat ℚ) → List ℚ → List ℚ → List (List ℚ))
    (f' : RefForm Unit ℚ Unit),
    trainPorts ⟨fun m => [m / 2, m - m / 2], 1 / 100, solve, 0⟩ (fun _ => [1, 1 / 2]) exNames st exRef = .ok f' ∧
    ∀ m c, c < (basisOf (exForm f'.views) m).w →
      |formVec (exForm f'.views) ⟨[1, 1, 1, 2], [0, 1, 3, 4]⟩ m c -
        overPorts (exForm f'.views) fun p g nq => fullTerm (exForm f'.views) p g nq [1, 1 / 2]
          ⟨[1, 1, 1, 2], [0, 1, 3, 4]⟩ m c| ≤
      overPorts (exForm f'.views) fun p g nq => termAllowed (exForm f'.views) p g nq [1, 1 / 2] (1 / 100)
          ⟨[1, 1, 1, 2], [0, 1, 3, 4]⟩ m c := by
  obtain ⟨st, -, h2, h3⟩ := exHist_recorded
  obtain ⟨solve, hs, -⟩ := Training.exists_solver (R := ℚ)
  obtain ⟨f', e, h⟩ := residual_error (t := ⟨fun m => [m / 2, m - m / 2], 1 / 100, solve, 0⟩)
    (w := fun _ : Integ Unit ℚ Unit => [1, 1 / 2]) (n := exNames) (st := st) (f := exRef) exSlots h2
    (by
      intro g hg
      rw [List.mem_singleton.1 hg]
      refine ⟨exInteg, 2, rfl, exInteg_ok, rfl, fun q hq => ?_⟩
      interval_cases q
      · exact zero_le_one
      · show (0 : ℚ) ≤ 1 / 2
        norm_num)
    (fun m => by show m / 2 + (m - m / 2 + 0) = m; omega) hs (by norm_num)
  refine ⟨st, solve, f', e, h (exForm f'.views) _ rfl rfl rfl fun k p hk => ?_⟩
  have hrec := h3 _ (List.mem_singleton.2 rfl)
  have inst : ∀ (a : Nat), (a = 0 ∨ a = 2) → ∀ g, some g ∈ exRef.fnfi →
      Instance (asForm exRef) (asPort ⟨0, 1, 1, 2, [⟨0, 1, 0, 0⟩, ⟨1, 0, 0, 0⟩]⟩) (exForm f'.views)
        ⟨a, 1, [⟨0, 1, 0, 0⟩, ⟨1, 0, 0, 0⟩]⟩ g := by
    intro a ha g hg
    have hg : g = exInteg := by
      have := List.mem_singleton.1 hg
      exact Option.some.inj this
    subst hg
    refine ⟨by rcases ha with rfl | rfl <;> simp, rfl, fun i hi => ?_, fun e t1 t2 he => ?_⟩
    · rcases ha with rfl | rfl <;> interval_cases i <;> exact ⟨rfl, rfl⟩
    · rcases e with _ | _ | e
      · cases he
        rcases ha with rfl | rfl <;> refine ⟨_, _, rfl, fun i hi => ?_, fun _ _ _ _ _ => rfl⟩ <;>
          interval_cases i <;> rfl
      · cases he
        rcases ha with rfl | rfl <;> refine ⟨_, _, rfl, fun i hi => ?_, fun _ _ _ _ _ => rfl⟩ <;>
          interval_cases i <;> rfl
      · simp [faceOf, asPort] at he
  rcases k with _ | _ | k
  · cases hk
    refine ⟨0, _, _, _, rfl, rfl, inst 0 (Or.inl rfl), hrec.1, ?_, ?_⟩
    · exact exCarries 0 0 4 _ (by decide +kernel)
    · exact exCarries 0 1 4 _ (by decide +kernel)
  · cases hk
    refine ⟨0, _, _, _, rfl, rfl, inst 2 (Or.inr rfl), hrec.2, ?_, ?_⟩
    · exact exCarries 2 0 4 _ (by decide +kernel)
    · exact exCarries 2 1 4 _ (by decide +kernel)
  · simp [exForm] at hk

/-- Snapshots collected by basis for the two components. -/
example : ((collectByBasis ⟨10, fun _ => true⟩
      (fun s => if s = "a" then some [[1, 2]] else some [[(3 : ℚ), 4]])
      [⟨"A", "vel"⟩, ⟨"B", "vel"⟩] [["a"], ["b"]]).map fun st => (st.gens, st.portCols)) =
    .ok ([[[1, 2]], [[3, 4]]], []) := by decide +kernel

end Verif.TrainItf
