import Verif.Spec.Training
import Verif.Props.Eqp
import Verif.Proofs.Views

/-! # Lemmas on training -/

namespace Verif.Training

open Verif Verif.LinAlg Verif.LinAlg.Spec Verif.Convection.Spec Verif.Eqp.Spec Verif.Training.Spec Finset
open Verif.Eqp (Sample Integ Space Kind Entry Form at_eq rdI_get)
open Verif.InterfaceForm (getSubVector_eq)
open Verif.InterfaceForm.Spec (gather dofPos dofSign)

variable {P R : Type}

/-! ## The entities -/

theorem loop_filter {n : Nat} {body : Nat → List Nat → Outcome (List Nat)} {p : Nat → Prop}
    [DecidablePred p]
    (h : ∀ k < n, ∀ acc, body k acc = .ok (if p k then acc ++ [k] else acc)) :
    loop n body [] = .ok ((List.range n).filter fun k => p k) := by
  rw [loop_spec (fun k => (List.range k).filter fun k => p k) (by simp)]
  intro k hk
  rw [h k hk, List.range_succ, List.filter_append]
  by_cases hp : p k <;> simp [hp]

theorem candidates_eq {sp : Space} {n : Nat} (hs : SpaceOk sp n) {kind : Kind} (hm : MarkerOk sp kind) :
    candidates sp kind = .ok (entitiesOf sp kind) := by
  classical
  cases kind with
  | domain =>
    unfold candidates entitiesOf
    dsimp only
    congr 1
    symm
    refine List.filter_eq_self.2 ?_
    intro k hk
    rw [List.mem_range] at hk
    have hk : k < sp.elems.length := hk
    simp only [decide_eq_true_eq]
    exact ⟨trivial, by dsimp only [rowsOf]; simp [hk]⟩
  | interior =>
    unfold candidates entitiesOf
    dsimp only
    refine loop_filter fun k hk acc => ?_
    rw [rd_of_lt hk]
    show Except.ok _ = _
    congr 1
    have : (sp.faces[k].isSome = true) ↔ (Acts sp Kind.interior k ∧ rowsOf sp Kind.interior k ≠ none) := by
      dsimp only [Acts, rowsOf]
      rw [List.getElem?_eq_getElem hk]
      cases hf : sp.faces[k] with
      | none => simp
      | some e =>
        obtain ⟨e1, e2⟩ := e
        obtain ⟨h1, h2⟩ := hs.faces e1 e2 (hf ▸ List.getElem_mem hk)
        simp [h1, h2]
    simp only [this]
  | boundary m =>
    unfold candidates entitiesOf
    dsimp only
    refine loop_filter fun k hk acc => ?_
    rw [rd_of_lt hk]
    have hrow : (sp.bdrs[k].2.isSome = true) ↔ rowsOf sp (Kind.boundary m) k ≠ none := by
      dsimp only [rowsOf]
      rw [List.getElem?_eq_getElem hk]
      cases hf : sp.bdrs[k] with
      | mk a o =>
        cases o with
        | none => simp
        | some e => simp [hs.bdrs a e (hf ▸ List.getElem_mem hk)]
    cases m with
    | none =>
      show Except.ok _ = _
      simp only [hrow, Acts, true_and]
    | some m =>
      obtain ⟨h1, h2⟩ := hm sp.bdrs[k] (List.getElem_mem hk)
      have hlt : (sp.bdrs[k].1 - 1).toNat < m.length := by omega
      have hv : rdI m (sp.bdrs[k].1 - 1) = .ok m[(sp.bdrs[k].1 - 1).toNat] :=
        rdI_get (by omega) (List.getElem?_eq_getElem hlt)
      have ha : (Acts sp (Kind.boundary (some m)) k) ↔ m[(sp.bdrs[k].1 - 1).toNat] ≠ 0 := by
        dsimp only [Acts]
        rw [List.getElem?_eq_getElem hk]
        constructor
        · rintro ⟨a, e, v, g1, g2, g3, g4⟩
          have g1 : sp.bdrs[k].1 = a := by rw [Option.some.inj g1]
          rw [← g1, List.getElem?_eq_getElem hlt] at g3
          cases g3; exact g4
        · intro h
          exact ⟨_, _, _, rfl, h1, List.getElem?_eq_getElem hlt, h⟩
      simp only [ok_bind, hv]
      simp only [ha, ← hrow]
      by_cases h0 : m[(sp.bdrs[k].1 - 1).toNat] = 0
      · simp only [h0, if_true, ne_eq, not_true_eq_false, false_and, if_false]
      · simp only [h0, if_false, ne_eq, not_false_eq_true, true_and]
        rfl

theorem mem_entitiesOf {sp : Space} {kind : Kind} {el : Nat} :
    el ∈ entitiesOf sp kind ↔ el < count sp kind ∧ Acts sp kind el ∧ rowsOf sp kind el ≠ none := by
  classical
  unfold entitiesOf
  simp [List.mem_filter]

theorem entitiesOf_sorted (sp : Space) (kind : Kind) : (entitiesOf sp kind).Pairwise (· < ·) := by
  classical
  unfold entitiesOf
  exact List.Pairwise.filter _ List.pairwise_lt_range

theorem rowsOf_ok {sp : Space} {n : Nat} (hs : SpaceOk sp n) {kind : Kind} {el : Nat} {rows : List Int}
    (h : rowsOf sp kind el = some rows) : RowsOk rows n := by
  cases kind with
  | domain => exact hs.elems _ (List.mem_of_getElem? h)
  | interior =>
    dsimp only [rowsOf] at h
    split at h
    · split at h
      · rename_i h1 h2
        cases h
        obtain ⟨a1, a2⟩ := hs.elems _ (List.mem_of_getElem? h1)
        obtain ⟨b1, b2⟩ := hs.elems _ (List.mem_of_getElem? h2)
        refine ⟨by simp [a1], fun r hr => ?_⟩
        rcases List.mem_append.1 hr with hr | hr
        · exact a2 r hr
        · exact b2 r hr
      · cases h
    · cases h
  | boundary m =>
    dsimp only [rowsOf] at h
    split at h
    · exact hs.elems _ (List.mem_of_getElem? h)
    · cases h

/-! ## Filling the matrix -/

section
variable [CommRing R]

theorem gather_rows {u : Nat → R} {rows : List Int} {n : Nat} (h : RowsOk rows n) :
    gather u rows = Eqp.Spec.restrict u rows := by
  unfold gather Eqp.Spec.restrict
  apply List.ext_getElem?
  intro k
  rw [List.getElem?_map, show (List.range rows.length).map (fun k => u (rowAt rows k)) =
    tab rows.length (fun k => u (rowAt rows k)) from rfl, getElem?_tab]
  by_cases hk : k < rows.length
  · have h0 := (h.2 _ (List.getElem_mem hk)).1
    rw [if_pos hk, List.getElem?_eq_getElem hk, Option.map_some]
    unfold rowAt dofPos dofSign
    rw [List.getElem?_eq_getElem hk, if_neg (by omega), if_neg (by omega)]
    simp
  · rw [if_neg hk, List.getElem?_eq_none (by omega)]; rfl

theorem getSub_rows {u : Nat → R} {rows : List Int} {n : Nat} (h : RowsOk rows n) :
    getSubVector (tab n u) rows = .ok (Eqp.Spec.restrict u rows) := by
  rw [getSubVector_eq (x := u), gather_rows h]
  intro d hd
  obtain ⟨h0, h1⟩ := h.2 d hd
  unfold dofPos
  rw [if_neg (by omega)]
  omega

theorem quadVectors_eq {sp : Space} {kind : Kind} {g : Integ P R} (hv : VecOk sp kind g) {nq e : Nat}
    {rows : List Int} (hr : rowsOf sp kind e = some rows) (elx : List R) :
    quadVectors g nq e rows elx = .ok ((List.range nq).map fun q => g.vec e e q 1 elx) := by
  unfold quadVectors
  rw [loop_spec (fun k => (List.range k).map fun q => g.vec e e q 1 elx) (by simp)]
  intro k _
  rw [if_pos (hv e rows hr k 1 elx), List.range_succ]
  simp

/-- The entries of `Reg` become those of `T`, the others stay. -/
def Step (T : Nat → Nat → R) (Reg : Nat → Nat → Prop) (a b : CMat R) : Prop :=
  b.rows = a.rows ∧ b.cols = a.cols ∧ b.data.length = a.data.length ∧
  ∀ r c, r < a.rows → c < a.cols → (Reg r c → cent b r c = T r c) ∧ (¬ Reg r c → cent b r c = cent a r c)

theorem Step.mono {T : Nat → Nat → R} {Reg Reg' : Nat → Nat → Prop} {a b : CMat R} (h : Step T Reg a b)
    (hr : ∀ r c, r < a.rows → c < a.cols → (Reg r c ↔ Reg' r c)) : Step T Reg' a b := by
  obtain ⟨h1, h2, h3, h4⟩ := h
  refine ⟨h1, h2, h3, fun r c hr' hc => ?_⟩
  rw [← hr r c hr' hc]
  exact h4 r c hr' hc

theorem put_step {T : Nat → Nat → R} {m : CMat R} (hm : CMatOk m) {i j : Nat} (hi : i < m.rows)
    (hj : j < m.cols) :
    ∃ m', put m i j (T i j) = .ok m' ∧ CMatOk m' ∧ Step T (fun r c => r = i ∧ c = j) m m' := by
  unfold put
  rw [if_pos ⟨hi, hj⟩]
  have hlt : ∀ r c, r < m.rows → c < m.cols → r * m.cols + c < m.data.length := by
    intro r c hr hc
    unfold CMatOk at hm
    rw [hm]
    calc r * m.cols + c < r * m.cols + m.cols := by omega
      _ = (r + 1) * m.cols := by ring
      _ ≤ m.rows * m.cols := Nat.mul_le_mul_right _ hr
  rw [wr_of_lt (hlt i j hi hj)]
  refine ⟨_, rfl, ?_, rfl, rfl, by simp, ?_⟩
  · unfold CMatOk at *; simpa using hm
  · intro r c hr hc
    unfold cent
    dsimp only
    rw [ve_set (hlt i j hi hj)]
    constructor
    · rintro ⟨rfl, rfl⟩; simp
    · intro hne
      rw [if_neg]
      intro he
      apply hne
      have h1 : (i * m.cols + j) / m.cols = (r * m.cols + c) / m.cols := by rw [he]
      rw [Nat.mul_comm, Nat.mul_add_div (by omega), Nat.mul_comm r, Nat.mul_add_div (by omega),
        Nat.div_eq_of_lt hj, Nat.div_eq_of_lt hc] at h1
      simp only [Nat.add_zero] at h1
      subst h1
      exact ⟨rfl, by omega⟩

theorem loop_step {T : Nat → Nat → R} {n : Nat} {body : Nat → CMat R → Outcome (CMat R)}
    {Reg : Nat → Nat → Nat → Prop} {m : CMat R} (hm : CMatOk m)
    (h : ∀ k < n, ∀ a, CMatOk a → a.rows = m.rows → a.cols = m.cols →
      ∃ b, body k a = .ok b ∧ CMatOk b ∧ Step T (Reg k) a b) :
    ∃ m', loop n body m = .ok m' ∧ CMatOk m' ∧ Step T (fun r c => ∃ k < n, Reg k r c) m m' := by
  classical
  obtain ⟨m', e, h1, h2⟩ := loop_total (n := n) (body := body)
    (fun k a => CMatOk a ∧ Step T (fun r c => ∃ k' < k, Reg k' r c) m a) (s := m)
    ⟨hm, rfl, rfl, rfl, fun r c _ _ => ⟨fun ⟨k, hk, _⟩ => absurd hk (by omega), fun _ => rfl⟩⟩ (by
      rintro k a hk ⟨ha, hs⟩
      obtain ⟨s1, s2, s3, s4⟩ := hs
      obtain ⟨b, e, hb, t1, t2, t3, t4⟩ := h k hk a ha s1 s2
      refine ⟨b, e, hb, by rw [t1, s1], by rw [t2, s2], by rw [t3, s3], fun r c hr hc => ?_⟩
      obtain ⟨u1, u2⟩ := s4 r c hr hc
      obtain ⟨v1, v2⟩ := t4 r c (by rw [s1]; exact hr) (by rw [s2]; exact hc)
      by_cases hreg : Reg k r c
      · exact ⟨fun _ => v1 hreg, fun hn => absurd ⟨k, by omega, hreg⟩ hn⟩
      · rw [v2 hreg]
        constructor
        · rintro ⟨k', hk', hr'⟩
          by_cases hkk : k' = k
          · subst hkk; exact absurd hr' hreg
          · exact u1 ⟨k', by omega, hr'⟩
        · intro hn
          exact u2 fun ⟨k', hk', hr'⟩ => hn ⟨k', by omega, hr'⟩)
  exact ⟨m', e, h1, h2⟩

theorem get_snap {s : CMat R} (hs : CMatOk s) {k i : Nat} (hk : k < s.rows) (hi : i < s.cols) :
    s.get (k : Int) (i : Int) = .ok (cent s k i) := by
  unfold CMat.get
  rw [if_pos ⟨by omega, by omega, by omega, by omega⟩]
  have : k * s.cols + i < s.data.length := by
    unfold CMatOk at hs
    rw [hs]
    calc k * s.cols + i < k * s.cols + s.cols := by omega
      _ = (k + 1) * s.cols := by ring
      _ ≤ s.rows * s.cols := Nat.mul_le_mul_right _ hk
  simp only [Int.toNat_natCast]
  rw [rd_ve this]; rfl

theorem snapshot_eq {s : CMat R} (hs : CMatOk s) {n i : Nat} (hn : n ≤ s.rows) (hi : i < s.cols) :
    loop n (fun k v => do
      let a ← s.get (k : Int) (i : Int)
      return v ++ [a]) [] = .ok (tab n (fun k => cent s k i)) := by
  rw [loop_spec (fun k => tab k (fun k => cent s k i)) (by simp [tab])]
  intro k hk
  rw [get_snap hs (by omega) hi]
  unfold tab
  rw [List.range_succ, List.map_append]; rfl

theorem basis_col {b : Mat R} (hb : MatOk b) {n j : Nat} (hn : n ≤ b.h) (hj : j < b.w) :
    getSeg b.data (j * b.h) n = .ok (tab n (fun k => ent b k j)) := by
  unfold MatOk at hb
  rw [getSeg_eq]
  · congr 1
    refine tab_congr fun k _ => ?_
    unfold ent; rw [Nat.add_comm]
  · calc j * b.h + n ≤ j * b.h + b.h := by omega
      _ = b.h * (j + 1) := by ring
      _ ≤ b.h * b.w := Nat.mul_le_mul_left _ hj
      _ ≤ _ := hb

theorem dot_point {sp : Space} {kind : Kind} {g : Integ P R} {b : Mat R} {rows : List Int}
    {e : Nat} (hr : rowsOf sp kind e = some rows) (u : Nat → R) (q j : Nat) :
    ∑ k ∈ range rows.length, (g.vec e e q 1 (Eqp.Spec.restrict u rows))[k]?.getD 0 *
        (Eqp.Spec.restrict (fun k => ent b k j) rows)[k]?.getD 0 = point sp kind g b u e q j := by
  unfold point
  rw [hr]
  dsimp only
  unfold project
  refine sum_congr rfl fun k hk => ?_
  rw [mul_comm]
  congr 1
  exact ve_tab (f := fun k => ent b (rowAt rows k) j) (mem_range.1 hk)

/-- The tests of one entity: all points, all basis vectors. -/
theorem fillTests_step {sp : Space} {kind : Kind} {g : Integ P R} {b : Mat R} (hb : MatOk b) {n : Nat}
    (hn : n ≤ b.h) {rows : List Int} (hro : RowsOk rows n) {e : Nat} (hr : rowsOf sp kind e = some rows)
    {u : Nat → R} {nq eidx col : Nat} {T : Nat → Nat → R} {m : CMat R} (hm : CMatOk m)
    (hrow : eidx * nq + nq ≤ m.rows) (hcol : col + b.w ≤ m.cols)
    (hT : ∀ q j, q < nq → j < b.w → T (eidx * nq + q) (col + j) = point sp kind g b u e q j) :
    ∃ m', fillTests b n nq eidx col rows
        ((List.range nq).map fun q => g.vec e e q 1 (Eqp.Spec.restrict u rows)) m = .ok m' ∧ CMatOk m' ∧
      Step T (fun r c => (∃ q < nq, r = eidx * nq + q) ∧ ∃ j < b.w, c = col + j) m m' := by
  unfold fillTests
  obtain ⟨m', e1, h1, h2⟩ := loop_step (T := T) (n := b.w) (m := m) (body := fun j gt => do
      let vj ← getSeg b.data (j * b.h) n
      let eltr ← getSubVector vj rows
      loop nq (fun m gt => do
        let q ← rd ((List.range nq).map fun q => g.vec e e q 1 (Eqp.Spec.restrict u rows)) m
        put gt (m + eidx * nq) (j + col)
          (∑ k ∈ Finset.range rows.length, q[k]?.getD 0 * eltr[k]?.getD 0)) gt)
    (Reg := fun j r c => ∃ q < nq, r = q + eidx * nq ∧ c = j + col) hm (by
      intro j hj a ha ar ac
      rw [basis_col hb hn hj, ok_bind, getSub_rows hro, ok_bind]
      refine loop_step ha fun q hq a' ha' ar' ac' => ?_
      rw [show (List.range nq).map (fun q => g.vec e e q 1 (Eqp.Spec.restrict u rows)) =
        tab nq (fun q => g.vec e e q 1 (Eqp.Spec.restrict u rows)) from rfl, rd_tab hq, ok_bind, dot_point hr,
        ← hT q j hq hj, Nat.add_comm (eidx * nq), Nat.add_comm col]
      exact put_step ha' (by rw [ar', ar]; omega) (by rw [ac', ac]; omega))
  refine ⟨m', e1, h1, h2.mono fun r c _ _ => ?_⟩
  constructor
  · rintro ⟨j, hj, q, hq, rfl, rfl⟩
    exact ⟨⟨q, hq, Nat.add_comm ..⟩, j, hj, Nat.add_comm ..⟩
  · rintro ⟨⟨q, hq, rfl⟩, j, hj, rfl⟩
    exact ⟨j, hj, q, hq, Nat.add_comm .., Nat.add_comm ..⟩

/-- Entry of the global system: row `row` stands for point `row % nq` of entity number `row / nq`,
column `col` for test `col % nb` with snapshot `col / nb`. -/
def target (sp : Space) (kind : Kind) (g : Integ P R) (b : Mat R) (snaps : CMat R) (ents : List Nat)
    (nq : Nat) (row col : Nat) : R :=
  point sp kind g b (fun k => cent snaps k (col / b.w)) (ents[row / nq]?.getD 0) (row % nq) (col % b.w)

theorem divmod_add {a b n : Nat} (h : b < n) : (a * n + b) / n = a ∧ (a * n + b) % n = b := by
  constructor
  · rw [Nat.mul_comm, Nat.mul_add_div (by omega), Nat.div_eq_of_lt h, Nat.add_zero]
  · rw [Nat.mul_comm, Nat.mul_add_mod, Nat.mod_eq_of_lt h]

theorem fillRank_eq {sp : Space} {n : Nat} (hs : SpaceOk sp n) {kind : Kind} {g : Integ P R}
    (hv : VecOk sp kind g) {b : Mat R} (hb : MatOk b) (hn : n ≤ b.h) {snaps : CMat R}
    (hsn : CMatOk snaps) (hrows : n ≤ snaps.rows) {nq lo ne : Nat}
    (hlo : lo + ne ≤ (entitiesOf sp kind).length) {gt : CMat R} (hgt : CMatOk gt)
    (hr : gt.rows = ne * nq) (hc : gt.cols = b.w * snaps.cols) :
    ∃ gt', fillRank sp n b kind g nq (entitiesOf sp kind) snaps lo ne gt = .ok gt' ∧ CMatOk gt' ∧
      gt'.rows = ne * nq ∧ gt'.cols = b.w * snaps.cols ∧ ∀ r c, r < ne * nq → c < b.w * snaps.cols →
        cent gt' r c = target sp kind g b snaps (entitiesOf sp kind) nq (lo * nq + r) c := by
  unfold fillRank
  have hm : ∀ i, i < snaps.cols → i * b.w + b.w ≤ b.w * snaps.cols := by
    intro i hi
    calc i * b.w + b.w = b.w * (i + 1) := by ring
      _ ≤ _ := Nat.mul_le_mul_left _ hi
  have hmr : ∀ e, e < ne → e * nq + nq ≤ ne * nq := by
    intro i hi
    calc i * nq + nq = (i + 1) * nq := by ring
      _ ≤ _ := Nat.mul_le_mul_right _ hi
  obtain ⟨gt', e1, h1, h2, h3, _, h5⟩ := loop_step
    (T := fun r c => target sp kind g b snaps (entitiesOf sp kind) nq (lo * nq + r) c)
    (n := snaps.cols) (m := gt) (body := fun i gt => do
      let vi ← loop n (fun k v => do
        let a ← snaps.get k i
        return v ++ [a]) []
      loop ne (fun eidx gt => do
        let e ← rd (entitiesOf sp kind) (lo + eidx)
        let tr ← sp.at_ kind e
        let rows ← nonNull tr
        let elx ← getSubVector vi rows
        let quads ← quadVectors g nq e rows elx
        fillTests b n nq eidx (i * b.w) rows quads gt) gt)
    (Reg := fun i r c => ∃ eidx < ne, (∃ q < nq, r = eidx * nq + q) ∧ ∃ j < b.w, c = i * b.w + j)
    hgt (by
      intro i hi a ha ar ac
      rw [snapshot_eq hsn hrows hi, ok_bind]
      refine loop_step ha fun eidx he a' ha' ar' ac' => ?_
      have hl : lo + eidx < (entitiesOf sp kind).length := by omega
      obtain ⟨-, m2, m3⟩ := mem_entitiesOf.1 (List.getElem_mem hl)
      obtain ⟨rows, hro⟩ := Option.ne_none_iff_exists'.1 m3
      rw [rd_of_lt hl, ok_bind, at_eq (by omega) (by simpa using m2) (by simpa using hro), ok_bind]
      rw [show nonNull (some rows) = .ok rows from rfl, ok_bind]
      have hok := rowsOf_ok hs hro
      rw [getSub_rows hok, ok_bind, quadVectors_eq hv hro, ok_bind]
      refine fillTests_step hb hn hok hro ha' ?_ ?_ ?_
      · rw [ar', ar, hr]; exact hmr eidx he
      · rw [ac', ac, hc]; exact hm i hi
      · intro q j hq hj
        unfold target
        rw [show lo * nq + (eidx * nq + q) = (lo + eidx) * nq + q by ring, (divmod_add hq).1,
          (divmod_add hq).2, (divmod_add hj).1, (divmod_add hj).2, List.getElem?_eq_getElem hl]
        rfl)
  refine ⟨gt', e1, h1, by rw [h2, hr], by rw [h3, hc], fun r c hr' hc' => ?_⟩
  refine (h5 r c (by rw [hr]; exact hr') (by rw [hc]; exact hc')).1 ?_
  have hnq : 0 < nq := Nat.pos_of_ne_zero (by rintro rfl; simp at hr')
  have hbw : 0 < b.w := Nat.pos_of_ne_zero (by intro h; rw [h] at hc'; simp at hc')
  refine ⟨c / b.w, Nat.div_lt_of_lt_mul hc', r / nq, Nat.div_lt_of_lt_mul (by rwa [Nat.mul_comm]),
    ⟨r % nq, Nat.mod_lt _ hnq, ?_⟩, c % b.w, Nat.mod_lt _ hbw, ?_⟩
  · rw [Nat.mul_comm]; exact (Nat.div_add_mod r nq).symm
  · rw [Nat.mul_comm]; exact (Nat.div_add_mod c b.w).symm

theorem weights_eq {w : List R} {nq : Nat} (hw : nq ≤ w.length) (ne : Nat) :
    weights w nq ne = .ok (tab (ne * nq) (fun r => ve w (r % nq))) := by
  unfold weights
  rw [loop_spec (fun k => tab (k * nq) (fun r => ve w (r % nq))) (by simp [tab])]
  intro k _
  rw [loop_spec (fun j => tab (k * nq + j) (fun r => ve w (r % nq))) (by simp)]
  · rw [Nat.succ_mul]
  · intro j hj
    rw [rd_ve (by omega), ok_bind]
    show Except.ok _ = _
    rw [← Nat.add_assoc]
    unfold tab
    rw [List.range_succ, List.map_append]
    simp [(divmod_add hj).2]

/-! ## Sums over the processes -/

theorem sum_map_index {α β : Type} [AddCommMonoid β] (l : List α) (f : α → β) :
    (l.map f).sum = ∑ r ∈ range l.length, (l[r]?.map f).getD 0 := by
  induction l with
  | nil => simp
  | cons a l ih =>
    rw [List.map_cons, List.sum_cons, List.length_cons, sum_range_succ', ih, add_comm]
    simp

theorem split_sum {β : Type} [AddCommMonoid β] (sizes : List Nat) (nq : Nat) (H : Nat → β) :
    ∑ r ∈ range sizes.length, ∑ k ∈ range (sizes[r]?.getD 0 * nq), H ((sizes.take r).sum * nq + k) =
      ∑ i ∈ range (sizes.sum * nq), H i := by
  have : ∀ m ≤ sizes.length, ∑ r ∈ range m, ∑ k ∈ range (sizes[r]?.getD 0 * nq),
      H ((sizes.take r).sum * nq + k) = ∑ i ∈ range ((sizes.take m).sum * nq), H i := by
    intro m hm
    induction m with
    | zero => simp
    | succ m ih =>
      rw [sum_range_succ, ih (by omega)]
      have h1 : (sizes.take (m + 1)).sum = (sizes.take m).sum + sizes[m]?.getD 0 := by
        rw [List.take_add_one, List.sum_append, List.getElem?_eq_getElem (by omega)]
        simp
      rw [h1, Nat.add_mul, sum_range_add]
  have := this sizes.length le_rfl
  rwa [List.take_length] at this

theorem sum_divmod {β : Type} [AddCommMonoid β] (n nq : Nat) (F : Nat → Nat → β) :
    ∑ i ∈ range (n * nq), F (i / nq) (i % nq) = ∑ e ∈ range n, ∑ q ∈ range nq, F e q := by
  induction n with
  | zero => simp
  | succ n ih =>
    rw [Nat.succ_mul, sum_range_add, ih, sum_range_succ]
    congr 1
    refine sum_congr rfl fun q hq => ?_
    rw [(divmod_add (mem_range.1 hq)).1, (divmod_add (mem_range.1 hq)).2]

theorem flatten_get {α : Type} (ls : List (List α)) : ∀ (r k : Nat) (l : List α), ls[r]? = some l →
    k < l.length → ls.flatten[((ls.map List.length).take r).sum + k]? = l[k]? := by
  induction ls with
  | nil => intro r k l h; simp at h
  | cons a ls ih =>
    intro r k l h hk
    cases r with
    | zero =>
      simp only [List.getElem?_cons_zero, Option.some.injEq] at h
      subst h
      simp [List.getElem?_append_left hk]
    | succ r =>
      rw [List.getElem?_cons_succ] at h
      have := ih r k l h hk
      rw [List.flatten_cons, List.map_cons, List.take_succ_cons, List.sum_cons, Nat.add_assoc,
        List.getElem?_append_right (by omega), Nat.add_sub_cancel_left]
      exact this

/-- The system of a process: its rows of the global system, and the weights of its points. -/
def RankOk (T : Nat → Nat → R) (w : List R) (nq cols lo ne : Nat) (s : CMat R × List R) : Prop :=
  CMatOk s.1 ∧ s.1.rows = ne * nq ∧ s.1.cols = cols ∧
  (∀ r c, r < ne * nq → c < cols → cent s.1 r c = T (lo * nq + r) c) ∧
  s.2 = tab (ne * nq) (fun r => ve w (r % nq))

structure SysOk (T : Nat → Nat → R) (w : List R) (nq cols : Nat) (sizes : List Nat)
    (sys : List (CMat R × List R)) : Prop where
  length : sys.length = sizes.length
  rank : ∀ r < sizes.length, ∃ s, sys[r]? = some s ∧
    RankOk T w nq cols (sizes.take r).sum (sizes[r]?.getD 0) s

theorem setup_sys {sp : Space} {n : Nat} (hs : SpaceOk sp n) {kind : Kind} {g : Integ P R}
    (hv : VecOk sp kind g) {b : Mat R} (hb : MatOk b) (hn : n ≤ b.h) {snaps : CMat R}
    (hsn : CMatOk snaps) (hrows : n ≤ snaps.rows) {nq : Nat} {w : List R} (hw : nq ≤ w.length)
    {split : Nat → List Nat} (hsp : ∀ m, (split m).sum = m) (junk : R) :
    ∃ sys, setup sp n b kind g nq w snaps split junk (entitiesOf sp kind) =
        .ok (sys, transposeMult (b.w * snaps.cols) sys) ∧
      SysOk (target sp kind g b snaps (entitiesOf sp kind) nq) w nq (b.w * snaps.cols)
        (split (entitiesOf sp kind).length) sys := by
  have hsum := hsp (entitiesOf sp kind).length
  unfold setup
  rw [show (decide (n ≤ snaps.rows)) = true by simpa using hrows]
  dsimp only
  rw [hsum]
  simp only [beq_self_eq_true, require_true, ok_bind]
  generalize split (entitiesOf sp kind).length = sizes at hsum
  obtain ⟨sys, e, h1, h2⟩ := loop_total (n := sizes.length) (body := fun r acc => do
      let ne ← rd sizes r
      let gt ← fillRank sp n b kind g nq (entitiesOf sp kind) snaps (sizes.take r).sum ne
        ⟨ne * nq, b.w * snaps.cols, true, List.replicate (ne * nq * (b.w * snaps.cols)) junk⟩
      let wr ← weights w nq ne
      return acc ++ [(gt, wr)])
    (fun k acc => acc.length = k ∧ ∀ r < k, ∃ s, acc[r]? = some s ∧
      RankOk (target sp kind g b snaps (entitiesOf sp kind) nq) w nq (b.w * snaps.cols)
        (sizes.take r).sum (sizes[r]?.getD 0) s) (s := [])
    ⟨rfl, fun r hr => absurd hr (by omega)⟩ (by
      rintro k acc hk ⟨h1, h2⟩
      rw [rd_of_lt hk, ok_bind]
      have hle : (sizes.take k).sum + sizes[k] ≤ sizes.sum := by
        have := List.sum_take_add_sum_drop sizes (k + 1)
        rw [List.take_add_one, List.sum_append, List.getElem?_eq_getElem hk] at this
        simp at this
        omega
      obtain ⟨gt, e1, g1, g2, g3, g4⟩ := fillRank_eq hs hv hb hn hsn hrows (nq := nq)
        (lo := (sizes.take k).sum) (ne := sizes[k])
        (gt := ⟨sizes[k] * nq, b.w * snaps.cols, true,
          List.replicate (sizes[k] * nq * (b.w * snaps.cols)) junk⟩) (by rw [← hsum]; exact hle)
        (by unfold CMatOk; simp) rfl rfl
      rw [e1, ok_bind, weights_eq hw, ok_bind]
      refine ⟨_, rfl, by simp [h1], fun r hr => ?_⟩
      by_cases hrk : r = k
      · subst hrk
        refine ⟨(gt, _), by rw [List.getElem?_append_right (by omega), h1]; simp; rfl, ?_⟩
        rw [List.getElem?_eq_getElem hk]
        exact ⟨g1, g2, g3, g4, rfl⟩
      · obtain ⟨s, e2, h3⟩ := h2 r (by omega)
        exact ⟨s, by rw [List.getElem?_append_left (by omega)]; exact e2, h3⟩)
  exact ⟨sys, by rw [e]; rfl, h1, h2⟩

/-- Sums over all rows of all processes. -/
theorem SysOk.sum {T : Nat → Nat → R} {w : List R} {nq cols : Nat} {sizes : List Nat}
    {sys : List (CMat R × List R)} (h : SysOk T w nq cols sizes sys) {c : Nat} (hc : c < cols)
    (V : Nat → R) (f : CMat R × List R → Nat → R)
    (hf : ∀ r s, sys[r]? = some s → ∀ k < sizes[r]?.getD 0 * nq, f s k = V ((sizes.take r).sum * nq + k)) :
    (sys.map fun s => ∑ k ∈ range s.1.rows, cent s.1 k c * f s k).sum =
      ∑ i ∈ range (sizes.sum * nq), T i c * V i := by
  rw [sum_map_index, ← split_sum sizes nq, h.length]
  refine sum_congr rfl fun r hr => ?_
  obtain ⟨s, e, h1, h2, h3, h4, h5⟩ := h.rank r (mem_range.1 hr)
  rw [e]
  simp only [Option.map_some, Option.getD_some]
  rw [h2]
  refine sum_congr rfl fun k hk => ?_
  rw [h4 k c (mem_range.1 hk) hc, hf r s e k (mem_range.1 hk)]

/-- The right-hand side is the full quadrature of all tests. -/
theorem transposeMult_eq {T : Nat → Nat → R} {w : List R} {nq cols : Nat} {sizes : List Nat}
    {sys : List (CMat R × List R)} (h : SysOk T w nq cols sizes sys) {c : Nat} (hc : c < cols) :
    ve (transposeMult cols sys) c = ∑ i ∈ range (sizes.sum * nq), T i c * ve w (i % nq) := by
  rw [← h.sum hc (fun i => ve w (i % nq)) (fun s k => ve s.2 k)]
  · unfold transposeMult
    rw [show ∀ f : Nat → R, (List.range cols).map f = tab cols f from fun _ => rfl, ve_tab hc]
    rfl
  · intro r s e k hk
    have hr : r < sizes.length := by
      rw [← h.length]; exact (List.getElem?_eq_some_iff.1 e).1
    obtain ⟨s', e', -, -, -, -, h5⟩ := h.rank r hr
    rw [e] at e'
    cases e'
    rw [h5, ve_tab hk, Nat.mul_comm, Nat.mul_add_mod]

end

/-! ## Extraction -/

section
variable [Field R] [LinearOrder R]

/-- The samples of a solution. -/
def samplesOf (ents : List Nat) (nq : Nat) (sol : List R) : List (Sample P R) :=
  (List.range sol.length).filterMap fun i =>
    if cutoff < ve sol i then
      some ⟨((ents[i / nq]?.getD 0 : Nat) : Int), ((i % nq : Nat) : Int), ve sol i, none⟩ else none

theorem extract_eq {nq n : Nat} {sol : List R} (h : sol.length = n * nq) :
    extract (P := P) nq sol = .ok (samplesOf (List.range n) nq sol) := by
  unfold extract samplesOf
  rw [loop_spec (fun k => (List.range k).filterMap fun i =>
    if cutoff < ve sol i then
      some (⟨(((List.range n)[i / nq]?.getD 0 : Nat) : Int), ((i % nq : Nat) : Int), ve sol i, none⟩ : Sample P R)
    else none) (by simp)]
  intro k hk
  have hnq : nq ≠ 0 := by rintro rfl; simp at h; rw [h] at hk; simp at hk
  have hlt : k / nq < n := Nat.div_lt_of_lt_mul (by rw [Nat.mul_comm, ← h]; exact hk)
  rw [rd_ve hk, ok_bind, List.range_succ, List.filterMap_append]
  by_cases hc : cutoff < ve sol k
  · rw [if_pos hc, if_neg hnq]
    simp [hc, hlt]
  · rw [if_neg hc]
    simp [hc]

theorem renumber_eq {ents : List Nat} {nq : Nat} {sol : List R} (h : sol.length = ents.length * nq) :
    renumber (P := P) ents (samplesOf (List.range ents.length) nq sol) = .ok (samplesOf ents nq sol) := by
  have hr : ∀ l : List (Sample P R), (∀ s ∈ l, 0 ≤ s.el ∧ s.el < ents.length) →
      renumber ents l = .ok (l.map fun s => { s with el := ((ents[s.el.toNat]?.getD 0 : Nat) : Int) }) := by
    intro l hl
    unfold renumber
    rw [loop_spec (fun k => (l.take k).map fun s => { s with el := ((ents[s.el.toNat]?.getD 0 : Nat) : Int) })
      (by simp)]
    · rw [List.take_length]
    · intro k hk
      obtain ⟨h0, h1⟩ := hl _ (List.getElem_mem hk)
      have h2 : l[k].el.toNat < ents.length := by omega
      rw [rd_of_lt hk, ok_bind, rdI_get h0 (List.getElem?_eq_getElem h2), ok_bind, List.take_add_one,
        List.getElem?_eq_getElem hk, Option.toList_some, List.map_append, List.map_cons, List.map_nil,
        List.getElem?_eq_getElem h2]
      rfl
  have hdiv : ∀ i < sol.length, i / nq < ents.length := fun i hi =>
    Nat.div_lt_of_lt_mul (by rw [Nat.mul_comm, ← h]; exact hi)
  rw [hr]
  · congr 1
    unfold samplesOf
    rw [List.map_filterMap]
    apply List.filterMap_congr
    intro i hi
    have := hdiv i (List.mem_range.1 hi)
    by_cases hc : cutoff < ve sol i
    · have hg : ∀ n : Nat, ((n : Int)).toNat = n := Int.toNat_natCast
      rw [if_pos hc, if_pos hc, List.getElem?_range this, Option.getD_some, Option.map_some]
      simp only [hg]
    · rw [if_neg hc, if_neg hc]; rfl
  · intro s hs
    unfold samplesOf at hs
    rw [List.mem_filterMap] at hs
    obtain ⟨i, hi, he⟩ := hs
    have := hdiv i (List.mem_range.1 hi)
    split at he
    · cases he
      rw [List.getElem?_range this]
      exact ⟨Int.natCast_nonneg _, Int.ofNat_lt.2 this⟩
    · cases he

theorem samplesOf_extracted {ents : List Nat} (hs : ents.Pairwise (· < ·)) {nq : Nat} {sol : List R}
    (h : sol.length = ents.length * nq) :
    Extracted ents nq cutoff sol (samplesOf ents nq sol : List (Sample P R)) := by
  have hdiv : ∀ i < sol.length, i / nq < ents.length := fun i hi =>
    Nat.div_lt_of_lt_mul (by rw [Nat.mul_comm, ← h]; exact hi)
  have hnq : ∀ i < sol.length, 0 < nq := fun i hi => Nat.pos_of_ne_zero (by
    rintro rfl; simp at h; rw [h] at hi; simp at hi)
  constructor
  · intro s
    unfold samplesOf
    rw [List.mem_filterMap]
    constructor
    · rintro ⟨i, hi, he⟩
      have hi := List.mem_range.1 hi
      have hd := hdiv i hi
      split at he
      · rename_i hc
        cases he
        refine ⟨i / nq, i % nq, ents[i / nq], Nat.mod_lt _ (hnq i hi), List.getElem?_eq_getElem hd, ?_,
          hc, by simp [hd], rfl, rfl⟩
        rw [Nat.mul_comm, Nat.div_add_mod]
        exact rd_eq_ok.1 (rd_ve hi)
      · cases he
    · rintro ⟨e, q, el, hq, h1, h2, h3, h4, h5, h6⟩
      obtain ⟨hi, h2⟩ := List.getElem?_eq_some_iff.1 h2
      refine ⟨e * nq + q, List.mem_range.2 hi, ?_⟩
      have hv : ve sol (e * nq + q) = s.qw := by
        unfold ve; rw [List.getElem?_eq_getElem hi, h2]; rfl
      rw [hv, if_pos h3, (divmod_add hq).1, (divmod_add hq).2, h1]
      obtain ⟨a1, a2, a3, a4⟩ := s
      dsimp only at h4 h5 h6 ⊢
      rw [h4, h5, h6]; rfl
  · unfold samplesOf
    rw [List.pairwise_filterMap]
    refine List.Pairwise.imp_of_mem ?_ (List.pairwise_lt_range (n := sol.length))
    intro i j hi hj hij a ha a' ha'
    have hi := List.mem_range.1 hi
    have hj := List.mem_range.1 hj
    split at ha
    · split at ha'
      · cases ha; cases ha'
        have d1 := hdiv i hi
        have d2 := hdiv j hj
        rw [List.getElem?_eq_getElem d1, List.getElem?_eq_getElem d2]
        dsimp only [Option.getD_some]
        have hle : i / nq ≤ j / nq := Nat.div_le_div_right (by omega)
        rcases Nat.lt_or_eq_of_le hle with hlt | heq
        · left
          have := List.pairwise_iff_getElem.1 hs _ _ d1 d2 hlt
          exact_mod_cast this
        · right
          refine ⟨by simp only [heq], ?_⟩
          have g1 := Nat.div_add_mod i nq
          have g2 := Nat.div_add_mod j nq
          rw [heq] at g1
          have : i % nq < j % nq := by omega
          exact_mod_cast this
      · cases ha'
    · cases ha

theorem bounds_length (tol : R) (rhs : List R) :
    (bounds tol rhs).1.length = rhs.length ∧ (bounds tol rhs).2.length = rhs.length := by
  simp [bounds]

omit [LinearOrder R] in
theorem ve_map (rhs : List R) (f : R → R) {c : Nat} (hc : c < rhs.length) :
    ve (rhs.map f) c = f (ve rhs c) := by
  unfold ve; simp [hc]

end

end Verif.Training
