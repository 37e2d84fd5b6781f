import Verif.Proofs.EqpStore
import Verif.Props.Hdf5

/-! # Storage of interface samples: C51 -/

namespace Verif.EqpStore

open Verif Verif.Hdf5 Verif.Hdf5.Spec Verif.EqpStore.Spec

variable {R : Type}

/-- One call that returns keeps the state consistent and assigns what it says. -/
theorem step_inv {t : Topo} (ht : TopoOk t) {s s' : Itf R} {m : Nat → Nat → Option (Samples R)}
    (h : StateOk t s m) {op : Op R} (e : step t s op = .ok s') :
    StateOk t s' (fun k r => match assigned t op k r with | some v => some v | none => m k r) ∧
      s'.numInteg = after s.numInteg op := by
  cases op with
  | add =>
    cases e
    exact ⟨add_ok ht h, rfl⟩
  | update i rp v =>
    obtain ⟨i, rp, rfl, rfl, hi, hr⟩ := update_range e
    obtain ⟨s2, e2, h2, h3⟩ := update_ok ht h hi hr v
    rw [show step t s (.update i rp v) = update t s i rp v from rfl, e2] at e
    cases e
    refine ⟨?_, h3⟩
    convert h2 using 3 with k r
    unfold assigned put
    by_cases c : k = i ∧ r = rp
    · obtain ⟨rfl, rfl⟩ := c; simp
    · rw [if_neg c]
      dsimp only
      rw [if_neg (by rintro ⟨a, b⟩; exact c ⟨by omega, by omega⟩)]
  | load k f loc dset =>
    obtain ⟨hg, hf, hk⟩ := load_range h.ref e
    rcases Nat.eq_zero_or_pos t.refPorts.length with h0 | hpos
    · have := load_trivial ht h0 e
      subst this
      refine ⟨⟨h.ref.congr rfl rfl rfl (fun _ r _ hr => by omega), h.vlen, h.view, ?_⟩, rfl⟩
      intro k' r hk'
      have : assigned t (.load k f loc dset) k' r = none := by
        unfold assigned stored portName
        rw [show rd t.refPorts r = .error .ub by unfold rd; rw [List.getElem?_eq_none (by omega)]]
        simp
      rw [this]
      exact h.fresh k' r hk'
    · obtain ⟨k, rfl, hkn⟩ := hk hpos
      obtain ⟨s2, e2, h2, h3⟩ := load_ok ht h hkn hg hf
      rw [show step t s (.load k f loc dset) = load t s k f loc dset from rfl, e2] at e
      cases e
      refine ⟨?_, h3⟩
      convert h2 using 3 with k' r
      unfold assigned loadPut
      by_cases c : k' = k
      · subst c
        simp only [if_true, true_and]
        by_cases hr : r < t.refPorts.length
        · rw [if_pos hr]
          obtain ⟨v, hv⟩ := Option.isSome_iff_exists.1 (hf r hr)
          rw [hv]
        · rw [if_neg hr]
          have : stored t f loc dset r = none := by
            unfold stored portName
            rw [show rd t.refPorts r = .error .ub by unfold rd; rw [List.getElem?_eq_none (by omega)]]
            simp
          rw [this]
      · dsimp only
        rw [if_neg (by omega), if_neg (fun h => c h.1)]

theorem init_ok (t : Topo) : StateOk t ({} : Itf R) (fun _ _ => none) := by
  refine ⟨⟨by simp, by simp, by simp, by simp, ?_⟩, by simp, by simp, by simp⟩
  intro a ha
  simp [cell] at ha

theorem run_inv {t : Topo} (ht : TopoOk t) : ∀ (ops : List (Op R)) {s s' : Itf R}
    {m : Nat → Nat → Option (Samples R)}, StateOk t s m → ops.foldlM (step t) s = .ok s' →
    StateOk t s' (fun k r => match latest t ops k r with | some v => some v | none => m k r) ∧
      s'.numInteg = s.numInteg + numInteg ops
  | [], s, s', m, h, e => by
    cases e
    exact ⟨h, rfl⟩
  | op :: ops, s, s', m, h, e => by
    rw [List.foldlM_cons] at e
    obtain ⟨s1, e1, e2⟩ := bind_eq_ok.1 e
    obtain ⟨h1, n1⟩ := step_inv ht h e1
    obtain ⟨h2, n2⟩ := run_inv ht ops h1 e2
    refine ⟨?_, ?_⟩
    · convert h2 using 3 with k r
      rw [latest]
      cases latest t ops k r <;> rfl
    · rw [n2, n1]
      cases op
      · show s.numInteg + 1 + numInteg ops = s.numInteg + (numInteg ops + 1); omega
      · rfl
      · rfl

/-- **C51.**  After any history of `AddInterfaceIntegrator`, `UpdateInterFaceIntegratorSampling` and
`LoadEQPForIntegrator` calls that returned, every port sees, for every integrator, the sample list most
recently assigned to its reference port (and nothing if there was none): its pointer never dangles. -/
theorem views_latest {t : Topo} (ht : TopoOk t) {ops : List (Op R)} {s : Itf R}
    (e : run t ops = .ok s) {k p : Nat} (hk : k < numInteg ops) {ty : Nat}
    (hty : t.types[p]? = some (ty : Int)) : seen t s k p = .ok (latest t ops k ty) := by
  obtain ⟨h, hn⟩ := run_inv ht ops (init_ok t) e
  have hp : p < t.types.length := (List.getElem?_eq_some_iff.1 hty).1
  have hk' : k < s.numInteg := by rw [hn]; simpa using hk
  have hv := h.view k hk' p hp ty hty
  have hval := h.ref.val k hk' ty (type_lt ht hty)
  have hlt : ty + k * t.refPorts.length < s.refs.length := by
    rw [h.ref.len]; exact idx_bound (type_lt ht hty) hk'
  rw [List.getElem?_eq_getElem hlt] at hv hval
  have hm : (match latest t ops k ty with | some v => some v | none => none) = latest t ops k ty := by
    cases latest t ops k ty <;> rfl
  rw [hm] at hval
  unfold seen
  rw [rd_eq_ok.2 hv, ok_bind]
  cases er : s.refs[ty + k * t.refPorts.length] with
  | none =>
    rw [er] at hval
    rw [← hval]; rfl
  | some a =>
    rw [er] at hval
    have hl := h.ref.live _ a (by rw [List.getElem?_eq_getElem hlt, er])
    obtain ⟨v, hv⟩ := Option.isSome_iff_exists.1 hl
    have : latest t ops k ty = some v := by rw [← hval]; exact hv
    rw [this]
    dsimp only
    rw [get_of_cell hv]; rfl

/-- A history of calls with arguments in range and complete files returns. -/
theorem run_total {t : Topo} (ht : TopoOk t) {ops : List (Op R)} (h : AllAllowed t 0 ops) :
    ∃ s, run t ops = .ok s := by
  have : ∀ (ops : List (Op R)) (s : Itf R) (m : Nat → Nat → Option (Samples R)), StateOk t s m →
      AllAllowed t s.numInteg ops → ∃ s', ops.foldlM (step t) s = .ok s' := by
    intro ops
    induction ops with
    | nil => intro s m _ _; exact ⟨s, rfl⟩
    | cons op ops ih =>
      intro s m hs ha
      obtain ⟨s1, e1⟩ : ∃ s1, step t s op = .ok s1 := by
        cases op with
        | add => exact ⟨_, rfl⟩
        | update i rp v =>
          obtain ⟨h1, h2, h3, h4⟩ := ha.1
          obtain ⟨s1, e1, -⟩ := update_ok ht hs (i := i.toNat) (rp := rp.toNat) (by omega) (by omega) v
          rw [show ((i.toNat : Nat) : Int) = i by omega, show ((rp.toNat : Nat) : Int) = rp by omega] at e1
          exact ⟨s1, e1⟩
        | load k f loc dset =>
          obtain ⟨h1, h2, h3, h4⟩ := ha.1
          obtain ⟨s1, e1, -⟩ := load_ok ht hs (k := k.toNat) (by omega) h3 h4
          rw [show ((k.toNat : Nat) : Int) = k by omega] at e1
          exact ⟨s1, e1⟩
      obtain ⟨h1, n1⟩ := step_inv ht hs e1
      obtain ⟨s', e'⟩ := ih s1 _ h1 (by
        have := ha.2
        rw [n1]
        cases op <;> exact this)
      exact ⟨s', by rw [List.foldlM_cons, e1]; exact e'⟩
  exact this ops {} _ (init_ok t) h

/-- Arguments of `UpdateInterFaceIntegratorSampling` out of range are rejected. -/
theorem update_rejects {t : Topo} {s : Itf R} {i rp : Int} {v : Samples R}
    (h : ¬ (0 ≤ i ∧ i < s.numInteg ∧ 0 ≤ rp ∧ rp < t.refPorts.length)) :
    update t s i rp v = .error .abort := by
  unfold update
  by_cases h1 : 0 ≤ i ∧ i < s.numInteg
  · rw [show (decide (0 ≤ i) && decide (i < s.numInteg)) = true by simpa using h1, require_true, ok_bind,
      show (decide (0 ≤ rp) && decide (rp < t.refPorts.length)) = false by
        simp only [Bool.and_eq_false_iff, decide_eq_false_iff_not]
        by_contra hc
        simp only [not_or, not_not] at hc
        exact h ⟨h1.1, h1.2, hc⟩]
    rfl
  · rw [show (decide (0 ≤ i) && decide (i < s.numInteg)) = false by
        simp only [Bool.and_eq_false_iff, decide_eq_false_iff_not]
        by_contra hc
        simp only [not_or, not_not] at hc
        exact h1 hc]
    rfl

/-- Destroying the form after any history deletes every sample list exactly once: no list is deleted
twice and none is lost. -/
theorem destroy_frees_all {t : Topo} (ht : TopoOk t) {ops : List (Op R)} {s : Itf R}
    (e : run t ops = .ok s) : ∃ h, destroy s = .ok h ∧ ∀ x ∈ h, x = none := by
  obtain ⟨hs, -⟩ := run_inv ht ops (init_ok t) e
  obtain ⟨h, e1, h1⟩ := loop_total (n := s.refs.length) (s := s.heap)
    (body := fun i h => do
      let r ← rd s.refs i
      h.release r)
    (fun q h => ∀ a, cell h a = if ∃ i, i < q ∧ s.refs[i]? = some (some a) then none else cell s.heap a)
    (fun a => by simp) (by
    intro q h hq hc
    rw [rd_of_lt hq, ok_bind]
    cases er : s.refs[q] with
    | none =>
      refine ⟨h, rfl, fun a => ?_⟩
      rw [hc a]
      congr 1
      refine propext ⟨fun ⟨i, h1, h2⟩ => ⟨i, by omega, h2⟩, fun ⟨i, h1, h2⟩ => ⟨i, ?_, h2⟩⟩
      have : i ≠ q := by
        rintro rfl
        rw [List.getElem?_eq_getElem hq, er] at h2
        cases h2
      omega
    | some b =>
      have hb : s.refs[q]? = some (some b) := by rw [List.getElem?_eq_getElem hq, er]
      obtain ⟨v, hv⟩ := Option.isSome_iff_exists.1 (hs.ref.live q b hb)
      have hcb : cell h b = some v := by
        rw [hc b, if_neg, hv]
        rintro ⟨i, h1, h2⟩
        have := hs.ref.inj _ _ _ h2 hb
        omega
      refine ⟨h.set b none, delete_of_cell hcb, fun a => ?_⟩
      by_cases hab : b = a
      · subst hab
        rw [cell_set_self, if_pos ⟨q, by omega, hb⟩]
      · rw [cell_set hab, hc a]
        congr 1
        refine propext ⟨fun ⟨i, h1, h2⟩ => ⟨i, by omega, h2⟩, fun ⟨i, h1, h2⟩ => ⟨i, ?_, h2⟩⟩
        have : i ≠ q := by
          rintro rfl
          rw [hb] at h2
          exact hab (by simpa using h2)
        omega)
  refine ⟨h, e1, fun x hx => ?_⟩
  obtain ⟨a, ha⟩ := List.mem_iff_getElem?.1 hx
  cases x with
  | none => rfl
  | some v =>
    have hc := h1 a
    rw [cell_some.2 ha] at hc
    split at hc
    · cases hc
    · next hne =>
      obtain ⟨i, hi⟩ := hs.ref.own a (by rw [← hc]; rfl)
      exact absurd ⟨i, (List.getElem?_eq_some_iff.1 hi).1, hi⟩ hne

/-! ## Files -/

/-- The data set name of a reference port determines the names of its components and its
attributes, across topologies. -/
theorem portName_eq_iff {t t' : Topo} (ht : TopoOk t) (ht' : TopoOk t')
    (hn : ∀ n ∈ t.names, ':' ∉ n.toList) (hn' : ∀ n ∈ t'.names, ':' ∉ n.toList)
    (ha : ∀ rp ∈ t.refPorts, 0 ≤ rp.a1 ∧ 0 ≤ rp.a2) (ha' : ∀ rp ∈ t'.refPorts, 0 ≤ rp.a1 ∧ 0 ≤ rp.a2)
    {r r' : Nat} (hr : r < t.refPorts.length) (hr' : r' < t'.refPorts.length) :
    portName t r = portName t' r' ↔ SamePort t t' r r' := by
  have m1 := List.getElem_mem hr
  have m2 := List.getElem_mem hr'
  have c1 := ht.comps _ m1
  have c2 := ht'.comps _ m2
  unfold portName
  rw [rd_of_lt hr, rd_of_lt hr', ok_bind, ok_bind, rd_of_lt c1.1, rd_of_lt c2.1, ok_bind, ok_bind,
    rd_of_lt c1.2, rd_of_lt c2.2, ok_bind, ok_bind]
  constructor
  · intro h
    have e : _ = _ := Except.ok.inj h
    obtain ⟨a1, e1⟩ := Int.eq_ofNat_of_zero_le (ha _ m1).1
    obtain ⟨a2, e2⟩ := Int.eq_ofNat_of_zero_le (ha _ m1).2
    obtain ⟨b1, e3⟩ := Int.eq_ofNat_of_zero_le (ha' _ m2).1
    obtain ⟨b2, e4⟩ := Int.eq_ofNat_of_zero_le (ha' _ m2).2
    rw [e1, e2, e3, e4, toString_int, toString_int, toString_int, toString_int] at e
    obtain ⟨f1, f2, f3, f4⟩ := name_inj (hn _ (List.getElem_mem c1.1)) (hn _ (List.getElem_mem c1.2))
      (hn' _ (List.getElem_mem c2.1)) (hn' _ (List.getElem_mem c2.2)) e
    refine ⟨t.refPorts[r], t'.refPorts[r'], t.names[t.refPorts[r].c1], t.names[t.refPorts[r].c2],
      List.getElem?_eq_getElem hr, List.getElem?_eq_getElem hr', List.getElem?_eq_getElem c1.1, ?_,
      List.getElem?_eq_getElem c1.2, ?_, by rw [e1, e3, f3], by rw [e2, e4, f4]⟩
    · rw [List.getElem?_eq_getElem c2.1, f1]
    · rw [List.getElem?_eq_getElem c2.2, f2]
  · rintro ⟨rp, rp', n1, n2, h1, h2, h3, h4, h5, h6, h7, h8⟩
    rw [List.getElem?_eq_getElem hr] at h1
    rw [List.getElem?_eq_getElem hr'] at h2
    cases h1
    cases h2
    rw [List.getElem?_eq_getElem c1.1] at h3
    rw [List.getElem?_eq_getElem c2.1] at h4
    rw [List.getElem?_eq_getElem c1.2] at h5
    rw [List.getElem?_eq_getElem c2.2] at h6
    cases Option.some.inj h3
    cases Option.some.inj h5
    rw [Option.some.inj h4, Option.some.inj h6, h7, h8]

/-- Distinct reference ports have distinct data set names. -/
theorem portName_inj {t : Topo} (ht : TopoOk t) (hn : NamesOk t) {r r' : Nat}
    (hr : r < t.refPorts.length) (hr' : r' < t.refPorts.length) (e : portName t r = portName t r') :
    r = r' := by
  obtain ⟨rp, rp', n1, n2, h1, h2, h3, h4, h5, h6, h7, h8⟩ :=
    (portName_eq_iff ht ht hn.colon hn.colon hn.attr hn.attr hr hr').1 e
  have e1 := (List.getElem?_inj (List.getElem?_eq_some_iff.1 h3).1 hn.names).1 (h3.trans h4.symm)
  have e2 := (List.getElem?_inj (List.getElem?_eq_some_iff.1 h5).1 hn.names).1 (h5.trans h6.symm)
  have : rp = rp' := by
    cases rp; cases rp'
    simp only [RefPort.mk.injEq] at *
    exact ⟨e1, e2, h7, h8⟩
  subst this
  exact (List.getElem?_inj hr hn.ports).1 (h1.trans h2.symm)

/-- `SaveEQPForIntegrator` after any history that left samples on every reference port: the file then
holds, for every reference port, its samples, and nothing else of the file changed. -/
theorem save_stores {t : Topo} (ht : TopoOk t) (hn : NamesOk t) {ops : List (Op R)} {s : Itf R}
    (e : run t ops = .ok s) {k : Nat} (hk : k < numInteg ops)
    (hset : ∀ r, r < t.refPorts.length → (latest t ops k r).isSome) {f : File R} {loc : Loc}
    {dset : String} (hw : CanWrite f loc dset) :
    ∃ f', save t s k f loc dset = .ok f' ∧ Valid f' ∧ Later f f' ∧ OnlyBelow f f' loc dset ∧
      ∀ f'', Later f' f'' → find f'' ⟨loc, dset, false⟩ = some .group ∧
        ∀ r, r < t.refPorts.length → stored t f'' loc dset r = latest t ops k r := by
  obtain ⟨h, hnum⟩ := run_inv ht ops (init_ok t) e
  have hk' : k < s.numInteg := by rw [hnum]; simpa using hk
  unfold save
  rw [create_ok hw.2.1 hw.2.2, ok_bind]
  have w0 := wrote_cons (o := .group) hw
  obtain ⟨f', e1, w1, w2, w3, w4⟩ := loop_total (n := t.refPorts.length)
    (s := (⟨loc, dset, false⟩, Obj.group) :: f)
    (body := fun p f => do
      let name ← portName t p
      let r ← rdI s.refs ((p : Int) + (k : Int) * t.refPorts.length)
      let a ← LinAlg.deref r
      let v ← s.heap.get a
      writeSamples f (dset :: loc) name .interface v)
    (fun q u => Wrote f u loc dset ∧ find u ⟨loc, dset, false⟩ = some .group ∧
      (∀ r name, r < t.refPorts.length → portName t r = .ok name → q ≤ r →
        CanWrite u (dset :: loc) name) ∧
      ∀ r, r < q → r < t.refPorts.length → ∀ u', Later u u' → stored t u' loc dset r = latest t ops k r)
    ⟨w0, find_cons_self _ _ _, fun r name _ _ _ => CanWrite.group hw name, by simp⟩ (by
    intro q u hq ⟨b1, b2, b3, b4⟩
    obtain ⟨name, hname⟩ := portName_ok ht hq
    have hval := h.ref.val k hk' q hq
    have hlt : q + k * t.refPorts.length < s.refs.length := by
      rw [h.ref.len]; exact idx_bound hq hk'
    rw [List.getElem?_eq_getElem hlt] at hval
    obtain ⟨v, hv⟩ := Option.isSome_iff_exists.1 (hset q hq)
    rw [hv] at hval
    obtain ⟨a, ha, hc⟩ := Option.bind_eq_some_iff.1 hval
    have ha' : s.refs[q + k * t.refPorts.length] = some a := by simpa using ha
    obtain ⟨u', e2, v1, v2, v3, v4, -⟩ := samples_roundTrip u (dset :: loc) name
      (b3 q name hq hname (Nat.le_refl _)) .interface (by decide) v
    refine ⟨u', ?_, ?_, v2 _ _ b2, ?_, ?_⟩
    · rw [hname, ok_bind, show (q : Int) + (k : Int) * (t.refPorts.length : Int)
        = ((q + k * t.refPorts.length : Nat) : Int) by push_cast; rfl, rdI_nat, rd_of_lt hlt, ok_bind, ha']
      show (s.heap.get a >>= _) = _
      rw [get_of_cell hc, ok_bind]
      exact e2
    · exact b1.trans (Wrote.lift (n := name) ⟨v1, v2, v3⟩)
    · intro r name' hr hname' hqr
      refine (b3 r name' hr hname' (by omega)).step (name := name) ⟨v1, v2, v3⟩ ?_
      rintro rfl
      have := portName_inj ht hn hq hr (hname.trans hname'.symm)
      omega
    · intro r hrq hr u'' hl
      by_cases er : r = q
      · subst er
        unfold stored
        rw [hname]
        dsimp only
        rw [v4 u'' hl, hv]; rfl
      · exact b4 r (by omega) hr u'' (v2.trans hl))
  exact ⟨f', e1, w1.valid, w1.later, w1.only, fun f'' hl => ⟨hl _ _ w2, fun r hr => w4 r hr hr f'' hl⟩⟩

/-- **Round trip of interface samples.**  Samples saved by one form are the samples seen, after a
load, by the ports of any other form, on any topology whose reference ports exist by name in the first:
every port gets the samples of the reference port with the same component names and attributes. -/
theorem save_load {t t2 : Topo} (ht : TopoOk t) (ht2 : TopoOk t2) (hn : NamesOk t) {ops : List (Op R)}
    {s : Itf R} (e : run t ops = .ok s) {k : Nat} (hk : k < numInteg ops)
    (hset : ∀ r, r < t.refPorts.length → (latest t ops k r).isSome) {f f' f'' : File R} {loc : Loc}
    {dset : String} (hw : CanWrite f loc dset) (hs : save t s k f loc dset = .ok f') (hl : Later f' f'')
    (hn2 : ∀ n ∈ t2.names, ':' ∉ n.toList) (ha2 : ∀ rp ∈ t2.refPorts, 0 ≤ rp.a1 ∧ 0 ≤ rp.a2)
    (match_ : ∀ r2, r2 < t2.refPorts.length → ∃ r, r < t.refPorts.length ∧ SamePort t t2 r r2)
    {ops2 : List (Op R)} (hops : AllAllowed t2 0 ops2) {k2 : Nat} (hk2 : k2 < numInteg ops2) :
    ∃ s2, run t2 (ops2 ++ [.load k2 f'' loc dset]) = .ok s2 ∧
      ∀ (p ty2 r : Nat), t2.types[p]? = some (ty2 : Int) → r < t.refPorts.length → SamePort t t2 r ty2 →
        seen t2 s2 k2 p = .ok (latest t ops k r) := by
  obtain ⟨f1, e1, -, -, -, hst⟩ := save_stores ht hn e hk hset hw
  rw [hs] at e1
  cases e1
  obtain ⟨hg, hst⟩ := hst f'' hl
  have hst2 : ∀ r r2, r < t.refPorts.length → r2 < t2.refPorts.length → SamePort t t2 r r2 →
      stored t2 f'' loc dset r2 = latest t ops k r := by
    intro r r2 hr hr2 hm
    rw [← hst r hr]
    unfold stored
    rw [(portName_eq_iff ht ht2 hn.colon hn2 hn.attr ha2 hr hr2).2 hm]
  obtain ⟨s1, h1⟩ := run_total ht2 hops
  obtain ⟨i1, n1⟩ := run_inv ht2 ops2 (init_ok t2) h1
  have n1' : s1.numInteg = numInteg ops2 := by simpa using n1
  obtain ⟨s2, h2, i2, n2⟩ := load_ok ht2 i1 (k := k2) (by omega) hg (fun r2 hr2 => by
    obtain ⟨r, hr, hm⟩ := match_ r2 hr2
    rw [hst2 r r2 hr hr2 hm]
    exact hset r hr)
  have hrun : run t2 (ops2 ++ [.load k2 f'' loc dset]) = .ok s2 := by
    unfold run at h1 ⊢
    rw [List.foldlM_append, h1, ok_bind, List.foldlM_cons,
      show step t2 s1 (.load k2 f'' loc dset) = load t2 s1 k2 f'' loc dset from rfl, h2]
    rfl
  have hcount : ∀ l : List (Op R), numInteg (l ++ [.load k2 f'' loc dset]) = numInteg l := by
    intro l
    induction l with
    | nil => rfl
    | cons op l ih => cases op <;> simp [numInteg, ih]
  have hlat : ∀ (l : List (Op R)) r2 v, stored t2 f'' loc dset r2 = some v →
      latest t2 (l ++ [.load k2 f'' loc dset]) k2 r2 = some v := by
    intro l r2 v hv
    induction l with
    | nil => simp [latest, assigned, hv]
    | cons op l ih => rw [List.cons_append, latest, ih]
  refine ⟨s2, hrun, fun p ty2 r hty hr hm => ?_⟩
  rw [views_latest ht2 hrun (by rw [hcount]; exact hk2) hty]
  obtain ⟨v, hv⟩ := Option.isSome_iff_exists.1 (hset r hr)
  have := hst2 r ty2 hr (type_lt ht2 hty) hm
  rw [hv] at this ⊢
  rw [hlat ops2 ty2 v this]

/-! ## A concrete case and the unchecked corners -/

/-- Two components, two reference ports, three ports of types 1, 0, 1. -/
def exTopo : Topo :=
  ⟨["pipe", "joint"], [⟨0, 1, 2, 4⟩, ⟨1, 0, 2, 4⟩], [1, 0, 1]⟩

theorem ex_topoOk : TopoOk exTopo := ⟨by decide, by decide⟩
theorem ex_namesOk : NamesOk exTopo := ⟨by decide, by decide, by decide, by decide⟩

/-- Two integrators, trained in part, retrained. -/
def exOps : List (Op Int) :=
  [.add, .update 0 1 [⟨3, 1, 25⟩], .add, .update 1 0 [⟨1, 0, 5⟩], .update 0 1 [⟨2, 2, 7⟩], .update 0 0 [⟨0, 0, 1⟩]]

example : AllAllowed exTopo 0 exOps := by
  simp [exOps, AllAllowed, Allowed, after, exTopo]

example : latest exTopo exOps 0 1 = some [⟨2, 2, 7⟩] ∧ latest exTopo exOps 1 1 = none := by decide

/-- The retrained list is seen by both ports of type 1, the untrained integrator sees nothing, and
the destructor empties the heap. -/
example : (run exTopo exOps >>= fun s => seen exTopo s 0 2) = .ok (some [⟨2, 2, 7⟩]) ∧
    (run exTopo exOps >>= fun s => seen exTopo s 0 0) = .ok (some [⟨2, 2, 7⟩]) ∧
    (run exTopo exOps >>= fun s => seen exTopo s 1 2) = .ok none ∧
    (run exTopo exOps >>= destroy) = .ok [none, none, none, none] := by decide +kernel

/-- Save and reload on a topology listing the components and ports in another order. -/
example : (do
    let s ← run exTopo exOps
    let f ← save exTopo s 0 [] [] "eqp"
    let t2 : Topo := ⟨["joint", "pipe"], [⟨0, 1, 2, 4⟩, ⟨1, 0, 2, 4⟩], [0, 1]⟩
    let s2 ← run t2 [.add, .load 0 f [] "eqp"]
    seen t2 s2 0 0) = .ok (some [⟨2, 2, 7⟩]) := by decide +kernel

/-- Saving an integrator without samples on some reference port dereferences a null pointer. -/
theorem save_unset_ub : (run exTopo exOps >>= fun s => save exTopo s 1 [] [] "eqp") = .error .ub := by
  decide +kernel

/-- Loading an integrator index out of range is not rejected: it accesses memory out of bounds. -/
theorem load_range_ub : (do
    let s ← run exTopo exOps
    let f ← save exTopo s 0 [] [] "eqp"
    load exTopo s 2 f [] "eqp") = .error .ub := by
  decide +kernel

/-- Component names containing a colon can make two different reference ports share a data set name:
saving then aborts. -/
theorem colon_collision :
    portName ⟨["a:b", "c", "a", "b:c"], [⟨0, 1, 1, 2⟩, ⟨2, 3, 1, 2⟩], []⟩ 0
      = portName ⟨["a:b", "c", "a", "b:c"], [⟨0, 1, 1, 2⟩, ⟨2, 3, 1, 2⟩], []⟩ 1 := by
  decide +kernel

end Verif.EqpStore
