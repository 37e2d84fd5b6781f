import Verif.Proofs.PortFile
import Verif.Props.Ports

/-!
# Reference ports

C80: every reference port comes from the first source that describes it, and the ports a run writes are
the ports the next run reads.  C81: unknown component names.
-/

namespace Verif.PortFile

open Verif Verif.Hdf5 Spec

variable {R : Type}

/-- **C80** A port written by one handler and read by another is the same port: same attributes, same
pairs of boundary elements in the same order, same identification of vertices, and the components of
the same names, whatever their indices in the reading run.  Nothing else of the handler changes. -/
theorem port_roundtrip {names : List String} {p : Port} {name n1 n2 : String} {s : Handler} {i : Nat}
    (h1 : names[p.comp1]? = some n1) (h2 : names[p.comp2]? = some n2) (hv : VtxOk p)
    (hl : s.portIdx.look name = some i) (hr : s.refs[i]? = some none)
    {c1 c2 : Nat} (hc1 : s.compIdx.look n1 = some c1) (hc2 : s.compIdx.look n2 = some c2) :
    ∃ (f : File R) (s' : Handler) (q : Port), writePort names p name = .ok f ∧
      readFile f s = .ok s' ∧ s'.refs = s.refs.set i (some q) ∧
      s'.compNames = s.compNames ∧ s'.portIdx = s.portIdx ∧
      (∀ x v, s.compIdx.look x = some v → s'.compIdx.look x = some v) ∧
      Same { p with comp1 := c1, comp2 := c2 } q := by
  have hw := writePort_eq (R := R) (name := name) h1 h2
  obtain ⟨m1, m2, q, ci, k1, k2, hs, hg, hok⟩ := (readFile_written (s := s) hw hv).2 i hl hr
  rw [h1] at k1; cases k1
  rw [h2] at k2; cases k2
  have e1 : index s.compIdx n1 = c1 := by unfold index; rw [hc1]; rfl
  have e2 : index s.compIdx n2 = c2 := by unfold index; rw [hc2]; rfl
  rw [e1, e2] at hs
  exact ⟨_, _, q, hw, hok, rfl, rfl, rfl, hg.keep, hs⟩

/-- **C80** Reading a port file: ports that are already set up stay; any other port is the one described
by the first group naming it, and stays unset if no group does; ports that are not configured are
ignored. -/
theorem readFile_first {f : File R} {s s' : Handler} (h : readFile f s = .ok s') :
    s'.refs.length = s.refs.length ∧ s'.portIdx = s.portIdx ∧ s'.compNames = s.compNames ∧
    (∀ (i : Nat) p, s.refs[i]? = some (some p) → s'.refs[i]? = some (some p)) ∧
    ∃ n : Nat, 0 < n ∧ readAttr f [] "number_of_ports" = .ok (n : Int) ∧
      ∀ i : Nat, s.refs[i]? = some none →
        (s'.refs[i]? = some none ∧ ∀ k, k < n → ¬ GroupNames s.portIdx f k i) ∨
        ∃ p, s'.refs[i]? = some (some p) ∧ FirstGroup s.portIdx (index s.compIdx) f n i p := by
  have hx := readFile_ext h
  obtain ⟨n, hn, ha, hl⟩ := readFile_loop h
  refine ⟨hx.len, hx.idx, hx.names, hx.keep, n, hn, ha, ?_⟩
  have := loop_inv (n := n) (body := readGroup f) (fun k u => Ext s u ∧
      ∀ i : Nat, s.refs[i]? = some none →
        (u.refs[i]? = some none ∧ ∀ j, j < k → ¬ GroupNames s.portIdx f j i) ∨
        ∃ p, u.refs[i]? = some (some p) ∧ FirstGroup s.portIdx (index s.compIdx) f k i p)
    (s := s) ⟨.refl s, fun i hi => .inl ⟨hi, fun j hj => by omega⟩⟩ ?_ hl
  · exact this.2
  intro k u v hk hu hv
  refine ⟨hu.1.trans (readGroup_ext hv), fun i hi => ?_⟩
  rcases hu.2 i hi with ⟨hf, hno⟩ | ⟨p, hp, j, hj, hg, hno, hh⟩
  · obtain ⟨name, hnm, ⟨rfl, hidle⟩ | ⟨i', p, ci, h1, h2, h3, h4, rfl⟩⟩ := readGroup_spec hv
    · refine .inl ⟨hf, fun j hj => ?_⟩
      by_cases e : j = k
      · subst e
        rintro ⟨name', hn', hl'⟩
        obtain rfl := hnm.unique hn'
        rw [← hu.1.idx] at hl'
        rcases hidle with h0 | ⟨i', p, h1, h2⟩
        · rw [h0] at hl'; cases hl'
        · rw [h1] at hl'; cases hl'; rw [hf] at h2; cases h2
      · exact hno j (by omega)
    · rw [hu.1.idx] at h1
      by_cases e : i' = i
      · subst e
        refine .inr ⟨p, getElem?_set_some h2, k, by omega, ⟨name, hnm, h1⟩, hno, ?_⟩
        exact holds_congr h3 (fun x => (hu.1.comp.index x).symm)
      · refine .inl ⟨by dsimp only; rw [List.getElem?_set_ne e]; exact hf, fun j hj => ?_⟩
        by_cases e2 : j = k
        · subst e2
          rintro ⟨name', hn', hl'⟩
          obtain rfl := hnm.unique hn'
          rw [h1] at hl'
          cases hl'
          exact e rfl
        · exact hno j (by omega)
  · exact .inr ⟨p, (readGroup_ext hv).keep i p hp, j, by omega, hg, hno, hh⟩

variable [Field R] [LinearOrder R]

/-- **C80** Where the ports come from.  When no ports are written, a successful set-up leaves the disk as
it is and provides every reference port; the port is the one of the first description in the global
configuration file that names it, else the one of the first entry of the port list that provides it,
where an entry with an existing file stands for that file and not for its own description. -/
theorem first_source {e : Env R} {dicts : List (Option (Entry R))} {list : List (Entry R)}
    {w w' : World R} (hw : e.writePorts = false) (h : setupRefs e dicts list w = .ok w') :
    w'.disk = w.disk ∧ w'.h.refs.length = dicts.length ∧ ∀ i, i < dicts.length →
      ∃ p, w'.h.refs[i]? = some (some p) ∧
        ((∃ (k : Nat) (d : Entry R), dicts[k]? = some (some d) ∧ Describes w.h.portIdx d i ∧
            (∀ j d', j < k → dicts[j]? = some (some d') → ¬ Describes w.h.portIdx d' i) ∧
            Built e (index w.h.compIdx) d p) ∨
          ((∀ (k : Nat) (d : Entry R), dicts[k]? = some (some d) → ¬ Describes w.h.portIdx d i) ∧
            ∃ (k : Nat) (d : Entry R), list[k]? = some d ∧
              (∀ j d', j < k → list[j]? = some d' → ¬ Provides w.disk w.h.portIdx d' i) ∧
              Provided e w.disk w.h.portIdx (index w.h.compIdx) d i p)) := by
  obtain ⟨hpos, w1, hA, hB, hall⟩ := setupRefs_cases h
  set s0 : Handler := { w.h with refs := List.replicate dicts.length none } with hs0
  -- building from a description
  have step : ∀ (d : Entry R) (u v : World R), Ext s0 u.h → u.disk = w.disk →
      buildInput e d u = .ok v → Ext s0 v.h ∧ v.disk = w.disk ∧
        ∀ i : Nat, (u.h.refs[i]? = some none →
          (v.h.refs[i]? = some none ∧ ¬ Describes w.h.portIdx d i) ∨
          ∃ p, v.h.refs[i]? = some (some p) ∧ Describes w.h.portIdx d i ∧
            Built e (index w.h.compIdx) d p) := by
    intro d u v hx hd hb
    refine ⟨hx.trans (buildInput_ext hb), ?_, ?_⟩
    · obtain ⟨name, -, ⟨rfl, -⟩ | ⟨i, p, hm⟩⟩ := buildInput_spec hb
      · exact hd
      · rcases hm.disk with ⟨-, h1⟩ | ⟨h1, -⟩
        · rw [h1, hd]
        · rw [hw] at h1; cases h1
    · intro i hi
      obtain ⟨name, hname, ⟨rfl, hidle⟩ | ⟨i', p, hm⟩⟩ := buildInput_spec hb
      · refine .inl ⟨hi, ?_⟩
        rintro ⟨name', hn', hl'⟩
        rw [hname] at hn'; cases hn'
        have hl' : v.h.portIdx.look name = some i := by rw [hx.idx]; exact hl'
        rcases hidle with h0 | ⟨i', p, h1, h2⟩
        · rw [h0] at hl'; cases hl'
        · rw [h1] at hl'; cases hl'; rw [hi] at h2; cases h2
      · have hl : w.h.portIdx.look name = some i' := by
          have := hm.look; rw [hx.idx] at this; exact this
        by_cases e1 : i' = i
        · subst e1
          refine .inr ⟨p, by rw [hm.h]; exact getElem?_set_some hm.free, ⟨name, hname, hl⟩, ?_⟩
          have := hm.built
          rwa [show index u.h.compIdx = index w.h.compIdx from
            funext fun x => hx.comp.index x] at this
        · refine .inl ⟨by rw [hm.h]; dsimp only; rw [List.getElem?_set_ne e1]; exact hi, ?_⟩
          rintro ⟨name', hn', hl'⟩
          rw [hname] at hn'; cases hn'
          rw [hl] at hl'; cases hl'
          exact e1 rfl
  -- the descriptions of the global file
  have A := loop_inv (n := dicts.length) (body := fun p w => do
        let d ← rd dicts p
        dictEntry e d w) (fun k u => Ext s0 u.h ∧ u.disk = w.disk ∧
      ∀ i : Nat, i < dicts.length →
        (u.h.refs[i]? = some none ∧ ∀ j d', j < k → dicts[j]? = some (some d') →
          ¬ Describes w.h.portIdx d' i) ∨
        ∃ p, u.h.refs[i]? = some (some p) ∧ ∃ (j : Nat) (d : Entry R), dicts[j]? = some (some d) ∧
          Describes w.h.portIdx d i ∧
          (∀ l d', l < j → dicts[l]? = some (some d') → ¬ Describes w.h.portIdx d' i) ∧
          Built e (index w.h.compIdx) d p)
    (s := ⟨s0, w.disk⟩) ⟨.refl _, rfl, fun i hi => .inl ⟨by simp [hs0, hi], fun j _ hj => by omega⟩⟩
    (by
      intro k u v hk ⟨hx, hd, hI⟩ hb
      rw [rd_of_lt hk, ok_bind] at hb
      have hget : dicts[k]? = some dicts[k] := List.getElem?_eq_getElem hk
      cases hdk : dicts[k] with
      | none =>
        rw [hdk] at hb
        cases hb
        refine ⟨hx, hd, fun i hi => ?_⟩
        rcases hI i hi with ⟨h1, h2⟩ | h1
        · refine .inl ⟨h1, fun j d' hj hd' => ?_⟩
          by_cases ej : j = k
          · subst ej; rw [hget, hdk] at hd'; cases hd'
          · exact h2 j d' (by omega) hd'
        · exact .inr h1
      | some d =>
        rw [hdk] at hb hget
        obtain ⟨s1, s2, s3⟩ := step d u v hx hd hb
        refine ⟨s1, s2, fun i hi => ?_⟩
        rcases hI i hi with ⟨h1, h2⟩ | ⟨p, hp, hrest⟩
        · rcases s3 i h1 with ⟨k1, k2⟩ | ⟨p, k1, k2, k3⟩
          · refine .inl ⟨k1, fun j d' hj hd' => ?_⟩
            by_cases ej : j = k
            · subst ej; rw [hget] at hd'; cases hd'; exact k2
            · exact h2 j d' (by omega) hd'
          · exact .inr ⟨p, k1, k, d, hget, k2, fun l d' hl hd' => h2 l d' hl hd', k3⟩
        · exact .inr ⟨p, (buildInput_ext hb).keep i p hp, hrest⟩) hA
  obtain ⟨hx1, hd1, hI1⟩ := A
  -- the port list
  have B := loop_inv (n := list.length) (body := fun p w => do
        let d ← rd list p
        entry e d w) (fun k u => Ext w1.h u.h ∧ u.disk = w.disk ∧
      ∀ i : Nat, w1.h.refs[i]? = some none →
        (u.h.refs[i]? = some none ∧ ∀ j d', j < k → list[j]? = some d' →
          ¬ Provides w.disk w.h.portIdx d' i) ∨
        ∃ p, u.h.refs[i]? = some (some p) ∧ ∃ (j : Nat) (d : Entry R), list[j]? = some d ∧
          (∀ l d', l < j → list[l]? = some d' → ¬ Provides w.disk w.h.portIdx d' i) ∧
          Provided e w.disk w.h.portIdx (index w.h.compIdx) d i p)
    (s := w1) ⟨.refl _, hd1, fun i hi => .inl ⟨hi, fun j _ hj => by omega⟩⟩
    (by
      intro k u v hk ⟨hx, hd, hI⟩ hb
      rw [rd_of_lt hk, ok_bind] at hb
      have hget : list[k]? = some list[k] := List.getElem?_eq_getElem hk
      have hext := entry_ext hb
      have hidx : u.h.portIdx = w.h.portIdx := hx.idx.trans hx1.idx
      have hcomp : index u.h.compIdx = index w.h.compIdx :=
        funext fun x => (hx.comp.index x).trans (hx1.comp.index x)
      have hstep : v.disk = w.disk ∧ ∀ i : Nat, u.h.refs[i]? = some none →
          (v.h.refs[i]? = some none ∧ ¬ Provides w.disk w.h.portIdx list[k] i) ∨
          ∃ p, v.h.refs[i]? = some (some p) ∧
            Provided e w.disk w.h.portIdx (index w.h.compIdx) list[k] i p := by
        rcases entry_cases hb with ⟨hs, hb'⟩ | ⟨f, hs, hrf, hdk⟩
        · obtain ⟨-, s2, s3⟩ := step _ u v (hx1.trans hx) hd hb'
          refine ⟨s2, fun i hi => ?_⟩
          rw [hd] at hs
          rcases s3 i hi with ⟨k1, k2⟩ | ⟨p, k1, k2, k3⟩
          · exact .inl ⟨k1, by unfold Provides; rw [hs]; exact k2⟩
          · exact .inr ⟨p, k1, by unfold Provided; rw [hs]; exact ⟨k2, k3⟩⟩
        · refine ⟨hdk.trans hd, fun i hi => ?_⟩
          rw [hd] at hs
          obtain ⟨-, -, -, -, n, hn, ha, hfirst⟩ := readFile_first hrf
          rw [hidx, hcomp] at hfirst
          rcases hfirst i hi with ⟨k1, k2⟩ | ⟨p, k1, k2⟩
          · refine .inl ⟨k1, ?_⟩
            unfold Provides; rw [hs]
            rintro ⟨n', hn', j, hj, hg⟩
            rw [ha] at hn'
            injection hn' with hn'
            have : n = n' := by exact_mod_cast hn'
            subst this
            exact k2 j hj hg
          · exact .inr ⟨p, k1, by unfold Provided; rw [hs]; exact ⟨n, ha, k2⟩⟩
      refine ⟨hx.trans hext, hstep.1, fun i hi => ?_⟩
      rcases hI i hi with ⟨h1, h2⟩ | ⟨p, hp, hrest⟩
      · rcases hstep.2 i h1 with ⟨k1, k2⟩ | ⟨p, k1, k2⟩
        · refine .inl ⟨k1, fun j d' hj hd' => ?_⟩
          by_cases ej : j = k
          · subst ej; rw [hget] at hd'; cases hd'; exact k2
          · exact h2 j d' (by omega) hd'
        · exact .inr ⟨p, k1, k, _, hget, fun l d' hl hd' => h2 l d' hl hd', k2⟩
      · exact .inr ⟨p, hext.keep i p hp, hrest⟩) hB
  obtain ⟨hx2, hd2, hI2⟩ := B
  have hlen : w'.h.refs.length = dicts.length := by
    rw [hx2.len, hx1.len]; simp [hs0]
  refine ⟨hd2, hlen, fun i hi => ?_⟩
  rcases hI1 i hi with ⟨h1, h2⟩ | ⟨p, hp, j, d, h1, h2, h3, h4⟩
  · rcases hI2 i h1 with ⟨k1, -⟩ | ⟨p, hp, j, d, k1, k2, k3⟩
    · exfalso
      have := List.all_eq_true.1 hall none (List.mem_of_getElem? k1)
      cases this
    · exact ⟨p, hp, .inr ⟨fun k d hk => h2 k d
        (by by_contra hc; rw [List.getElem?_eq_none (by omega)] at hk; cases hk) hk,
        j, d, k1, k2, k3⟩⟩
  · exact ⟨p, hx2.keep i p hp, .inl ⟨j, d, h1, h2, h3, h4⟩⟩

/-- **C80** What a run with `write_ports` has written is what the next run reads: the same configuration
then sets up the same ports without matching any meshes (whatever the new meshes, tolerance and options
are), and leaves the disk as it is.  The descriptions of the global configuration file never name a
file (`names_spec`). -/
theorem rerun {e e' : Env R} {dicts : List (Option (Entry R))} {list : List (Entry R)}
    {w w1 : World R} (hw : e.writePorts = true) (hd : ∀ d, some d ∈ dicts → d.file = none)
    (hdist : Distinct w.h) (h : setupRefs e dicts list w = .ok w1) :
    ∃ w2, setupRefs e' dicts list ⟨w.h, w1.disk⟩ = .ok w2 ∧ w2.disk = w1.disk ∧
      w2.h.refs.length = w1.h.refs.length ∧
      ∀ (i : Nat), i < w1.h.refs.length → ∃ p q, w1.h.refs[i]? = some (some p) ∧
        w2.h.refs[i]? = some (some q) ∧ Same p q := by
  obtain ⟨hpos, u, hA, hB, hall⟩ := setupRefs_cases h
  set s0 : Handler := { w.h with refs := List.replicate dicts.length none } with hs0
  have hd0 : Distinct s0 := hdist
  -- the first run builds nothing from the global file, nor does the second
  have A := loop_inv (n := dicts.length) (body := fun p w => do
        let d ← rd dicts p
        dictEntry e d w) (fun k x => x = ⟨s0, w.disk⟩ ∧ ∀ j d, j < k → dicts[j]? = some (some d) →
          ∃ name, d.name = some name ∧ Idle s0 name)
    (s := ⟨s0, w.disk⟩) ⟨rfl, fun j _ hj => by omega⟩
    (by
      rintro k x y hk ⟨rfl, hI⟩ hb
      rw [rd_of_lt hk, ok_bind] at hb
      have hget : dicts[k]? = some dicts[k] := List.getElem?_eq_getElem hk
      cases hdk : dicts[k] with
      | none =>
        rw [hdk] at hb
        cases hb
        refine ⟨rfl, fun j d hj hd' => ?_⟩
        by_cases ej : j = k
        · subst ej; rw [hget, hdk] at hd'; cases hd'
        · exact hI j d (by omega) hd'
      | some d =>
        rw [hdk] at hb hget
        obtain ⟨name, hname, ⟨rfl, hidle⟩ | ⟨i, p, hm⟩⟩ := buildInput_spec hb
        · refine ⟨rfl, fun j d' hj hd' => ?_⟩
          by_cases ej : j = k
          · subst ej; rw [hget] at hd'; cases hd'; exact ⟨name, hname, hidle⟩
          · exact hI j d' (by omega) hd'
        · rcases hm.disk with ⟨h1, -⟩ | ⟨-, file, f, h1, -⟩
          · rw [hw] at h1; cases h1
          · rw [hd d (List.mem_of_getElem? hget)] at h1; cases h1) hA
  obtain ⟨rfl, hidle⟩ := A
  have A2 : loop dicts.length (fun p (w : World R) => do
        let d ← rd dicts p
        dictEntry e' d w) ⟨s0, w1.disk⟩ = .ok ⟨s0, w1.disk⟩ := by
    refine loop_spec (fun _ => (⟨s0, w1.disk⟩ : World R)) rfl (fun k hk => ?_)
    rw [rd_of_lt hk, ok_bind]
    cases hdk : dicts[k] with
    | none => rfl
    | some d =>
      obtain ⟨name, h1, h2⟩ := hidle k d hk (by rw [List.getElem?_eq_getElem hk, hdk])
      exact buildInput_idle h1 h2
  -- the port list
  obtain ⟨st, h0, h1, hst⟩ := loop_trace hB
  have hst' : ∀ j (hj : j < list.length), entry e list[j] (st j) = .ok (st (j + 1)) := by
    intro j hj
    have := hst j hj
    rwa [rd_of_lt hj, ok_bind] at this
  have up : ∀ j, j ≤ list.length → Ext s0 (st j).h ∧ Files w.disk s0 (st j) ∧
      (∀ n f, w.disk n = some f → (st j).disk n = some f) := by
    intro j
    induction j with
    | zero => intro _; rw [h0]; exact ⟨.refl _, fun n f hn => .inl hn, fun _ _ h => h⟩
    | succ j ih =>
      intro hj
      obtain ⟨a, b, c⟩ := ih (by omega)
      have hj' := hst' j (by omega)
      exact ⟨a.trans (entry_ext hj'), entry_files hj' a b,
        fun n f hn => entry_disk hj' n f (c n f hn)⟩
  have down : ∀ m j, j + m = list.length → Ext (st j).h w1.h ∧
      (∀ n f, (st j).disk n = some f → w1.disk n = some f) := by
    intro m
    induction m with
    | zero => intro j hj; rw [show j = list.length by omega, h1]; exact ⟨.refl _, fun _ _ h => h⟩
    | succ m ih =>
      intro j hj
      obtain ⟨a, b⟩ := ih (j + 1) (by omega)
      have hj' := hst' j (by omega)
      exact ⟨(entry_ext hj').trans a, fun n f hn => b n f (entry_disk hj' n f hn)⟩
  have hfin := (up list.length le_rfl).2.1
  rw [h1] at hfin
  obtain ⟨t, ht, hR, hdisk⟩ := loop_total (n := list.length) (body := fun p (w : World R) => do
        let d ← rd list p
        entry e' d w) (fun j x => Rel w1.h (st j).h x.h ∧ x.disk = w1.disk)
    (s := ⟨s0, w1.disk⟩)
    (by
      rw [h0]
      refine ⟨⟨rfl, rfl, fun _ => rfl, fun i p hp => ⟨p, hp, .refl _⟩, fun i q hq => ?_⟩, rfl⟩
      simp only [hs0, List.getElem?_replicate] at hq
      split at hq <;> cases hq)
    (fun j x hj hx => by
      rw [rd_of_lt hj, ok_bind]
      obtain ⟨a, b, c⟩ := up j (by omega)
      obtain ⟨a', b'⟩ := down (list.length - (j + 1)) (j + 1) (by omega)
      exact entry_rel hw (hst' j hj) a a' c b' hfin hd0 hx.1 hx.2)
  rw [h1] at hR
  have hset : ∀ i, i < w1.h.refs.length → ∃ p q, w1.h.refs[i]? = some (some p) ∧
        t.h.refs[i]? = some (some q) ∧ Same p q := by
    intro i hi
    rcases free_or hi with hf | ⟨p, hp⟩
    · exact absurd (List.all_eq_true.1 hall none (List.mem_of_getElem? hf)) (by simp)
    · obtain ⟨q, hq, hs⟩ := hR.has i p hp
      exact ⟨p, q, hp, hq, hs⟩
  refine ⟨t, ?_, hdisk, hR.len, hset⟩
  unfold setupRefs
  rw [show decide (0 < dicts.length) = true by simpa using hpos, require_true, ok_bind]
  dsimp only
  rw [A2, ok_bind, ht, ok_bind]
  have : t.h.refs.all Option.isSome = true := by
    rw [List.all_eq_true]
    intro o ho
    obtain ⟨i, hi⟩ := List.mem_iff_getElem?.1 ho
    obtain ⟨p, q, -, hq, -⟩ := hset i (by rw [← hR.len]; exact lt_of_get hi)
    rw [hi] at hq; cases hq; rfl
  rw [this]
  rfl

omit [Field R] [LinearOrder R] in
/-- The port list of the global configuration file: the index of a name is its last position, and a
description, if present, is filed under the name of the port and names no port file. -/
theorem names_spec {f : File R} {names : List String} {idx : Names}
    {dicts : List (Option (Entry R))} (h : readNames f [] = .ok (names, idx, dicts)) :
    names.length = dicts.length ∧
    (∀ n p, idx.look n = some p ↔ names[p]? = some n ∧ ∀ q, p < q → names[q]? ≠ some n) ∧
    ∀ (p : Nat) d, dicts[p]? = some (some d) → d.name = names[p]? ∧ d.file = none := by
  unfold readNames at h
  obtain ⟨g, -, h⟩ := bind_eq_ok.1 h
  obtain ⟨n, -, h⟩ := bind_eq_ok.1 h
  have := loop_inv (Inv := fun k (s : List String × Names × List (Option (Entry R))) =>
      s.1.length = k ∧ s.2.2.length = k ∧
      (∀ n p, s.2.1.look n = some p ↔ s.1[p]? = some n ∧ ∀ q, p < q → s.1[q]? ≠ some n) ∧
      ∀ (p : Nat) d, s.2.2[p]? = some (some d) → d.name = s.1[p]? ∧ d.file = none)
    (s := ([], [], [])) (by simp [Names.look]) (by
      rintro k ⟨l, m, ds⟩ v hk ⟨h1, h2, h3, h4⟩ hb
      dsimp only at h1 h2 h3 h4 hb
      obtain ⟨tmp, -, hb⟩ := bind_eq_ok.1 hb
      obtain ⟨d, hdd, hb⟩ := bind_eq_ok.1 hb
      cases hb
      have hd : ∀ x, d = some x → x.name = some tmp ∧ x.file = none := by
        rintro x rfl
        unfold dictOf at hdd
        split at hdd
        · obtain ⟨y, hy, e⟩ := bind_eq_ok.1 hdd
          cases e
          unfold readDict at hy
          obtain ⟨_, -, hy⟩ := bind_eq_ok.1 hy
          obtain ⟨_, -, hy⟩ := bind_eq_ok.1 hy
          obtain ⟨_, -, hy⟩ := bind_eq_ok.1 hy
          obtain ⟨_, -, hy⟩ := bind_eq_ok.1 hy
          obtain ⟨_, -, hy⟩ := bind_eq_ok.1 hy
          obtain ⟨_, -, hy⟩ := bind_eq_ok.1 hy
          cases hy
          exact ⟨rfl, rfl⟩
        · cases hdd
      refine ⟨by simp [h1], by simp [h2], fun n p => ?_, fun p x hx => ?_⟩
      · dsimp only
        rw [look_set]
        by_cases e : n = tmp
        · subst e
          rw [if_pos rfl]
          constructor
          · rintro ⟨⟩
            refine ⟨by rw [List.getElem?_append_right (by omega)]; simp [h1], fun q hq => ?_⟩
            rw [List.getElem?_eq_none (by simp; omega)]; simp
          · rintro ⟨a, b⟩
            have ha : p < k + 1 := by
              by_contra hc
              rw [List.getElem?_eq_none (by simp; omega)] at a
              cases a
            by_contra hc
            have hpk : p < k := by
              rcases Nat.lt_or_ge p k with h | h
              · exact h
              · exact absurd (by rw [show p = k by omega]) hc
            exact b k hpk (by rw [List.getElem?_append_right (by omega)]; simp [h1])
        · rw [if_neg e, h3]
          have hk : ∀ q : Nat, (l ++ [tmp])[q]? = some n ↔ l[q]? = some n := by
            intro q
            rcases Nat.lt_or_ge q l.length with hq | hq
            · rw [List.getElem?_append_left hq]
            · rw [List.getElem?_append_right hq, List.getElem?_eq_none hq]
              simp only [reduceCtorEq, iff_false]
              intro hc
              have := List.mem_of_getElem? hc
              simp at this
              exact e this
          simp only [ne_eq, hk]
      · dsimp only at hx ⊢
        rcases Nat.lt_or_ge p ds.length with hp | hp
        · rw [List.getElem?_append_left hp] at hx
          rw [List.getElem?_append_left (by omega)]
          exact h4 p x hx
        · rw [List.getElem?_append_right hp] at hx
          have hpk : p = k := by
            by_contra hc
            rw [List.getElem?_eq_none (by simp; omega)] at hx
            cases hx
          subst hpk
          rw [h2] at hx
          simp at hx
          rw [List.getElem?_append_right (by omega), h1]
          simpa using hd x hx) h
  obtain ⟨h1, h2, h3, h4⟩ := this
  exact ⟨h1.trans h2.symm, h3, h4⟩

/-- **C80** Two reference ports cannot have the same name: the set-up fails then. -/
theorem names_distinct {e : Env R} {f : File R} {names : List String} {idx : Names}
    {dicts : List (Option (Entry R))} {list : List (Entry R)} {w w' : World R}
    (hn : readNames f [] = .ok (names, idx, dicts)) (hi : w.h.portIdx = idx)
    (h : setupRefs e dicts list w = .ok w') : names.Nodup := by
  obtain ⟨hlen, hlook, -⟩ := names_spec hn
  obtain ⟨hpos, u, hA, hB, hall⟩ := setupRefs_cases h
  -- a port that is set has a name
  have bld : ∀ (d : Entry R) (x y : World R), buildInput e d x = .ok y → x.h.portIdx = idx →
      (∀ (i : Nat) p, x.h.refs[i]? = some (some p) → ∃ n, idx.look n = some i) →
      ∀ (i : Nat) p, y.h.refs[i]? = some (some p) → ∃ n, idx.look n = some i := by
    intro d x y hb hx hI i p hp
    obtain ⟨name, -, ⟨rfl, -⟩ | ⟨i', q, hm⟩⟩ := buildInput_spec hb
    · exact hI i p hp
    · by_cases e1 : i' = i
      · subst e1; exact ⟨name, by rw [← hx]; exact hm.look⟩
      · rw [hm.h] at hp
        dsimp only at hp
        rw [List.getElem?_set_ne e1] at hp
        exact hI i p hp
  have A := loop_inv (n := dicts.length) (body := fun p w => do
        let d ← rd dicts p
        dictEntry e d w) (fun _ (x : World R) => x.h.portIdx = idx ∧
      x.h.refs.length = dicts.length ∧
      ∀ (i : Nat) p, x.h.refs[i]? = some (some p) → ∃ n, idx.look n = some i)
    (s := ⟨{ w.h with refs := List.replicate dicts.length none }, w.disk⟩)
    ⟨hi, by simp, fun i p hp => by
      simp only [List.getElem?_replicate] at hp
      split at hp <;> cases hp⟩
    (by
      rintro k x y hk ⟨a, b, c⟩ hb
      rw [rd_of_lt hk, ok_bind] at hb
      have hx := dictEntry_ext hb
      refine ⟨hx.idx.trans a, hx.len.trans b, ?_⟩
      cases hdk : dicts[k] with
      | none => rw [hdk] at hb; cases hb; exact c
      | some d => rw [hdk] at hb; exact bld d x y hb a c) hA
  have B := loop_inv (n := list.length) (body := fun p w => do
        let d ← rd list p
        entry e d w) (fun _ (x : World R) => x.h.portIdx = idx ∧
      x.h.refs.length = dicts.length ∧
      ∀ (i : Nat) p, x.h.refs[i]? = some (some p) → ∃ n, idx.look n = some i) A
    (by
      rintro k x y hk ⟨a, b, c⟩ hb
      rw [rd_of_lt hk, ok_bind] at hb
      have hx := entry_ext hb
      refine ⟨hx.idx.trans a, hx.len.trans b, ?_⟩
      rcases entry_cases hb with ⟨-, hb⟩ | ⟨f, -, hrf, -⟩
      · exact bld _ x y hb a c
      · intro i p hp
        obtain ⟨-, -, -, -, n, -, -, hfst⟩ := readFile_first hrf
        have hil : i < x.h.refs.length := by rw [← hx.len]; exact lt_of_get hp
        rcases free_or hil with hf | ⟨q, hq⟩
        · rcases hfst i hf with ⟨h1, -⟩ | ⟨q, -, k, -, ⟨name, -, hl⟩, -⟩
          · rw [hp] at h1; cases h1
          · exact ⟨name, by rw [← a]; exact hl⟩
        · exact c i q hq) hB
  obtain ⟨-, hl, hI⟩ := B
  rw [List.nodup_iff_getElem?_ne_getElem?]
  intro i j hij hj heq
  rcases free_or (l := w'.h.refs) (i := i) (by omega) with hf | ⟨p, hp⟩
  · exact absurd (List.all_eq_true.1 hall none (List.mem_of_getElem? hf)) (by simp)
  · obtain ⟨n, hn'⟩ := hI i p hp
    obtain ⟨h1, h2⟩ := (hlook n i).1 hn'
    exact h2 j hij (by rw [← heq]; exact h1)

/-! ### Unknown components (C81) -/

/-- **C81** A description of a wanted port that names an unknown component is rejected. -/
theorem unknown_description_rejected {e : Env R} {d : Entry R} {w : World R} {name n : String}
    {i : Nat} (hd : d.name = some name) (hl : w.h.portIdx.look name = some i)
    (hr : w.h.refs[i]? = some none) (hn : d.comp1 = some n ∨ d.comp2 = some n)
    (hu : w.h.compIdx.look n = none) : ∀ w', buildInput e d w ≠ .ok w' := by
  intro w' h
  obtain ⟨name', h1, ⟨rfl, hi⟩ | ⟨i', p, hm⟩⟩ := buildInput_spec h
  · rw [hd] at h1; cases h1
    rcases hi with hi | ⟨i', p, k1, k2⟩
    · rw [hl] at hi; cases hi
    · rw [hl] at k1; cases k1; rw [hr] at k2; cases k2
  · obtain ⟨m1, a1, b1⟩ := hm.known1
    obtain ⟨m2, a2, b2⟩ := hm.known2
    rcases hn with hn | hn
    · rw [hn] at a1; cases a1; rw [hu] at b1; cases b1
    · rw [hn] at a2; cases a2; rw [hu] at b2; cases b2

omit [Field R] [LinearOrder R] in
/-- **C81** A port read from a file has the components its file names, provided these are known.
Missing for the full claim: a file naming an unknown component should be rejected
(`unknown_file_accepted`). -/
theorem file_components_partial {f : File R} {s s' : Handler} {i : Nat} {p : Port}
    (h : readFile f s = .ok s') (hf : s.refs[i]? = some none)
    (hp : s'.refs[i]? = some (some p))
    (hknown : ∀ (k : Nat) n, readStr f [toString k] "component1" = .ok n ∨
      readStr f [toString k] "component2" = .ok n → ∃ c, s.compIdx.look n = some c) :
    ∃ (k : Nat) (n1 n2 : String), GroupNames s.portIdx f k i ∧
      readStr f [toString k] "component1" = .ok n1 ∧ s.compIdx.look n1 = some p.comp1 ∧
      readStr f [toString k] "component2" = .ok n2 ∧ s.compIdx.look n2 = some p.comp2 := by
  obtain ⟨-, -, -, -, n, -, -, hI⟩ := readFile_first h
  rcases hI i hf with ⟨h1, -⟩ | ⟨q, hq, k, -, hg, -, hh⟩
  · rw [hp] at h1; cases h1
  · rw [hp] at hq; cases hq
    obtain ⟨n1, a1, e1⟩ := hh.comp1
    obtain ⟨n2, a2, e2⟩ := hh.comp2
    obtain ⟨c1, k1⟩ := hknown k n1 (.inl a1)
    obtain ⟨c2, k2⟩ := hknown k n2 (.inr a2)
    refine ⟨k, n1, n2, hg, a1, ?_, a2, ?_⟩
    · rw [e1]; unfold index; rw [k1]; rfl
    · rw [e2]; unfold index; rw [k2]; rfl

/-- A handler that knows one component `a` and wants the ports `p` and `q`. -/
def demoHandler : Handler :=
  { compNames := ["a"], compIdx := [("a", 0)], portIdx := [("p", 0), ("q", 1)], refs := [none, none] }

/-- A port file for `p` that names a component `b`, written where `b` exists. -/
def demoForeign : Option (File Rat) :=
  (writePort ["b"] ⟨0, 0, 2, 4, [(3, 2), (5, 4)], [(2, 4)]⟩ "p").toOption

/-- **C81** The pinned code violates the claim: a port file that names a component this run does not
have is accepted, and the port is attached to component 0. -/
theorem unknown_file_accepted :
    demoHandler.compIdx.look "b" = none ∧
    demoForeign.map (fun f => (readStr f ["0"] "component1").toOption) = some (some "b") ∧
    demoForeign.bind (fun f => ((readFile f demoHandler).toOption).map
      fun s => s.refs[0]?.join.map fun p => (p.comp1, p.comp2)) = some (some (0, 0)) := by
  decide +kernel

/-- Two unit squares side by side, the port of `Verif.Props.Ports`. -/
def demoEnv (write : Bool) : Env Rat :=
  { thr := 1/100, dim := 2, tf := fun _ => Ports.demoTf, comps := [Ports.demoMesh],
    writePorts := write }

/-- The description of port `q` between two copies of the component `c`. -/
def demoEntry (name c : String) : Entry Rat :=
  { file := some (name ++ ".h5"), name := some name, comp1 := some c, comp2 := some c, attr1 := some 2,
    attr2 := some 4, conf := some [1, 0, 0, 0, 0, 0] }

/-- **C81** Worse, reading such a file makes the unknown name known: the description of another port
that names it, rejected before, is accepted afterwards. -/
theorem unknown_becomes_known :
    ((buildInput (demoEnv false) (demoEntry "q" "b") ⟨demoHandler, fun _ => none⟩).toOption.map
      fun w => w.h.refs.map Option.isSome) = none ∧
    (demoForeign.bind fun f => (readFile f demoHandler).toOption.bind fun s =>
      (buildInput (demoEnv false) (demoEntry "q" "b") ⟨s, fun _ => none⟩).toOption.map
        fun w => w.h.refs.map Option.isSome) = some [true, true] := by
  decide +kernel

/-! ### Concrete cases -/

/-- The hypotheses of `port_roundtrip` hold for a port between two components whose indices differ
between the two runs. -/
example : ∃ (f : File Rat) (s' : Handler) (q : Port),
    writePort ["a", "b"] ⟨0, 1, 2, 4, [(3, 2), (5, 4), (0, 1)], [(2, 4), (1, 5)]⟩ "p" = .ok f ∧
    readFile f { compNames := ["b", "a"], compIdx := [("b", 0), ("a", 1)], portIdx := [("p", 0)],
                 refs := [none] } = .ok s' ∧ s'.refs = [some q] ∧
    Same ⟨1, 0, 2, 4, [(3, 2), (5, 4), (0, 1)], [(2, 4), (1, 5)]⟩ q := by
  obtain ⟨f, s', q, h1, h2, h3, -, -, -, h4⟩ := port_roundtrip (R := Rat) (names := ["a", "b"])
    (p := ⟨0, 1, 2, 4, [(3, 2), (5, 4), (0, 1)], [(2, 4), (1, 5)]⟩) (name := "p")
    (s := { compNames := ["b", "a"], compIdx := [("b", 0), ("a", 1)], portIdx := [("p", 0)],
            refs := [none] }) (i := 0) rfl rfl (by unfold VtxOk; decide) rfl rfl (c1 := 1) (c2 := 0) rfl rfl
  exact ⟨f, s', q, h1, h2, h3, h4⟩

/-- The world of the examples: nothing on disk. -/
def demoWorld : World Rat := ⟨demoHandler, fun _ => none⟩

/-- A first run that builds both ports and writes two files. -/
theorem demo_first : ((setupRefs (demoEnv true) [none, none] [demoEntry "p" "a", demoEntry "q" "a"]
    demoWorld).toOption.map fun w => (w.h.refs.map Option.isSome, (w.disk "p.h5").isSome,
      (w.disk "q.h5").isSome, (w.disk "x").isSome)) = some ([true, true], true, true, false) := by
  decide +kernel

/-- The hypotheses of `rerun` hold for it. -/
example : ∃ w1 w2 : World Rat,
    setupRefs (demoEnv true) [none, none] [demoEntry "p" "a", demoEntry "q" "a"] demoWorld = .ok w1 ∧
    setupRefs (demoEnv false) [none, none] [demoEntry "p" "a", demoEntry "q" "a"]
      ⟨demoHandler, w1.disk⟩ = .ok w2 ∧ w2.disk = w1.disk := by
  have h := demo_first
  cases hw : setupRefs (demoEnv true) [none, none] [demoEntry "p" "a", demoEntry "q" "a"]
    demoWorld with
  | error e => rw [hw] at h; cases h
  | ok w1 =>
    obtain ⟨w2, h1, h2, -⟩ := rerun (e' := demoEnv false) rfl (by simp)
      (by
        intro c n hc
        match c, hc with
        | 0, hc => cases hc; rfl) hw
    exact ⟨w1, w2, rfl, h1, h2⟩

/-- The hypotheses of `first_source` hold: the first port is described in the global file, the second
one in the port list. -/
example : ((setupRefs (demoEnv false) [some { demoEntry "p" "a" with file := none }, none]
    [demoEntry "p" "zzz", demoEntry "q" "a"] demoWorld).toOption.map
      fun w => w.h.refs.map Option.isSome) = some [true, true] := by
  decide +kernel

/-- A global configuration file with two ports, the first one described in it. -/
def demoGlobal : File Rat :=
  [(⟨["p", "ports"], "comp1", true⟩, .attrStr "a"), (⟨["p", "ports"], "comp2", true⟩, .attrStr "a"),
   (⟨["p", "ports"], "attr1", true⟩, .attrInt 2), (⟨["p", "ports"], "attr2", true⟩, .attrInt 4),
   (⟨["p", "ports"], "comp2_configuration", false⟩, .dset [6] (.reals [1, 0, 0, 0, 0, 0])),
   (⟨["ports"], "p", false⟩, .group), (⟨["ports"], "0", true⟩, .attrStr "p"),
   (⟨["ports"], "1", true⟩, .attrStr "q"), (⟨["ports"], "number_of_references", true⟩, .attrInt 2),
   (⟨[], "ports", false⟩, .group)]

/-- The hypotheses of `names_spec` hold for it. -/
example : readNames demoGlobal [] = .ok (["p", "q"], [("q", 1), ("p", 0)],
    [some { demoEntry "p" "a" with file := none }, none]) := by
  decide +kernel

/-- Listing a port twice is rejected, as `names_distinct` says. -/
example : ((setupRefs (demoEnv false) [none, none] [demoEntry "p" "a"]
    ⟨{ demoHandler with portIdx := (Names.set (Names.set [] "p" 0) "p" 1) }, fun _ => none⟩).toOption.map
      fun w => w.h.refs.map Option.isSome) = none := by
  decide +kernel

end Verif.PortFile
