import Verif.Spec.EqpCoords
import Verif.Proofs.EqpStore
import Verif.Props.Hdf5

/-! # C122: the saved coordinates of hyper-reduction samples -/

namespace Verif.EqpCoords

open Verif Verif.LinAlg Verif.Hdf5 Verif.Hdf5.Spec Verif.EqpCoords.Spec

variable {R P : Type}

theorem slot_ne {n i i' j j' : Nat} (hi : i < n) (hi' : i' < n) (h : i ≠ i' ∨ j ≠ j') :
    i + j * n ≠ i' + j' * n := by
  intro e
  have h1 : i = i' := by
    have := congrArg (· % n) e
    simpa [Nat.add_mul_mod_self_right, Nat.mod_eq_of_lt hi, Nat.mod_eq_of_lt hi'] using this
  subst h1
  have h2 : j * n = j' * n := by omega
  have := Nat.eq_of_mul_eq_mul_right (by omega) h2
  omega

theorem slot_lt {n i j : Nat} (hi : i < n) (hj : j < 3) : i + j * n < n * 3 := by
  have : j * n ≤ 2 * n := Nat.mul_le_mul_right _ (by omega)
  omega

/-- A row is set, the others stay. -/
theorem setRow_ok {m : Mat R} (hw : m.w = 3) (hl : m.data.length = m.h * 3) {i : Nat} (hi : i < m.h)
    (row : Nat → R) : ∃ m', setRow m i row = .ok m' ∧ m'.h = m.h ∧ m'.w = 3 ∧ m'.data.length = m.h * 3 ∧
      ∀ i' j, i' < m.h → j < 3 → m'.data[i' + j * m.h]? =
        if i' = i then some (row j) else m.data[i' + j * m.h]? := by
  unfold setRow
  rw [hw]
  suffices key : ∃ d, loop 3 (fun j d => wr d (i + j * m.h) (row j)) m.data = .ok d ∧
      d.length = m.h * 3 ∧ ∀ i' j, i' < m.h → j < 3 → d[i' + j * m.h]? =
        if i' = i ∧ j < 3 then some (row j) else m.data[i' + j * m.h]? by
    obtain ⟨d, h1, h2, h3⟩ := key
    rw [h1]
    refine ⟨_, rfl, rfl, rfl, h2, fun i' j hi' hj => ?_⟩
    rw [h3 i' j hi' hj]
    by_cases h : i' = i
    · rw [if_pos ⟨h, hj⟩, if_pos h]
    · rw [if_neg (fun c => h c.1), if_neg h]
  refine loop_total (Inv := fun q (d : List R) => d.length = m.h * 3 ∧ ∀ i' j, i' < m.h → j < 3 → d[i' + j * m.h]? =
    if i' = i ∧ j < q then some (row j) else m.data[i' + j * m.h]?) ⟨hl, ?_⟩ ?_
  · intro i' j _ _
    rw [if_neg (by omega)]
  · rintro q d hq ⟨h1, h2⟩
    refine ⟨_, wr_of_lt (by rw [h1]; exact slot_lt hi hq), by rw [List.length_set, h1], ?_⟩
    intro i' j hi' hj
    by_cases h : i' = i ∧ j = q
    · obtain ⟨rfl, rfl⟩ := h
      rw [List.getElem?_set_self (by rw [h1]; exact slot_lt hi hq), if_pos ⟨rfl, by omega⟩]
    · rw [List.getElem?_set_ne (slot_ne hi hi' (by omega)), h2 i' j hi' hj]
      by_cases h' : i' = i ∧ j < q
      · rw [if_pos h', if_pos ⟨h'.1, by omega⟩]
      · rw [if_neg h', if_neg (by omega)]

/-- Coordinates of a sample. -/
def locate (c : Form R P) (s : Sample R) : List R :=
  match c.elems[s.el.toNat]?, (c.rule.getD [])[s.qp.toNat]? with
  | some t, some ip => t ip
  | _, _ => []

theorem locate_eq {c : Form R P} {s : Sample R} {x : List R} (h : IsAt c s x) : locate c s = x := by
  obtain ⟨el, qp, t, ir, ip, h1, h2, h3, h4, h5, h6⟩ := h
  unfold locate
  rw [h1, h2, h4, Int.toNat_natCast, Int.toNat_natCast, h3, Option.getD_some, h5, h6]

/-- The table of one component. -/
theorem domain_ok [Zero R] {d : Nat} {c : Form R P} {l : List (Sample R)} (h : Ready d c l)
    (junk : Nat → Nat → R) {f : File R} {loc : Loc} {dset : String} (hw : CanWrite f loc dset) :
    ∃ f', saveDomain c 0 junk f loc dset = .ok f' ∧ Wrote f f' loc dset ∧
      ∀ f'' (target : Mat R), Later f' f'' → target.h * target.w ≤ target.data.length →
        ∃ m, readDense f'' (dset :: loc) "coords" target = .ok m ∧ m.h = l.length ∧ m.w = 3 ∧
          ∀ i j s, l[i]? = some s → j < 3 →
            m.data[i + j * l.length]? = some (buffer (locate c s) (junk i) j) := by
  have hrule : ∃ ir, c.rule = some ir := by
    obtain ⟨s, hs⟩ := List.exists_mem_of_ne_nil l h.some_
    obtain ⟨x, ⟨_, _, _, ir, _, _, _, _, h4, _⟩, _⟩ := h.at_ s hs
    exact ⟨ir, h4⟩
  obtain ⟨ir, hir⟩ := hrule
  have hpos : 0 < l.length := List.length_pos_iff.2 h.some_
  unfold saveDomain
  rw [if_neg (by have := h.integ; omega),
    show (decide ((0 : Int) ≤ 0) && decide ((0 : Int) < c.numInteg)) = true by
      have := h.integ; simp; omega, hir, h.samples]
  simp only [Option.isSome_some, require_true, ok_bind, Option.getD_some]
  suffices key : ∃ m : Mat R, loop l.length (fun i m => do
      let s ← rd l i
      let t ← rdI c.elems s.el
      let ip ← rdI ir s.qp
      setRow m i (buffer (t ip) (junk i))) (⟨l.length, 3, List.replicate (l.length * 3) 0⟩ : Mat R) = .ok m ∧
      (m.h = l.length ∧ m.w = 3 ∧ m.data.length = l.length * 3) ∧
      ∀ i j s, i < l.length → l[i]? = some s → j < 3 →
        m.data[i + j * l.length]? = some (buffer (locate c s) (junk i) j) by
    obtain ⟨m, h1, ⟨h2, h3, h4⟩, h5⟩ := key
    rw [h1, ok_bind, create_ok hw.2.1 hw.2.2, ok_bind]
    obtain ⟨f', e1, e2, e3, e4, e5⟩ := dense_roundTrip _ (dset :: loc) "coords" (CanWrite.group hw "coords") m
      (by omega) (by omega) (by rw [h2, h3, h4])
    refine ⟨f', e1, (wrote_cons hw).trans (Wrote.lift ⟨e2, e3, e4⟩), ?_⟩
    intro f'' target hl ht
    obtain ⟨r, r1, r2, r3, r4⟩ := e5 f'' target hl ht
    refine ⟨r, r1, by rw [← r2, h2], by rw [← r3, h3], ?_⟩
    intro i j s hs hj
    have hi := (List.getElem?_eq_some_iff.1 hs).1
    have := r4 i j (by omega) (by omega)
    rw [← r2, h2] at this
    rw [this]
    exact h5 i j s hi hs hj
  refine loop_total (Inv := fun q (m : Mat R) => (m.h = l.length ∧ m.w = 3 ∧ m.data.length = l.length * 3) ∧
    ∀ i j s, i < q → l[i]? = some s → j < 3 →
      m.data[i + j * l.length]? = some (buffer (locate c s) (junk i) j)) ⟨⟨rfl, rfl, by simp⟩, by simp⟩ ?_
  rintro q m hq ⟨⟨h1, h2, h3⟩, h4⟩
  obtain ⟨x, hx, _⟩ := h.at_ _ (List.getElem_mem hq)
  have hloc := locate_eq hx
  obtain ⟨el, qp, t, ir', ip, g1, g2, g3, g4, g5, g6⟩ := hx
  rw [hir] at g4; cases g4
  rw [rd_of_lt hq, ok_bind, g1, EqpStore.rdI_nat, rd_eq_ok.2 g3, ok_bind, g2, EqpStore.rdI_nat,
    rd_eq_ok.2 g5, ok_bind]
  obtain ⟨m', e1, e2, e3, e4, e5⟩ := setRow_ok h2 (by rw [h3, h1]) (i := q) (by omega)
    (buffer (t ip) (junk q))
  refine ⟨m', e1, ⟨by rw [e2, h1], e3, by rw [e4, h1]⟩, ?_⟩
  intro i j s hi hs hj
  rw [h1] at e5
  rw [e5 i j (by omega) hj]
  by_cases hiq : i = q
  · subst hiq
    rw [if_pos rfl]
    rw [List.getElem?_eq_getElem hq] at hs
    cases hs
    rw [hloc, g6]
  · rw [if_neg hiq]
    exact h4 i j s (by omega) hs hj

theorem name_inj {a b : String} (h : a ++ "_integ0" = b ++ "_integ0") : a = b := by
  have := congrArg String.toList h
  rw [String.toList_append, String.toList_append] at this
  exact String.toList_inj.1 (List.append_cancel_right this)

/-- C122: saving the coordinates of the samples of a library ends without an error; the file holds the
number of components and, under the name of each, a table with a row for each sample.  Its first `d` columns
are the coordinates of the sample, the remaining ones uninitialised memory.  Missing for the full property:
in two dimensions the third column should be determined as well, see `coords_2d_undetermined`. -/
theorem coords_saved_partial [Zero R] {d : Nat} {names : List String} {forms : List (Option (Form R P))}
    {samples : List (List (Sample R))} (h : Library d names forms samples) {lf fullDg : Bool}
    (hlf : lf = true → fullDg = false) (junk : Nat → Nat → Nat → R) :
    ∃ f, saveCoords true lf fullDg names forms junk = .ok f ∧
      readAttr f ["components"] "number_of_components" = .ok names.length ∧
      ∀ (c : Nat) name F l, names[c]? = some name → forms[c]? = some (some F) → samples[c]? = some l →
        ∃ entry, HoldsTable f name l.length entry ∧
          ∀ i s x, l[i]? = some s → IsAt F s x →
            (∀ j y, x[j]? = some y → j < 3 → entry i j = y) ∧
            ∀ j, d ≤ j → j < 3 → x.length = d → entry i j = junk c i j := by
  unfold saveCoords
  have h0 : CanWrite ([] : File R) [] "components" :=
    ⟨fun k hk => absurd rfl hk, rfl, rfl⟩
  rw [require_true, ok_bind, create_ok h0.2.1 h0.2.2, ok_bind, show (forms.length == names.length) = true by
    rw [h.formCount]; exact beq_self_eq_true _, require_true, ok_bind]
  unfold writeAttr
  have hopen : isOpen ((⟨[], "components", false⟩, Obj.group) :: ([] : File R)) ["components"] = true := rfl
  have hfree := attr_free h0 "number_of_components"
  rw [create_ok hopen hfree, ok_bind]
  have w0 := wrote_attr (loc := []) (name := "components") (v := (names.length : Int)) (wrote_cons h0).valid
    hopen hfree
  generalize hf0 : (⟨["components"], "number_of_components", true⟩, Obj.attrInt (names.length : Int)) ::
    ((⟨[], "components", false⟩, Obj.group) :: ([] : File R)) = f0 at w0
  have hattr : find f0 ⟨["components"], "number_of_components", true⟩ =
      some (.attrInt (names.length : Int)) := by rw [← hf0]; exact find_cons_self _ _ _
  have hcan : ∀ n : String, CanWrite f0 ["components"] n := by
    intro n
    have hg := CanWrite.group h0 n
    refine ⟨w0.valid, w0.later.isOpen hg.2.1, ?_⟩
    rw [← hf0, find_cons_ne]
    · exact hg.2.2
    · intro e
      have := congrArg Key.isAttr e
      cases this
  suffices key : ∃ f, loop names.length (fun c f => do
      let form ← rd forms c
      require form.isSome
      let form ← deref form
      let name ← rd names c
      let f ← saveDomain form 0 (junk c) f ["components"] (name ++ "_integ0")
      if lf then require (!fullDg)
      return f) f0 = .ok f ∧ Later f0 f ∧
      (∀ (c : Nat) name, names.length ≤ c → names[c]? = some name → CanWrite f ["components"] (name ++ "_integ0")) ∧
      ∀ (c : Nat) name F l, c < names.length → names[c]? = some name → forms[c]? = some (some F) →
        samples[c]? = some l → ∀ f'' (target : Mat R), Later f f'' →
        target.h * target.w ≤ target.data.length →
        ∃ m, readDense f'' [name ++ "_integ0", "components"] "coords" target = .ok m ∧ m.h = l.length ∧
          m.w = 3 ∧ ∀ i j s, l[i]? = some s → j < 3 →
            m.data[i + j * l.length]? = some (buffer (locate F s) (junk c i) j) by
    obtain ⟨f, e1, e2, _, e3⟩ := key
    refine ⟨f, e1, ?_, ?_⟩
    · unfold readAttr
      rw [e2 _ _ hattr]
    · intro c name F l hn hF hl
      refine ⟨fun i j => match l[i]? with
        | some s => buffer (locate F s) (junk c i) j
        | none => 0, ?_, ?_⟩
      · intro target ht
        obtain ⟨m, m1, m2, m3, m4⟩ := e3 c name F l (List.getElem?_eq_some_iff.1 hn).1 hn hF hl f target
          (.refl f) ht
        refine ⟨m, m1, m2, m3, fun i j hi hj => ?_⟩
        rw [m4 i j _ (List.getElem?_eq_getElem hi) hj]
        dsimp only
        rw [List.getElem?_eq_getElem hi]
      · intro i s x hs hx
        refine ⟨fun j y hy _ => ?_, fun j hj _ hlen => ?_⟩
        · dsimp only
          rw [hs]
          dsimp only
          rw [locate_eq hx]
          unfold buffer
          rw [hy]; rfl
        · dsimp only
          rw [hs]
          dsimp only
          rw [locate_eq hx]
          unfold buffer
          rw [List.getElem?_eq_none (by omega)]; rfl
  refine loop_total (Inv := fun q f => Later f0 f ∧
    (∀ (c : Nat) name, q ≤ c → names[c]? = some name → CanWrite f ["components"] (name ++ "_integ0")) ∧
    ∀ (c : Nat) name F l, c < q → names[c]? = some name → forms[c]? = some (some F) →
      samples[c]? = some l → ∀ f'' (target : Mat R), Later f f'' →
      target.h * target.w ≤ target.data.length →
      ∃ m, readDense f'' [name ++ "_integ0", "components"] "coords" target = .ok m ∧ m.h = l.length ∧
        m.w = 3 ∧ ∀ i j s, l[i]? = some s → j < 3 →
          m.data[i + j * l.length]? = some (buffer (locate F s) (junk c i) j))
    ⟨.refl _, fun _ _ _ _ => hcan _, by simp⟩ ?_
  rintro q f hq ⟨i1, i2, i3⟩
  have hname : names[q]? = some names[q] := List.getElem?_eq_getElem hq
  have hform : forms[q]? = some (forms[q]'(by rw [h.formCount]; exact hq)) := List.getElem?_eq_getElem _
  have hsam : samples[q]? = some (samples[q]'(by rw [h.sampleCount]; exact hq)) := List.getElem?_eq_getElem _
  generalize forms[q]'(by rw [h.formCount]; exact hq) = form at hform
  generalize samples[q]'(by rw [h.sampleCount]; exact hq) = l at hsam
  obtain ⟨F, rfl, hready⟩ := h.ready q _ _ hform hsam
  obtain ⟨f', e1, w, e2⟩ := domain_ok hready (junk q) (i2 q _ (Nat.le_refl _) hname)
  refine ⟨f', ?_, i1.trans w.later, ?_, ?_⟩
  · rw [rd_eq_ok.2 hform, ok_bind]
    simp only [Option.isSome_some, require_true, ok_bind]
    rw [show deref (some F) = .ok F from rfl, ok_bind, rd_eq_ok.2 hname, ok_bind, e1, ok_bind]
    cases lf with
    | false => rfl
    | true => rw [hlf rfl]; rfl
  · intro c name hc hn
    refine (i2 c name (by omega) hn).step w ?_
    intro e
    have hcq := (List.getElem?_inj (List.getElem?_eq_some_iff.1 hname).1 h.distinct).1
      (hname.trans (by rw [name_inj e, hn]))
    omega
  · intro c name F' l' hc hn hF hl f'' target hlt ht
    by_cases hcq : c = q
    · subst hcq
      rw [hname] at hn; cases hn
      rw [hform] at hF; cases hF
      rw [hsam] at hl; cases hl
      exact e2 f'' target hlt ht
    · exact i3 c name F' l' (by omega) hn hF hl f'' target (w.later.trans hlt) ht

/-- C122, three dimensions: every entry of every table is a coordinate of its sample, whatever memory held
before. -/
theorem coords_saved_3d [Zero R] {names : List String} {forms : List (Option (Form R P))}
    {samples : List (List (Sample R))} (h : Library 3 names forms samples) {lf fullDg : Bool}
    (hlf : lf = true → fullDg = false) (junk : Nat → Nat → Nat → R) :
    ∃ f, saveCoords true lf fullDg names forms junk = .ok f ∧
      readAttr f ["components"] "number_of_components" = .ok names.length ∧
      ∀ (c : Nat) name F l, names[c]? = some name → forms[c]? = some (some F) → samples[c]? = some l →
        ∃ entry, HoldsTable f name l.length entry ∧
          ∀ i s x, l[i]? = some s → IsAt F s x → ∀ j < 3, x[j]? = some (entry i j) := by
  obtain ⟨f, h1, h2, h3⟩ := coords_saved_partial h hlf junk
  refine ⟨f, h1, h2, ?_⟩
  intro c name F l hn hF hl
  obtain ⟨entry, e1, e2⟩ := h3 c name F l hn hF hl
  refine ⟨entry, e1, ?_⟩
  intro i s x hs hx j hj
  obtain ⟨F', hF', hr⟩ := h.ready c _ _ hF hl
  cases hF'
  obtain ⟨x', hx', hlen⟩ := hr.at_ s (List.mem_of_getElem? hs)
  have hxx : x' = x := (locate_eq hx').symm.trans (locate_eq hx)
  subst hxx
  have hj' : j < x'.length := by omega
  rw [(e2 i s x' hs hx).1 j _ (List.getElem?_eq_getElem hj') hj]
  exact List.getElem?_eq_getElem hj'

/-- C122 fails in two dimensions: for every number there is a run, which differs only in what uninitialised
memory holds, whose file has that number as third coordinate of every sample. -/
theorem coords_2d_undetermined [Zero R] {names : List String} {forms : List (Option (Form R P))}
    {samples : List (List (Sample R))} (h : Library 2 names forms samples) {lf fullDg : Bool}
    (hlf : lf = true → fullDg = false) (v : R) :
    ∃ junk f, saveCoords true lf fullDg names forms junk = .ok f ∧
      ∀ (c : Nat) name F l, names[c]? = some name → forms[c]? = some (some F) → samples[c]? = some l →
        ∃ entry, HoldsTable f name l.length entry ∧ ∀ i < l.length, entry i 2 = v := by
  obtain ⟨f, h1, _, h3⟩ := coords_saved_partial h hlf (fun _ _ _ => v)
  refine ⟨_, f, h1, ?_⟩
  intro c name F l hn hF hl
  obtain ⟨entry, e1, e2⟩ := h3 c name F l hn hF hl
  refine ⟨entry, e1, fun i hi => ?_⟩
  obtain ⟨F', hF', hr⟩ := h.ready c _ _ hF hl
  cases hF'
  obtain ⟨x, hx, hlen⟩ := hr.at_ _ (List.getElem_mem hi)
  exact (e2 i _ x (List.getElem?_eq_getElem hi) hx).2 2 (by omega) (by omega) hlen

/-- A component without samples makes the run undefined. -/
theorem no_samples_ub [Zero R] (c : Form R P) (hc : 0 < c.numInteg) (hr : c.rule.isSome)
    (hs : c.samples = some []) (junk : Nat → Nat → R) {f : File R} {loc : Loc} {dset : String}
    (hw : CanWrite f loc dset) : saveDomain c 0 junk f loc dset = .error .ub := by
  unfold saveDomain
  rw [if_neg (by omega), show (decide ((0 : Int) ≤ 0) && decide ((0 : Int) < c.numInteg)) = true by
    simp; omega, hr, hs]
  simp only [Option.isSome_some, require_true, ok_bind, Option.getD_some]
  show (create f _ _ >>= _) = _
  rw [create_ok hw.2.1 hw.2.2, ok_bind]
  rfl

/-! Non-vacuity -/

/-- Two elements in the plane, a rule with two points. -/
def demoForm : Form Int Nat :=
  ⟨1, some [3, 5], some [⟨1, 0, 7⟩, ⟨0, 1, 2⟩], [fun p => [p, 10], fun p => [p + 100, 20]]⟩

/-- The same in space. -/
def demoForm3 : Form Int Nat :=
  ⟨1, some [3, 5], some [⟨1, 0, 7⟩, ⟨0, 1, 2⟩], [fun p => [p, 10, -1], fun p => [p + 100, 20, -2]]⟩

/-- One component. -/
theorem demo_library : Library 2 ["square", "disk"] [some demoForm, some demoForm]
    [[⟨1, 0, 7⟩, ⟨0, 1, 2⟩], [⟨1, 0, 7⟩, ⟨0, 1, 2⟩]] := by
  have hr : Ready 2 demoForm [⟨1, 0, 7⟩, ⟨0, 1, 2⟩] := by
    refine ⟨by decide, rfl, by decide, ?_⟩
    intro s hs
    simp only [List.mem_cons, List.not_mem_nil, or_false] at hs
    rcases hs with rfl | rfl
    · exact ⟨[103, 20], ⟨1, 0, _, _, _, rfl, rfl, rfl, rfl, rfl, rfl⟩, rfl⟩
    · exact ⟨[5, 10], ⟨0, 1, _, _, _, rfl, rfl, rfl, rfl, rfl, rfl⟩, rfl⟩
  refine ⟨by decide, rfl, rfl, ?_⟩
  intro c form l h1 h2
  match c with
  | 0 => cases h1; cases h2; exact ⟨_, rfl, hr⟩
  | 1 => cases h1; cases h2; exact ⟨_, rfl, hr⟩
  | c + 2 => cases h1

/-- The same in space. -/
theorem demo_library3 : Library 3 ["cube"] [some demoForm3] [[⟨1, 0, 7⟩, ⟨0, 1, 2⟩]] := by
  refine ⟨by decide, rfl, rfl, ?_⟩
  intro c form l h1 h2
  match c with
  | 0 =>
    cases h1; cases h2
    refine ⟨_, rfl, by decide, rfl, by decide, ?_⟩
    intro s hs
    simp only [List.mem_cons, List.not_mem_nil, or_false] at hs
    rcases hs with rfl | rfl
    · exact ⟨[103, 20, -2], ⟨1, 0, _, _, _, rfl, rfl, rfl, rfl, rfl, rfl⟩, rfl⟩
    · exact ⟨[5, 10, -1], ⟨0, 1, _, _, _, rfl, rfl, rfl, rfl, rfl, rfl⟩, rfl⟩
  | c + 1 => cases h1

/-- The tables of the examples: in the plane the third column is what memory held. -/
example : (do
      let f ← saveCoords true true false ["square", "disk"] [some demoForm, some demoForm] (fun c i _ => 77 + c + i)
      readDense f ["disk_integ0", "components"] "coords" ⟨0, 0, []⟩) = .ok ⟨2, 3, [103, 5, 20, 10, 78, 79]⟩ ∧
    (do
      let f ← saveCoords true false true ["cube"] [some demoForm3] (fun _ _ _ => 77)
      readDense f ["cube_integ0", "components"] "coords" ⟨0, 0, []⟩) = .ok ⟨2, 3, [103, 5, 20, 10, -2, -1]⟩ := by
  decide +kernel

/-- Two components of the same name, a missing form, and a full DG Lax-Friedrichs operator are rejected. -/
example : saveCoords true false false ["a", "a"] [some demoForm, some demoForm] (fun _ _ _ => 0) = .error .abort ∧
    saveCoords true false false ["a", "b"] [some demoForm, none] (fun _ _ _ => 0) = .error .abort ∧
    saveCoords true true true ["a"] [some demoForm] (fun _ _ _ => 0) = .error .abort := by
  decide +kernel

end Verif.EqpCoords
