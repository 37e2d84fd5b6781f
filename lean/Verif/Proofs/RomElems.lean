import Verif.Spec.RomElems
import Verif.Props.Hdf5
import Verif.Props.EqpStore

/-! Helper lemmas about the library of reduced component matrices. -/

namespace Verif.RomElems

open Verif Verif.Hdf5 Verif.Hdf5.Spec Verif.EqpStore.Spec Spec

variable {R : Type}

/-- A new group with one integer attribute is writable and holds nothing else. -/
theorem newGroup {f : File R} {loc : Loc} {name : String} (h : CanWrite f loc name) (a : String)
    (v : Int) : ∃ f1 f2, create f ⟨loc, name, false⟩ .group = .ok f1 ∧
      writeAttr f1 (name :: loc) a v = .ok f2 ∧ Wrote f f2 loc name ∧
      (∀ n, CanWrite f2 (name :: loc) n) ∧ find f2 ⟨loc, name, false⟩ = some .group ∧
      ∀ f'', Later f2 f'' → readAttr f'' (name :: loc) a = .ok v := by
  have w0 := wrote_cons (o := .group) h
  have ho := (CanWrite.group h "x").2.1
  have w1 := wrote_attr (v := v) w0.valid ho (attr_free h a)
  refine ⟨_, _, create_ok h.2.1 h.2.2, create_ok ho (attr_free h a), w0.trans w1, fun n => ?_, ?_, ?_⟩
  · refine ⟨w1.valid, w1.later.isOpen ho, ?_⟩
    rw [find_cons_ne _ _ (by simp)]
    exact (CanWrite.group h n).2.2
  · exact w1.later _ _ (find_cons_self _ _ _)
  · intro f'' hl
    unfold readAttr
    rw [hl _ _ (find_cons_self _ _ _)]

/-- Keys in a group are not below one of its members. -/
theorem not_below {k : Key} {loc : Loc} {n : String} (hk : k.loc = loc) : ¬ (n :: loc) <:+ k.loc := by
  rw [hk]
  rintro ⟨t, ht⟩
  have := congrArg List.length ht
  simp at this
  omega

/-- Writing several objects of distinct names into a group. -/
theorem loop_write {n : Nat} {nm : Nat → String} {body : Nat → File R → Outcome (File R)}
    {P : Nat → File R → Prop} {loc : Loc} {name : String} {f : File R} (hv : Valid f)
    (hinj : ∀ i j, i < n → j < n → nm i = nm j → i = j)
    (hw : ∀ s, CanWrite f (name :: loc) s)
    (hb : ∀ i u, i < n → CanWrite u (name :: loc) (nm i) → ∃ u', body i u = .ok u' ∧
      Wrote u u' (name :: loc) (nm i) ∧ ∀ u'', Later u' u'' → P i u'') :
    ∃ f', loop n body f = .ok f' ∧ Wrote f f' loc name ∧
      (∀ i, i < n → ∀ f'', Later f' f'' → P i f'') ∧
      ∀ s, find f' ⟨name :: loc, s, false⟩ ≠ none → ∃ i, i < n ∧ s = nm i := by
  obtain ⟨f', e, h1, h2, h3, h4⟩ := loop_total (n := n) (body := body) (s := f)
    (fun q u => Wrote f u loc name ∧ (∀ i, q ≤ i → i < n → CanWrite u (name :: loc) (nm i)) ∧
      (∀ i, i < q → ∀ u'', Later u u'' → P i u'') ∧
      ∀ s, find u ⟨name :: loc, s, false⟩ ≠ none → ∃ i, i < q ∧ s = nm i)
    ⟨⟨hv, .refl _, .refl _ _ _⟩, fun i _ _ => hw _, by simp, fun s hs => absurd (hw s).2.2 hs⟩ (by
    intro q u hq ⟨b1, b2, b3, b4⟩
    obtain ⟨u', e, w, hp⟩ := hb q u hq (b2 q (Nat.le_refl _) hq)
    refine ⟨u', e, b1.trans w.lift, fun i hi hin => ?_, fun i hi u'' hl => ?_, fun s hs => ?_⟩
    · refine (b2 i (by omega) hin).step w (fun e => ?_)
      have := hinj q i hq hin e
      omega
    · by_cases ei : i = q
      · subst ei; exact hp u'' hl
      · exact b3 i (by omega) u'' (w.later.trans hl)
    · by_cases es : s = nm q
      · exact ⟨q, by omega, es⟩
      · rw [w.only _ (by simpa using es) (not_below rfl)] at hs
        obtain ⟨i, hi, e⟩ := b4 s hs
        exact ⟨i, by omega, e⟩)
  exact ⟨f', e, h1, fun i hi => h3 i hi, h4⟩

/-- A table of blocks can be read from a file. -/
def MIn (f : File R) (loc : Loc) (name : String) (m : MBlocks R) : Prop :=
  ∃ r, readMBlocks f loc name = .ok r ∧ SameM m r

theorem writeM {f : File R} {loc : Loc} {name : String} (h : CanWrite f loc name) {m : MBlocks R}
    (hm : MOk m) : ∃ f', writeMBlocks f loc name m = .ok f' ∧ Wrote f f' loc name ∧
      ∀ f'', Later f' f'' → MIn f'' loc name m := by
  obtain ⟨f', e, v, l, o, r⟩ := matrixBlocks_roundTrip f loc name h m hm.1 hm.2.1 hm.2.2
  refine ⟨f', e, ⟨v, l, o⟩, fun f'' hl => ?_⟩
  obtain ⟨x, e1, e2, e3, e4⟩ := r f'' hl
  exact ⟨x, e1, e2, e3, e4⟩

/-- The matrices of the boundaries of a component can be read from a file. -/
structure BdrIn (f : File R) (loc : Loc) (l : List (MBlocks R)) : Prop where
  grp : find f ⟨loc, "boundary", false⟩ = some .group
  attr : readAttr f ("boundary" :: loc) "number_of_boundaries" = .ok (l.length : Int)
  mats : ∀ (b : Nat) m, l[b]? = some m → MIn f ("boundary" :: loc) (toString b) m

/-- Everything about a component can be read from a file. -/
structure CompIn (f : File R) (loc : Loc) (name : String) (e : Elems R) (c : Nat) : Prop where
  grp : find f ⟨loc, name, false⟩ = some .group
  comp : ∃ m, e.comp[c]? = some m ∧ MIn f (name :: loc) "domain" m
  mass : ∃ m, e.mass[c]? = some m ∧ MIn f (name :: loc) "mass" m
  bdr : ∃ l, e.bdr[c]? = some l ∧ BdrIn f (name :: loc) l

theorem toString_inj {i j : Nat} (h : (toString i : String) = toString j) : i = j := by
  have := congrArg String.toNat? h
  simpa using this

theorem saveBdr_ok {t : Lib} {e : Elems R} {c : Nat} {f : File R} {loc : Loc}
    (hw : CanWrite f loc "boundary") {l : List (MBlocks R)} (hl : e.bdr[c]? = some l)
    (hn : t.numBdr[c]? = some l.length) (hm : ∀ m ∈ l, MOk m) :
    ∃ f', saveBdr t e c f loc = .ok f' ∧ Wrote f f' loc "boundary" ∧
      ∀ f'', Later f' f'' → BdrIn f'' loc l := by
  obtain ⟨f1, f2, e1, e2, w, hcw, hg, ha⟩ := newGroup hw "number_of_boundaries" (l.length : Int)
  obtain ⟨f', e3, w3, hp, -⟩ := loop_write (n := l.length) (nm := fun b => toString b)
    (body := fun b f => do
      let m ← rd l b
      writeMBlocks f ("boundary" :: loc) (toString b) m)
    (P := fun b f => ∀ m, l[b]? = some m → MIn f ("boundary" :: loc) (toString b) m)
    w.valid (fun i j _ _ h => toString_inj h) hcw (by
      intro b u hb hu
      obtain ⟨u', e, w, hp⟩ := writeM hu (hm _ (List.getElem_mem hb))
      refine ⟨u', ?_, w, fun u'' hl m hm' => ?_⟩
      · rw [rd_of_lt hb, ok_bind]; exact e
      · rw [List.getElem?_eq_getElem hb] at hm'
        cases hm'
        exact hp u'' hl)
  refine ⟨f', ?_, w.trans w3, fun f'' hl' => ⟨hl' _ _ (w3.later _ _ hg), ha _ (w3.later.trans hl'), ?_⟩⟩
  · unfold saveBdr
    rw [e1, ok_bind, rd_eq_ok.2 hl, ok_bind, rd_eq_ok.2 hn, ok_bind]
    simp only [beq_self_eq_true, require_true, ok_bind, e2]
    exact e3
  · intro b m hbm
    exact hp b (List.getElem?_eq_some_iff.1 hbm).1 f'' hl' m hbm

theorem saveComp_ok {t : Lib} (ht : LibOk t) {e : Elems R} (hf : Fits t e) (hp : Proper e) {c : Nat}
    {name : String} (hc : t.topo.names[c]? = some name) {f : File R} {loc : Loc}
    (hw : CanWrite f loc name) :
    ∃ f', saveComp t e c f loc = .ok f' ∧ Wrote f f' loc name ∧
      ∀ f'', Later f' f'' → CompIn f'' loc name e c := by
  have hlt := (List.getElem?_eq_some_iff.1 hc).1
  have l1 : c < e.comp.length := by rw [hf.comp]; exact hlt
  have l2 : c < e.mass.length := by rw [hf.mass]; exact hlt
  have lb : e.bdr.length = t.topo.names.length := by
    rw [← ht.bdr, ← hf.bdr, List.length_map]
  have l3 : c < e.bdr.length := by omega
  have hn : t.numBdr[c]? = some (e.bdr[c].length) := by
    rw [← hf.bdr, List.getElem?_map, List.getElem?_eq_getElem l3]; rfl
  have w0 := wrote_cons (o := .group) hw
  have g0 := fun n => CanWrite.group hw n
  obtain ⟨f1, e1, w1, p1⟩ := writeM (g0 "domain") (hp.comp _ (List.getElem_mem l1))
  obtain ⟨f2, e2, w2, p2⟩ := writeM ((g0 "mass").step w1 (by decide)) (hp.mass _ (List.getElem_mem l2))
  obtain ⟨f3, e3, w3, p3⟩ := saveBdr_ok (t := t) (e := e) (c := c)
    (((g0 "boundary").step w1 (by decide)).step w2 (by decide)) (List.getElem?_eq_getElem l3) hn
    (hp.bdr _ (List.getElem_mem l3))
  refine ⟨f3, ?_, w0.trans (w1.lift.trans (w2.lift.trans w3.lift)), fun f'' hl => ?_⟩
  · unfold saveComp
    rw [rd_eq_ok.2 hc, ok_bind, create_ok hw.2.1 hw.2.2, ok_bind, rd_of_lt l1, ok_bind, e1, ok_bind,
      rd_of_lt l2, ok_bind, e2, ok_bind, e3]
  · have h23 := w3.later.trans hl
    have h13 := w2.later.trans h23
    exact ⟨h13 _ _ (w1.later _ _ (find_cons_self _ _ _)), ⟨_, List.getElem?_eq_getElem l1, p1 _ h13⟩,
      ⟨_, List.getElem?_eq_getElem l2, p2 _ h23⟩, ⟨_, List.getElem?_eq_getElem l3, p3 _ hl⟩⟩

/-- What the whole file holds. -/
structure Saved (t : Lib) (e : Elems R) (f : File R) : Prop where
  compGrp : find f ⟨[], "components", false⟩ = some .group
  compNum : readAttr f ["components"] "number_of_components" = .ok (t.topo.names.length : Int)
  comps : ∀ (c : Nat) name, t.topo.names[c]? = some name → CompIn f ["components"] name e c
  onlyComps : ∀ s, find f ⟨["components"], s, false⟩ ≠ none → s ∈ t.topo.names
  portGrp : find f ⟨[], "ports", false⟩ = some .group
  portNum : readAttr f ["ports"] "number_of_ports" = .ok (t.topo.refPorts.length : Int)
  ports : ∀ p name, EqpStore.portName t.topo p = .ok name →
    ∃ m, e.port[p]? = some m ∧ MIn f ["ports"] name m
  onlyPorts : ∀ s, find f ⟨["ports"], s, false⟩ ≠ none →
    ∃ p, p < t.topo.refPorts.length ∧ EqpStore.portName t.topo p = .ok s
  onlyTop : ∀ s, s ≠ "components" → s ≠ "ports" → find f ⟨[], s, false⟩ = none

theorem portName_lt {t : EqpStore.Topo} {p : Nat} {s : String} (h : EqpStore.portName t p = .ok s) :
    p < t.refPorts.length := by
  unfold EqpStore.portName at h
  obtain ⟨rp, h1, -⟩ := bind_eq_ok.1 h
  by_contra hlt
  unfold rd at h1
  rw [List.getElem?_eq_none (by omega)] at h1
  cases h1

theorem save_ok {t : Lib} (ht : LibOk t) {e : Elems R} (hf : Fits t e) (hp : Proper e) :
    ∃ f, save t e = .ok f ∧ Saved t e f := by
  have c0 : ∀ n, CanWrite ([] : File R) [] n := fun n => ⟨valid_empty, rfl, rfl⟩
  obtain ⟨f1, f2, e1, e2, w, hcw, hg, ha⟩ := newGroup (c0 "components") "number_of_components"
    (t.topo.names.length : Int)
  obtain ⟨f3, e3, w3, p3, o3⟩ := loop_write (n := t.topo.names.length)
    (nm := fun c => t.topo.names[c]?.getD "")
    (body := fun c f => saveComp t e c f ["components"])
    (P := fun c f => CompIn f ["components"] (t.topo.names[c]?.getD "") e c)
    w.valid (by
      intro i j hi hj h
      rw [List.getElem?_eq_getElem hi, List.getElem?_eq_getElem hj] at h
      exact (List.getElem?_inj hi ht.names.names).1
        (by rw [List.getElem?_eq_getElem hi, List.getElem?_eq_getElem hj]; exact congrArg some h)) hcw (by
      intro c u hc hu
      refine saveComp_ok ht hf hp ?_ hu
      rw [List.getElem?_eq_getElem hc]; rfl)
  have c3 : CanWrite f3 [] "ports" :=
    (c0 "ports").step (w.trans w3) (by decide)
  obtain ⟨f4, f5, e4, e5, w5, hcw5, hg5, ha5⟩ := newGroup c3 "number_of_ports"
    (t.topo.refPorts.length : Int)
  obtain ⟨f6, e6, w6, p6, o6⟩ := loop_write (n := t.topo.refPorts.length)
    (nm := fun p => (EqpStore.portName t.topo p).toOption.getD "")
    (body := fun p f => do
      let name ← EqpStore.portName t.topo p
      let m ← rd e.port p
      writeMBlocks f ["ports"] name m)
    (P := fun p f => ∃ m, e.port[p]? = some m ∧
      MIn f ["ports"] ((EqpStore.portName t.topo p).toOption.getD "") m)
    w5.valid (by
      intro i j hi hj h
      obtain ⟨n1, h1⟩ := EqpStore.portName_ok ht.topo hi
      obtain ⟨n2, h2⟩ := EqpStore.portName_ok ht.topo hj
      rw [h1, h2] at h
      refine EqpStore.portName_inj ht.topo ht.names hi hj ?_
      rw [h1, h2]
      exact congrArg _ h) hcw5 (by
      intro p u hp' hu
      obtain ⟨n, h1⟩ := EqpStore.portName_ok ht.topo hp'
      have l1 : p < e.port.length := by rw [hf.port]; exact hp'
      rw [h1] at hu ⊢
      obtain ⟨u', e', w', h'⟩ := writeM hu (hp.port _ (List.getElem_mem l1))
      refine ⟨u', ?_, w', fun u'' hl => ⟨_, List.getElem?_eq_getElem l1, h' u'' hl⟩⟩
      rw [ok_bind, rd_of_lt l1, ok_bind]; exact e')
  have hl36 : Later f3 f6 := w5.later.trans w6.later
  refine ⟨f6, ?_, ⟨hl36 _ _ (w3.later _ _ hg), ha _ (w3.later.trans hl36), ?_, ?_, w6.later _ _ hg5,
    ha5 _ w6.later, ?_, ?_, ?_⟩⟩
  · unfold save saveComps savePorts
    simp only [e1, ok_bind, e2, e3, e4, e5]
    exact e6
  · intro c name hc
    have := p3 c (List.getElem?_eq_some_iff.1 hc).1 f6 hl36
    rw [hc] at this
    exact this
  · intro s hs
    have key : find f6 ⟨["components"], s, false⟩ = find f3 ⟨["components"], s, false⟩ := by
      refine (w5.trans w6).only _ (by simp) ?_
      rintro ⟨t', ht'⟩
      have := congrArg List.getLast? ht'
      simp at this
    rw [key] at hs
    obtain ⟨i, hi, e⟩ := o3 s hs
    rw [List.getElem?_eq_getElem hi] at e
    rw [e]
    exact List.getElem_mem hi
  · intro p name h
    have := p6 p (portName_lt h) f6 (.refl _)
    rw [h] at this
    exact this
  · intro s hs
    obtain ⟨i, hi, e⟩ := o6 s hs
    obtain ⟨n, h1⟩ := EqpStore.portName_ok ht.topo hi
    rw [h1] at e
    exact ⟨i, hi, by rw [h1, e]; rfl⟩
  · intro s h1 h2
    rw [(w5.trans w6).only _ (by simpa using h2) (by simp), (w.trans w3).only _ (by simpa using h1) (by simp)]
    rfl

end Verif.RomElems
