import Verif.Proofs.RomElems
import Verif.Proofs.PortFile

/-!
# C82: the library of reduced component matrices

Saving the library and loading it in another problem gives every component, boundary and reference port
of that problem the matrices stored under its name, whatever the order; a problem that needs something
the library does not have is rejected.
-/

namespace Verif.RomElems

open Verif Verif.Hdf5 Verif.Hdf5.Spec Verif.EqpStore.Spec Spec

variable {R : Type}

/-- The matrices the constructor allocates fit and can be stored. -/
theorem init_ok {t : Lib} {bs : Nat} (hb : 0 < bs) :
    Fits t (init (R := R) t bs) ∧ Proper (init (R := R) t bs) := by
  have hm : ∀ n, 0 < n → MOk (emptyBlocks (R := R) n) :=
    fun n hn => ⟨hn, hn, fun i j _ _ m h => by simp [emptyBlocks] at h⟩
  refine ⟨⟨by simp [init], by simp [init], ?_, by simp [init]⟩, ⟨?_, ?_, ?_, ?_⟩⟩
  · simp [init, Function.comp_def]
  · intro m h
    simp only [init, List.mem_map] at h
    obtain ⟨_, -, rfl⟩ := h
    exact hm _ hb
  · intro m h
    simp only [init, List.mem_map] at h
    obtain ⟨_, -, rfl⟩ := h
    exact hm _ hb
  · intro l h m hml
    simp only [init, List.mem_map] at h
    obtain ⟨_, -, rfl⟩ := h
    obtain ⟨-, rfl⟩ := List.mem_replicate.1 hml
    exact hm _ hb
  · intro m h
    simp only [init, List.mem_map] at h
    obtain ⟨_, -, rfl⟩ := h
    exact hm _ (by omega)

/-- A library of proper matrices can always be saved. -/
theorem save_succeeds {t : Lib} (ht : LibOk t) {e : Elems R} (hf : Fits t e) (hp : Proper e) :
    ∃ f, save t e = .ok f := by
  obtain ⟨f, h, -⟩ := save_ok ht hf hp
  exact ⟨f, h⟩

theorem loadBdr_ok {t : Lib} {f : File R} {loc : Loc} {l l2 : List (MBlocks R)} (h : BdrIn f loc l)
    {c : Nat} {e : Elems R} (hn : t.numBdr[c]? = some l.length) (hc : e.bdr[c]? = some l2)
    (hl : l2.length = l.length) (h0 : l.length ≠ 0) :
    ∃ l', loadBdr t c f loc e = .ok { e with bdr := e.bdr.set c l' } ∧ l'.length = l.length ∧
      ∀ b, b < l.length → Same l[b]? l'[b]? := by
  obtain ⟨l', e1, h1, h2⟩ := loop_total (n := l2.length)
    (body := fun b l => do
      let m ← readMBlocks f ("boundary" :: loc) (toString b)
      wr l b m) (s := l2)
    (fun q u => u.length = l.length ∧ ∀ b, b < q → Same l[b]? u[b]?) ⟨hl, by simp⟩ (by
    intro q u hq ⟨i1, i2⟩
    have hq' : q < l.length := by omega
    obtain ⟨r, e2, s2⟩ := h.mats q l[q] (List.getElem?_eq_getElem hq')
    refine ⟨u.set q r, ?_, by simp [i1], fun b hb => ?_⟩
    · rw [e2, ok_bind, wr_of_lt (by omega)]
    · by_cases eb : b = q
      · subst eb
        exact ⟨l[b], r, List.getElem?_eq_getElem hq', by rw [List.getElem?_set_self (by omega)], s2⟩
      · rw [List.getElem?_set_ne (by omega)]
        exact i2 b (by omega))
  refine ⟨l', ?_, h1, fun b hb => h2 b (by omega)⟩
  unfold loadBdr
  rw [openGroup_of h.grp, ok_bind, h.attr, ok_bind, rd_eq_ok.2 hn, ok_bind]
  simp only [beq_self_eq_true, require_true, ok_bind, rd_eq_ok.2 hc]
  rw [show (l2.length != 0) = true by rw [hl]; simpa using h0, require_true, ok_bind, e1, ok_bind,
    wr_of_lt (List.getElem?_eq_some_iff.1 hc).1]
  rfl

/-- **Round trip by name.**  Load a saved library on any topology whose components and reference ports
it covers, over any matrices: every component, boundary and reference port gets the matrices the
library had under its name. -/
theorem save_load {t t2 : Lib} (ht : LibOk t) (ht2 : LibOk t2) (hb : HasBdr t2) {e e2 : Elems R}
    (hf : Fits t e) (hp : Proper e) (hf2 : Fits t2 e2) (hcov : Covers t t2) {f : File R}
    (hs : save t e = .ok f) : ∃ e3, load t2 f e2 = .ok e3 ∧ Fits t2 e3 ∧ Agree t t2 e e3 := by
  obtain ⟨f', h', hsv⟩ := save_ok ht hf hp
  rw [hs] at h'
  cases h'
  have ncomp : t2.topo.names.length ≤ t.topo.names.length := by
    refine (ht2.names.names.subperm (l₂ := t.topo.names) fun n hn => ?_).length_le
    obtain ⟨c2, hc2, e⟩ := List.getElem_of_mem hn
    obtain ⟨c, ⟨n', h1, h2⟩, -⟩ := hcov.comps c2 hc2
    rw [List.getElem?_eq_getElem hc2, e] at h2
    cases h2
    exact List.mem_of_getElem? h1
  have samename : ∀ {p p2 : Nat}, p < t.topo.refPorts.length → p2 < t2.topo.refPorts.length →
      (EqpStore.portName t.topo p = EqpStore.portName t2.topo p2 ↔ SamePort t.topo t2.topo p p2) :=
    fun h1 h2 => EqpStore.portName_eq_iff ht.topo ht2.topo ht.names.colon ht2.names.colon
      ht.names.attr ht2.names.attr h1 h2
  have nport : t2.topo.refPorts.length ≤ t.topo.refPorts.length := by
    have hch : ∀ p2 : Fin t2.topo.refPorts.length, ∃ p : Fin t.topo.refPorts.length,
        EqpStore.portName t.topo p = EqpStore.portName t2.topo p2 := fun p2 => by
      obtain ⟨p, hp, h⟩ := hcov.ports p2 p2.2
      exact ⟨⟨p, hp⟩, (samename hp p2.2).2 h⟩
    choose g hg using hch
    have := Fintype.card_le_of_injective g (fun a b hab => by
      have h1 := hg a
      rw [hab, hg b] at h1
      exact Fin.ext (EqpStore.portName_inj ht2.topo ht2.names b.2 a.2 h1).symm)
    simpa using this
  -- components
  obtain ⟨e3, l3, i1, i2⟩ := loop_total (n := t2.topo.names.length) (s := e2)
    (body := loadComp t2 f ["components"])
    (fun q u => Fits t2 u ∧ ∀ c c2, c2 < q → SameComp t t2 c c2 →
      Same e.comp[c]? u.comp[c2]? ∧ Same e.mass[c]? u.mass[c2]? ∧
      ∃ l l2, e.bdr[c]? = some l ∧ u.bdr[c2]? = some l2 ∧ l2.length = l.length ∧
        ∀ b, b < l.length → Same l[b]? l2[b]?) ⟨hf2, by simp⟩ (by
    intro q u hq ⟨j1, j2⟩
    obtain ⟨c, ⟨n, n1, n2⟩, hbd⟩ := hcov.comps q hq
    have hin := hsv.comps c n n1
    obtain ⟨m, m1, r, m2, m3⟩ := hin.comp
    obtain ⟨k, k1, s, k2, k3⟩ := hin.mass
    obtain ⟨l, l1, hl⟩ := hin.bdr
    have a1 : q < u.comp.length := by rw [j1.comp]; exact hq
    have a2 : q < u.mass.length := by rw [j1.mass]; exact hq
    have a3 : q < u.bdr.length := by
      have := congrArg List.length j1.bdr
      rw [List.length_map] at this
      rw [this, ht2.bdr]; exact hq
    have nb : t2.numBdr[q]? = some l.length := by
      rw [← hbd, ← hf.bdr, List.getElem?_map, l1]; rfl
    have nb2 : u.bdr[q].length = l.length := by
      rw [← j1.bdr, List.getElem?_map, List.getElem?_eq_getElem a3] at nb
      exact Option.some.inj nb
    obtain ⟨l', e1, h1, h2⟩ := loadBdr_ok (t := t2) (c := q)
      (e := { u with comp := u.comp.set q r, mass := u.mass.set q s }) hl nb
      (List.getElem?_eq_getElem a3) nb2 (hb _ (List.mem_of_getElem? nb))
    refine ⟨⟨u.comp.set q r, u.mass.set q s, u.bdr.set q l', u.port⟩, ?_, ⟨?_, ?_, ?_, ?_⟩, ?_⟩
    · unfold loadComp
      rw [rd_eq_ok.2 n2, ok_bind, openGroup_of hin.grp, ok_bind, m2, ok_bind, wr_of_lt a1, ok_bind, k2,
        ok_bind, wr_of_lt a2, ok_bind]
      exact e1
    · simpa using j1.comp
    · simpa using j1.mass
    · rw [← j1.bdr]
      refine List.ext_getElem? (fun i => ?_)
      simp only [List.getElem?_map]
      by_cases ei : i = q
      · subst ei
        rw [List.getElem?_set_self a3, List.getElem?_eq_getElem a3]
        simp [h1, nb2]
      · rw [List.getElem?_set_ne (by omega)]
    · exact j1.port
    · intro c' c2 hc2 hsc
      dsimp only
      by_cases ec : c2 = q
      · subst ec
        obtain ⟨n', n1', n2'⟩ := hsc
        rw [n2] at n2'
        cases n2'
        have : c' = c :=
          (List.getElem?_inj (List.getElem?_eq_some_iff.1 n1').1 ht.names.names).1 (n1'.trans n1.symm)
        subst this
        rw [List.getElem?_set_self a1, List.getElem?_set_self a2, List.getElem?_set_self a3]
        exact ⟨⟨m, r, m1, rfl, m3⟩, ⟨k, s, k1, rfl, k3⟩, l, l', l1, rfl, h1, h2⟩
      · rw [List.getElem?_set_ne (by omega), List.getElem?_set_ne (by omega),
          List.getElem?_set_ne (by omega)]
        exact j2 c' c2 (by omega) hsc)
  -- ports
  obtain ⟨e4, l4, i3, i4, i5, i6, i7⟩ := loop_total (n := t2.topo.refPorts.length) (s := e3)
    (body := fun p e => do
      let name ← EqpStore.portName t2.topo p
      let m ← readMBlocks f ["ports"] name
      let port ← wr e.port p m
      return { e with port := port })
    (fun q u => Fits t2 u ∧ u.comp = e3.comp ∧ u.mass = e3.mass ∧ u.bdr = e3.bdr ∧
      ∀ p p2, p2 < q → SamePort t.topo t2.topo p p2 → Same e.port[p]? u.port[p2]?)
    ⟨i1, rfl, rfl, rfl, by simp⟩ (by
    intro q u hq ⟨j1, j2, j3, j4, j5⟩
    obtain ⟨p, hp', hsp⟩ := hcov.ports q hq
    obtain ⟨n, hn⟩ := EqpStore.portName_ok ht2.topo hq
    obtain ⟨m, m1, r, m2, m3⟩ := hsv.ports p n (((samename hp' hq).2 hsp).trans hn)
    have a1 : q < u.port.length := by rw [j1.port]; exact hq
    refine ⟨{ u with port := u.port.set q r }, ?_, ⟨j1.comp, j1.mass, j1.bdr, by simpa using j1.port⟩, j2, j3,
      j4, ?_⟩
    · rw [hn, ok_bind, m2, ok_bind, wr_of_lt a1, ok_bind]; rfl
    · intro p' p2 hp2 hsp'
      dsimp only
      by_cases ep : p2 = q
      · subst ep
        have hp'' : p' < t.topo.refPorts.length := by
          obtain ⟨rp, _, _, _, h, _⟩ := hsp'
          exact (List.getElem?_eq_some_iff.1 h).1
        have : p' = p := EqpStore.portName_inj ht.topo ht.names hp'' hp'
          (((samename hp'' hq).2 hsp').trans ((samename hp' hq).2 hsp).symm)
        subst this
        rw [List.getElem?_set_self a1]
        exact ⟨m, r, m1, rfl, m3⟩
      · rw [List.getElem?_set_ne (by omega)]
        exact j5 p' p2 (by omega) hsp')
  have inr : ∀ {c c2}, SameComp t t2 c c2 → c2 < t2.topo.names.length := by
    rintro c c2 ⟨n, -, h⟩
    exact (List.getElem?_eq_some_iff.1 h).1
  refine ⟨e4, ?_, i3, ⟨fun c c2 h => ?_, fun c c2 h => ?_, fun c c2 h => ?_, fun p p2 h => ?_⟩⟩
  · unfold load loadComps loadPorts
    rw [openGroup_of hsv.compGrp, ok_bind, hsv.compNum, ok_bind, decide_eq_true (by exact_mod_cast ncomp),
      require_true, ok_bind, l3, ok_bind, openGroup_of hsv.portGrp, ok_bind, hsv.portNum, ok_bind,
      decide_eq_true (by exact_mod_cast nport), require_true, ok_bind]
    exact l4
  · rw [i4]; exact (i2 c c2 (inr h) h).1
  · rw [i5]; exact (i2 c c2 (inr h) h).2.1
  · rw [i6]; exact (i2 c c2 (inr h) h).2.2
  · refine i7 p p2 ?_ h
    obtain ⟨_, rp, _, _, _, h, _⟩ := h
    exact (List.getElem?_eq_some_iff.1 h).1

/-- Loading the library in the problem that saved it gives its matrices back. -/
theorem save_load_same {t : Lib} (ht : LibOk t) (hb : HasBdr t) {e e2 : Elems R}
    (hf : Fits t e) (hp : Proper e) (hf2 : Fits t e2) {f : File R}
    (hs : save t e = .ok f) : ∃ e3, load t f e2 = .ok e3 ∧
      (∀ c, c < t.topo.names.length → Same e.comp[c]? e3.comp[c]? ∧ Same e.mass[c]? e3.mass[c]? ∧
        ∃ l l3, e.bdr[c]? = some l ∧ e3.bdr[c]? = some l3 ∧ l3.length = l.length ∧
          ∀ b, b < l.length → Same l[b]? l3[b]?) ∧
      ∀ p, p < t.topo.refPorts.length → Same e.port[p]? e3.port[p]? := by
  have sc : ∀ c, c < t.topo.names.length → SameComp t t c c := fun c hc =>
    ⟨_, List.getElem?_eq_getElem hc, List.getElem?_eq_getElem hc⟩
  have sp : ∀ p, p < t.topo.refPorts.length → SamePort t.topo t.topo p p := fun p hp' =>
    (EqpStore.portName_eq_iff ht.topo ht.topo ht.names.colon ht.names.colon ht.names.attr ht.names.attr
      hp' hp').1 rfl
  obtain ⟨e3, h1, -, h2⟩ := save_load ht ht hb hf hp hf2
    ⟨fun c hc => ⟨c, sc c hc, rfl⟩, fun p hp' => ⟨p, hp', sp p hp'⟩⟩ hs
  exact ⟨e3, h1, fun c hc => ⟨h2.comp c c (sc c hc), h2.mass c c (sc c hc), h2.bdr c c (sc c hc)⟩,
    fun p hp' => h2.port p p (sp p hp')⟩

/-- **Nothing is silently missing.**  If a saved library can be loaded in a problem, it covers that
problem: every component is in it by name and with the same number of boundaries, and so is every
reference port. -/
theorem load_covers {t t2 : Lib} (ht : LibOk t) (ht2 : LibOk t2) {e e2 e3 : Elems R}
    (hf : Fits t e) (hp : Proper e) {f : File R} (hs : save t e = .ok f)
    (hl : load t2 f e2 = .ok e3) : Covers t t2 := by
  obtain ⟨f', h', hsv⟩ := save_ok ht hf hp
  rw [hs] at h'
  cases h'
  unfold load at hl
  obtain ⟨e', h1, h2⟩ := bind_eq_ok.1 hl
  constructor
  · intro c2 hc2
    unfold loadComps at h1
    obtain ⟨g, g1, h1⟩ := bind_eq_ok.1 h1
    rw [openGroup_of hsv.compGrp] at g1
    cases g1
    obtain ⟨n, -, h1⟩ := bind_eq_ok.1 h1
    obtain ⟨-, -, h1⟩ := bind_eq_ok.1 h1
    obtain ⟨σ, -, -, tr⟩ := loop_trace h1
    have hb := tr c2 hc2
    unfold loadComp at hb
    obtain ⟨name, b1, hb⟩ := bind_eq_ok.1 hb
    obtain ⟨g, b2, hb⟩ := bind_eq_ok.1 hb
    have hfd : find f ⟨["components"], name, false⟩ ≠ none := by
      intro hnone
      unfold openGroup at b2
      rw [hnone] at b2
      cases b2
    obtain ⟨c, hc, ec⟩ := List.getElem_of_mem (hsv.onlyComps name hfd)
    have hin := hsv.comps c name (by rw [List.getElem?_eq_getElem hc, ec])
    rw [openGroup_of hin.grp] at b2
    cases b2
    obtain ⟨m, -, hb⟩ := bind_eq_ok.1 hb
    obtain ⟨cc, -, hb⟩ := bind_eq_ok.1 hb
    obtain ⟨m', -, hb⟩ := bind_eq_ok.1 hb
    obtain ⟨mm, -, hb⟩ := bind_eq_ok.1 hb
    obtain ⟨l, l1, hl⟩ := hin.bdr
    unfold loadBdr at hb
    obtain ⟨g, b3, hb⟩ := bind_eq_ok.1 hb
    rw [openGroup_of hl.grp] at b3
    cases b3
    obtain ⟨n', b4, hb⟩ := bind_eq_ok.1 hb
    rw [hl.attr] at b4
    cases b4
    obtain ⟨nb, b5, hb⟩ := bind_eq_ok.1 hb
    obtain ⟨_, b6, -⟩ := bind_eq_ok.1 hb
    have b6 := require_eq_ok.1 b6
    refine ⟨c, ⟨name, by rw [List.getElem?_eq_getElem hc, ec], rd_eq_ok.1 b1⟩, ?_⟩
    rw [rd_eq_ok.1 b5, ← hf.bdr, List.getElem?_map, l1]
    simp only [beq_iff_eq, Nat.cast_inj] at b6
    simp [b6]
  · intro p2 hp2
    unfold loadPorts at h2
    obtain ⟨g, g1, h2⟩ := bind_eq_ok.1 h2
    rw [openGroup_of hsv.portGrp] at g1
    cases g1
    obtain ⟨n, -, h2⟩ := bind_eq_ok.1 h2
    obtain ⟨-, -, h2⟩ := bind_eq_ok.1 h2
    obtain ⟨σ, -, -, tr⟩ := loop_trace h2
    have hb := tr p2 hp2
    obtain ⟨name, b1, hb⟩ := bind_eq_ok.1 hb
    obtain ⟨m, b2, -⟩ := bind_eq_ok.1 hb
    have hfd : find f ⟨["ports"], name, false⟩ ≠ none := by
      intro hnone
      unfold readMBlocks openGroup at b2
      rw [hnone] at b2
      cases b2
    obtain ⟨p, hp', ep⟩ := hsv.onlyPorts name hfd
    exact ⟨p, hp', (EqpStore.portName_eq_iff ht.topo ht2.topo ht.names.colon ht2.names.colon ht.names.attr
      ht2.names.attr hp' hp2).1 (ep.trans b1.symm)⟩

/-- A component without boundaries can be saved, but no library with one can be loaded: the assertion
that should compare two counts assigns one to the other and fails on zero. -/
theorem no_boundary_rejected {t : Lib} {e e3 : Elems R} (hf : Fits t e) {c : Nat}
    (hc : t.numBdr[c]? = some 0) (hlt : c < t.topo.names.length) {f : File R} : load t f e ≠ .ok e3 := by
  intro hl
  unfold load loadComps at hl
  obtain ⟨e', h1, -⟩ := bind_eq_ok.1 hl
  obtain ⟨g, -, h1⟩ := bind_eq_ok.1 h1
  obtain ⟨n, -, h1⟩ := bind_eq_ok.1 h1
  obtain ⟨-, -, h1⟩ := bind_eq_ok.1 h1
  -- the matrices of component `c` are still the empty list when it is reached
  have key : ∀ (c' : Nat) (u u' : Elems R), loadComp t f g c' u = .ok u' →
      u.bdr[c]? = some [] → u'.bdr[c]? = some [] := by
    intro c' u u' h hu
    unfold loadComp loadBdr at h
    obtain ⟨name, -, h⟩ := bind_eq_ok.1 h
    obtain ⟨g2, -, h⟩ := bind_eq_ok.1 h
    obtain ⟨m, -, h⟩ := bind_eq_ok.1 h
    obtain ⟨cc, -, h⟩ := bind_eq_ok.1 h
    obtain ⟨m', -, h⟩ := bind_eq_ok.1 h
    obtain ⟨mm, -, h⟩ := bind_eq_ok.1 h
    obtain ⟨g3, -, h⟩ := bind_eq_ok.1 h
    obtain ⟨n', -, h⟩ := bind_eq_ok.1 h
    obtain ⟨nb, -, h⟩ := bind_eq_ok.1 h
    obtain ⟨-, -, h⟩ := bind_eq_ok.1 h
    obtain ⟨bs, b1, h⟩ := bind_eq_ok.1 h
    obtain ⟨_, b2, h⟩ := bind_eq_ok.1 h
    obtain ⟨bs', -, h⟩ := bind_eq_ok.1 h
    obtain ⟨bd, b3, h⟩ := bind_eq_ok.1 h
    cases h
    have b1 := rd_eq_ok.1 b1
    have hne : c' ≠ c := by
      rintro rfl
      rw [hu] at b1
      cases b1
      simp [require] at b2
    have hlt' := (List.getElem?_eq_some_iff.1 b1).1
    rw [wr_of_lt hlt'] at b3
    cases b3
    dsimp only
    rw [List.getElem?_set_ne hne]
    exact hu
  obtain ⟨σ, s0, -, tr⟩ := loop_trace h1
  have h0 : ∀ q, q ≤ t.topo.names.length → (σ q).bdr[c]? = some [] := by
    intro q
    induction q with
    | zero =>
      intro _
      rw [s0]
      have := hc
      rw [← hf.bdr, List.getElem?_map] at this
      obtain ⟨l, h1, h2⟩ := Option.map_eq_some_iff.1 this
      rw [h1, List.length_eq_zero_iff.1 h2]
    | succ q ih =>
      intro hq
      exact key q _ _ (tr q (by omega)) (ih (by omega))
  have hb := tr c hlt
  have hu := h0 c (by omega)
  unfold loadComp loadBdr at hb
  obtain ⟨name, -, h⟩ := bind_eq_ok.1 hb
  obtain ⟨g2, -, h⟩ := bind_eq_ok.1 h
  obtain ⟨m, -, h⟩ := bind_eq_ok.1 h
  obtain ⟨cc, -, h⟩ := bind_eq_ok.1 h
  obtain ⟨m', -, h⟩ := bind_eq_ok.1 h
  obtain ⟨mm, -, h⟩ := bind_eq_ok.1 h
  obtain ⟨g3, -, h⟩ := bind_eq_ok.1 h
  obtain ⟨n', -, h⟩ := bind_eq_ok.1 h
  obtain ⟨nb, -, h⟩ := bind_eq_ok.1 h
  obtain ⟨-, -, h⟩ := bind_eq_ok.1 h
  obtain ⟨bs, b1, h⟩ := bind_eq_ok.1 h
  obtain ⟨_, b2, -⟩ := bind_eq_ok.1 h
  have b1 := rd_eq_ok.1 b1
  dsimp only at b1
  rw [hu] at b1
  cases b1
  simp [require] at b2

/-! ## A concrete case and the unchecked corners -/

/-- A library of two components, with two boundaries and one, and two reference ports. -/
def exLib : Lib := ⟨⟨["pipe", "joint"], [⟨0, 1, 2, 4⟩, ⟨1, 0, 2, 4⟩], []⟩, [2, 1]⟩

/-- A problem that uses both components in another order and one of the ports. -/
def exLib2 : Lib := ⟨⟨["joint", "pipe"], [⟨1, 0, 2, 4⟩], []⟩, [1, 2]⟩

theorem exLib_ok : LibOk exLib ∧ LibOk exLib2 ∧ HasBdr exLib2 :=
  ⟨⟨⟨by decide, by decide⟩, ⟨by decide, by decide, by decide, by decide⟩, rfl⟩,
    ⟨⟨by decide, by decide⟩, ⟨by decide, by decide, by decide, by decide⟩, rfl⟩, by unfold HasBdr; decide⟩

theorem exLib_covers : Covers exLib exLib2 := by
  constructor
  · intro c2 hc2
    match c2, hc2 with
    | 0, _ => exact ⟨1, ⟨"joint", rfl, rfl⟩, rfl⟩
    | 1, _ => exact ⟨0, ⟨"pipe", rfl, rfl⟩, rfl⟩
  · intro p2 hp2
    match p2, hp2 with
    | 0, _ => exact ⟨0, by decide, ⟨0, 1, 2, 4⟩, ⟨1, 0, 2, 4⟩, "pipe", "joint", rfl, rfl, rfl, rfl, rfl, rfl,
        rfl, rfl⟩

/-- A 1 × 1 block holding one number. -/
def exM (x : Int) : MBlocks Int := ⟨1, 1, fun _ _ => some ⟨1, 1, [0, 1], [0], [x], true⟩⟩

theorem exM_ok (x : Int) : MOk (exM x) := by
  refine ⟨Nat.one_pos, Nat.one_pos, fun i j _ _ m h => ?_⟩
  cases h
  refine ⟨rfl, by simp, rfl, fun i hi => ?_, by simp [nnz], by simp [nnz], fun k hk => ?_⟩
  · have : i = 0 := by simpa using hi
    subst this; simp
  · have : k = 0 := by simpa [nnz] using hk
    subst this; simp

def exElems : Elems Int :=
  ⟨[exM 1, exM 2], [exM 3, exM 4], [[exM 5, exM 6], [exM 7]], [exM 8, exM 9]⟩

example : Fits exLib exElems ∧ Proper exElems :=
  ⟨⟨rfl, rfl, rfl, rfl⟩, by
    constructor <;> simp [exElems, exM_ok]⟩

/-- The numbers in the tables. -/
def exShow (e : Elems Int) : List (List Int) :=
  let one := fun (m : MBlocks Int) => match m.blocks 0 0 with
    | some c => c.data
    | none => []
  [e.comp.flatMap one, e.mass.flatMap one] ++ e.bdr.map (fun l => l.flatMap one) ++ [e.port.flatMap one]

example : (do
    let f ← save exLib exElems
    let e ← load exLib2 f (init exLib2 1)
    return exShow e : Outcome (List (List Int))).toOption =
      some [[2, 1], [4, 3], [7], [5, 6], [8]] := by decide +kernel

/-- The library does not have a component of that name: rejected. -/
example : (do
    let f ← save exLib exElems
    load ⟨⟨["pipe", "elbow"], [], []⟩, [2, 1]⟩ f (init exLib2 1)).toOption.isSome = false := by
  decide +kernel

/-- The constructor's matrices, all blocks null, can be saved and come back as such. -/
example : (do
    let f ← save exLib (init (R := Int) exLib 1)
    let e ← load exLib f exElems
    return exShow e : Outcome (List (List Int))).toOption = some [[], [], [], [], []] := by decide +kernel

/-- Two ports whose names differ only in where the colons are have one data set name, and saving such a
library aborts. -/
theorem colon_aborts (e : Elems Int) (h : e = ⟨[exM 1, exM 1, exM 1, exM 1], [exM 1, exM 1, exM 1, exM 1],
      [[], [], [], []], [exM 2, exM 3]⟩) :
    (save ⟨⟨["a:b", "c", "a", "b:c"], [⟨0, 1, 1, 1⟩, ⟨2, 3, 1, 1⟩], []⟩, [0, 0, 0, 0]⟩ e).toOption.isSome
      = false := by
  subst h
  decide +kernel

end Verif.RomElems
