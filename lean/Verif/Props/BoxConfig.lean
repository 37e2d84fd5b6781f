import Verif.Proofs.BoxConfig
import Verif.Props.GenConf

/-! # C109: boxes assembled mesh by mesh -/

namespace Verif.Config

open Verif Verif.CompSetup Verif.GenConf Verif.Config.Spec
open Verif.GenConf.Spec (Covers mentioned)

/-! ## The state before the first mesh -/

/-- A box without meshes. -/
def emptyBox (nx ny : Nat) (px py : Bool) (comps : List Part) (P0 : List (String × String × Int × Int)) : Box :=
  ⟨⟨comps, P0, [], [], [], [], []⟩, nx, ny, px, py, cells nx ny, List.replicate comps.length false⟩

theorem prepared_eq (nx ny : Nat) (px py : Bool) (comps : List Part) :
    prepared nx ny px py comps = emptyBox nx ny px py comps [] := by
  have key : ∀ (l a : List Part), l.foldl Box.addComponent (emptyBox nx ny px py a []) =
      emptyBox nx ny px py (a ++ l) [] := by
    intro l
    induction l with
    | nil => intro a; simp
    | cons p l ih =>
      intro a
      rw [List.foldl_cons]
      have : (emptyBox nx ny px py a []).addComponent p = emptyBox nx ny px py (a ++ [p]) [] := by
        unfold emptyBox Box.addComponent
        simp [List.replicate_succ']
      rw [this, ih]
      simp
  exact key comps []

theorem mem_cells {nx ny : Nat} {p : Int × Int} : p ∈ cells nx ny ↔ InBox nx ny p := by
  obtain ⟨x, y⟩ := p
  unfold cells InBox
  simp only [List.mem_flatMap, List.mem_range, List.mem_map, Prod.mk.injEq]
  constructor
  · rintro ⟨i, hi, j, hj, rfl, rfl⟩
    omega
  · rintro ⟨h1, h2, h3, h4⟩
    exact ⟨x.toNat, by omega, y.toNat, by omega, by omega, by omega⟩

theorem nodup_cells (nx ny : Nat) : (cells nx ny).Nodup := by
  unfold cells
  rw [List.nodup_flatMap]
  constructor
  · intro i _
    apply List.Nodup.map _ List.nodup_range
    intro a b h
    have := (Prod.mk.inj h).2
    omega
  · refine List.nodup_range.imp ?_
    intro i j hij
    simp only [Function.onFun]
    rw [List.disjoint_left]
    intro x hx hy
    obtain ⟨_, _, e1⟩ := List.mem_map.1 hx
    obtain ⟨_, _, e2⟩ := List.mem_map.1 hy
    have := congrArg Prod.fst (e1.trans e2.symm)
    dsimp only at this
    omega

theorem length_cells (nx ny : Nat) : (cells nx ny).length = nx * ny := by
  unfold cells
  rw [List.length_flatMap]
  simp

theorem empty_binv (nx ny : Nat) (px py : Bool) (comps : List Part) (P0 : List (String × String × Int × Int)) :
    BInv P0 (emptyBox nx ny px py comps P0) := by
  refine ⟨⟨rfl, rfl, by simp [emptyBox], by simp [emptyBox], by simp [emptyBox, ment, sides], by simp [emptyBox],
    by simp [emptyBox], fun k hk => .inl hk, fun k hk => hk⟩, rfl, ?_, ?_, by simp [emptyBox], by simp [emptyBox], ?_⟩
  · simpa [emptyBox] using nodup_cells nx ny
  · intro p
    simpa [emptyBox] using mem_cells
  · intro c
    simp [emptyBox, List.getElem?_replicate]

/-! ## The file -/

theorem fill_core {nx ny : Nat} {px py : Bool} {comps : List Part} {P0 : List (String × String × Int × Int)}
    {choices : List (Nat × Nat)} (hw : (px = true → nx ≠ 1) ∧ (py = true → ny ≠ 1))
    (hn : (comps.map Part.name).Nodup) (hc : Filling comps.length (nx * ny) choices)
    (hP : ∀ k ∈ P0, (∃ c ∈ choices, ∃ p, comps[c.1]? = some p ∧ p.name = k.1) ∧ (k.2.2.1 = 1 ∨ k.2.2.1 = 2)) :
    ∃ F, (emptyBox nx ny px py comps P0).fill choices = .ok F ∧ BoxGrid nx ny px py F ∧
      Covers (fileFaces comps F) F.tables ∧
      F.tables.pos = pick (cells nx ny) (choices.map Prod.snd) ∧
      (∀ (m : Nat) (c : Nat × Nat), choices[m]? = some c → ∃ (i : Nat) (p : Part),
        F.tables.types[m]? = some (i : Int) ∧ comps[c.1]? = some p ∧ F.comps[i]? = some p.name) ∧
      F.comps.Nodup ∧ (∀ n ∈ F.comps, ∃ c ∈ choices, ∃ p, comps[c.1]? = some p ∧ p.name = n) ∧
      F.tables.types.length = nx * ny ∧
      (∀ k ∈ P0, (⟨k.1, k.2.1, k.2.2.1, k.2.2.2, step k.2.2.1⟩ : PortGroup) ∈ F.refs) := by
  obtain ⟨b, b1, b2, b3, b4, b5, b6⟩ := box_build choices (emptyBox nx ny px py comps P0) hw
    (empty_binv nx ny px py comps P0) (hc.1.trans (length_cells nx ny).symm) (by
      intro m c hmc
      have := hc.2 m c hmc
      show _ ∧ c.2 < (cells nx ny).length - m
      rw [length_cells]
      exact this)
  have hA : Rel (Across b.nx b.ny b.px b.py) := across_rel
  have e1 : b.nx = nx := b3.nx
  have e2 : b.ny = ny := b3.ny
  have e3 : b.px = px := b3.px
  have e4 : b.py = py := b3.py
  have e5 : b.conf.comps = comps := b3.comps
  have b4' : b.conf.types = choices.map Prod.fst := by simpa [emptyBox] using b4
  have b5' : b.conf.loc = pick (cells nx ny) (choices.map Prod.snd) := by simpa [emptyBox] using b5
  have hlen : b.conf.loc.length = nx * ny := by rw [← b2.inv.len2, b4', List.length_map]; exact hc.1
  obtain ⟨d, d1, d2, d3, d4, d5, d6, d7, d8, d9⟩ := box_close b2 (by rw [hlen, e1, e2]) b6
  have htypes : d.conf.types = choices.map Prod.fst := by rw [d5.types, b4']
  have hcomps : d.conf.comps = comps := by rw [d5.comps, e5]
  obtain ⟨r, r1, r2, r3, r4, r5⟩ := unused_ok (b := d) (by rw [d4, b2.used, d5.comps]) (by
    intro t ht
    rw [d4, b2.mark, ← d5.types]
    exact ht)
  have hmesh : ∀ (m : Nat) (M : Mesh), d.conf.meshes[m]? = some M → ∃ (c : Nat × Nat) (i : Nat),
      choices[m]? = some c ∧ comps[c.1]? = some M.part ∧ r.2[m]? = some (i : Int) ∧ r.1[i]? = some M.part := by
    intro m M hM
    have hml : m < d.conf.types.length := by
      rw [d2.len2, ← d2.len1]
      exact (List.getElem?_eq_some_iff.1 hM).1
    have ht := List.getElem?_eq_getElem hml
    have hp := d2.part m _ M ht hM
    obtain ⟨i, i1, i2⟩ := r4 m _ ht
    have hch : m < choices.length := by rw [htypes, List.length_map] at hml; exact hml
    have hcm := List.getElem?_eq_getElem hch
    have : d.conf.types[m]? = some choices[m].1 := by rw [htypes, List.getElem?_map, hcm]; rfl
    rw [ht] at this
    injection this with this
    rw [this, hcomps] at hp
    rw [this, hcomps] at i2
    exact ⟨choices[m], i, hcm, hp, i1, i2.trans hp⟩
  obtain ⟨refs, s1, s2, s3⟩ := save_ok { d.conf with comps := r.1 } r.2 (by
    intro k hk
    dsimp only at hk ⊢
    rcases d2.ports k hk with hk | ⟨⟨M, hM, e⟩, _, hh⟩
    · obtain ⟨⟨c, c1, p, c2, c3⟩, c4⟩ := hP k hk
      obtain ⟨m, hm⟩ := List.getElem?_of_mem c1
      have ht : d.conf.types[m]? = some c.1 := by rw [htypes, List.getElem?_map, hm]; rfl
      obtain ⟨i, i1, i2⟩ := r4 m _ ht
      rw [hcomps, c2] at i2
      exact ⟨⟨p, List.mem_of_getElem? i2, c3⟩, by omega⟩
    · obtain ⟨m, hm⟩ := List.getElem?_of_mem hM
      obtain ⟨c, i, _, _, _, i2⟩ := hmesh m M hm
      exact ⟨⟨M.part, List.mem_of_getElem? i2, e⟩, by omega⟩)
  have hrun : (emptyBox nx ny px py comps P0).fill choices =
      .ok ⟨r.1.map Part.name, refs, ⟨r.2, d.conf.loc, d.conf.bdr, d.conf.itf⟩⟩ := by
    unfold Box.fill Box.save
    rw [b1, ok_bind, d1, ok_bind, r1, ok_bind]
    exact s1
  have hpart : ∀ {i : Nat} {p : Part}, r.1[i]? = some p → p ∈ comps := by
    intro i p hi
    rw [← hcomps]
    exact r2.subset (List.mem_of_getElem? hi)
  have hloc : d.conf.loc = b.conf.loc := d5.loc
  have hmlen : d.conf.meshes.length = nx * ny := by rw [d2.len1, hloc, hlen]
  have hsides : ∀ {m : Nat} {p : Int × Int} {f : Int}, b.conf.loc[m]? = some p → ((m : Int), f) ∈ sides b.conf.itf →
      ∃ r ∈ b.conf.itf, ∃ (n : Nat) (q : Int × Int), b.conf.loc[n]? = some q ∧ Across nx ny px py f p q ∧
        ((r.mesh1 = m ∧ r.mesh2 = n ∧ r.attr1 = f ∧ r.attr2 = opposite f) ∨
        (r.mesh1 = n ∧ r.mesh2 = m ∧ r.attr1 = opposite f ∧ r.attr2 = f)) := by
    intro m p f hp hin
    obtain ⟨r, hr, e⟩ := mem_sides.1 hin
    obtain ⟨k', a, c, p', q', K, L, g1, g2, g3, g4, g5, g6, g7, g8, g9, g10, g11⟩ := b2.inv.rows r hr
    rw [e1, e2, e3, e4] at g7
    have hff := across_rel.face g7
    rcases e with e | e
    · injection e with x1 x2
      have : a = m := by omega
      subst this
      have : p = p' := Option.some.inj (hp.symm.trans g5)
      subst this
      exact ⟨r, hr, c, q', g6, by rw [x2]; exact g7, .inl ⟨g2, g3, x2.symm, by rw [g8, x2]⟩⟩
    · injection e with x1 x2
      have : c = m := by omega
      subst this
      have : p = q' := Option.some.inj (hp.symm.trans g6)
      subst this
      refine ⟨r, hr, a, p', g5, by rw [x2, g8]; exact across_rel.symm g7, .inr ⟨g2, g3, ?_, x2.symm⟩⟩
      rw [x2, g8, opposite_opposite hff]
  have hbox : ∀ p, p ∈ b.conf.loc ↔ InBox nx ny p := by
    intro p
    have := b2.cells p
    rw [b6, List.append_nil, e1, e2] at this
    exact this
  have hlnd : b.conf.loc.Nodup := (List.nodup_append.1 b2.nodup).1
  refine ⟨_, hrun, ⟨?_, ?_, ?_, ?_, ?_, ?_, ?_⟩, ?_, hloc.trans b5', ?_, ?_, ?_, ?_, ?_⟩
  · dsimp only
    rw [r3, d2.len2]
  · dsimp only
    rw [hloc]
    exact hlnd
  · intro p
    dsimp only
    rw [hloc]
    exact hbox p
  · intro r hr
    dsimp only at hr ⊢
    obtain ⟨k', a, c, p', q', K, L, g1, g2, g3, g4, g5, g6, g7, g8, g9, g10, g11⟩ := d2.rows r hr
    rw [e1, e2, e3, e4] at g7
    exact ⟨a, c, p', q', g2, g3, g4, g5, g6, g7, g8⟩
  · intro r' hr
    dsimp only at hr ⊢
    obtain ⟨k', a, c, p', q', K, L, g1, g2, g3, g4, g5, g6, g7, g8, g9, g10, g11⟩ := d2.rows r' hr
    obtain ⟨_, i, _, _, i1, i2⟩ := hmesh a K g9
    obtain ⟨_, j, _, _, j1, j2⟩ := hmesh c L g10
    exact ⟨k', a, c, i, j, _, g1, g2, g3, s3 k' _ g11, i1, j1, by rw [List.getElem?_map, i2]; rfl,
      by rw [List.getElem?_map, j2]; rfl, rfl, rfl, rfl⟩
  · intro m n p q f hp hq ha
    dsimp only at hp hq ⊢
    rw [hloc] at hp hq
    have hin := b2.complete m n p q f hp hq (by rw [e1, e2, e3, e4]; exact ha)
    have hin' : ((m : Int), f) ∈ sides b.conf.itf := by
      unfold ment at hin
      rw [b2.bdr] at hin
      simpa using hin
    obtain ⟨r, hr, n', q', h1, h2, h3⟩ := hsides hp hin'
    have : q' = q := across_inj ((hbox q').1 (List.mem_of_getElem? h1)) ((hbox q).1 (List.mem_of_getElem? hq)) h2 ha
    subst this
    have : n' = n := (List.getElem?_inj (List.getElem?_eq_some_iff.1 h1).1 hlnd).1 (h1.trans hq.symm)
    subst this
    rw [d6]
    rcases h3 with ⟨x1, x2, x3, x4⟩ | ⟨x1, x2, x3, x4⟩
    · have : r = ⟨m, n', f, opposite f, r.type⟩ := by
        cases r
        simp_all
      exact .inl ⟨r.type, by rw [← this]; exact hr⟩
    · have : r = ⟨n', m, opposite f, f, r.type⟩ := by
        cases r
        simp_all
      exact .inr ⟨r.type, by rw [← this]; exact hr⟩
  · intro r hr
    dsimp only at hr ⊢
    obtain ⟨h1, h2⟩ := d9 r hr
    refine ⟨h1, ?_⟩
    by_cases h5 : r.cattr = 5
    · exact .inl h5
    · right
      have h2 := h2.resolve_left h5
      obtain ⟨m, M, g1, g2, g3⟩ := d2.bdrs r hr
      have hml : m < b.conf.loc.length := by rw [← hloc, ← d2.len1]; exact (List.getElem?_eq_some_iff.1 g2).1
      have hm := List.getElem?_eq_getElem hml
      refine ⟨m, b.conf.loc[m], g1, by rw [hloc]; exact hm, fun q hq ha => h2 ?_⟩
      obtain ⟨n, hnq⟩ := List.getElem?_of_mem ((hbox q).2 hq)
      have hin := b2.complete m n _ q r.cattr hm hnq (by rw [e1, e2, e3, e4]; exact ha)
      unfold ment at hin
      rw [b2.bdr] at hin
      rw [g1]
      simpa using hin
  · refine covers_ok hA d2 d8 (by rw [r3, d2.len2, d2.len1]) ?_ ?_
    · intro c
      unfold fileFaces
      split
      · simp
      · split
        · simp
        · exact refBattr_nodup _
    · intro m c M hc' hM
      obtain ⟨_, i, _, i0, i1, i2⟩ := hmesh m M hM
      have : c = (i : Int) := Option.some.inj (hc'.symm.trans i1)
      subst this
      unfold fileFaces
      dsimp only
      rw [Int.toNat_natCast, List.getElem?_map, i2, Option.map_some]
      dsimp only
      rw [find_name hn (hpart i2)]
  · intro m c hmc
    dsimp only
    have hml : m < d.conf.meshes.length := by
      rw [hmlen, ← hc.1]
      exact (List.getElem?_eq_some_iff.1 hmc).1
    obtain ⟨c', i, h1, h2, h3, h4⟩ := hmesh m _ (List.getElem?_eq_getElem hml)
    have : c' = c := Option.some.inj (h1.symm.trans hmc)
    subst this
    exact ⟨i, _, h3, h2, by rw [List.getElem?_map, h4]; rfl⟩
  · dsimp only
    rw [hcomps] at r2
    exact (r2.map Part.name).nodup hn
  · intro n hnm
    dsimp only at hnm
    obtain ⟨p, hp, rfl⟩ := List.mem_map.1 hnm
    obtain ⟨c, c1, c2⟩ := r5 p hp
    rw [d4, b2.mark, b4'] at c1
    obtain ⟨x, hx, rfl⟩ := List.mem_map.1 c1
    exact ⟨x, hx, p, by rw [← hcomps]; exact c2, rfl⟩
  · dsimp only
    rw [r3, htypes, List.length_map]
    exact hc.1
  · intro k hk
    obtain ⟨i, hi⟩ := List.getElem?_of_mem (d2.keep k hk)
    exact List.mem_of_getElem? (s3 i k hi)

/-! ## The claims -/

/-- C109: whatever order the cells of a box are filled in and whatever components are chosen, the script
writes a file that describes the box: every cell has the mesh that was chosen for it, every face of every
mesh is mentioned exactly once, neighbouring cells are joined with a reference port that fits, across the
ends of periodic rows too, and the rest is boundary. -/
theorem fill_spec {nx ny : Nat} {px py : Bool} {comps : List Part} {choices : List (Nat × Nat)}
    (hx : px = true → nx ≠ 1) (hy : py = true → ny ≠ 1) (hn : (comps.map Part.name).Nodup)
    (hc : Filling comps.length (nx * ny) choices) :
    ∃ F, (prepared nx ny px py comps).fill choices = .ok F ∧ BoxGrid nx ny px py F ∧
      Covers (fileFaces comps F) F.tables ∧
      F.tables.pos = pick (cells nx ny) (choices.map Prod.snd) ∧
      (∀ (m : Nat) (c : Nat × Nat), choices[m]? = some c → ∃ (i : Nat) (p : Part),
        F.tables.types[m]? = some (i : Int) ∧ comps[c.1]? = some p ∧ F.comps[i]? = some p.name) ∧
      F.comps.Nodup ∧ (∀ n ∈ F.comps, ∃ c ∈ choices, ∃ p, comps[c.1]? = some p ∧ p.name = n) := by
  obtain ⟨F, h1, h2, h3, h4, h5, h6, h7, _⟩ := fill_core (P0 := []) ⟨hx, hy⟩ hn hc (by simp)
  rw [prepared_eq]
  exact ⟨F, h1, h2, h3, h4, h5, h6, h7⟩

/-- Three components, the second one with an object inside. -/
def threeParts : List Part := [⟨"empty", false⟩, ⟨"disk", true⟩, ⟨"other", false⟩]

/-- Four cells filled out of order, with two of three components, periodic in the first direction. -/
def someChoices : List (Nat × Nat) := [(1, 3), (0, 0), (1, 1), (1, 0)]

/-- The file for it. -/
def someFile : File :=
  ⟨["empty", "disk"],
   [⟨"disk", "disk", 1, 3, (0, -1)⟩, ⟨"empty", "disk", 2, 4, (1, 0)⟩, ⟨"disk", "empty", 2, 4, (1, 0)⟩,
    ⟨"disk", "disk", 2, 4, (1, 0)⟩, ⟨"disk", "empty", 1, 3, (0, -1)⟩],
   ⟨[1, 0, 1, 1], [(1, 1), (0, 0), (1, 0), (0, 1)],
    [⟨3, 0, 3⟩, ⟨5, 0, 5⟩, ⟨1, 1, 1⟩, ⟨1, 2, 1⟩, ⟨5, 2, 5⟩, ⟨3, 3, 3⟩, ⟨5, 3, 5⟩],
    [⟨0, 2, 1, 3, 0⟩, ⟨1, 2, 2, 4, 1⟩, ⟨2, 1, 2, 4, 2⟩, ⟨3, 0, 2, 4, 3⟩, ⟨0, 3, 2, 4, 3⟩, ⟨3, 1, 1, 3, 4⟩]⟩⟩

/-- Whether a list of choices fills a box can be computed. -/
theorem filling_iff {C n : Nat} {l : List (Nat × Nat)} : Filling C n l ↔ l.length = n ∧
    ∀ m < l.length, (l.getD m (0, 0)).1 < C ∧ (l.getD m (0, 0)).2 < n - m := by
  constructor
  · rintro ⟨h1, h2⟩
    refine ⟨h1, fun m hm => ?_⟩
    rw [List.getD_eq_getElem?_getD, List.getElem?_eq_getElem hm]
    exact h2 m _ (List.getElem?_eq_getElem hm)
  · rintro ⟨h1, h2⟩
    refine ⟨h1, fun m c hm => ?_⟩
    have := h2 m (List.getElem?_eq_some_iff.1 hm).1
    rw [List.getD_eq_getElem?_getD, hm] at this
    exact this

theorem exists_ok {α : Type} {x : Outcome α} {p : α → Bool} (h : x.toOption.any p = true) :
    ∃ a, x = .ok a ∧ p a = true := by
  cases x with
  | error e => simp [Except.toOption] at h
  | ok a => exact ⟨a, rfl, by simpa [Except.toOption] using h⟩

/-- The hypotheses of `fill_spec`, and the file it speaks of. -/
example : (true = true → 2 ≠ 1) ∧ (threeParts.map Part.name).Nodup ∧ Filling threeParts.length (2 * 2) someChoices ∧
    (prepared 2 2 true false threeParts).fill someChoices = .ok someFile :=
  ⟨by decide, by decide +kernel, filling_iff.2 (by decide +kernel), by decide +kernel⟩

/-! ## Reference ports registered beforehand -/

theorem register_fold (reqs : List (String × String × Int × Int)) (s : Conf)
    (hk : ∀ r ∈ reqs, s.known r.1 r.2.1 = true) :
    ∃ P, reqs.foldlM (fun s r => Conf.appendRefPort s r.1 r.2.1 r.2.2.1 r.2.2.2) s = .ok { s with ports := P } ∧
      ∀ k, k ∈ P ↔ k ∈ s.ports ∨ ∃ r ∈ reqs, k = portKey r.1 r.2.1 r.2.2.1 r.2.2.2 := by
  induction reqs generalizing s with
  | nil => exact ⟨s.ports, rfl, by simp⟩
  | cons r reqs ih =>
    have hr : Conf.appendRefPort s r.1 r.2.1 r.2.2.1 r.2.2.2 = .ok { s with
        ports := (if portKey r.1 r.2.1 r.2.2.1 r.2.2.2 ∈ s.ports then s.ports
          else s.ports ++ [portKey r.1 r.2.1 r.2.2.1 r.2.2.2]) } := by
      unfold Conf.appendRefPort
      rw [hk r (by simp), require_true, ok_bind]
      split <;> rfl
    obtain ⟨P, p1, p2⟩ := ih { s with
      ports := (if portKey r.1 r.2.1 r.2.2.1 r.2.2.2 ∈ s.ports then s.ports
        else s.ports ++ [portKey r.1 r.2.1 r.2.2.1 r.2.2.2]) } (fun q hq => hk q (by simp [hq]))
    refine ⟨P, by rw [List.foldlM_cons, hr, ok_bind]; exact p1, fun k => ?_⟩
    rw [p2]
    dsimp only
    simp only [List.mem_cons, exists_eq_or_imp]
    rw [← or_assoc]
    apply or_congr_left
    split
    · constructor
      · exact .inl
      · rintro (h | rfl)
        · exact h
        · assumption
    · simp

theorem register_ok (nx ny : Nat) (px py : Bool) (comps : List Part) :
    ∃ P, (prepared nx ny px py comps).registerAll = .ok (emptyBox nx ny px py comps P) ∧
      ∀ k, k ∈ P ↔ ∃ c ∈ comps, ∃ d ∈ comps, k = (c.name, d.name, 1, 3) ∨ k = (c.name, d.name, 2, 4) := by
  rw [prepared_eq]
  obtain ⟨P, p1, p2⟩ := register_fold (comps.flatMap fun i => ([(1, 3), (2, 4), (3, 1), (4, 2)] :
    List (Int × Int)).flatMap fun f => comps.map fun j => (i.name, j.name, f)) (emptyBox nx ny px py comps []).conf
    (by
      intro r hr
      simp only [List.mem_flatMap, List.mem_map] at hr
      obtain ⟨i, hi, f, _, j, hj, rfl⟩ := hr
      unfold Conf.known
      rw [Bool.and_eq_true, List.any_eq_true, List.any_eq_true]
      exact ⟨⟨i, hi, by simp⟩, ⟨j, hj, by simp⟩⟩)
  refine ⟨P, ?_, fun k => ?_⟩
  · unfold Box.registerAll
    rw [foldlM_flatMap] at p1
    simp only [foldlM_flatMap, foldlM_map'] at p1
    refine (congrArg (fun x => x >>= fun s => pure { emptyBox nx ny px py comps [] with conf := s }) ?_).trans
      (congrArg (fun x => x >>= fun s => pure { emptyBox nx ny px py comps [] with conf := s }) p1)
    rfl
  · rw [p2]
    simp only [List.mem_flatMap, List.mem_map]
    constructor
    · rintro (h | ⟨r, ⟨i, hi, f, hf, j, hj, rfl⟩, rfl⟩)
      · simp [emptyBox] at h
      · simp only [List.mem_cons, List.not_mem_nil, or_false] at hf
        rcases hf with rfl | rfl | rfl | rfl
        · exact ⟨i, hi, j, hj, .inl rfl⟩
        · exact ⟨i, hi, j, hj, .inr rfl⟩
        · exact ⟨j, hj, i, hi, .inl rfl⟩
        · exact ⟨j, hj, i, hi, .inr rfl⟩
    · rintro ⟨c, hc, d, hd, rfl | rfl⟩
      · exact .inr ⟨_, ⟨c, hc, (1, 3), by simp, d, hd, rfl⟩, rfl⟩
      · exact .inr ⟨_, ⟨c, hc, (2, 4), by simp, d, hd, rfl⟩, rfl⟩

/-- C109: when the reference ports of all pairs of components are registered first and every component is
used, the file is as before and has a reference port for every pair of components one above the other and
one beside the other. -/
theorem registered_spec {nx ny : Nat} {px py : Bool} {comps : List Part} {choices : List (Nat × Nat)}
    (hx : px = true → nx ≠ 1) (hy : py = true → ny ≠ 1) (hn : (comps.map Part.name).Nodup)
    (hc : Filling comps.length (nx * ny) choices) (hu : ∀ c, c < comps.length → ∃ d ∈ choices, d.1 = c) :
    ∃ b F, (prepared nx ny px py comps).registerAll = .ok b ∧ b.fill choices = .ok F ∧
      BoxGrid nx ny px py F ∧ Covers (fileFaces comps F) F.tables ∧
      ∀ c ∈ comps, ∀ d ∈ comps, (⟨c.name, d.name, 1, 3, (0, -1)⟩ : PortGroup) ∈ F.refs ∧
        (⟨c.name, d.name, 2, 4, (1, 0)⟩ : PortGroup) ∈ F.refs := by
  obtain ⟨P, p1, p2⟩ := register_ok nx ny px py comps
  obtain ⟨F, h1, h2, h3, _, _, _, _, _, h9⟩ := fill_core (P0 := P) ⟨hx, hy⟩ hn hc (by
    intro k hk
    obtain ⟨c, hcm, d, hd, e⟩ := (p2 k).1 hk
    obtain ⟨i, hi⟩ := List.getElem?_of_mem hcm
    obtain ⟨x, hx, rfl⟩ := hu i (List.getElem?_eq_some_iff.1 hi).1
    rcases e with rfl | rfl
    · exact ⟨⟨x, hx, c, hi, rfl⟩, .inl rfl⟩
    · exact ⟨⟨x, hx, c, hi, rfl⟩, .inr rfl⟩)
  exact ⟨_, F, p1, h1, h2, h3, fun c hc d hd =>
    ⟨h9 _ ((p2 _).2 ⟨c, hc, d, hd, .inl rfl⟩), h9 _ ((p2 _).2 ⟨c, hc, d, hd, .inr rfl⟩)⟩⟩

/-- The hypotheses of `registered_spec`: a column of three cells, one for each component. -/
example : Filling threeParts.length (1 * 3) [(0, 0), (1, 0), (2, 0)] ∧
    (∀ c, c < threeParts.length → ∃ d ∈ [((0 : Nat), (0 : Nat)), (1, 0), (2, 0)], d.1 = c) ∧
    ∃ F, ((prepared 1 3 false false threeParts).registerAll >>= fun b => b.fill [(0, 0), (1, 0), (2, 0)]) = .ok F ∧
      decide (F.refs.length = 18 ∧ F.tables.ports.length = 2) = true :=
  ⟨filling_iff.2 (by decide +kernel), by decide, exists_ok (by decide +kernel)⟩

/-! ## Reading the file -/

/-- Some face of the box is not joined to another one. -/
theorem boundary_exists {nx ny : Nat} {px py : Bool} {F : File} {faces : Int → List Int}
    (hg : BoxGrid nx ny px py F) (hc : Covers faces F.tables) {m : Nat} {p : Int × Int} {c f : Int}
    (hm : F.tables.types[m]? = some c) (hp : F.tables.pos[m]? = some p) (hf : f ∈ faces c)
    (ha : ∀ q, InBox nx ny q → ¬Across nx ny px py f p q) : F.tables.bdr ≠ [] := by
  intro hb
  have hin : ((m : Int), f) ∈ mentioned F.tables := hc.mem_iff.2 (mem_allFaces.2 ⟨m, c, rfl, hm, hf⟩)
  rcases mem_mentioned.1 hin with ⟨r, hr, _⟩ | ⟨r, hr, e⟩
  · rw [hb] at hr
    simp at hr
  · obtain ⟨a, b, p', q', g1, g2, g3, g4, g5, g6, g7⟩ := hg.joined r hr
    rcases e with ⟨x1, x2⟩ | ⟨x1, x2⟩
    · have : a = m := by omega
      subst this
      have : p = p' := Option.some.inj (hp.symm.trans g4)
      subst this
      exact ha q' ((hg.cells q').1 (List.mem_of_getElem? g5)) (by rw [← x2]; exact g6)
    · have : b = m := by omega
      subst this
      have : p = q' := Option.some.inj (hp.symm.trans g5)
      subst this
      exact ha p' ((hg.cells p').1 (List.mem_of_getElem? g4)) (by rw [← x2, g7]; exact across_rel.symm g6)

/-- C109: the program accepts the file of a box, unless the box is periodic in both directions and has no
object inside. -/
theorem box_accepted {nx ny : Nat} {px py : Bool} {comps : List Part} {choices : List (Nat × Nat)} {F : File}
    {refs : List (RefPort Int)} {cs : List Comp} {refPorts : List Ports.PortData}
    {refItfs : List (List Ports.InterfaceInfo)}
    (hx : px = true → nx ≠ 1) (hy : py = true → ny ≠ 1) (hn : (comps.map Part.name).Nodup)
    (hc : Filling comps.length (nx * ny) choices) (h0 : 0 < nx * ny)
    (hb : px = false ∨ py = false ∨ ∃ c ∈ choices, ∃ p, comps[c.1]? = some p ∧ p.object = true)
    (hF : (prepared nx ny px py comps).fill choices = .ok F) (hr : Resolves F refs)
    (hR : GenConf.Spec.Reader (fileFaces comps F) refs F.tables cs refPorts refItfs) :
    ∃ t, setup cs F.tables.types F.tables.bdr F.tables.ports refPorts refItfs = .ok t := by
  obtain ⟨F', h1, h2, h3, h4, h5, h6, h7⟩ := fill_spec hx hy hn hc
  have : F' = F := Except.ok.inj (h1.symm.trans hF)
  subst this
  have hnx : 0 < nx := Nat.pos_of_mul_pos_right h0
  have hny : 0 < ny := Nat.pos_of_mul_pos_left h0
  have hcell : ∀ p, InBox nx ny p → ∃ (m : Nat) (c : Int), F'.tables.pos[m]? = some p ∧ F'.tables.types[m]? = some c ∧
      ∀ f, f = 1 ∨ f = 2 ∨ f = 3 ∨ f = 4 → f ∈ fileFaces comps F' c := by
    intro p hp
    obtain ⟨m, hm⟩ := List.getElem?_of_mem ((h2.cells p).2 hp)
    have hml : m < choices.length := by
      have := (List.getElem?_eq_some_iff.1 hm).1
      rw [← h2.count] at this
      have e : F'.tables.types.length = choices.length := by
        obtain ⟨F2, g1, _, _, _, _, _, _, g8, _⟩ := fill_core (P0 := []) (px := px) (py := py) ⟨hx, hy⟩ hn hc (by simp)
        rw [← prepared_eq] at g1
        have : F2 = F' := Except.ok.inj (g1.symm.trans hF)
        subst this
        rw [g8, hc.1]
      omega
    obtain ⟨i, q, q1, q2, q3⟩ := h5 m _ (List.getElem?_eq_getElem hml)
    refine ⟨m, i, hm, q1, fun f hf => ?_⟩
    unfold fileFaces
    rw [Int.toNat_natCast, q3]
    dsimp only
    rw [find_name hn (List.mem_of_getElem? q2)]
    exact mem_refBattr hf
  have hbdr : F'.tables.bdr ≠ [] := by
    rcases hb with rfl | rfl | ⟨c, c1, p, c2, c3⟩
    · obtain ⟨m, c, m1, m2, m3⟩ := hcell (0, 0) (by unfold InBox; dsimp only; omega)
      refine boundary_exists h2 h3 m2 m1 (m3 4 (by omega)) ?_
      rintro ⟨q1, q2⟩ hq ha
      unfold Across Right Up InBox at *
      dsimp only at *
      simp at ha
      omega
    · obtain ⟨m, c, m1, m2, m3⟩ := hcell (0, 0) (by unfold InBox; dsimp only; omega)
      refine boundary_exists h2 h3 m2 m1 (m3 1 (by omega)) ?_
      rintro ⟨q1, q2⟩ hq ha
      unfold Across Right Up InBox at *
      dsimp only at *
      simp at ha
      omega
    · obtain ⟨m, hm⟩ := List.getElem?_of_mem c1
      obtain ⟨i, q, q1, q2, q3⟩ := h5 m c hm
      have : q = p := Option.some.inj (q2.symm.trans c2)
      subst this
      have hml : m < F'.tables.pos.length := by
        rw [← h2.count]
        exact (List.getElem?_eq_some_iff.1 q1).1
      refine boundary_exists (f := 5) h2 h3 q1 (List.getElem?_eq_getElem hml) ?_ ?_
      · unfold fileFaces
        rw [Int.toNat_natCast, q3]
        dsimp only
        rw [find_name hn (List.mem_of_getElem? q2)]
        simp [Part.refBattr, c3]
      · intro q _ ha
        have := across_rel.face ha
        omega
  have href : ∀ r ∈ F'.tables.ports, ∃ (k m1 m2 : Nat) (f : RefPort Int), r.type = k ∧ r.mesh1 = m1 ∧
      r.mesh2 = m2 ∧ m1 ≠ m2 ∧ refs[k]? = some f ∧ F'.tables.types[m1]? = some (f.comp1 : Int) ∧
      F'.tables.types[m2]? = some (f.comp2 : Int) ∧ r.attr1 = f.attr1 ∧ r.attr2 = f.attr2 := by
    intro r hrm
    obtain ⟨k, m, n, c, d, g, g1, g2, g3, g4, g5, g6, g7, g8, g9, g10, _⟩ := h2.refs r hrm
    obtain ⟨m', n', _, _, j1, j2, j3, _⟩ := h2.joined r hrm
    have hk : k < refs.length := by rw [hr.1]; exact (List.getElem?_eq_some_iff.1 g4).1
    obtain ⟨f1, f2, f3, f4, _⟩ := hr.2 k g _ g4 (List.getElem?_eq_getElem hk)
    have e1 : c = refs[k].comp1 := (List.getElem?_inj (List.getElem?_eq_some_iff.1 g7).1 h6).1 (g7.trans f1.symm)
    have e2 : d = refs[k].comp2 := (List.getElem?_inj (List.getElem?_eq_some_iff.1 g8).1 h6).1 (g8.trans f2.symm)
    exact ⟨k, m, n, refs[k], g1, g2, g3, by omega, List.getElem?_eq_getElem hk, by rw [← e1]; exact g5,
      by rw [← e2]; exact g6, by rw [f3]; exact g9, by rw [f4]; exact g10⟩
  refine accepted hR h3 ?_ ?_ hbdr ?_ href
  · intro he
    by_contra hne
    obtain ⟨r, hrm⟩ := List.exists_mem_of_ne_nil _ hne
    obtain ⟨k, _, _, f, _, _, _, _, hk, _⟩ := href r hrm
    rw [he] at hk
    simp at hk
  · rw [h2.count]
    exact List.length_pos_of_mem ((h2.cells (0, 0)).2 (by unfold InBox; dsimp only; omega))
  · intro r hrm
    obtain ⟨e, h⟩ := h2.sides r hrm
    rw [e]
    have : ((r.mesh, r.cattr) : Int × Int) ∈ mentioned F'.tables :=
      mem_mentioned.2 (.inl ⟨r, hrm, rfl, rfl⟩)
    obtain ⟨k, c, _, hk, hf⟩ := mem_allFaces.1 (h3.mem_iff.1 this)
    unfold fileFaces at hf
    split at hf
    · simp at hf
    · split at hf
      · simp at hf
      · unfold Part.refBattr at hf
        split at hf <;> (simp at hf; omega)

/-- The reference ports of `someFile` with numbers of components. -/
def someRefs : List (RefPort Int) :=
  [⟨1, 1, 1, 3, (0, -1)⟩, ⟨0, 1, 2, 4, (1, 0)⟩, ⟨1, 0, 2, 4, (1, 0)⟩, ⟨1, 1, 2, 4, (1, 0)⟩, ⟨1, 0, 1, 3, (0, -1)⟩]

/-- The hypotheses of `box_accepted`. -/
example : Resolves someFile someRefs ∧ GenConf.Spec.Reader (fileFaces threeParts someFile) someRefs someFile.tables
    [⟨[1, 2, 3, 4], [1, 2, 3, 4]⟩, ⟨[1, 2, 3, 4, 5], [1, 2, 3, 4, 5]⟩]
    (someRefs.map fun f => ⟨f.comp1, f.comp2, f.attr1, f.attr2, [], []⟩) [[], [], [], [], []] ∧
    ∃ c ∈ someChoices, ∃ p, threeParts[c.1]? = some p ∧ p.object = true := by
  refine ⟨⟨rfl, ?_⟩, ⟨?_, ?_, ?_, rfl, rfl⟩, ⟨(1, 3), by decide, _, rfl, rfl⟩⟩
  · intro k g f hg hf
    rcases k with _ | _ | _ | _ | _ | k
    all_goals first
      | (obtain rfl := Option.some.inj hg
         obtain rfl := Option.some.inj hf
         decide +kernel)
      | exact absurd hg (by simp [someFile])
  · intro k comp h
    rcases k with _ | _ | k
    · obtain rfl := Option.some.inj h
      exact ⟨fun a => Iff.rfl, fun a ha => ha⟩
    · obtain rfl := Option.some.inj h
      exact ⟨fun a => Iff.rfl, fun a ha => ha⟩
    · exact absurd h (by simp)
  · simp
  · intro c hc
    have : c = 1 ∨ c = 0 := by
      simp [someFile] at hc
      omega
    rcases this with rfl | rfl
    · exact ⟨1, rfl, by decide⟩
    · exact ⟨0, rfl, by decide⟩

/-- C109: the file of a box that is periodic in both directions and has no object inside has no boundary
rows, and the program rejects it. -/
theorem no_boundary_rejected {nx ny : Nat} {comps : List Part} {choices : List (Nat × Nat)} {F : File}
    (hx : nx ≠ 1) (hy : ny ≠ 1) (hn : (comps.map Part.name).Nodup)
    (hc : Filling comps.length (nx * ny) choices) (ho : ∀ p ∈ comps, p.object = false)
    (hF : (prepared nx ny true true comps).fill choices = .ok F) (cs : List Comp)
    (refPorts : List Ports.PortData) (refItfs : List (List Ports.InterfaceInfo)) :
    F.tables.bdr = [] ∧ ∀ t, setup cs F.tables.types F.tables.bdr F.tables.ports refPorts refItfs ≠ .ok t := by
  obtain ⟨F', h1, h2, h3, h4, h5, h6, h7⟩ := fill_spec (px := true) (py := true) (fun _ => hx) (fun _ => hy) hn hc
  have : F' = F := Except.ok.inj (h1.symm.trans hF)
  subst this
  have hb : F'.tables.bdr = [] := by
    rw [List.eq_nil_iff_forall_not_mem]
    intro r hrm
    have hin : ((r.mesh, r.cattr) : Int × Int) ∈ mentioned F'.tables :=
      mem_mentioned.2 (.inl ⟨r, hrm, rfl, rfl⟩)
    obtain ⟨k, c, _, hk, hf⟩ := mem_allFaces.1 (h3.mem_iff.1 hin)
    have hf4 : r.cattr = 1 ∨ r.cattr = 2 ∨ r.cattr = 3 ∨ r.cattr = 4 := by
      unfold fileFaces at hf
      split at hf
      · simp at hf
      · split at hf
        · simp at hf
        · rename_i p hp
          have := ho p (List.mem_of_find?_eq_some hp)
          unfold Part.refBattr at hf
          rw [this] at hf
          simpa using hf
    obtain ⟨_, h | ⟨m, p, _, hp, hno⟩⟩ := h2.sides r hrm
    · omega
    · have hbx := (h2.cells p).1 (List.mem_of_getElem? hp)
      obtain ⟨x, y⟩ := p
      unfold InBox at hbx hno
      unfold Across Right Up at hno
      dsimp only at hbx hno
      rcases hf4 with e | e | e | e
      · by_cases hw : y = 0
        · exact hno (x, ny - 1) (by dsimp only; omega) (.inr (.inr (.inr ⟨e, rfl, .inr ⟨rfl, rfl, hw⟩⟩)))
        · exact hno (x, y - 1) (by dsimp only; omega) (.inr (.inr (.inr ⟨e, rfl, .inl (by dsimp only; omega)⟩)))
      · by_cases hw : x = nx - 1
        · exact hno (0, y) (by dsimp only; omega) (.inl ⟨e, rfl, .inr ⟨rfl, hw, rfl⟩⟩)
        · exact hno (x + 1, y) (by dsimp only; omega) (.inl ⟨e, rfl, .inl rfl⟩)
      · by_cases hw : y = ny - 1
        · exact hno (x, 0) (by dsimp only; omega) (.inr (.inr (.inl ⟨e, rfl, .inr ⟨rfl, hw, rfl⟩⟩)))
        · exact hno (x, y + 1) (by dsimp only; omega) (.inr (.inr (.inl ⟨e, rfl, .inl rfl⟩)))
      · by_cases hw : x = 0
        · exact hno (nx - 1, y) (by dsimp only; omega) (.inr (.inl ⟨e, rfl, .inr ⟨rfl, rfl, hw⟩⟩))
        · exact hno (x - 1, y) (by dsimp only; omega) (.inr (.inl ⟨e, rfl, .inl (by dsimp only; omega)⟩))
  refine ⟨hb, fun t ht => ?_⟩
  rw [hb] at ht
  obtain ⟨_, h2, ⟨o, ho, _⟩, _⟩ := setup_parts ht
  have : t.battrs = [] := by
    rw [List.eq_nil_iff_forall_not_mem]
    intro a ha
    have := (h2.complete a).1 ha
    simp at this
  rw [this] at ho
  unfold attrOffset at ho
  obtain ⟨_, _, ho⟩ := bind_eq_ok.1 ho
  obtain ⟨_, ho, _⟩ := bind_eq_ok.1 ho
  simp [require] at ho

/-- The hypotheses of `no_boundary_rejected`. -/
example : Filling 1 (2 * 2) [(0, 0), (0, 0), (0, 0), (0, 0)] ∧
    ∃ F, (prepared 2 2 true true [⟨"empty", false⟩]).fill [(0, 0), (0, 0), (0, 0), (0, 0)] = .ok F ∧
      decide (F.tables.ports.length = 8) = true :=
  ⟨filling_iff.2 (by decide +kernel), exists_ok (by decide +kernel)⟩

/-! ## Periodic directions with a single cell -/

theorem appendInterface_itf {s t : Conf} {m1 m2 : Nat} {f1 f2 : Int}
    (h : s.appendInterface m1 m2 f1 f2 = .ok t) : ∃ p, t.itf = s.itf ++ [ifRow m1 m2 f1 f2 p] := by
  unfold Conf.appendInterface at h
  obtain ⟨c1, _, h⟩ := bind_eq_ok.1 h
  obtain ⟨_, _, h⟩ := bind_eq_ok.1 h
  obtain ⟨c2, _, h⟩ := bind_eq_ok.1 h
  obtain ⟨_, _, h⟩ := bind_eq_ok.1 h
  obtain ⟨ms, _, h⟩ := bind_eq_ok.1 h
  obtain ⟨ms', _, h⟩ := bind_eq_ok.1 h
  obtain ⟨u, hu, h⟩ := bind_eq_ok.1 h
  obtain ⟨p, _, h⟩ := bind_eq_ok.1 h
  cases h
  refine ⟨p, ?_⟩
  unfold Conf.appendRefPort at hu
  obtain ⟨_, _, hu⟩ := bind_eq_ok.1 hu
  split at hu <;> (cases hu; rfl)

theorem appendBoundary_itf {s t : Conf} {g f : Int} {m : Nat} (h : s.appendBoundary g m f = .ok t) :
    t.itf = s.itf := by
  unfold Conf.appendBoundary at h
  obtain ⟨c, _, h⟩ := bind_eq_ok.1 h
  obtain ⟨_, _, h⟩ := bind_eq_ok.1 h
  obtain ⟨_, _, h⟩ := bind_eq_ok.1 h
  cases h
  rfl

/-- Some row joins a mesh to itself. -/
def Knotted (l : List PortRow) : Prop := ∃ r ∈ l, r.mesh1 = r.mesh2

theorem addMesh_knotted {b t : Box} {c k : Nat} (h : b.addMesh c k = .ok t) :
    t.px = b.px ∧ t.py = b.py ∧ t.nx = b.nx ∧ t.ny = b.ny ∧
    (Knotted b.conf.itf ∨ b.px = true ∧ b.nx = 1 ∨ b.py = true ∧ b.ny = 1 → Knotted t.conf.itf) := by
  unfold Box.addMesh at h
  obtain ⟨_, _, h⟩ := bind_eq_ok.1 h
  obtain ⟨l, _, h⟩ := bind_eq_ok.1 h
  obtain ⟨s, hs, h⟩ := bind_eq_ok.1 h
  obtain ⟨s', hs', h⟩ := bind_eq_ok.1 h
  obtain ⟨_, _, h⟩ := bind_eq_ok.1 h
  cases h
  refine ⟨rfl, rfl, rfl, rfl, fun hk => ?_⟩
  have hi : s.itf = b.conf.itf := by
    unfold Conf.addMesh at hs
    obtain ⟨_, _, hs⟩ := bind_eq_ok.1 hs
    cases hs
    rfl
  have hin : ∀ (i n : Nat) (s : Conf) (f : Int × Int) (t : Conf), Conf.appendInterface s i n f.1 f.2 = .ok t →
      Knotted s.itf → Knotted t.itf := by
    rintro i n s f t ht ⟨r, hr, e⟩
    obtain ⟨p, hp⟩ := appendInterface_itf ht
    exact ⟨r, by rw [hp]; simp [hr], e⟩
  have hout : ∀ (t : Conf) (i : Nat) (t' : Conf), (do
      let p ← rd s.loc i
      let q ← rd s.loc b.conf.meshes.length
      (b.pairs p q).foldlM (fun t (f : Int × Int) => Conf.appendInterface t i b.conf.meshes.length f.1 f.2) t) = .ok t' →
      Knotted t.itf → Knotted t'.itf := by
    intro t i t' h hq
    obtain ⟨p, _, h⟩ := bind_eq_ok.1 h
    obtain ⟨q, _, h⟩ := bind_eq_ok.1 h
    exact fold_keep (Q := fun s : Conf => Knotted s.itf) (hin _ _) h hq
  rcases hk with hk | hk
  · exact fold_keep (Q := fun s : Conf => Knotted s.itf) hout hs' (by rw [hi]; exact hk)
  · refine fold_reach (Q := fun s : Conf => Knotted s.itf) hout (a := b.conf.meshes.length) ?_ (List.mem_range.2 (by omega)) hs'
    intro t t' h
    obtain ⟨p, hp, h⟩ := bind_eq_ok.1 h
    obtain ⟨q, hq, h⟩ := bind_eq_ok.1 h
    have : p = q := Except.ok.inj (hp.symm.trans hq)
    subst this
    have hpair : (4, 2) ∈ b.pairs p p ∨ (1, 3) ∈ b.pairs p p := by
      unfold Box.pairs
      simp only [List.mem_filterMap]
      rcases hk with ⟨e1, e2⟩ | ⟨e1, e2⟩
      · left
        refine ⟨(-1, 0), ?_, rfl⟩
        unfold Box.disps
        simp [e1, e2]
      · right
        refine ⟨(0, -1), ?_, rfl⟩
        unfold Box.disps
        simp [e1, e2]
    have hself : ∀ (f : Int × Int) (s t : Conf),
        Conf.appendInterface s b.conf.meshes.length b.conf.meshes.length f.1 f.2 = .ok t → Knotted t.itf := by
      intro f s t ht
      obtain ⟨p, hp⟩ := appendInterface_itf ht
      refine ⟨_, by rw [hp]; exact List.mem_append_right _ (List.mem_singleton.2 rfl), ?_⟩
      unfold ifRow
      split <;> rfl
    rcases hpair with hpair | hpair <;>
      exact fold_reach (Q := fun s : Conf => Knotted s.itf) (hin _ _) (hself _) hpair h

theorem close_itf {b t : Box} (h : b.close = .ok t) : t.conf.itf = b.conf.itf := by
  unfold Box.close at h
  obtain ⟨_, _, h⟩ := bind_eq_ok.1 h
  obtain ⟨_, _, h⟩ := bind_eq_ok.1 h
  obtain ⟨s, hs, h⟩ := bind_eq_ok.1 h
  obtain ⟨ok, _, h⟩ := bind_eq_ok.1 h
  obtain ⟨_, _, h⟩ := bind_eq_ok.1 h
  cases h
  refine fold_keep (Q := fun s : Conf => s.itf = b.conf.itf) ?_ hs rfl
  intro s m t h hq
  obtain ⟨c, _, h⟩ := bind_eq_ok.1 h
  obtain ⟨u, hu, h⟩ := bind_eq_ok.1 h
  have : u.itf = b.conf.itf := fold_keep (Q := fun s : Conf => s.itf = b.conf.itf)
    (fun s f t ht hq => (appendBoundary_itf ht).trans hq) hu hq
  split at h
  · exact (appendBoundary_itf h).trans this
  · cases h
    exact this

theorem save_itf {b : Box} {F : File} (h : b.save = .ok F) : F.tables.ports = b.conf.itf := by
  unfold Box.save at h
  obtain ⟨r, _, h⟩ := bind_eq_ok.1 h
  unfold Conf.save at h
  obtain ⟨_, _, h⟩ := bind_eq_ok.1 h
  cases h
  rfl

/-- C109: in a box with a single cell in a periodic direction, a file the script writes joins a mesh to
itself, and the program rejects it. -/
theorem single_cell_rejected {nx ny : Nat} {px py : Bool} {comps : List Part} {choices : List (Nat × Nat)}
    {F : File} (h1 : px = true ∧ nx = 1 ∨ py = true ∧ ny = 1) (h0 : 0 < nx * ny)
    (hF : (prepared nx ny px py comps).fill choices = .ok F) (cs : List Comp)
    {refPorts : List Ports.PortData} (hp : refPorts ≠ []) (refItfs : List (List Ports.InterfaceInfo)) :
    (∃ r ∈ F.tables.ports, r.mesh1 = r.mesh2) ∧
    ∀ t, setup cs F.tables.types F.tables.bdr F.tables.ports refPorts refItfs ≠ .ok t := by
  have hk : Knotted F.tables.ports := by
    rw [prepared_eq] at hF
    unfold Box.fill at hF
    obtain ⟨b, hb, hF⟩ := bind_eq_ok.1 hF
    obtain ⟨b', hb', hF⟩ := bind_eq_ok.1 hF
    rw [save_itf hF, close_itf hb']
    have key : ∀ (l : List (Nat × Nat)) (s t : Box), l.foldlM (fun b c => Box.addMesh b c.1 c.2) s = .ok t →
        (s.px = true ∧ s.nx = 1 ∨ s.py = true ∧ s.ny = 1) → Knotted s.conf.itf ∨ l ≠ [] → Knotted t.conf.itf := by
      intro l
      induction l with
      | nil =>
        intro s t h _ hk
        cases h
        simpa using hk
      | cons c l ih =>
        intro s t h h1 _
        rw [List.foldlM_cons] at h
        obtain ⟨u, hu, h⟩ := bind_eq_ok.1 h
        obtain ⟨e1, e2, e3, e4, e5⟩ := addMesh_knotted hu
        exact ih u t h (by rw [e1, e2, e3, e4]; exact h1) (.inl (e5 (.inr h1)))
    refine key choices _ _ hb h1 (.inr ?_)
    rintro rfl
    cases hb
    unfold Box.close at hb'
    obtain ⟨_, hb', _⟩ := bind_eq_ok.1 hb'
    have : ¬0 = nx * ny := by omega
    simp [require, emptyBox, this] at hb'
  refine ⟨hk, fun t ht => ?_⟩
  obtain ⟨r, hr, e⟩ := hk
  have hu : CompSetup.Spec.usedPorts F.tables.ports refPorts = F.tables.ports := by
    unfold CompSetup.Spec.usedPorts
    cases refPorts with
    | nil => exact absurd rfl hp
    | cons => rfl
  obtain ⟨p, hpr⟩ := List.getElem?_of_mem hr
  rw [← hu] at hpr
  obtain ⟨_, k, m1, m2, q, i, _, g2, g3, g4, _⟩ := ports_attached ht hpr
  omega

/-- The hypotheses of `single_cell_rejected`: the script writes a file for a periodic column. -/
example : ∃ F, (prepared 1 2 true false threeParts).fill [(1, 0), (0, 0)] = .ok F ∧
    decide (F.tables.ports = [⟨0, 0, 2, 4, 0⟩, ⟨1, 0, 1, 3, 1⟩, ⟨1, 1, 2, 4, 2⟩]) = true :=
  exists_ok (by decide +kernel)

/-! ## All configurations -/

theorem addMesh_shape {b t : Box} {c k : Nat} (h : b.addMesh c k = .ok t) :
    t.conf.comps = b.conf.comps ∧ t.avail.length + 1 = b.avail.length := by
  unfold Box.addMesh at h
  obtain ⟨_, _, h⟩ := bind_eq_ok.1 h
  obtain ⟨l, hl, h⟩ := bind_eq_ok.1 h
  obtain ⟨s, hs, h⟩ := bind_eq_ok.1 h
  obtain ⟨s', hs', h⟩ := bind_eq_ok.1 h
  obtain ⟨_, _, h⟩ := bind_eq_ok.1 h
  cases h
  have hm : l ∈ b.avail := List.mem_of_getElem? (rd_eq_ok.1 hl)
  refine ⟨?_, ?_⟩
  · dsimp only
    have e : s.comps = b.conf.comps := by
      unfold Conf.addMesh at hs
      obtain ⟨_, _, hs⟩ := bind_eq_ok.1 hs
      cases hs
      rfl
    rw [← e]
    refine fold_keep (Q := fun t : Conf => t.comps = s.comps) ?_ hs' rfl
    intro t i t' h hq
    obtain ⟨p, _, h⟩ := bind_eq_ok.1 h
    obtain ⟨q, _, h⟩ := bind_eq_ok.1 h
    refine fold_keep (Q := fun t : Conf => t.comps = s.comps) ?_ h hq
    intro u f v h hq
    rw [← hq]
    unfold Conf.appendInterface at h
    obtain ⟨c1, _, h⟩ := bind_eq_ok.1 h
    obtain ⟨_, _, h⟩ := bind_eq_ok.1 h
    obtain ⟨c2, _, h⟩ := bind_eq_ok.1 h
    obtain ⟨_, _, h⟩ := bind_eq_ok.1 h
    obtain ⟨ms, _, h⟩ := bind_eq_ok.1 h
    obtain ⟨ms', _, h⟩ := bind_eq_ok.1 h
    obtain ⟨w, hu, h⟩ := bind_eq_ok.1 h
    obtain ⟨p, _, h⟩ := bind_eq_ok.1 h
    cases h
    unfold Conf.appendRefPort at hu
    obtain ⟨_, _, hu⟩ := bind_eq_ok.1 hu
    split at hu <;> (cases hu; rfl)
  · dsimp only
    rw [List.length_erase_of_mem hm]
    have := List.length_pos_of_mem hm
    omega

theorem fill_cons {b t : Box} {c : Nat × Nat} {l : List (Nat × Nat)} (h : b.addMesh c.1 c.2 = .ok t) :
    b.fill (c :: l) = t.fill l := by
  unfold Box.fill
  rw [List.foldlM_cons, h, ok_bind]

theorem generate_aux (depth : Nat) (b : Box) (offset : Nat) (hd : b.avail.length = depth)
    (hf : ∀ k, k < b.conf.comps.length ^ depth → ∃ F, b.fill (digits b.conf.comps.length depth k) = .ok F) :
    ∃ files, b.generate depth offset = .ok files ∧ files.length = b.conf.comps.length ^ depth ∧
      ∀ k, k < b.conf.comps.length ^ depth → ∃ F, files[k]? = some (offset + k, F) ∧
        b.fill (digits b.conf.comps.length depth k) = .ok F := by
  induction depth generalizing b offset with
  | zero =>
    obtain ⟨F, hF⟩ := hf 0 (by simp)
    refine ⟨[(offset, F)], ?_, by simp, ?_⟩
    · unfold Box.generate
      rw [if_pos (List.eq_nil_of_length_eq_zero hd)]
      unfold Box.fill digits at hF
      rw [List.foldlM_nil] at hF
      obtain ⟨b', h1, h2⟩ := bind_eq_ok.1 hF
      cases h1
      obtain ⟨b', h1, h2⟩ := bind_eq_ok.1 h2
      rw [h1, ok_bind, h2]
      rfl
    · intro k hk
      have : k = 0 := by simpa using hk
      subst this
      exact ⟨F, rfl, hF⟩
  | succ depth ih =>
    have hne : b.avail ≠ [] := by
      rintro e
      rw [e] at hd
      simp at hd
    set C := b.conf.comps.length with hC
    have key : ∀ n, n ≤ C → ∃ files, (List.range n).foldlM (fun fs c => do
          let t ← b.addMesh c 0
          let gs ← Box.generate depth t (offset + fs.length)
          return fs ++ gs) [] = .ok files ∧ files.length = n * C ^ depth ∧
        ∀ k, k < n * C ^ depth → ∃ F, files[k]? = some (offset + k, F) ∧ b.fill (digits C (depth + 1) k) = .ok F := by
      intro n
      induction n with
      | zero => intro _; exact ⟨[], rfl, by simp, by simp⟩
      | succ n ihn =>
        intro hn
        obtain ⟨fs, f1, f2, f3⟩ := ihn (by omega)
        have hpos : 0 < C ^ depth := Nat.pow_pos (by omega)
        have hdig : ∀ j, j < C ^ depth → digits C (depth + 1) (n * C ^ depth + j) = (n, 0) :: digits C depth j := by
          intro j hj
          rw [digits, Nat.mul_comm, Nat.mul_add_div hpos, Nat.div_eq_of_lt hj, Nat.mul_add_mod, Nat.mod_eq_of_lt hj,
            Nat.add_zero]
        have hlt : ∀ j, j < C ^ depth → n * C ^ depth + j < C ^ (depth + 1) := by
          intro j hj
          calc n * C ^ depth + j < n * C ^ depth + C ^ depth := by omega
            _ = (n + 1) * C ^ depth := by rw [Nat.succ_mul]
            _ ≤ C * C ^ depth := Nat.mul_le_mul_right _ hn
            _ = C ^ (depth + 1) := by rw [Nat.pow_succ, Nat.mul_comm]
        obtain ⟨t, ht⟩ : ∃ t, b.addMesh n 0 = .ok t := by
          obtain ⟨F, hF⟩ := hf _ (hlt 0 hpos)
          rw [hdig 0 hpos] at hF
          unfold Box.fill at hF
          rw [List.foldlM_cons] at hF
          obtain ⟨_, hF, _⟩ := bind_eq_ok.1 hF
          obtain ⟨t, ht, _⟩ := bind_eq_ok.1 hF
          exact ⟨t, ht⟩
        obtain ⟨s1, s2⟩ := addMesh_shape ht
        obtain ⟨gs, g1, g2, g3⟩ := ih t (offset + fs.length) (by omega) (by
          intro j hj
          rw [s1] at hj ⊢
          obtain ⟨F, hF⟩ := hf _ (hlt j hj)
          rw [hdig j hj, fill_cons ht] at hF
          exact ⟨F, hF⟩)
        rw [s1] at g2 g3
        refine ⟨fs ++ gs, ?_, ?_, ?_⟩
        · rw [List.range_succ, foldlM_append', f1, ok_bind, List.foldlM_cons, ht, ok_bind, g1]
          rfl
        · rw [List.length_append, f2, g2, Nat.succ_mul]
        · intro k hk
          by_cases h : k < n * C ^ depth
          · obtain ⟨F, h1, h2⟩ := f3 k h
            refine ⟨F, ?_, h2⟩
            rw [List.getElem?_append_left (by omega)]
            exact h1
          · rw [Nat.succ_mul] at hk
            obtain ⟨j, rfl⟩ := Nat.exists_eq_add_of_le (Nat.le_of_not_lt h)
            have hj : j < C ^ depth := by omega
            obtain ⟨F, h1, h2⟩ := g3 j hj
            refine ⟨F, ?_, ?_⟩
            · rw [List.getElem?_append_right (by omega), f2, Nat.add_sub_cancel_left, h1, f2, Nat.add_assoc]
            · rw [hdig j hj, fill_cons ht]
              exact h2
    obtain ⟨files, f1, f2, f3⟩ := key C (le_refl _)
    refine ⟨files, ?_, by rw [f2, Nat.pow_succ, Nat.mul_comm], ?_⟩
    · unfold Box.generate
      rw [if_neg hne]
      exact f1
    · intro k hk
      exact f3 k (by rw [Nat.mul_comm, ← Nat.pow_succ]; exact hk)

theorem digits_filling (C n k : Nat) (hk : k < C ^ n) : Filling C n (digits C n k) := by
  induction n generalizing k with
  | zero => exact ⟨rfl, by simp [digits]⟩
  | succ n ih =>
    have hpos : 0 < C ^ n := by
      rcases Nat.eq_zero_or_pos (C ^ n) with h | h
      · rw [Nat.pow_succ, h] at hk
        omega
      · exact h
    obtain ⟨h1, h2⟩ := ih (k % C ^ n) (Nat.mod_lt _ hpos)
    refine ⟨by simp [digits, h1], ?_⟩
    intro m c hm
    cases m with
    | zero =>
      simp only [digits, List.getElem?_cons_zero, Option.some.injEq] at hm
      subst hm
      exact ⟨Nat.div_lt_of_lt_mul (by rw [← Nat.pow_succ]; exact hk), by dsimp only; omega⟩
    | succ m =>
      simp only [digits, List.getElem?_cons_succ] at hm
      obtain ⟨q1, q2⟩ := h2 m c hm
      exact ⟨q1, by omega⟩

/-- C109: generating all configurations writes one file for every way of filling the cells, in order,
numbered from the offset, each as if the box had been filled by itself. -/
theorem generate_all {nx ny : Nat} {px py : Bool} {comps : List Part} (offset : Nat)
    (hx : px = true → nx ≠ 1) (hy : py = true → ny ≠ 1) (hn : (comps.map Part.name).Nodup) :
    ∃ files, (prepared nx ny px py comps).generate (nx * ny) offset = .ok files ∧
      files.length = comps.length ^ (nx * ny) ∧
      ∀ k, k < comps.length ^ (nx * ny) → ∃ F, files[k]? = some (offset + k, F) ∧
        (prepared nx ny px py comps).fill (digits comps.length (nx * ny) k) = .ok F := by
  have e : (prepared nx ny px py comps).conf.comps = comps := by rw [prepared_eq]; rfl
  have := generate_aux (nx * ny) (prepared nx ny px py comps) offset
    (by rw [prepared_eq]; exact length_cells nx ny) (by
      intro k hk
      rw [e] at hk ⊢
      obtain ⟨F, hF, _⟩ := fill_spec hx hy hn (digits_filling _ _ _ hk)
      exact ⟨F, hF⟩)
  rw [e] at this
  exact this

/-- C109: the ways of filling the cells in order are exactly the sequences of components. -/
theorem digits_all {C n : Nat} {l : List Nat} (hl : l.length = n) (hc : ∀ c ∈ l, c < C) :
    ∃ k, k < C ^ n ∧ digits C n k = l.map fun c => (c, 0) := by
  induction l generalizing n with
  | nil =>
    subst hl
    exact ⟨0, by simp, rfl⟩
  | cons c l ih =>
    obtain ⟨n, rfl⟩ : ∃ n', n = n' + 1 := ⟨l.length, by simpa using hl.symm⟩
    obtain ⟨k, k1, k2⟩ := ih (n := n) (by simpa using hl) (fun d hd => hc d (by simp [hd]))
    have hcC := hc c (by simp)
    refine ⟨c * C ^ n + k, ?_, ?_⟩
    · calc c * C ^ n + k < c * C ^ n + C ^ n := by omega
        _ = (c + 1) * C ^ n := by rw [Nat.succ_mul]
        _ ≤ C * C ^ n := Nat.mul_le_mul_right _ hcC
        _ = C ^ (n + 1) := by rw [Nat.pow_succ, Nat.mul_comm]
    · rw [digits, Nat.mul_comm c, Nat.mul_add_div (by omega), Nat.div_eq_of_lt k1, Nat.mul_add_mod,
        Nat.mod_eq_of_lt k1, k2]
      rfl

/-- All configurations of two cells with three components, numbered from seven. -/
example : ∃ files, (prepared 2 1 false false threeParts).generate (2 * 1) 7 = .ok files ∧
    decide (files.map (fun f => (f.1, f.2.comps, f.2.tables.types)) =
      [(7, ["empty"], [0, 0]), (8, ["empty", "disk"], [0, 1]), (9, ["empty", "other"], [0, 1]),
       (10, ["empty", "disk"], [1, 0]), (11, ["disk"], [0, 0]), (12, ["disk", "other"], [0, 1]),
       (13, ["empty", "other"], [1, 0]), (14, ["disk", "other"], [1, 0]), (15, ["other"], [0, 0])]) = true :=
  exists_ok (by decide +kernel)

end Verif.Config
