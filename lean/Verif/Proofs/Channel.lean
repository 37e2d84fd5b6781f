import Verif.Proofs.BoxConfig
import Verif.Spec.Channel

/-! # Lemmas about channels -/

namespace Verif.Config

open Verif Verif.CompSetup Verif.GenConf Verif.Config.Spec

/-! ## Neighbouring cells -/

/-- One of the four outer faces. -/
abbrev Outer (f : Int) : Prop := f = 1 ∨ f = 2 ∨ f = 3 ∨ f = 4

theorem next_rel : Rel Next := by
  constructor
  · intro f p q h
    unfold Next at h
    omega
  · intro f p q h
    unfold Next opposite at *
    rcases h with ⟨rfl, h⟩ | ⟨rfl, h⟩ | ⟨rfl, h⟩ | ⟨rfl, h⟩ <;> (norm_num; omega)

theorem next_iff {f : Int} {p q : Int × Int} : Next f p q ↔ Outer f ∧ diff q p = step f := by
  obtain ⟨p1, p2⟩ := p
  obtain ⟨q1, q2⟩ := q
  unfold Next diff step Outer
  dsimp only
  constructor
  · rintro (⟨rfl, h⟩ | ⟨rfl, h⟩ | ⟨rfl, h⟩ | ⟨rfl, h⟩) <;> (norm_num; omega)
  · rintro ⟨rfl | rfl | rfl | rfl, h⟩ <;> (norm_num at h; norm_num; omega)

theorem next_inj {f : Int} {p q q' : Int × Int} (h : Next f p q) (h' : Next f p q') : q = q' := by
  obtain ⟨q1, q2⟩ := q
  obtain ⟨r1, r2⟩ := q'
  unfold Next at *
  dsimp only at *
  rw [Prod.mk.injEq]
  omega

theorem next_face {f g : Int} {p q : Int × Int} (h : Next f p q) (h' : Next g p q) : f = g := by
  unfold Next at *
  omega

theorem next_ne {f : Int} {p q : Int × Int} (h : Next f p q) : p ≠ q := by
  rintro rfl
  unfold Next at *
  omega

theorem faceMap_eq {d : Int × Int} {f : Int} : faceMap d = some f ↔ Outer f ∧ d = step f := by
  obtain ⟨a, b⟩ := d
  unfold faceMap step Outer
  constructor
  · intro h
    split_ifs at h with h1 h2 h3 h4
    · cases h; simp [h1]
    · cases h; simp [h2]
    · cases h; simp [h3]
    · cases h; simp [h4]
  · rintro ⟨rfl | rfl | rfl | rfl, h⟩ <;> (norm_num at h; obtain ⟨rfl, rfl⟩ := h; decide)

theorem faceAt_ok {d : Int × Int} {f : Int} : faceAt d = .ok f ↔ Outer f ∧ d = step f := by
  rw [← faceMap_eq]
  unfold faceAt
  cases faceMap d with
  | none => simp
  | some g => simp

theorem faceAt_next {f : Int} {p q : Int × Int} : faceAt (diff q p) = .ok f ↔ Next f p q := by
  rw [faceAt_ok, next_iff]

/-! ## The attributes of one mesh -/

/-- The list of faces and attributes of a mesh. -/
structure Walls (p : Part) (uf df : Int) (closure : Bool) (l : List (Int × Int)) : Prop where
  nodup : (l.map Prod.fst).Nodup
  faces : ∀ f, f ∈ l.map Prod.fst ↔ f ∈ p.refBattr ∧ f ≠ uf ∧ (closure = true ∨ f ≠ df)
  five : ∀ x ∈ l, x.1 = 5 ↔ x.2 = 5
  out : ∀ x ∈ l, x.1 = df ↔ x.2 = 2
  wall : ∀ x ∈ l, x.1 ≠ 5 → x.1 ≠ df → x.2 = 1 ∨ x.2 = 3
  differ : ∀ x ∈ l, ∀ y ∈ l, x.2 = y.2 → x = y
  hands : uf = opposite df → (rightHand df, 1) ∈ l ∧ (opposite (rightHand df), 3) ∈ l

/-- The part of `Walls` that can be computed. -/
def wallsB (p : Part) (uf df : Int) (closure : Bool) (l : List (Int × Int)) : Bool :=
  decide ((l.map Prod.fst).Nodup) &&
  decide (∀ f ∈ p.refBattr, f ∈ l.map Prod.fst ↔ f ≠ uf ∧ (closure = true ∨ f ≠ df)) &&
  decide (∀ x ∈ l, x.1 ∈ p.refBattr ∧ (x.1 = 5 ↔ x.2 = 5) ∧ (x.1 = df ↔ x.2 = 2) ∧
    (x.1 ≠ 5 → x.1 ≠ df → x.2 = 1 ∨ x.2 = 3)) &&
  decide (∀ x ∈ l, ∀ y ∈ l, x.2 = y.2 → x = y) &&
  decide (uf = opposite df → (rightHand df, 1) ∈ l ∧ (opposite (rightHand df), 3) ∈ l)

theorem walls_of {p : Part} {uf df : Int} {closure : Bool} {l : List (Int × Int)}
    (h : wallsB p uf df closure l = true) : Walls p uf df closure l := by
  unfold wallsB at h
  simp only [Bool.and_eq_true, decide_eq_true_eq] at h
  obtain ⟨⟨⟨⟨h1, h2⟩, h3⟩, h4⟩, h5⟩ := h
  refine ⟨h1, fun f => ⟨fun hf => ?_, fun hf => (h2 f hf.1).2 hf.2⟩, fun x hx => (h3 x hx).2.1,
    fun x hx => (h3 x hx).2.2.1, fun x hx => (h3 x hx).2.2.2, h4, h5⟩
  obtain ⟨x, hx, rfl⟩ := List.mem_map.1 hf
  exact ⟨(h3 x hx).1, (h2 _ (h3 x hx).1).1 hf⟩

theorem globalAttr_ok (p : Part) {uf df : Int} (closure : Bool) (hu : Outer uf) (hd : Outer df) (hn : uf ≠ df) :
    ∃ l, globalAttr p (step uf) (step df) closure = .ok l ∧ Walls p uf df closure l := by
  obtain ⟨name, o⟩ := p
  have key : ∀ o closure, (globalAttr ⟨"", o⟩ (step uf) (step df) closure).toOption.any
      (wallsB ⟨"", o⟩ uf df closure) = true := by
    rcases hu with rfl | rfl | rfl | rfl <;> rcases hd with rfl | rfl | rfl | rfl <;>
      first | exact absurd rfl hn | decide +kernel
  have h := key o closure
  have e1 : globalAttr ⟨"", o⟩ (step uf) (step df) closure = globalAttr ⟨name, o⟩ (step uf) (step df) closure := rfl
  have e2 : wallsB ⟨"", o⟩ uf df closure = wallsB ⟨name, o⟩ uf df closure := rfl
  rw [e1, e2] at h
  cases hx : globalAttr ⟨name, o⟩ (step uf) (step df) closure with
  | error e => rw [hx] at h; simp [Except.toOption] at h
  | ok l =>
    rw [hx] at h
    exact ⟨l, rfl, walls_of (by simpa [Except.toOption] using h)⟩

theorem globalAttr_same (p : Part) {f : Int} (hf : Outer f) (l : List (Int × Int)) :
    globalAttr p (step f) (step f) false ≠ .ok l := by
  obtain ⟨name, o⟩ := p
  have key : ∀ o, (globalAttr ⟨"", o⟩ (step f) (step f) false).toOption.isSome = false := by
    rcases hf with rfl | rfl | rfl | rfl <;> decide +kernel
  intro h
  have := key o
  rw [show globalAttr ⟨"", o⟩ (step f) (step f) false = globalAttr ⟨name, o⟩ (step f) (step f) false from rfl, h] at this
  simp [Except.toOption] at this

/-! ## Laying a channel -/

variable {P0 : List (String × String × Int × Int)} {s t : Conf} {path : List (Int × Int)}

theorem walls_fold {A : Int → Int × Int → Int × Int → Prop} {m : Nat} {M : Mesh} (L : List (Int × Int)) (s : Conf)
    (h : Inv A P0 s) (hm : s.meshes[m]? = some M) (hL : (L.map Prod.fst).Nodup)
    (hf : ∀ x ∈ L, x.1 ∈ M.part.refBattr ∧ ((m : Int), x.1) ∉ ment s) :
    ∃ t, s.wallRows m L = .ok t ∧ Inv A P0 t ∧ Same s t ∧ t.itf = s.itf ∧
      t.ports = s.ports ∧ t.bdr = s.bdr ++ L.map (fun x => (⟨x.2, m, x.1⟩ : BdrRow)) ∧
      (∀ x, x ∈ ment t ↔ x ∈ ment s ∨ (x.1 = m ∧ x.2 ∈ L.map Prod.fst)) := by
  unfold Conf.wallRows
  induction L generalizing s M with
  | nil => exact ⟨s, rfl, h, .refl s, rfl, rfl, by simp, by simp⟩
  | cons f L ih =>
    obtain ⟨f1, f2⟩ := hf f (by simp)
    rw [List.map_cons, List.nodup_cons] at hL
    obtain ⟨u, u1, u2, u3, u4, u5, u6, u7⟩ := appendBoundary_ok h f.2 hm f1 f2
    obtain ⟨N, n1, n2⟩ := u3.mesh hm
    obtain ⟨t, t1, t2, t3, t4, t5, t6, t7⟩ := ih u u2 n1 hL.2 (by
      intro g hg
      obtain ⟨g1, g2⟩ := hf g (by simp [hg])
      rw [n2, u7]
      refine ⟨g1, ?_⟩
      rintro (hx | hx)
      · exact g2 hx
      · injection hx with _ hx
        exact hL.1 (by rw [← hx]; exact List.mem_map.2 ⟨g, hg, rfl⟩))
    refine ⟨t, ?_, t2, u3.trans t3, t4.trans u4, t5.trans u5, ?_, fun x => ?_⟩
    · rw [List.foldlM_cons, u1, ok_bind]
      exact t1
    · rw [t6, u6]; simp
    · rw [t7, u7, or_assoc]
      obtain ⟨a, g⟩ := x
      simp only [List.map_cons, List.mem_cons, Prod.mk.injEq]
      constructor
      · rintro (hx | ⟨h1, h2⟩ | ⟨h1, h2⟩)
        · exact .inl hx
        · exact .inr ⟨h1, .inl h2⟩
        · exact .inr ⟨h1, .inr h2⟩
      · rintro (hx | ⟨h1, h2 | h2⟩)
        · exact .inl hx
        · exact .inr (.inl ⟨h1, h2⟩)
        · exact .inr (.inr ⟨h1, h2⟩)

/-- The cell before the one with number `m`. -/
abbrev before (path : List (Int × Int)) (m : Nat) : Option (Int × Int) := ((-1, 0) :: path)[m]?

/-- What holds while a channel is laid. -/
structure CInv (P0 : List (String × String × Int × Int)) (s : Conf) (path : List (Int × Int)) : Prop where
  inv : Inv Next P0 s
  loc : s.loc = path
  walk : Walk path
  done : ∀ (m : Nat) (M : Mesh) f, m + 1 < path.length → s.meshes[m]? = some M → f ∈ M.part.refBattr →
    ((m : Int), f) ∈ ment s
  last : ∀ (m : Nat) p q f, m + 1 = path.length → before path m = some p → path[m]? = some q →
    (((m : Int), f) ∈ ment s ↔ Next f q p)
  rows : ∀ r ∈ s.bdr, r = ⟨4, 0, 4⟩ ∨ ∃ (m : Nat) (p q z : Int × Int) (P : Part) (l : List (Int × Int)),
    before path m = some p ∧ path[m]? = some q ∧ path[m + 1]? = some z ∧ (s.meshes.map Mesh.part)[m]? = some P ∧
    globalAttr P (diff p q) (diff z q) false = .ok l ∧ r.mesh = m ∧ (r.cattr, r.gattr) ∈ l
  inlet : (⟨4, 0, 4⟩ : BdrRow) ∈ s.bdr
  walls : ∀ (m : Nat) (p q z : Int × Int) (P : Part) (l : List (Int × Int)) (x : Int × Int),
    before path m = some p → path[m]? = some q → path[m + 1]? = some z → (s.meshes.map Mesh.part)[m]? = some P →
    globalAttr P (diff p q) (diff z q) false = .ok l → x ∈ l → (⟨x.2, m, x.1⟩ : BdrRow) ∈ s.bdr
  adj : ∀ r ∈ s.itf, ∃ m : Nat, (r.mesh1 = m ∧ r.mesh2 = (m + 1 : Nat)) ∨ (r.mesh1 = (m + 1 : Nat) ∧ r.mesh2 = m)
  joined : ∀ (m : Nat) p q f, path[m]? = some p → path[m + 1]? = some q → Next f p q →
    ∃ k, ifRow m (m + 1) f (opposite f) k ∈ s.itf

theorem walk_pos (h : Walk path) : 0 < path.length := (List.getElem?_eq_some_iff.1 h.start).1

theorem walk_back (h : Walk path) {m : Nat} {p q : Int × Int} (hp : before path m = some p) (hq : path[m]? = some q) :
    ∃ f, Next f q p := by
  cases m with
  | zero =>
    have : q = (0, 0) := Option.some.inj (hq.symm.trans h.start)
    subst this
    have : p = (-1, 0) := by simpa [before] using hp.symm
    subst this
    exact ⟨4, by unfold Next; simp⟩
  | succ m =>
    obtain ⟨f, hf⟩ := h.steps m p q (by simpa [before] using hp) hq
    exact ⟨_, next_rel.symm hf⟩

theorem before_of {m : Nat} (hm : m < path.length) : ∃ p, before path m = some p :=
  ⟨_, List.getElem?_eq_getElem (by simp; omega)⟩

/-- The walls of the last mesh. -/
theorem last_walls (h : CInv P0 s path) {m : Nat} (hm : m + 1 = path.length) {p q z : Int × Int} {df : Int}
    (hp : before path m = some p) (hq : path[m]? = some q) (hz : Next df q z) (hne : z ≠ p) (closure : Bool) :
    ∃ (M : Mesh) (uf : Int) (l : List (Int × Int)) (t : Conf), s.meshes[m]? = some M ∧ Next uf q p ∧
      globalAttr M.part (diff p q) (diff z q) closure = .ok l ∧ Walls M.part uf df closure l ∧
      s.wallRows m l = .ok t ∧ Inv Next P0 t ∧ Same s t ∧ t.itf = s.itf ∧ t.ports = s.ports ∧
      t.bdr = s.bdr ++ l.map (fun x => (⟨x.2, m, x.1⟩ : BdrRow)) ∧
      (∀ x, x ∈ ment t ↔ x ∈ ment s ∨ (x.1 = m ∧ x.2 ∈ l.map Prod.fst)) := by
  obtain ⟨uf, hu⟩ := walk_back h.walk hp hq
  have hml : m < s.meshes.length := by rw [h.inv.len1, h.loc]; omega
  have hM := List.getElem?_eq_getElem hml
  generalize s.meshes[m] = M at hM
  have hud : uf ≠ df := by
    rintro rfl
    exact hne (next_inj hz hu)
  obtain ⟨l, l1, l2⟩ := globalAttr_ok M.part closure (next_rel.face hu) (next_rel.face hz) hud
  rw [← (next_iff.1 hu).2, ← (next_iff.1 hz).2] at l1
  obtain ⟨t, t1, t2, t3, t4, t5, t6, t7⟩ := walls_fold l s h.inv hM l2.nodup (by
    intro x hx
    obtain ⟨x1, x2, _⟩ := (l2.faces x.1).1 (List.mem_map.2 ⟨x, hx, rfl⟩)
    refine ⟨x1, fun hin => x2 ?_⟩
    exact next_face ((h.last m p q x.1 hm hp hq).1 hin) hu)
  exact ⟨M, uf, l, t, hM, hu, l1, l2, t1, t2, t3, t4, t5, t6, t7⟩

/-- A step to a neighbouring cell that has not been visited. -/
structure Step (path : List (Int × Int)) (new : Int × Int) : Prop where
  fresh : new ∉ path
  next : ∀ m q, m + 1 = path.length → path[m]? = some q → ∃ f, Next f q new
  ahead : path.length = 1 → new ≠ (-1, 0)

theorem Step.walk (hw : Walk path) {new : Int × Int} (h : Step path new) : Walk (path ++ [new]) := by
  have h0 := walk_pos hw
  refine ⟨by rw [List.getElem?_append_left h0]; exact hw.start, ?_, ?_, ?_⟩
  · rw [List.nodup_append]
    refine ⟨hw.once, by simp, ?_⟩
    intro a ha b hb
    rw [List.mem_singleton] at hb
    subst hb
    rintro rfl
    exact h.fresh ha
  · intro m p q hp hq
    have hml := (List.getElem?_eq_some_iff.1 hq).1
    simp at hml
    rw [List.getElem?_append_left (by omega)] at hp
    rcases getElem?_snoc hq with ⟨_, hq⟩ | ⟨e, rfl⟩
    · exact hw.steps m p q hp hq
    · exact h.next m p e hp
  · intro hf
    rcases getElem?_snoc hf with ⟨_, hf⟩ | ⟨e, e'⟩
    · exact hw.forward hf
    · exact h.ahead e.symm e'.symm

theorem extend_ok (h : CInv P0 s path) {c : Nat} {new : Int × Int} (hc : c < s.comps.length) (hs : Step path new) :
    ∃ t, s.extend c new = .ok t ∧ CInv P0 t (path ++ [new]) ∧ t.comps = s.comps ∧ t.types = s.types ++ [c] := by
  have h0 := walk_pos h.walk
  obtain ⟨n, hn⟩ : ∃ n, n + 1 = path.length := ⟨path.length - 1, by omega⟩
  have hq := List.getElem?_eq_getElem (show n < path.length by omega)
  generalize path[n] = q at hq
  obtain ⟨p, hp⟩ := before_of (show n < path.length by omega)
  obtain ⟨df, hd⟩ := hs.next n q hn hq
  have hne : new ≠ p := by
    rintro rfl
    cases n with
    | zero => exact hs.ahead hn.symm (by simpa [before] using hp.symm)
    | succ n => exact hs.fresh (List.mem_of_getElem? (show path[n]? = some new by simpa [before] using hp))
  obtain ⟨M, uf, l, u, hM, hu, l1, l2, u1, u2, u3, u4, u5, u6, u7⟩ := last_walls h hn hp hq hd hne false
  obtain ⟨v, v1, v2, v3, v4, v5, v6, v7, v8, v9, v10⟩ := addMesh_inv next_rel u2 (c := c) (l := new)
    (List.getElem?_eq_getElem (by rw [u3.comps]; exact hc))
  have hvl : v.loc = path ++ [new] := by rw [v5, u3.loc, h.loc]
  have hvq : v.loc[n]? = some q := by rw [hvl, List.getElem?_append_left (by omega)]; exact hq
  have hvn : v.loc[n + 1]? = some new := by rw [hvl, hn]; simp
  have hulen : u.meshes.length = n + 1 := by rw [u2.len1, u3.loc, h.loc, hn]
  obtain ⟨w, w1, w2, w3, w4, w5, k, w6⟩ := appendInterface_ok next_rel v2 (m := n) (n := n + 1) (by omega) hvq hvn hd
    (by
      rw [v10, u7]
      rintro (hx | ⟨_, hx⟩)
      · have := next_face ((h.last n p q df hn hp hq).1 hx) hu
        exact hne (next_inj hd (by rw [this]; exact hu))
      · have := ((l2.faces df).1 hx).2.2
        simp at this)
    (by
      rw [v10]
      intro hx
      have := ment_lt next_rel u2 hx
      omega)
  have hback : Next (opposite df) new q := next_rel.symm hd
  have hparts : w.meshes.map Mesh.part = s.meshes.map Mesh.part ++ [(⟨u.comps[c]'(by rw [u3.comps]; exact hc), [1, 2, 3, 4]⟩ : Mesh).part] := by
    rw [w3.parts, v9, List.map_append, u3.parts]
    rfl
  have hslen : (s.meshes.map Mesh.part).length = n + 1 := by
    rw [List.length_map, h.inv.len1, h.loc, hn]
  have hpart : ∀ {m : Nat} {P : Part}, m < n + 1 → ((w.meshes.map Mesh.part)[m]? = some P ↔ (s.meshes.map Mesh.part)[m]? = some P) := by
    intro m P hm
    rw [hparts, List.getElem?_append_left (by omega)]
  have hMP : (s.meshes.map Mesh.part)[n]? = some M.part := by rw [List.getElem?_map, hM]; rfl
  have hbef : ∀ {m : Nat}, m < n + 2 → before (path ++ [new]) m = before path m := by
    intro m hm
    show ((-1, 0) :: (path ++ [new]))[m]? = _
    rw [← List.cons_append, List.getElem?_append_left (by simp; omega)]
  have hsub : ∀ x, x ∈ ment s → x ∈ ment w := by
    intro x hx
    rw [w5, v10, u7]
    exact .inl (.inl hx)
  have hbdr : w.bdr = s.bdr ++ l.map (fun x => (⟨x.2, n, x.1⟩ : BdrRow)) := by rw [w4, v6, u6]
  have hitf : w.itf = s.itf ++ [ifRow n (n + 1) df (opposite df) k] := by rw [w6, v7, u4]
  have hwalk := hs.walk h.walk
  refine ⟨w, ?_, ⟨w2, w3.loc.trans hvl, hwalk, ?_, ?_, ?_, ?_, ?_, ?_, ?_⟩, ?_, ?_⟩
  · unfold Conf.extend
    have hm : s.meshes.length - 1 = n := by rw [h.inv.len1, h.loc]; omega
    have hfresh : new ∉ s.loc := by rw [h.loc]; exact hs.fresh
    rw [decide_eq_true hfresh, require_true, ok_bind]
    dsimp only
    rw [hm, rd_eq_ok.2 hM, ok_bind, h.loc, rd_eq_ok.2 hq, ok_bind, faceAt_next.2 hd, ok_bind]
    have hup : upstream path n = .ok p := by
      unfold upstream
      cases n with
      | zero =>
        rw [if_pos rfl, rd_eq_ok.2 h.walk.start, ok_bind]
        have : p = (-1, 0) := by simpa [before] using hp.symm
        rw [this]
        rfl
      | succ n =>
        rw [if_neg (by omega)]
        exact rd_eq_ok.2 (by simpa [before] using hp)
    rw [hup, ok_bind, l1, ok_bind, u1, ok_bind, v1, ok_bind, faceAt_next.2 hback, ok_bind]
    exact w1
  · intro m K f hm hK hf
    simp at hm
    have hKP : (w.meshes.map Mesh.part)[m]? = some K.part := by rw [List.getElem?_map, hK]; rfl
    rw [hpart (by omega)] at hKP
    by_cases e : m = n
    · subst e
      have : K.part = M.part := Option.some.inj (hKP.symm.trans hMP)
      rw [this] at hf
      rw [w5, v10, u7]
      by_cases e1 : f = uf
      · subst e1
        exact .inl (.inl ((h.last m p q f hn hp hq).2 hu))
      · by_cases e2 : f = df
        · subst e2
          exact .inr (.inl rfl)
        · exact .inl (.inr ⟨rfl, (l2.faces f).2 ⟨hf, e1, .inr e2⟩⟩)
    · rw [List.getElem?_map] at hKP
      obtain ⟨K', hK', e'⟩ := Option.map_eq_some_iff.1 hKP
      exact hsub _ (h.done m K' f (by omega) hK' (by rw [e']; exact hf))
  · intro m p' q' f hm hp' hq'
    simp at hm
    have hmn : m = n + 1 := by omega
    subst hmn
    have : q' = new := by
      rw [← hvl] at hq'
      exact Option.some.inj (hq'.symm.trans hvn)
    subst this
    rw [hbef (by omega)] at hp'
    have : p' = q := by
      have : path[n]? = some p' := by simpa [before] using hp'
      exact Option.some.inj (this.symm.trans hq)
    subst this
    rw [w5, v10]
    constructor
    · rintro (hx | hx | hx)
      · have := ment_lt next_rel u2 hx
        omega
      · injection hx with hx _
        omega
      · injection hx with _ hx
        rw [hx]
        exact hback
    · intro hx
      exact .inr (.inr (by rw [next_face hx hback]))
  · intro r hr
    rw [hbdr, List.mem_append, List.mem_map] at hr
    rcases hr with hr | ⟨x, hx, rfl⟩
    · rcases h.rows r hr with e | ⟨m, p', q', z', P, l', a1, a2, a3, a4, a5, a6, a7⟩
      · exact .inl e
      · have hml := (List.getElem?_eq_some_iff.1 a3).1
        refine .inr ⟨m, p', q', z', P, l', by rw [hbef (by omega)]; exact a1, ?_, ?_, (hpart (by omega)).2 a4, a5, a6, a7⟩
        · rw [List.getElem?_append_left (by omega)]; exact a2
        · rw [List.getElem?_append_left (by omega)]; exact a3
    · refine .inr ⟨n, p, q, new, M.part, l, by rw [hbef (by omega)]; exact hp, ?_, ?_, (hpart (by omega)).2 hMP, l1, rfl, hx⟩
      · rw [List.getElem?_append_left (by omega)]; exact hq
      · rw [hn]; simp
  · rw [hbdr]
    exact List.mem_append_left _ h.inlet
  · intro m p' q' z' P l' x a1 a2 a3 a4 a5 a6
    have hml := (List.getElem?_eq_some_iff.1 a3).1
    simp at hml
    rw [hbdr]
    rw [hbef (by omega)] at a1
    rw [List.getElem?_append_left (by omega)] at a2
    rw [hpart (by omega)] at a4
    rcases getElem?_snoc a3 with ⟨_, a3⟩ | ⟨e, rfl⟩
    · exact List.mem_append_left _ (h.walls m p' q' z' P l' x a1 a2 a3 a4 a5 a6)
    · have : m = n := by omega
      subst this
      have e1 : p' = p := Option.some.inj (a1.symm.trans hp)
      have e2 : q' = q := Option.some.inj (a2.symm.trans hq)
      have e3 : P = M.part := Option.some.inj (a4.symm.trans hMP)
      subst e1 e2 e3
      have : l' = l := Except.ok.inj (a5.symm.trans l1)
      subst this
      exact List.mem_append_right _ (List.mem_map.2 ⟨x, a6, rfl⟩)
  · intro r hr
    rw [hitf, List.mem_append, List.mem_singleton] at hr
    rcases hr with hr | rfl
    · exact h.adj r hr
    · refine ⟨n, ?_⟩
      unfold ifRow
      split
      · exact .inl ⟨rfl, rfl⟩
      · exact .inr ⟨rfl, rfl⟩
  · intro m p' q' f a1 a2 a3
    have hml := (List.getElem?_eq_some_iff.1 a2).1
    simp at hml
    rw [List.getElem?_append_left (by omega)] at a1
    rw [hitf]
    rcases getElem?_snoc a2 with ⟨_, a2⟩ | ⟨e, rfl⟩
    · obtain ⟨k', hk'⟩ := h.joined m p' q' f a1 a2 a3
      exact ⟨k', List.mem_append_left _ hk'⟩
    · have : m = n := by omega
      subst this
      have e2 : p' = q := Option.some.inj (a1.symm.trans hq)
      subst e2
      have : f = df := next_face a3 hd
      subst this
      exact ⟨k, List.mem_append_right _ (by simp)⟩
  · rw [w3.comps, v3, u3.comps]
  · rw [w3.types, v4, u3.types]

/-- A mesh is only added in a neighbouring cell that has not been visited. -/
theorem extend_only (h : CInv P0 s path) {c : Nat} {new : Int × Int} (hx : s.extend c new = .ok t) :
    c < s.comps.length ∧ Step path new := by
  have h0 := walk_pos h.walk
  obtain ⟨n, hn⟩ : ∃ n, n + 1 = path.length := ⟨path.length - 1, by omega⟩
  have hq := List.getElem?_eq_getElem (show n < path.length by omega)
  generalize path[n] = q at hq
  unfold Conf.extend at hx
  have hm : s.meshes.length - 1 = n := by rw [h.inv.len1, h.loc]; omega
  dsimp only at hx
  rw [hm, h.loc] at hx
  obtain ⟨_, g1, hx⟩ := bind_eq_ok.1 hx
  obtain ⟨M, g2, hx⟩ := bind_eq_ok.1 hx
  obtain ⟨q', g3, hx⟩ := bind_eq_ok.1 hx
  have : q' = q := Option.some.inj ((rd_eq_ok.1 g3).symm.trans hq)
  subst this
  obtain ⟨df, g4, hx⟩ := bind_eq_ok.1 hx
  obtain ⟨u, g5, hx⟩ := bind_eq_ok.1 hx
  obtain ⟨l, g6, hx⟩ := bind_eq_ok.1 hx
  obtain ⟨s1, g7, hx⟩ := bind_eq_ok.1 hx
  obtain ⟨s2, g8, hx⟩ := bind_eq_ok.1 hx
  have hfresh : new ∉ path := by
    by_contra hin
    rw [decide_eq_false (by simpa using hin)] at g1
    simp [require] at g1
  have hcomps : s1.comps = s.comps := by
    refine fold_keep (Q := fun u : Conf => u.comps = s.comps) ?_ g7 rfl
    intro u x v hv hu
    unfold Conf.appendBoundary at hv
    obtain ⟨_, _, hv⟩ := bind_eq_ok.1 hv
    obtain ⟨_, _, hv⟩ := bind_eq_ok.1 hv
    obtain ⟨_, _, hv⟩ := bind_eq_ok.1 hv
    cases hv
    exact hu
  refine ⟨?_, hfresh, ?_, ?_⟩
  · unfold Conf.addMesh at g8
    obtain ⟨P, g9, _⟩ := bind_eq_ok.1 g8
    rw [← hcomps]
    exact (List.getElem?_eq_some_iff.1 (rd_eq_ok.1 g9)).1
  · intro m q hm' hq'
    have : m = n := by omega
    subst this
    rw [Option.some.inj (hq'.symm.trans hq)]
    exact ⟨df, faceAt_next.1 g4⟩
  · rintro hl rfl
    have : n = 0 := by omega
    subst this
    have : q' = (0, 0) := Option.some.inj (hq.symm.trans h.walk.start)
    subst this
    unfold upstream at g5
    rw [if_pos rfl, rd_eq_ok.2 h.walk.start, ok_bind] at g5
    cases g5
    exact globalAttr_same M.part (f := 4) (by omega) l g6

/-! ## Closing a channel -/

theorem route_before {m : Nat} (hm : m ≤ path.length) : (route path)[m]? = before path m := by
  unfold route
  dsimp only
  rw [List.getElem?_append_left (by simp; omega)]

theorem route_here {m : Nat} (hm : m < path.length) : (route path)[m + 1]? = path[m]? := by
  rw [route_before (by omega)]
  simp [before]

theorem route_after {m : Nat} (hm : m + 1 < path.length) : (route path)[m + 2]? = path[m + 1]? := route_here hm

theorem route_end {m : Nat} {u q : Int × Int} (hm : m + 2 = path.length) (hu : path[m]? = some u)
    (hq : path[m + 1]? = some q) : (route path)[m + 3]? = some (q.1 + (q.1 - u.1), q.2 + (q.2 - u.2)) := by
  unfold route
  dsimp only
  rw [List.getElem?_append_right (by simp; omega)]
  have e1 : path.getD (path.length - 1) (0, 0) = q := by
    rw [List.getD_eq_getElem?_getD, show path.length - 1 = m + 1 by omega, hq]; rfl
  have e2 : path.getD (path.length - 2) (0, 0) = u := by
    rw [List.getD_eq_getElem?_getD, show path.length - 2 = m by omega, hu]; rfl
  rw [e1, e2, show m + 3 - ((-1, 0) :: path).length = 0 by simp; omega]
  simp
  omega

theorem route_length : (route path).length = path.length + 2 := by
  simp [route]

theorem walls_four {P : Part} {uf df : Int} {c : Bool} {l : List (Int × Int)} (h : Walls P uf df c l)
    {x : Int × Int} (hx : x ∈ l) : x.2 ≠ 4 := by
  intro e
  have h1 := h.five x hx
  have h2 := h.out x hx
  have h3 := h.wall x hx
  by_cases a : x.1 = 5
  · have := h1.1 a; omega
  · by_cases b : x.1 = df
    · have := h2.1 b; omega
    · have := h3 a b; omega

theorem finish_ok {start : Part} {more : List Part} (h : CInv [(start.name, start.name, 2, 4)] s path)
    (hc : s.comps = start :: more) (hn : (s.comps.map Part.name).Nodup) (hl : 2 ≤ path.length) :
    ∃ F, s.finish = .ok F ∧ Channel path F ∧ GenConf.Spec.Covers (fileFaces s.comps F) F.tables ∧
      F.comps = s.comps.map Part.name ∧ F.tables.types = s.types.map (fun t : Nat => (t : Int)) := by
  obtain ⟨n, hn1⟩ : ∃ n, n + 2 = path.length := ⟨path.length - 2, by omega⟩
  have hq := List.getElem?_eq_getElem (show n + 1 < path.length by omega)
  generalize path[n + 1] = q at hq
  have hu := List.getElem?_eq_getElem (show n < path.length by omega)
  generalize path[n] = u at hu
  have hb : before path (n + 1) = some u := by simpa [before] using hu
  obtain ⟨uf, huf⟩ := walk_back h.walk hb hq
  have hz : Next (opposite uf) q (q.1 + (q.1 - u.1), q.2 + (q.2 - u.2)) := by
    unfold Next opposite at *
    dsimp only
    rcases huf with ⟨rfl, h⟩ | ⟨rfl, h⟩ | ⟨rfl, h⟩ | ⟨rfl, h⟩ <;> (norm_num; omega)
  have hne : (q.1 + (q.1 - u.1), q.2 + (q.2 - u.2)) ≠ u := by
    intro e
    have := next_ne huf
    obtain ⟨u1, u2⟩ := u
    obtain ⟨q1, q2⟩ := q
    simp only [Prod.mk.injEq, ne_eq] at e this
    omega
  obtain ⟨M, uf', l, t, hM, hu', l1, l2, t1, t2, t3, t4, t5, t6, t7⟩ := last_walls h (m := n + 1) (by omega) hb hq hz hne true
  have : uf' = uf := next_face hu' huf
  subst this
  have hend := route_end hn1 hu hq
  generalize (q.1 + (q.1 - u.1), q.2 + (q.2 - u.2)) = z at *
  have hparts := t3.parts
  have hMP : (s.meshes.map Mesh.part)[n + 1]? = some M.part := by rw [List.getElem?_map, hM]; rfl
  have hall : ∀ (m : Nat) (K : Mesh) f, t.meshes[m]? = some K → f ∈ K.part.refBattr → ((m : Int), f) ∈ ment t := by
    intro m K f hK hf
    have hml : m < path.length := by
      rw [← h.loc, ← t3.loc, ← t2.len1]
      exact (List.getElem?_eq_some_iff.1 hK).1
    have hKP : (s.meshes.map Mesh.part)[m]? = some K.part := by rw [← hparts, List.getElem?_map, hK]; rfl
    rw [t7]
    by_cases e : m = n + 1
    · subst e
      have : K.part = M.part := Option.some.inj (hKP.symm.trans hMP)
      rw [this] at hf
      by_cases e1 : f = uf'
      · subst e1
        exact .inl ((h.last (n + 1) u q f (by omega) hb hq).2 huf)
      · exact .inr ⟨rfl, (l2.faces f).2 ⟨hf, e1, .inl rfl⟩⟩
    · rw [List.getElem?_map] at hKP
      obtain ⟨K', hK', e'⟩ := Option.map_eq_some_iff.1 hKP
      exact .inl (h.done m K' f (by omega) hK' (by rw [e']; exact hf))
  have hclose : s.closeChannel = .ok t := by
    unfold Conf.closeChannel
    have hm : s.meshes.length - 1 = n + 1 := by rw [h.inv.len1, h.loc]; omega
    have hl2 : 2 ≤ s.loc.length := by rw [h.loc]; exact hl
    dsimp only
    rw [decide_eq_true hl2, require_true, ok_bind, hm, h.loc, rd_eq_ok.2 hq, ok_bind, Nat.add_sub_cancel,
      rd_eq_ok.2 hu, ok_bind, rd_eq_ok.2 hM, ok_bind]
    have hzz : (q.1 + (q.1 - u.1), q.2 + (q.2 - u.2)) = z := by
      have := route_end hn1 hu hq
      exact Option.some.inj (this.symm.trans hend)
    rw [hzz, l1, ok_bind, t1, ok_bind, closed_ok next_rel t2 hall]
    rfl
  have htc : t.comps = s.comps := t3.comps
  have hmesh : ∀ (m : Nat) (K : Mesh), t.meshes[m]? = some K → ∃ c : Nat, t.types[m]? = some c ∧ s.comps[c]? = some K.part := by
    intro m K hK
    have hml : m < t.types.length := by rw [t2.len2, ← t2.len1]; exact (List.getElem?_eq_some_iff.1 hK).1
    refine ⟨t.types[m], List.getElem?_eq_getElem hml, ?_⟩
    rw [← htc]
    exact t2.part m _ K (List.getElem?_eq_getElem hml) hK
  obtain ⟨refs, s1, s2, s3⟩ := save_ok t (t.types.map fun t : Nat => (t : Int)) (by
    intro k hk
    rcases t2.ports k hk with hk | ⟨⟨K, hK, e⟩, _, hh⟩
    · rw [List.mem_singleton] at hk
      subst hk
      exact ⟨⟨start, by rw [htc, hc]; simp, rfl⟩, by dsimp only; omega⟩
    · obtain ⟨m, hm⟩ := List.getElem?_of_mem hK
      obtain ⟨c, _, c2⟩ := hmesh m K hm
      exact ⟨⟨K.part, by rw [htc]; exact List.mem_of_getElem? c2, e⟩, by omega⟩)
  have hrun : s.finish = .ok ⟨t.comps.map Part.name, refs, ⟨t.types.map fun t : Nat => (t : Int), t.loc, t.bdr, t.itf⟩⟩ := by
    unfold Conf.finish
    rw [hclose, ok_bind]
    exact s1
  have htl : t.loc = path := t3.loc.trans h.loc
  -- the rows of the boundary
  have hrow : ∀ r ∈ t.bdr, r = ⟨4, 0, 4⟩ ∨ ∃ (m : Nat) (p q z : Int × Int) (P : Part) (uf df : Int) (l : List (Int × Int)),
      (route path)[m]? = some p ∧ (route path)[m + 1]? = some q ∧ (route path)[m + 2]? = some z ∧
      m < path.length ∧ (s.meshes.map Mesh.part)[m]? = some P ∧ Next uf q p ∧ Next df q z ∧
      globalAttr P (diff p q) (diff z q) (decide (m = n + 1)) = .ok l ∧ Walls P uf df (decide (m = n + 1)) l ∧ r.mesh = m ∧
      (r.cattr, r.gattr) ∈ l := by
    intro r hr
    rw [t6, List.mem_append, List.mem_map] at hr
    rcases hr with hr | ⟨x, hx, rfl⟩
    · rcases h.rows r hr with e | ⟨m, p', q', z', P, l', a1, a2, a3, a4, a5, a6, a7⟩
      · exact .inl e
      · have hml := (List.getElem?_eq_some_iff.1 a3).1
        obtain ⟨u', hu'⟩ := walk_back h.walk a1 a2
        obtain ⟨d', hd'⟩ := h.walk.steps m _ _ a2 a3
        have hud : u' ≠ d' := by
          rintro rfl
          have := next_inj hu' hd'
          subst this
          cases m with
          | zero =>
            have : p' = (-1, 0) := by simpa [before] using a1.symm
            subst this
            exact h.walk.forward a3
          | succ m =>
            have a1' : path[m]? = some p' := by simpa [before] using a1
            have := (List.getElem?_inj (List.getElem?_eq_some_iff.1 a1').1 h.walk.once).1 (a1'.trans a3.symm)
            omega
        obtain ⟨l'', w1, w2⟩ := globalAttr_ok P false (next_rel.face hu') (next_rel.face hd') hud
        rw [← (next_iff.1 hu').2, ← (next_iff.1 hd').2] at w1
        have : l'' = l' := Except.ok.inj (w1.symm.trans a5)
        subst this
        have hmn : decide (m = n + 1) = false := decide_eq_false (by omega)
        refine .inr ⟨m, p', q', z', P, u', d', l'', by rw [route_before (by omega)]; exact a1,
          by rw [route_here (by omega)]; exact a2, by rw [route_after (by omega)]; exact a3, by omega, a4, hu', hd',
          by rw [hmn]; exact a5, by rw [hmn]; exact w2, a6, a7⟩
    · refine .inr ⟨n + 1, u, q, z, M.part, uf', opposite uf', l, by rw [route_before (by omega)]; exact hb,
        by rw [route_here (by omega)]; exact hq, hend, by omega, hMP, huf, hz, by simpa using l1, by simpa using l2, rfl, hx⟩
  have hback : ∀ (m : Nat) (p q z : Int × Int) (P : Part) (l : List (Int × Int)) (x : Int × Int),
      m < path.length → (route path)[m]? = some p → (route path)[m + 1]? = some q → (route path)[m + 2]? = some z →
      (s.meshes.map Mesh.part)[m]? = some P → globalAttr P (diff p q) (diff z q) (decide (m = n + 1)) = .ok l →
      x ∈ l → (⟨x.2, m, x.1⟩ : BdrRow) ∈ t.bdr := by
    intro m p' q' z' P l' x hm a1 a2 a3 a4 a5 a6
    rw [t6]
    rw [route_before (by omega)] at a1
    rw [route_here (by omega)] at a2
    by_cases e : m = n + 1
    · subst e
      have e1 : p' = u := Option.some.inj (a1.symm.trans hb)
      have e2 : q' = q := Option.some.inj (a2.symm.trans hq)
      have e3 : P = M.part := Option.some.inj (a4.symm.trans hMP)
      have e4 : z' = z := Option.some.inj (a3.symm.trans hend)
      subst e1 e2 e3 e4
      have : l' = l := Except.ok.inj (by rw [← a5, ← l1]; simp)
      subst this
      exact List.mem_append_right _ (List.mem_map.2 ⟨x, a6, rfl⟩)
    · rw [route_after (by omega)] at a3
      rw [decide_eq_false e] at a5
      exact List.mem_append_left _ (h.walls m p' q' z' P l' x a1 a2 a3 a4 a5 a6)
  refine ⟨_, hrun, ⟨htl, ?_, ?_, ?_, ?_, ?_, ?_, ?_, ?_, ?_⟩, ?_, by dsimp only; rw [htc], by dsimp only; rw [t3.types]⟩
  · dsimp only
    rw [List.length_map, t2.len2, htl]
  · intro m p' q' f a1 a2 a3
    dsimp only
    rw [t4]
    obtain ⟨k, hk⟩ := h.joined m p' q' f a1 a2 a3
    unfold ifRow at hk
    split at hk
    · exact .inl ⟨k, by push_cast at hk; exact hk⟩
    · exact .inr ⟨k, by push_cast at hk; exact hk⟩
  · intro r hr
    dsimp only at hr
    obtain ⟨k', a, c, p', q', K, L, g1, g2, g3, g4, g5, g6, g7, g8, g9, g10, g11⟩ := t2.rows r hr
    rw [t4] at hr
    rw [htl] at g5 g6
    obtain ⟨m, hm⟩ := h.adj r hr
    exact ⟨a, c, p', q', g2, g3, by omega, g5, g6, g7, g8⟩
  · intro r' hr
    dsimp only at hr ⊢
    obtain ⟨k', a, c, p', q', K, L, g1, g2, g3, g4, g5, g6, g7, g8, g9, g10, g11⟩ := t2.rows r' hr
    obtain ⟨i, i1, i2⟩ := hmesh a K g9
    obtain ⟨j, j1, j2⟩ := hmesh c L g10
    exact ⟨k', a, c, i, j, _, g1, g2, g3, s3 k' _ g11, by rw [List.getElem?_map, i1]; rfl,
      by rw [List.getElem?_map, j1]; rfl, by rw [List.getElem?_map, htc, i2]; rfl,
      by rw [List.getElem?_map, htc, j2]; rfl, rfl, rfl, rfl⟩
  · intro r
    dsimp only
    constructor
    · rintro ⟨hr, h4⟩
      rcases hrow r hr with e | ⟨m, p, q, z, P, uf, df, l, b1, b2, b3, b4, b5, b6, b7, b8, b9, b10, b11⟩
      · exact e
      · exact absurd h4 (walls_four b9 b11)
    · rintro rfl
      refine ⟨?_, rfl⟩
      rw [t6]
      exact List.mem_append_left _ h.inlet
  · refine ⟨opposite uf', fun r => ?_, ?_⟩
    · dsimp only
      constructor
      · rintro ⟨hr, h4⟩
        rcases hrow r hr with e | ⟨m, p', q', z', P, uf, df, l', b1, b2, b3, b4, b5, b6, b7, b8, b9, b10, b11⟩
        · rw [e] at h4
          simp at h4
        · have hdf := (b9.out _ b11).2 h4
          dsimp only at hdf
          have hcl := ((b9.faces df).1 (List.mem_map.2 ⟨_, b11, hdf⟩)).2.2
          have hmn : m = n + 1 := by simpa using hcl
          subst hmn
          rw [route_here (by omega)] at b2
          have e2 : q' = q := Option.some.inj (b2.symm.trans hq)
          have e4 : z' = z := Option.some.inj (b3.symm.trans hend)
          subst e2 e4
          have := next_face b7 hz
          rw [← this]
          cases r
          simp_all
          omega
      · rintro rfl
        refine ⟨?_, rfl⟩
        have hin : opposite uf' ∈ l.map Prod.fst := (l2.faces _).2
          ⟨mem_refBattr (next_rel.face hz), opposite_ne (next_rel.face huf), .inl rfl⟩
        obtain ⟨x, hx, e⟩ := List.mem_map.1 hin
        have e2 := (l2.out x hx).1 e
        rw [t6]
        refine List.mem_append_right _ (List.mem_map.2 ⟨x, hx, ?_⟩)
        rw [e, e2]
        simp
        omega
    · intro q' z' b2 b3
      rw [show path.length = n + 1 + 1 by omega] at b2 b3
      rw [route_here (by omega)] at b2
      have e2 : q' = q := Option.some.inj (b2.symm.trans hq)
      have e4 : z' = z := Option.some.inj (b3.symm.trans hend)
      subst e2 e4
      exact hz
  · intro r hr
    dsimp only at hr
    rcases hrow r hr with e | ⟨m, p', q', z', P, uf, df, l', b1, b2, b3, b4, b5, b6, b7, b8, b9, b10, b11⟩
    · exact .inl (by rw [e])
    · right
      have h1 := b9.five _ b11
      have h2 := b9.out _ b11
      have h3 := b9.wall _ b11
      dsimp only at h1 h2 h3
      by_cases a : r.cattr = 5
      · exact .inr (.inl ⟨h1.1 a, a⟩)
      · by_cases b : r.cattr = df
        · exact .inl (h2.1 b)
        · exact .inr (.inr ⟨h3 a b, a⟩)
  · intro r hr r' hr' hm hg
    dsimp only at hr hr'
    rcases hrow r hr with e | ⟨m, p', q', z', P, uf, df, l', b1, b2, b3, b4, b5, b6, b7, b8, b9, b10, b11⟩
    · rcases hrow r' hr' with e' | ⟨m, p', q', z', P, uf, df, l', b1, b2, b3, b4, b5, b6, b7, b8, b9, b10, b11⟩
      · rw [e, e']
      · rw [e] at hg
        exact absurd hg.symm (walls_four b9 b11)
    · rcases hrow r' hr' with e' | ⟨m', p2, q2, z2, P2, uf2, df2, l2, c1, c2, c3, c4, c5, c6, c7, c8, c9, c10, c11⟩
      · rw [e'] at hg
        exact absurd hg (walls_four b9 b11)
      · have : m = m' := by omega
        subst this
        have e1 : p' = p2 := Option.some.inj (b1.symm.trans c1)
        have e2 : q' = q2 := Option.some.inj (b2.symm.trans c2)
        have e3 : z' = z2 := Option.some.inj (b3.symm.trans c3)
        have e4 : P = P2 := Option.some.inj (b5.symm.trans c5)
        subst e1 e2 e3 e4
        have : l' = l2 := Except.ok.inj (b8.symm.trans c8)
        subst this
        have := b9.differ _ b11 _ c11 hg
        cases r
        cases r'
        simp_all
  · intro m p' q' z' f a1 a2 a3 a4 a5
    have hml := (List.getElem?_eq_some_iff.1 a3).1
    rw [route_length] at hml
    dsimp only
    have hpl : m < (s.meshes.map Mesh.part).length := by rw [List.length_map, h.inv.len1, h.loc]; omega
    have hP := List.getElem?_eq_getElem hpl
    generalize (s.meshes.map Mesh.part)[m] = P at hP
    have hff := next_rel.face a4
    obtain ⟨l', w1, w2⟩ := globalAttr_ok P (decide (m = n + 1)) (opposite_face hff) hff (opposite_ne hff)
    rw [← (next_iff.1 (next_rel.symm a4)).2, ← (next_iff.1 a5).2] at w1
    obtain ⟨v1, v2⟩ := w2.hands rfl
    exact ⟨hback m p' q' z' P l' _ (by omega) a1 a2 a3 hP w1 v1, hback m p' q' z' P l' _ (by omega) a1 a2 a3 hP w1 v2⟩
  · refine covers_ok next_rel t2 hall (by rw [List.length_map, t2.len2, t2.len1]) ?_ ?_
    · intro c
      unfold fileFaces
      split
      · simp
      · split
        · simp
        · exact refBattr_nodup _
    · intro m c K hc' hK
      obtain ⟨i, i1, i2⟩ := hmesh m K hK
      rw [List.getElem?_map, i1] at hc'
      have : c = (i : Int) := (Option.some.inj hc').symm
      subst this
      unfold fileFaces
      dsimp only
      rw [Int.toNat_natCast, List.getElem?_map, htc, i2, Option.map_some]
      dsimp only
      rw [find_name hn (List.mem_of_getElem? i2)]

end Verif.Config
