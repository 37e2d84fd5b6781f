import Verif.Proofs.Channel
import Verif.Props.BoxConfig

/-! # C110: channels along walks -/

namespace Verif.Config

open Verif Verif.CompSetup Verif.GenConf Verif.Config.Spec
open Verif.GenConf.Spec (Covers mentioned)

variable {start : Part} {more : List Part} {s t : Conf} {path : List (Int × Int)}

theorem walk_start : Walk [(0, 0)] := by
  refine ⟨rfl, by simp, ?_, by simp⟩
  intro m p q _ hq
  simp at hq

/-- The state before the first step. -/
theorem channel_cinv (start : Part) (more : List Part) :
    CInv [(start.name, start.name, 2, 4)] (Conf.channel start more) [(0, 0)] := by
  refine ⟨⟨rfl, rfl, ?_, ?_, by simp [Conf.channel, ment, sides], ?_, ?_, ?_, ?_⟩, rfl, walk_start, ?_, ?_, ?_, ?_, ?_, ?_, ?_⟩
  · intro m c M hc hM
    cases m with
    | zero =>
      simp only [Conf.channel, List.getElem?_cons_zero, Option.some.injEq] at hc hM
      subst hc hM
      rfl
    | succ m => simp [Conf.channel] at hc
  · intro m M hM
    cases m with
    | zero =>
      simp only [Conf.channel, List.getElem?_cons_zero, Option.some.injEq] at hM
      subst hM
      show ([1, 2, 3] : List Int) = _
      rw [show ment (Conf.channel start more) = [(0, 4)] from rfl]
      decide
    | succ m => simp [Conf.channel] at hM
  · intro r hr
    simp only [Conf.channel, List.mem_singleton] at hr
    subst hr
    exact ⟨0, _, rfl, rfl, mem_refBattr (.inr (.inr (.inr rfl)))⟩
  · simp [Conf.channel]
  · intro k hk
    exact .inl hk
  · intro k hk
    exact hk
  · intro m M f hm
    simp at hm
  · intro m p q f hm hp hq
    have : m = 0 := by simpa using hm
    subst this
    have : p = (-1, 0) := by simpa [before] using hp.symm
    subst this
    have : q = (0, 0) := by simpa using hq.symm
    subst this
    rw [show ment (Conf.channel start more) = [(0, 4)] from rfl]
    unfold Next
    simp
  · intro r hr
    exact .inl (by simpa [Conf.channel] using hr)
  · simp [Conf.channel]
  · intro m p q z P l x _ _ hz
    simp at hz
  · intro r hr
    simp [Conf.channel] at hr
  · intro m p q f _ hq
    simp at hq

/-- A list of steps that can be taken one after the other. -/
theorem lay_fold {P0 : List (String × String × Int × Int)} (choices : List (Nat × (Int × Int))) (s : Conf)
    (path : List (Int × Int)) (h : CInv P0 s path) :
    (Walk (path ++ choices.map Prod.snd) ∧ (∀ c ∈ choices, c.1 < s.comps.length) →
      ∃ t, choices.foldlM (fun s c => Conf.extend s c.1 c.2) s = .ok t ∧ CInv P0 t (path ++ choices.map Prod.snd) ∧
        t.comps = s.comps ∧ t.types = s.types ++ choices.map Prod.fst) ∧
    (∀ t, choices.foldlM (fun s c => Conf.extend s c.1 c.2) s = .ok t →
      Walk (path ++ choices.map Prod.snd) ∧ (∀ c ∈ choices, c.1 < s.comps.length) ∧
      CInv P0 t (path ++ choices.map Prod.snd) ∧ t.comps = s.comps) := by
  induction choices generalizing s path with
  | nil =>
    refine ⟨fun _ => ⟨s, rfl, by simpa using h, rfl, by simp⟩, ?_⟩
    intro t ht
    cases ht
    exact ⟨by simpa using h.walk, by simp, by simpa using h, rfl⟩
  | cons c choices ih =>
    have h0 := walk_pos h.walk
    have e : ∀ new : Int × Int, path ++ (c :: choices).map Prod.snd = (path ++ [c.2]) ++ choices.map Prod.snd := by
      intro _
      simp
    rw [e c.2]
    constructor
    · rintro ⟨hw, hc⟩
      have hstep : Step path c.2 := by
        have hget : ((path ++ [c.2]) ++ choices.map Prod.snd)[path.length]? = some c.2 := by simp
        refine ⟨?_, ?_, ?_⟩
        · intro hin
          have := hw.once
          rw [List.append_assoc, List.nodup_append] at this
          exact this.2.2 c.2 hin c.2 (by simp) rfl
        · intro m q hm hq
          refine hw.steps m q c.2 ?_ (by rw [hm]; exact hget)
          rw [List.append_assoc, List.getElem?_append_left (by omega)]
          exact hq
        · intro hl hb
          rw [hl, hb] at hget
          exact hw.forward (by rw [hb]; exact hget)
      obtain ⟨u, u1, u2, u3, u4⟩ := extend_ok h (hc c (by simp)) hstep
      obtain ⟨t, t1, t2, t3, t4⟩ := (ih u _ u2).1 ⟨hw, fun d hd => by rw [u3]; exact hc d (by simp [hd])⟩
      refine ⟨t, ?_, t2, t3.trans u3, by rw [t4, u4]; simp⟩
      rw [List.foldlM_cons, u1, ok_bind]
      exact t1
    · intro t ht
      rw [List.foldlM_cons] at ht
      obtain ⟨u, u1, ht⟩ := bind_eq_ok.1 ht
      obtain ⟨hc, hs⟩ := extend_only h u1
      obtain ⟨u', v1, v2, v3, v4⟩ := extend_ok h hc hs
      have : u' = u := Except.ok.inj (v1.symm.trans u1)
      subst this
      obtain ⟨i1, i2, i3, i4⟩ := (ih u' _ v2).2 t ht
      refine ⟨i1, ?_, i3, i4.trans v3⟩
      intro d hd
      rcases List.mem_cons.1 hd with rfl | hd
      · exact hc
      · rw [← v3]
        exact i2 d hd

/-- C110: whatever walk the meshes are laid along and whatever components are chosen, the script writes a
file that describes the channel, in which every face of every mesh is mentioned exactly once. -/
theorem lay_spec {choices : List (Nat × (Int × Int))} (hn : ((start :: more).map Part.name).Nodup)
    (hw : Walk ((0, 0) :: choices.map Prod.snd)) (hl : choices ≠ [])
    (hc : ∀ c ∈ choices, c.1 < (start :: more).length) :
    ∃ F, (Conf.channel start more).lay choices = .ok F ∧ Channel ((0, 0) :: choices.map Prod.snd) F ∧
      Covers (fileFaces (start :: more) F) F.tables ∧ F.comps = (start :: more).map Part.name ∧
      F.tables.types = 0 :: choices.map (fun c => (c.1 : Int)) := by
  obtain ⟨t, t1, t2, t3, t4⟩ := (lay_fold choices _ _ (channel_cinv start more)).1 ⟨hw, hc⟩
  have htc : t.comps = start :: more := t3
  obtain ⟨F, f1, f2, f3, f4, f5⟩ := finish_ok t2 htc (by rw [htc]; exact hn) (by
    have := List.length_pos_iff.2 hl
    simp
    omega)
  rw [htc] at f3 f4
  refine ⟨F, ?_, f2, f3, f4, ?_⟩
  · unfold Conf.lay
    rw [t1, ok_bind]
    exact f1
  · rw [f5, t4]
    simp [Conf.channel]

/-- C110: nothing else is written: a file is only written along a walk, with existing components. -/
theorem lay_only {choices : List (Nat × (Int × Int))} {F : File}
    (hF : (Conf.channel start more).lay choices = .ok F) :
    Walk ((0, 0) :: choices.map Prod.snd) ∧ choices ≠ [] ∧ ∀ c ∈ choices, c.1 < (start :: more).length := by
  unfold Conf.lay at hF
  obtain ⟨t, t1, t2⟩ := bind_eq_ok.1 hF
  obtain ⟨h1, h2, h3, h4⟩ := (lay_fold choices _ _ (channel_cinv start more)).2 t t1
  refine ⟨h1, ?_, h2⟩
  rintro rfl
  unfold Conf.finish Conf.closeChannel at t2
  obtain ⟨u, u1, _⟩ := bind_eq_ok.1 t2
  obtain ⟨_, u1, _⟩ := bind_eq_ok.1 u1
  rw [h3.loc] at u1
  simp [require] at u1

/-- Whether a list is a walk can be computed. -/
theorem walk_of {path : List (Int × Int)} (h : decide (path[0]? = some (0, 0) ∧ path.Nodup ∧
    (∀ m < path.length - 1, (diff (path.getD (m + 1) (0, 0)) (path.getD m (0, 0))) ∈
      ([(0, -1), (1, 0), (0, 1), (-1, 0)] : List (Int × Int))) ∧ path[1]? ≠ some (-1, 0)) = true) : Walk path := by
  obtain ⟨h1, h2, h3, h4⟩ := of_decide_eq_true h
  refine ⟨h1, h2, ?_, h4⟩
  intro m p q hp hq
  have := h3 m (by have := (List.getElem?_eq_some_iff.1 hq).1; omega)
  rw [List.getD_eq_getElem?_getD, List.getD_eq_getElem?_getD, hp, hq] at this
  dsimp only [Option.getD_some] at this
  simp only [List.mem_cons, List.not_mem_nil, or_false] at this
  rcases this with h | h | h | h
  · exact ⟨1, next_iff.2 ⟨by omega, h⟩⟩
  · exact ⟨2, next_iff.2 ⟨by omega, h⟩⟩
  · exact ⟨3, next_iff.2 ⟨by omega, h⟩⟩
  · exact ⟨4, next_iff.2 ⟨by omega, h⟩⟩

/-- Two steps to the right with a turn downwards between them, with two components. -/
example : Walk ((0, 0) :: [((1 : Nat), ((1 : Int), (0 : Int))), (0, (1, -1)), (0, (2, -1))].map Prod.snd) ∧
    ∃ F, (Conf.channel ⟨"hub", true⟩ [⟨"empty", false⟩]).lay [(1, (1, 0)), (0, (1, -1)), (0, (2, -1))] = .ok F ∧
      decide (F.tables.bdr = [⟨4, 0, 4⟩, ⟨1, 0, 1⟩, ⟨3, 0, 3⟩, ⟨5, 0, 5⟩, ⟨3, 1, 2⟩, ⟨1, 1, 3⟩, ⟨1, 2, 1⟩, ⟨3, 2, 4⟩,
        ⟨5, 2, 5⟩, ⟨1, 3, 1⟩, ⟨2, 3, 2⟩, ⟨3, 3, 3⟩, ⟨5, 3, 5⟩]) = true :=
  ⟨walk_of (by decide +kernel), exists_ok (by decide +kernel)⟩

/-! ## Reading the file -/

/-- C110: the program accepts the file of a channel. -/
theorem channel_accepted {choices : List (Nat × (Int × Int))} {F : File} {refs : List (RefPort Int)}
    {cs : List Comp} {refPorts : List Ports.PortData} {refItfs : List (List Ports.InterfaceInfo)}
    (hn : ((start :: more).map Part.name).Nodup) (hF : (Conf.channel start more).lay choices = .ok F)
    (hr : Resolves F refs) (hR : GenConf.Spec.Reader (fileFaces (start :: more) F) refs F.tables cs refPorts refItfs) :
    ∃ t, setup cs F.tables.types F.tables.bdr F.tables.ports refPorts refItfs = .ok t := by
  obtain ⟨hw, hl, hc⟩ := lay_only hF
  obtain ⟨F', h1, h2, h3, h4, h5⟩ := lay_spec hn hw hl hc
  have : F' = F := Except.ok.inj (h1.symm.trans hF)
  subst this
  have hnd : F'.comps.Nodup := by rw [h4]; exact hn
  have href : ∀ r ∈ F'.tables.ports, ∃ (k m1 m2 : Nat) (f : RefPort Int), r.type = k ∧ r.mesh1 = m1 ∧
      r.mesh2 = m2 ∧ m1 ≠ m2 ∧ refs[k]? = some f ∧ F'.tables.types[m1]? = some (f.comp1 : Int) ∧
      F'.tables.types[m2]? = some (f.comp2 : Int) ∧ r.attr1 = f.attr1 ∧ r.attr2 = f.attr2 := by
    intro r hrm
    obtain ⟨k, m, n, c, d, g, g1, g2, g3, g4, g5, g6, g7, g8, g9, g10, _⟩ := h2.refs r hrm
    obtain ⟨m', n', _, _, j1, j2, j3, _⟩ := h2.only r hrm
    have hk : k < refs.length := by rw [hr.1]; exact (List.getElem?_eq_some_iff.1 g4).1
    obtain ⟨f1, f2, f3, f4, _⟩ := hr.2 k g _ g4 (List.getElem?_eq_getElem hk)
    have e1 : c = refs[k].comp1 := (List.getElem?_inj (List.getElem?_eq_some_iff.1 g7).1 hnd).1 (g7.trans f1.symm)
    have e2 : d = refs[k].comp2 := (List.getElem?_inj (List.getElem?_eq_some_iff.1 g8).1 hnd).1 (g8.trans f2.symm)
    exact ⟨k, m, n, refs[k], g1, g2, g3, by omega, List.getElem?_eq_getElem hk, by rw [← e1]; exact g5,
      by rw [← e2]; exact g6, by rw [f3]; exact g9, by rw [f4]; exact g10⟩
  have hin := ((h2.inlet ⟨4, 0, 4⟩).2 rfl).1
  refine accepted hR h3 ?_ ?_ (List.ne_nil_of_mem hin) ?_ href
  · intro he
    by_contra hne
    obtain ⟨r, hrm⟩ := List.exists_mem_of_ne_nil _ hne
    obtain ⟨k, _, _, f, _, _, _, _, hk, _⟩ := href r hrm
    rw [he] at hk
    simp at hk
  · rw [h5]
    simp
  · intro r hrm
    have := h2.walls r hrm
    omega

/-- The hypotheses of `channel_accepted`. -/
example : ∃ F, (Conf.channel ⟨"hub", true⟩ [⟨"empty", false⟩]).lay [(1, (1, 0)), (1, (1, 1))] = .ok F ∧
    decide (F.tables.types = [0, 1, 1] ∧ F.comps = ["hub", "empty"] ∧
      F.refs = [⟨"hub", "hub", 2, 4, (1, 0)⟩, ⟨"hub", "empty", 2, 4, (1, 0)⟩, ⟨"empty", "empty", 1, 3, (0, -1)⟩] ∧
      F.tables.ports = [⟨0, 1, 2, 4, 1⟩, ⟨2, 1, 1, 3, 2⟩]) = true :=
  exists_ok (by decide +kernel)

/-! ## All walks -/

theorem nextCells_ok {P0 : List (String × String × Int × Int)} (h : CInv P0 s path) :
    ∃ cells, s.nextCells = .ok cells ∧ cells.Nodup ∧ ∀ new, new ∈ cells ↔ Step path new := by
  have h0 := walk_pos h.walk
  obtain ⟨n, hn⟩ : ∃ n, n + 1 = path.length := ⟨path.length - 1, by omega⟩
  have hq := List.getElem?_eq_getElem (show n < path.length by omega)
  generalize path[n] = q at hq
  obtain ⟨p, hp⟩ := before_of (show n < path.length by omega)
  have hml : n < s.meshes.length := by rw [h.inv.len1, h.loc]; omega
  have hM := List.getElem?_eq_getElem hml
  generalize s.meshes[n] = M at hM
  have hfree : ∀ f, f ∈ M.free ↔ Outer f ∧ ¬Next f q p := by
    intro f
    rw [h.inv.free n M hM, List.mem_filter, ← h.last n p q f hn hp hq]
    simp
  have hnd : M.free.Nodup := by
    rw [h.inv.free n M hM]
    exact List.Nodup.filter _ (by decide)
  have hmap : (M.free.mapM fun f => do
      let d ← faceInv f
      return (q.1 + d.1, q.2 + d.2)) = (.ok (M.free.map fun f => (q.1 + (step f).1, q.2 + (step f).2)) : Outcome _) := by
    have key : ∀ l : List Int, (∀ f ∈ l, Outer f) → (l.mapM fun f => do
        let d ← faceInv f
        return (q.1 + d.1, q.2 + d.2)) = (.ok (l.map fun f => (q.1 + (step f).1, q.2 + (step f).2)) : Outcome _) := by
      intro l hl
      induction l with
      | nil => rfl
      | cons f l ih =>
        rw [List.mapM_cons, faceInv_step (hl f (by simp)), ok_bind, ih (fun g hg => hl g (by simp [hg]))]
        rfl
    exact key _ (fun f hf => ((hfree f).1 hf).1)
  have hnext : ∀ f, Outer f → Next f q (q.1 + (step f).1, q.2 + (step f).2) := by
    intro f hf
    rw [next_iff]
    refine ⟨hf, ?_⟩
    unfold diff
    dsimp only
    ext <;> (dsimp only; omega)
  refine ⟨(M.free.map fun f => (q.1 + (step f).1, q.2 + (step f).2)).filter fun p => decide (p ∉ path), ?_, ?_, ?_⟩
  · unfold Conf.nextCells
    have hm : s.meshes.length - 1 = n := by rw [h.inv.len1, h.loc]; omega
    dsimp only
    rw [hm, rd_eq_ok.2 hM, ok_bind, h.loc, rd_eq_ok.2 hq, ok_bind, hmap, ok_bind]
    rfl
  · refine List.Nodup.filter _ (List.Nodup.map_on ?_ hnd)
    intro f hf g hg e
    have h1 := hnext f ((hfree f).1 hf).1
    rw [e] at h1
    exact next_face h1 (hnext g ((hfree g).1 hg).1)
  · intro new
    rw [List.mem_filter, List.mem_map, decide_eq_true_iff]
    constructor
    · rintro ⟨⟨f, hf, rfl⟩, hx⟩
      obtain ⟨f1, f2⟩ := (hfree f).1 hf
      refine ⟨hx, ?_, ?_⟩
      · intro m q' hm hq'
        have : m = n := by omega
        subst this
        have : q' = q := Option.some.inj (hq'.symm.trans hq)
        subst this
        exact ⟨f, hnext f f1⟩
      · intro hl hb
        have : n = 0 := by omega
        subst this
        have : p = (-1, 0) := by simpa [before] using hp.symm
        rw [← this] at hb
        exact f2 (by rw [← hb]; exact hnext f f1)
    · rintro ⟨h1, h2, h3⟩
      obtain ⟨f, hf⟩ := h2 n q hn hq
      have hff := next_rel.face hf
      refine ⟨⟨f, (hfree f).2 ⟨hff, ?_⟩, next_inj (hnext f hff) hf⟩, h1⟩
      intro hx
      have := next_inj hf hx
      subst this
      cases n with
      | zero => exact h3 hn.symm (by simpa [before] using hp.symm)
      | succ n => exact h1 (List.mem_of_getElem? (show path[n]? = some new by simpa [before] using hp))

theorem generate_walks_aux (n : Nat) (s : Conf) (path : List (Int × Int)) (offset : Nat)
    (h : CInv [(start.name, start.name, 2, 4)] s path) (hc : s.comps = start :: more)
    (hn : ((start :: more).map Part.name).Nodup) (hl : 2 ≤ path.length + n) :
    ∃ files : List (Nat × File), s.generate n offset = .ok files ∧
      (∀ (k : Nat) (x : Nat × File), files[k]? = some x → x.1 = offset + k) ∧
      (files.map fun x => x.2.tables.pos).Nodup ∧
      (∀ w, w ∈ files.map (fun x => x.2.tables.pos) ↔ Walk w ∧ path <+: w ∧ w.length = path.length + n) ∧
      ∀ x ∈ files, ∃ l : List (Int × Int), x.2.tables.pos = path ++ l ∧ s.lay (l.map fun p => (0, p)) = .ok x.2 := by
  induction n generalizing s path offset with
  | zero =>
    obtain ⟨F, f1, f2, _⟩ := finish_ok h hc (by rw [hc]; exact hn) (by omega)
    refine ⟨[(offset, F)], ?_, ?_, by simp, ?_, ?_⟩
    · unfold Conf.generate
      rw [f1]
      rfl
    · intro k x hx
      cases k with
      | zero => cases hx; rfl
      | succ k => simp at hx
    · intro w
      simp only [List.map_cons, List.map_nil, List.mem_singleton, f2.pos]
      constructor
      · rintro rfl
        exact ⟨h.walk, List.prefix_refl _, by simp⟩
      · rintro ⟨_, h2, h3⟩
        exact (h2.eq_of_length (by omega)).symm
    · intro x hx
      rw [List.mem_singleton] at hx
      subst hx
      exact ⟨[], by simp [f2.pos], f1⟩
  | succ n ih =>
    obtain ⟨cells, c1, c2, c3⟩ := nextCells_ok h
    have key : ∀ L : List (Int × Int), L.Nodup → (∀ new ∈ L, Step path new) → ∃ files : List (Nat × File),
        L.foldlM (fun fs new => do
          let t ← s.extend 0 new
          let gs ← Conf.generate n t (offset + fs.length)
          return fs ++ gs) [] = .ok files ∧
        (∀ (k : Nat) (x : Nat × File), files[k]? = some x → x.1 = offset + k) ∧
        (files.map fun x => x.2.tables.pos).Nodup ∧
        (∀ w, w ∈ files.map (fun x => x.2.tables.pos) ↔ Walk w ∧ (∃ new ∈ L, path ++ [new] <+: w) ∧
          w.length = path.length + (n + 1)) ∧
        ∀ x ∈ files, ∃ l : List (Int × Int), x.2.tables.pos = path ++ l ∧ s.lay (l.map fun p => (0, p)) = .ok x.2 := by
      intro L
      induction L using List.reverseRecOn with
      | nil => intro _ _; exact ⟨[], rfl, by simp, by simp, by simp, by simp⟩
      | append_singleton L new ihL =>
        intro hnd hst
        rw [List.nodup_append] at hnd
        obtain ⟨fs, f1, f2, f3, f4, f5⟩ := ihL hnd.1 (fun x hx => hst x (by simp [hx]))
        have hs := hst new (by simp)
        obtain ⟨t, t1, t2, t3, _⟩ := extend_ok h (c := 0) (by rw [hc]; simp) hs
        obtain ⟨gs, g1, g2, g3, g4, g5⟩ := ih t (path ++ [new]) (offset + fs.length) t2 (t3.trans hc) (by simp; omega)
        refine ⟨fs ++ gs, ?_, ?_, ?_, ?_, ?_⟩
        · rw [foldlM_append', f1, ok_bind, List.foldlM_cons, t1, ok_bind, g1]
          rfl
        · intro k x hx
          rw [List.getElem?_append] at hx
          split at hx
          · exact f2 k x hx
          · have := g2 _ x hx
            omega
        · rw [List.map_append, List.nodup_append]
          refine ⟨f3, g3, ?_⟩
          rintro a ha b hb rfl
          obtain ⟨_, ⟨x, hx, h1⟩, _⟩ := (f4 a).1 ha
          obtain ⟨_, h2, _⟩ := (g4 a).1 hb
          have : path ++ [x] = path ++ [new] :=
            (List.prefix_of_prefix_length_le h1 h2 (by simp)).eq_of_length (by simp)
          have : x = new := by simpa using this
          exact hnd.2.2 x hx new (by simp) this
        · intro w
          rw [List.map_append, List.mem_append, f4, g4]
          simp only [List.mem_append, List.mem_singleton, List.length_append, List.length_singleton]
          constructor
          · rintro (⟨a, ⟨x, hx, b⟩, c⟩ | ⟨a, b, c⟩)
            · exact ⟨a, ⟨x, .inl hx, b⟩, c⟩
            · exact ⟨a, ⟨new, .inr rfl, b⟩, by omega⟩
          · rintro ⟨a, ⟨x, hx | rfl, b⟩, c⟩
            · exact .inl ⟨a, ⟨x, hx, b⟩, c⟩
            · exact .inr ⟨a, b, by omega⟩
        · intro x hx
          rcases List.mem_append.1 hx with hx | hx
          · exact f5 x hx
          · obtain ⟨l, l1, l2⟩ := g5 x hx
            refine ⟨new :: l, by rw [l1]; simp, ?_⟩
            unfold Conf.lay at l2 ⊢
            rw [List.map_cons, List.foldlM_cons, t1, ok_bind]
            exact l2
    obtain ⟨files, f1, f2, f3, f4, f5⟩ := key cells c2 (fun x hx => (c3 x).1 hx)
    refine ⟨files, ?_, f2, f3, fun w => ?_, f5⟩
    · unfold Conf.generate
      rw [c1, ok_bind]
      exact f1
    · rw [f4]
      constructor
      · rintro ⟨a, ⟨x, _, b⟩, c⟩
        exact ⟨a, (List.prefix_append _ _).trans b, c⟩
      · rintro ⟨a, ⟨l, rfl⟩, c⟩
        obtain ⟨x, l', rfl⟩ : ∃ x l', l = x :: l' := by
          cases l with
          | nil => simp at c
          | cons x l' => exact ⟨x, l', rfl⟩
        refine ⟨a, ⟨x, (c3 x).2 ?_, ⟨l', by simp⟩⟩, c⟩
        have hget : (path ++ x :: l')[path.length]? = some x := by simp
        refine ⟨?_, ?_, ?_⟩
        · intro hin
          have := a.once
          rw [List.nodup_append] at this
          exact this.2.2 x hin x (by simp) rfl
        · intro m q hm hq
          refine a.steps m q x ?_ (by rw [hm]; exact hget)
          rw [List.getElem?_append_left (by omega)]
          exact hq
        · intro hl hb
          rw [hl] at hget
          exact a.forward (hget.trans (congrArg some hb))

/-- C110: generating all channels with `n` steps writes one file for every walk with `n` steps, numbered
from the offset, each as if the meshes had been laid along that walk by themselves. -/
theorem generate_walks (n offset : Nat) (hn : ((start :: more).map Part.name).Nodup) (h1 : 1 ≤ n) :
    ∃ files : List (Nat × File), (Conf.channel start more).generate n offset = .ok files ∧
      (∀ (k : Nat) (x : Nat × File), files[k]? = some x → x.1 = offset + k) ∧
      (files.map fun x => x.2.tables.pos).Nodup ∧
      (∀ w, w ∈ files.map (fun x => x.2.tables.pos) ↔ Walk w ∧ w.length = n + 1) ∧
      ∀ x ∈ files, ∃ l : List (Int × Int), x.2.tables.pos = (0, 0) :: l ∧
        (Conf.channel start more).lay (l.map fun p => (0, p)) = .ok x.2 := by
  obtain ⟨files, f1, f2, f3, f4, f5⟩ := generate_walks_aux (start := start) (more := more) n _ _ offset
    (channel_cinv start more) rfl hn (by simp; omega)
  refine ⟨files, f1, f2, f3, fun w => ?_, f5⟩
  rw [f4]
  constructor
  · rintro ⟨a, _, c⟩
    exact ⟨a, by rw [c]; simp; omega⟩
  · rintro ⟨a, c⟩
    refine ⟨a, ?_, by rw [c]; simp; omega⟩
    cases w with
    | nil => simp at c
    | cons x l =>
      have : x = (0, 0) := by simpa using a.start
      subst this
      exact ⟨l, rfl⟩

/-- A channel of one mesh cannot be closed. -/
theorem generate_none (offset : Nat) : (Conf.channel start more).generate 0 offset = .error .abort := rfl

/-- The number of files of the script's own call. -/
example : ∃ files, (Conf.channel ⟨"pipe-hub", true⟩ []).generate 3 0 = .ok files ∧
    decide (files.length = 27 ∧ files.map Prod.fst = List.range 27) = true :=
  exists_ok (by decide +kernel)

/-! ## Random walks -/

theorem trapped_iff {P0 : List (String × String × Int × Int)} (h : CInv P0 s path) :
    Trapped path ↔ ∀ new, ¬Step path new := by
  have h0 := walk_pos h.walk
  have hlast := List.getElem?_eq_getElem (show path.length - 1 < path.length by omega)
  constructor
  · rintro ⟨l, hl, ht⟩ new ⟨h1, h2, h3⟩
    obtain ⟨f, hf⟩ := h2 (path.length - 1) l (by omega) hl
    rcases ht f new hf with hx | ⟨hx, e⟩
    · exact h1 hx
    · exact h3 hx e
  · intro hs
    refine ⟨_, hlast, fun f q hf => ?_⟩
    by_contra hx
    push Not at hx
    refine hs q ⟨hx.1, ?_, fun hl => hx.2 hl⟩
    intro m q' hm hq'
    have : m = path.length - 1 := by omega
    subst this
    rw [Option.some.inj (hq'.symm.trans hlast)]
    exact ⟨f, hf⟩

/-- C110: a random channel with `n` steps is the channel of some walk with `n` steps, whatever the random
numbers, unless the walk gets trapped on the way; then the script stops. -/
theorem random_spec {n : Nat} (rand : Nat → Nat → Nat) (hr : ∀ k m, 0 < m → rand k m < m)
    (hn : ((start :: more).map Part.name).Nodup) (h1 : 1 ≤ n) :
    (∃ w F, Walk w ∧ w.length = n + 1 ∧ (Conf.channel start more).random rand n = .ok F ∧ Channel w F ∧
      Covers (fileFaces (start :: more) F) F.tables) ∨
    (∃ w, Walk w ∧ w.length ≤ n ∧ Trapped w ∧ (Conf.channel start more).random rand n = .error .abort) := by
  have key : ∀ m, m ≤ n → (∃ w t, Walk w ∧ w.length = m + 1 ∧
      (List.range m).foldlM (fun (s : Conf) (k : Nat) => do
        let cells ← s.nextCells
        require (decide (cells ≠ []))
        let new ← rd cells (rand k cells.length)
        s.extend 0 new) (Conf.channel start more) = .ok t ∧ CInv [(start.name, start.name, 2, 4)] t w ∧
        t.comps = start :: more) ∨
      (∃ w, Walk w ∧ w.length ≤ m ∧ Trapped w ∧ (List.range m).foldlM (fun (s : Conf) (k : Nat) => do
        let cells ← s.nextCells
        require (decide (cells ≠ []))
        let new ← rd cells (rand k cells.length)
        s.extend 0 new) (Conf.channel start more) = .error .abort) := by
    intro m
    induction m with
    | zero => intro _; exact .inl ⟨_, _, walk_start, rfl, rfl, channel_cinv start more, rfl⟩
    | succ m ih =>
      intro hm
      rcases ih (by omega) with ⟨w, t, w1, w2, w3, w4, w5⟩ | ⟨w, w1, w2, w3, w4⟩
      · obtain ⟨cells, c1, c2, c3⟩ := nextCells_ok w4
        by_cases hcells : cells = []
        · right
          refine ⟨w, w1, by omega, (trapped_iff w4).2 ?_, ?_⟩
          · intro new hs
            have := (c3 new).2 hs
            rw [hcells] at this
            simp at this
          · rw [List.range_succ, foldlM_append', w3, ok_bind, List.foldlM_cons, c1, ok_bind, hcells]
            rfl
        · left
          have hlt := hr m cells.length (List.length_pos_iff.2 hcells)
          have hs := (c3 cells[rand m cells.length]).1 (List.getElem_mem hlt)
          obtain ⟨u, u1, u2, u3, _⟩ := extend_ok w4 (c := 0) (by rw [w5]; simp) hs
          refine ⟨_, u, u2.walk, by simp [w2], ?_, u2, u3.trans w5⟩
          rw [List.range_succ, foldlM_append', w3, ok_bind, List.foldlM_cons, c1, ok_bind, decide_eq_true hcells,
            require_true, ok_bind, rd_of_lt hlt, ok_bind, u1, ok_bind]
          rfl
      · right
        refine ⟨w, w1, by omega, w3, ?_⟩
        rw [List.range_succ, foldlM_append', w4]
        rfl
  unfold Conf.random
  rcases key n (le_refl _) with ⟨w, t, w1, w2, w3, w4, w5⟩ | ⟨w, w1, w2, w3, w4⟩
  · left
    obtain ⟨F, f1, f2, f3, _⟩ := finish_ok w4 w5 (by rw [w5]; exact hn) (by omega)
    rw [w5] at f3
    exact ⟨w, F, w1, w2, by rw [w3, ok_bind]; exact f1, f2, f3⟩
  · right
    exact ⟨w, w1, w2, w3, by rw [w4]; rfl⟩

/-- C110: the script's own call for a channel with eight steps can get trapped: the eighth mesh may be
surrounded by the seven before it. -/
theorem random_trapped : ∃ rand : Nat → Nat → Nat, (∀ k m, 0 < m → rand k m < m) ∧
    (Conf.channel ⟨"pipe-hub", true⟩ []).random rand 8 = .error .abort := by
  refine ⟨fun k m => ([1, 2, 1, 2, 2, 0, 1].getD k 0) % m, fun k m hm => Nat.mod_lt _ hm, ?_⟩
  decide +kernel

/-! ## The cells beyond the ends -/

/-- C110: the script does not keep the cell before the inlet free: with three steps the last mesh can lie
there. -/
theorem inlet_covered (hn : ((start :: more).map Part.name).Nodup) : ∃ files x,
    (Conf.channel start more).generate 3 0 = .ok files ∧ x ∈ files ∧
      x.2.tables.pos = [(0, 0), (0, 1), (-1, 1), (-1, 0)] ∧ (⟨4, 0, 4⟩ : BdrRow) ∈ x.2.tables.bdr := by
  obtain ⟨files, f1, _, _, f4, f5⟩ := generate_walks 3 0 hn (by omega)
  have : [((0 : Int), (0 : Int)), (0, 1), (-1, 1), (-1, 0)] ∈ files.map (fun x => x.2.tables.pos) :=
    (f4 _).2 ⟨walk_of (by decide +kernel), rfl⟩
  obtain ⟨x, hx, e⟩ := List.mem_map.1 this
  obtain ⟨l, l1, l2⟩ := f5 x hx
  obtain ⟨w1, w2, w3⟩ := lay_only l2
  obtain ⟨F, g1, g2, _⟩ := lay_spec hn w1 w2 w3
  have : F = x.2 := Except.ok.inj (g1.symm.trans l2)
  subst this
  exact ⟨files, x, f1, hx, e, ((g2.inlet ⟨4, 0, 4⟩).2 rfl).1⟩

/-- C110: nor the cell beyond the outlet: with six steps it can be that of another mesh. -/
theorem outlet_covered (hn : ((start :: more).map Part.name).Nodup) : ∃ files x q,
    (Conf.channel start more).generate 6 0 = .ok files ∧ x ∈ files ∧
      (route x.2.tables.pos)[8]? = some q ∧ q ∈ x.2.tables.pos := by
  obtain ⟨files, f1, _, _, f4, f5⟩ := generate_walks 6 0 hn (by omega)
  have : [((0 : Int), (0 : Int)), (1, 0), (2, 0), (2, 1), (2, 2), (1, 2), (1, 1)] ∈ files.map (fun x => x.2.tables.pos) :=
    (f4 _).2 ⟨walk_of (by decide +kernel), rfl⟩
  obtain ⟨x, hx, e⟩ := List.mem_map.1 this
  exact ⟨files, x, (1, 0), f1, hx, by rw [e]; decide +kernel, by rw [e]; decide +kernel⟩

end Verif.Config
