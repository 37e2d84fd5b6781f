import Verif.Proofs.CompLoad

/-! # Properties of the meshes of a component-wise topology -/

namespace Verif.CompLoad

open Verif Verif.Topology Verif.Options Verif.CompLoad.Spec
open Verif.PortFile (Names)
open Verif.Hdf5 (File Arr2 Dbl)

variable {α : Type}

theorem collName_iff {comps : List (Option (Mesh α))} {k : Nat} {s : String} :
    collName comps k = .ok s ↔ ∃ m, comps[k]? = some (some m) ∧ m.coll = some s := by
  unfold collName
  constructor
  · intro h
    obtain ⟨p, e1, h⟩ := bind_eq_ok.1 h
    obtain ⟨m, e2, e3⟩ := bind_eq_ok.1 h
    rw [rd_eq_ok] at e1
    cases p with
    | none => cases e2
    | some m' =>
      cases e2
      refine ⟨m, e1, ?_⟩
      cases hm : m.coll with
      | none => rw [hm] at e3; cases e3
      | some s' => rw [hm] at e3; cases e3; rfl
  · rintro ⟨m, h1, h2⟩
    rw [rd_eq_ok.2 h1, ok_bind]
    simp only [ptr, ok_bind, h2]

/-- The components: distinct names, one mesh for every name, the same nodal collection. -/
theorem setupComponents_spec {c : Conv} {x : Meshes α} {l : Layout} {cfg : Node}
    {out : List (Mesh α)} (hl : Last l.names l.idx) (h : setupComponents c x l cfg = .ok out) :
    ∃ n k, Options.Spec.At cfg (pieces '/' (key "mesh/component-wise/components")) n ∧
      option c.int (key "mesh/uniform_refinement") 0 cfg = .ok k ∧ 0 < l.names.length ∧
      l.names.Nodup ∧ out.length = l.names.length ∧
      (∀ (i : Nat) nm, l.names[i]? = some nm → ∃ m, out[i]? = some m ∧
        Component c x (elems n) k.toNat nm m) ∧
      (∀ (i : Nat) o, (elems n)[i]? = some o → ∃ e nm, o = some e ∧ Says c e "name" nm ∧
        (nm ∈ l.names → ∃ file m, Says c e "file" file ∧ x.load file = .ok m)) ∧
      ∃ s, ∀ nm ∈ l.names, ∃ file m, FileOf c (elems n) nm file ∧ x.load file = .ok m ∧
        m.coll = some s := by
  unfold setupComponents at h
  obtain ⟨_, e0, h⟩ := bind_eq_ok.1 h
  obtain ⟨o, e1, h⟩ := bind_eq_ok.1 h
  cases o with
  | none => cases h
  | some n =>
    obtain ⟨comps, e2, h⟩ := bind_eq_ok.1 h
    obtain ⟨s, e3, h⟩ := bind_eq_ok.1 h
    obtain ⟨_, e4, h⟩ := bind_eq_ok.1 h
    obtain ⟨comps', e5, h⟩ := bind_eq_ok.1 h
    obtain ⟨k, e6, h⟩ := bind_eq_ok.1 h
    cases h
    have hpos : 0 < l.names.length := by simpa using require_eq_ok.1 e0
    obtain ⟨hf, he⟩ := entries_spec hl e2
    have hcoll : ∀ i, i < l.names.length → ∃ m, comps[i]? = some (some m) ∧ m.coll = some s := by
      intro i hi
      obtain ⟨u, v, hb⟩ := Eqp.loop_each e4 hi
      obtain ⟨s', f1, f2⟩ := bind_eq_ok.1 hb
      have : s = s' := by simpa using require_eq_ok.1 f2
      subst this
      exact collName_iff.1 f1
    have hcomps : ∀ i, i < l.names.length → ∃ nm m, l.names[i]? = some nm ∧
        (∀ q, i < q → l.names[q]? ≠ some nm) ∧ comps[i]? = some (some m) ∧ m.coll = some s ∧
        ∃ file, FileOf c (elems n) nm file ∧ x.load file = .ok m := by
      intro i hi
      obtain ⟨m, a, b⟩ := hcoll i hi
      obtain ⟨nm, file, d1, d2, d3⟩ := hf.set i m a
      obtain ⟨d4, d5⟩ := (hl nm i).1 d1
      exact ⟨nm, m, d4, d5, a, b, file, d2, d3⟩
    have hlen : comps'.length = comps.length ∧ ∀ i, i < comps.length → ∀ m,
        comps[i]? = some (some m) → comps'[i]? = some m := by
      obtain ⟨a, b⟩ := (loop_append_iff (g := fun k => (do
          let p ← rd comps k
          setupComponents.nonNull p : Outcome (Mesh α))) (fun k _ acc => by
            rw [bind_assoc]; rfl)).1 e5
      refine ⟨a, fun i hi m hm => ?_⟩
      obtain ⟨m', f1, f2⟩ := b i hi
      rw [rd_eq_ok.2 hm] at f1
      cases f1
      exact f2
    refine ⟨n, k, ?_, e6, hpos, ?_, by simp [hlen.1, hf.len], fun i nm hi => ?_, he, s,
      fun nm hnm => ?_⟩
    · exact (find_some_iff _ _ _).1 e1
    · rw [List.nodup_iff_getElem?_ne_getElem?]
      intro i j hij hj
      obtain ⟨nm, m, a, b, -⟩ := hcomps i (by omega)
      rw [a]
      exact fun hc => b j hij hc.symm
    · have hi' : i < l.names.length := by
        by_contra hc
        rw [List.getElem?_eq_none (by omega)] at hi
        cases hi
      obtain ⟨nm', m, a, -, b, -, file, d1, d2⟩ := hcomps i hi'
      rw [hi] at a
      cases a
      refine ⟨refineN x k m, ?_, file, m, d1, d2, rfl⟩
      rw [List.getElem?_map, hlen.2 i (by rw [hf.len]; exact hi') m b]
      rfl
    · obtain ⟨i, hi, rfl⟩ := List.getElem_of_mem hnm
      obtain ⟨nm', m, a, -, b, d, file, d1, d2⟩ := hcomps i hi
      rw [List.getElem?_eq_getElem hi] at a
      cases a
      exact ⟨file, m, d1, d2, d⟩

theorem setupComponents_total {c : Conv} {x : Meshes α} {l : Layout} {cfg n : Node} {k : Int}
    {types : List Int} {conf : Arr2 (Dbl ℝ)} (hl : Last l.names l.idx)
    (h1 : Options.Spec.At cfg (pieces '/' (key "mesh/component-wise/components")) n)
    (h2 : option c.int (key "mesh/uniform_refinement") 0 cfg = .ok k)
    (h : Accepted c x l.names types conf (elems n) k) (hpos : 0 < l.names.length) :
    ∃ out, setupComponents c x l cfg = .ok out := by
  obtain ⟨comps, e2⟩ := entries_total (x := x) hl h.entries
  obtain ⟨hf, -⟩ := entries_spec hl e2
  obtain ⟨s, hs⟩ := h.collection
  have hcomps : ∀ i, i < l.names.length → ∃ m, comps[i]? = some (some m) ∧ m.coll = some s := by
    intro i hi
    have hnm : l.names[i]? = some l.names[i] := List.getElem?_eq_getElem hi
    have hlook : l.idx.look l.names[i] = some i := (hl _ _).2 ⟨hnm, fun q hq hc => by
      have := (List.nodup_iff_getElem?_ne_getElem?.1 h.distinct) i q hq (by
        by_contra hh
        rw [List.getElem?_eq_none (by omega)] at hc
        cases hc)
      exact this (hnm.trans hc.symm)⟩
    obtain ⟨file, k', e', f1, f2, f3, f4⟩ := h.listed _ (List.getElem_mem hi)
    cases hc : comps[i]? with
    | none =>
      exfalso
      have := List.getElem?_eq_none_iff.1 hc
      rw [hf.len] at this
      omega
    | some o =>
      cases o with
      | none => exact absurd f2 (hf.unset i hc _ hlook k' e' f1)
      | some m =>
        obtain ⟨nm, file', a, b, d⟩ := hf.set i m hc
        have : nm = l.names[i] := by
          have := ((hl nm i).1 a).1
          rw [hnm] at this
          exact (Option.some.inj this).symm
        subst this
        exact ⟨m, rfl, hs _ (List.getElem_mem hi) file' m b d⟩
  have e4 : loop l.names.length (fun k (_ : Unit) => (do
      let n ← collName comps k
      require (decide (s = n)) : Outcome Unit)) () = .ok () :=
    loop_spec (fun _ => ()) rfl (fun i hi => by
      rw [collName_iff.2 (hcomps i hi), ok_bind]
      simp [require])
  obtain ⟨comps', e5⟩ : ∃ t, loop comps.length (fun k acc => (do
      let p ← rd comps k
      let m ← setupComponents.nonNull p
      return acc ++ [m] : Outcome (List (Mesh α)))) [] = .ok t := by
    obtain ⟨t, ht, -⟩ := loop_total (n := comps.length) (body := fun k acc => (do
      let p ← rd comps k
      let m ← setupComponents.nonNull p
      return acc ++ [m] : Outcome (List (Mesh α)))) (fun _ _ => True) (s := []) trivial
      (fun i u hi _ => by
        obtain ⟨m, a, -⟩ := hcomps i (by rw [← hf.len]; exact hi)
        exact ⟨u ++ [m], by rw [rd_eq_ok.2 a, ok_bind]; rfl, trivial⟩)
    exact ⟨t, ht⟩
  refine ⟨comps'.map (refineN x k), ?_⟩
  unfold setupComponents
  rw [show decide (0 < l.names.length) = true by simpa using hpos, require_true, ok_bind,
    (find_some_iff _ _ _).2 h1, ok_bind]
  dsimp only
  rw [e2, ok_bind, collName_iff.2 (hcomps 0 hpos), ok_bind, e4, ok_bind, e5, ok_bind, h2, ok_bind]
  rfl

theorem mapM_iff {β γ : Type} {f : β → Outcome γ} : ∀ {l : List β} {r : List γ},
    l.mapM f = .ok r ↔ List.Forall₂ (fun b d => f b = .ok d) l r
  | [], r => by
    rw [List.mapM_nil]
    constructor
    · rintro ⟨⟩; exact .nil
    · rintro ⟨⟩; rfl
  | b :: l, r => by
    rw [List.mapM_cons]
    constructor
    · intro h
      obtain ⟨d, e1, h⟩ := bind_eq_ok.1 h
      obtain ⟨r', e2, h⟩ := bind_eq_ok.1 h
      cases h
      exact .cons e1 (mapM_iff.1 e2)
    · rintro (_ | ⟨e1, e2⟩)
      rw [e1, ok_bind, mapM_iff.2 e2]
      rfl

/-- A row of the table as a configuration. -/
def Fits (cf : MeshConfig) (r : Nat → ℝ) : Prop :=
  cf.trans 0 = r 0 ∧ cf.trans 1 = r 1 ∧ cf.trans 2 = r 2 ∧ cf.rotate 0 = r 3

theorem transform2D_iff {cf : MeshConfig} {r : Nat → ℝ} (hf : Fits cf r) {p q : List ℝ} :
    transform2D cf p = .ok q ↔ p.length = 2 ∧ Placed r p q := by
  obtain ⟨h0, h1, h2, h3⟩ := hf
  constructor
  · intro h
    unfold transform2D at h
    obtain ⟨_, e, h⟩ := bind_eq_ok.1 h
    have hl : p.length = 2 := by simpa using require_eq_ok.1 e
    obtain ⟨x, y, rfl⟩ := List.length_eq_two.1 hl
    simp only [rd, List.getElem?_cons_zero, List.getElem?_cons_succ, ok_bind] at h
    cases h
    rw [h0, h1, h3]
    exact ⟨rfl, .plane x y⟩
  · rintro ⟨hl, h⟩
    cases h with
    | plane x y =>
      unfold transform2D
      simp [require, rd, ok_bind, h0, h1, h3]
    | space x y z => simp at hl

theorem transform3D_iff {cf : MeshConfig} {r : Nat → ℝ} (hf : Fits cf r) {p q : List ℝ} :
    transform3D cf p = .ok q ↔ p.length = 3 ∧ Placed r p q := by
  obtain ⟨h0, h1, h2, h3⟩ := hf
  constructor
  · intro h
    have hl : p.length = 3 := by
      unfold transform3D at h
      obtain ⟨_, e, h⟩ := bind_eq_ok.1 h
      simpa using require_eq_ok.1 e
    obtain ⟨x, y, z, rfl⟩ := List.length_eq_three.1 hl
    rw [transform3D_eq] at h
    cases h
    rw [h0, h1, h2]
    exact ⟨rfl, .space x y z⟩
  · rintro ⟨hl, h⟩
    cases h with
    | plane x y => simp at hl
    | space x y z => rw [transform3D_eq, h0, h1, h2]

theorem place_iff {dim : Nat} {cf : MeshConfig} {r : Nat → ℝ} (hf : Fits cf r) {m m' : Mesh α} :
    place dim cf m = .ok m' ↔
      (dim = 2 ∨ dim = 3) ∧ (∀ p ∈ m.nodes, p.length = dim) ∧ Copy r m m' := by
  have key : ∀ tf : MeshConfig → List ℝ → Outcome (List ℝ), transform dim = some tf →
      (∀ p q, tf cf p = .ok q ↔ p.length = dim ∧ Placed r p q) →
      (place dim cf m = .ok m' ↔ (∀ p ∈ m.nodes, p.length = dim) ∧ Copy r m m') := by
    intro tf htf hp
    unfold place
    rw [htf]
    simp only [ptr, ok_bind]
    constructor
    · intro h
      obtain ⟨ns, e, h⟩ := bind_eq_ok.1 h
      cases h
      rw [mapM_iff] at e
      have e' := e.imp fun a b h => (hp a b).1 h
      refine ⟨fun p hp' => ?_, rfl, rfl, rfl, e'.imp fun a b h => h.2⟩
      obtain ⟨i, hi, rfl⟩ := List.getElem_of_mem hp'
      obtain ⟨g1, g2⟩ := List.forall₂_iff_get.1 e'
      exact (g2 i hi (by omega)).1
    · rintro ⟨h1, h2, h3, h4, h5⟩
      have : m.nodes.mapM (tf cf) = .ok m'.nodes := by
        rw [mapM_iff, List.forall₂_iff_get] 
        obtain ⟨g1, g2⟩ := List.forall₂_iff_get.1 h5
        exact ⟨g1, fun i a b => (hp _ _).2 ⟨h1 _ (List.get_mem _ _), g2 i a b⟩⟩
      rw [this, ok_bind]
      cases m'
      cases m
      simp only at h2 h3 h4
      subst h2 h3 h4
      rfl
  by_cases h2 : dim = 2
  · subst h2
    rw [key _ rfl (fun _ _ => transform2D_iff hf)]
    simp
  · by_cases h3 : dim = 3
    · subst h3
      rw [key _ rfl (fun _ _ => transform3D_iff hf)]
      simp
    · have : transform dim = none := by
        unfold transform
        split <;> simp_all
      constructor
      · intro h
        unfold place at h
        rw [this] at h
        cases h
      · rintro ⟨h | h, -⟩
        · exact absurd h h2
        · exact absurd h h3

theorem copy_exists {r : Nat → ℝ} {d : Nat} (hd : d = 2 ∨ d = 3) {m : Mesh α}
    (h : ∀ p ∈ m.nodes, p.length = d) : ∃ m', Copy r m m' := by
  have : ∀ l : List (List ℝ), (∀ p ∈ l, p.length = d) → ∃ l', List.Forall₂ (Placed r) l l' := by
    intro l
    induction l with
    | nil => exact fun _ => ⟨[], .nil⟩
    | cons p l ih =>
      intro hl
      obtain ⟨l', hl'⟩ := ih (fun q hq => hl q (List.mem_cons_of_mem _ hq))
      have hp := hl p List.mem_cons_self
      rcases hd with rfl | rfl
      · obtain ⟨x, y, rfl⟩ := List.length_eq_two.1 hp
        exact ⟨_, .cons (.plane x y) hl'⟩
      · obtain ⟨x, y, z, rfl⟩ := List.length_eq_three.1 hp
        exact ⟨_, .cons (.space x y z) hl'⟩
  obtain ⟨l', hl'⟩ := this m.nodes h
  exact ⟨{ m with nodes := l' }, rfl, rfl, rfl, hl'⟩

theorem setupMeshes_iff {dim : Nat} {l : Layout} {comps out : List (Mesh α)} {conf : Arr2 (Dbl ℝ)}
    (hc : l.configs.length = l.types.length)
    (hr : ∀ m, m < l.types.length → ∃ cf, l.configs[m]? = some cf ∧ readRow conf m = .ok cf) :
    setupMeshes dim l comps = .ok out ↔ 0 < l.types.length ∧ out.length = l.types.length ∧
      ∀ (m : Nat) t, l.types[m]? = some t → 0 ≤ t ∧ ∃ comp mesh, comps[t.toNat]? = some comp ∧
        out[m]? = some mesh ∧ (dim = 2 ∨ dim = 3) ∧ (∀ p ∈ comp.nodes, p.length = dim) ∧
        Copy (row conf m) comp mesh := by
  have hbody := @loop_append_iff (Mesh α) l.types.length (fun m acc => (do
    let t ← rd l.types m
    let comp ← rdI comps t
    let cf ← rd l.configs m
    let mesh ← place dim cf comp
    return acc ++ [mesh] : Outcome (List (Mesh α)))) (fun m => do
    let t ← rd l.types m
    let comp ← rdI comps t
    let cf ← rd l.configs m
    place dim cf comp) (fun k hk acc => by simp only [bind_assoc]; rfl) out
  have hset : setupMeshes dim l comps = .ok out ↔ 0 < l.types.length ∧
      loop l.types.length (fun m acc => (do
        let t ← rd l.types m
        let comp ← rdI comps t
        let cf ← rd l.configs m
        let mesh ← place dim cf comp
        return acc ++ [mesh] : Outcome (List (Mesh α)))) [] = .ok out := by
    unfold setupMeshes
    rw [hc, show (l.types.length == l.types.length) = true by simp]
    constructor
    · intro h
      obtain ⟨_, e, h⟩ := bind_eq_ok.1 h
      rw [require_true, ok_bind] at h
      exact ⟨by simpa using require_eq_ok.1 e, h⟩
    · rintro ⟨h1, h2⟩
      rw [show decide (0 < l.types.length) = true by simpa using h1, require_true, ok_bind, ok_bind]
      exact h2
  rw [hset, hbody]
  refine and_congr_right fun _ => and_congr_right fun _ => ?_
  constructor
  · intro h m t ht
    have hm : m < l.types.length := by
      by_contra hcc
      rw [List.getElem?_eq_none (by omega)] at ht
      cases ht
    obtain ⟨mesh, e, ho⟩ := h m hm
    obtain ⟨t', e1, e⟩ := bind_eq_ok.1 e
    rw [rd_eq_ok, ht] at e1
    cases e1
    obtain ⟨comp, e2, e⟩ := bind_eq_ok.1 e
    obtain ⟨cf, e3, e⟩ := bind_eq_ok.1 e
    obtain ⟨cf', c1, c2⟩ := hr m hm
    rw [rd_eq_ok, c1] at e3
    cases e3
    obtain ⟨g1, g2⟩ := rdI_iff.1 e2
    exact ⟨g1, comp, mesh, g2, ho, (place_iff (readRow_spec c2).2).1 e⟩
  · intro h m hm
    obtain ⟨h0, comp, mesh, h1, h2, h3⟩ := h m l.types[m] (List.getElem?_eq_getElem hm)
    obtain ⟨cf, c1, c2⟩ := hr m hm
    refine ⟨mesh, ?_, h2⟩
    rw [rd_of_lt hm, ok_bind, rdI_iff.2 ⟨h0, h1⟩, ok_bind, rd_eq_ok.2 c1, ok_bind]
    exact (place_iff (readRow_spec c2).2).2 h3

/-- **C92** What a component-wise topology consists of: if it is set up, then the inputs are of the
accepted kind, and subdomain `m` is a copy of the mesh listed under the name of its component (refined
as configured), put in place by its own row of the table. -/
theorem subdomain_meshes {c : Conv} {x : Meshes α} {disk : String → Option (File ℝ)} {junk : Int}
    {cfg : Node} {t : Topo α} (h : load c x disk junk cfg = .ok t) :
    ∃ conf list k, Input c disk cfg t.layout.names t.layout.types conf list k ∧
      Accepted c x t.layout.names t.layout.types conf list k ∧
      t.meshes.length = t.layout.types.length ∧
      ∀ (m : Nat) τ, t.layout.types[m]? = some τ → ∃ name comp mesh,
        t.layout.names[τ.toNat]? = some name ∧ Component c x list k.toNat name comp ∧
        t.meshes[m]? = some mesh ∧ Copy (row conf m) comp mesh := by
  unfold load at h
  obtain ⟨gname, e1, h⟩ := bind_eq_ok.1 h
  cases hd : disk gname with
  | none => rw [hd] at h; cases h
  | some f =>
    rw [hd] at h
    obtain ⟨l, e2, h⟩ := bind_eq_ok.1 h
    obtain ⟨comps, e3, h⟩ := bind_eq_ok.1 h
    obtain ⟨c0, e4, h⟩ := bind_eq_ok.1 h
    obtain ⟨meshes, e5, h⟩ := bind_eq_ok.1 h
    cases h
    obtain ⟨conf, l1, l2, l3, l4, l5, l6, l7⟩ := readComponents_spec e2
    obtain ⟨n, k, s1, s2, s3, s4, s5, s6, s7, s, s8⟩ := setupComponents_spec l2 e3
    obtain ⟨m1, m2, m3⟩ := (setupMeshes_iff l6 (fun m hm => (l7 m hm).2)).1 e5
    have hcomp : ∀ (i : Nat) nm m, l.names[i]? = some nm → Component c x (elems n) k.toNat nm m →
        comps[i]? = some m := by
      intro i nm m hi hm
      obtain ⟨m', a, b⟩ := s6 i nm hi
      rw [component_unique hm b]
      exact a
    have hsub : ∀ (m : Nat) τ, l.types[m]? = some τ → 0 ≤ τ ∧ ∃ name comp mesh,
        l.names[τ.toNat]? = some name ∧ Component c x (elems n) k.toNat name comp ∧
        meshes[m]? = some mesh ∧ (c0.dim = 2 ∨ c0.dim = 3) ∧
        (∀ p ∈ comp.nodes, p.length = c0.dim) ∧ Copy (row conf m) comp mesh := by
      intro m τ hm
      obtain ⟨h0, comp, mesh, a, b⟩ := m3 m τ hm
      have hlt : τ.toNat < l.names.length := by
        have := l3 τ (List.mem_of_getElem? hm)
        omega
      obtain ⟨comp', d1, d2⟩ := s6 τ.toNat _ (List.getElem?_eq_getElem hlt)
      rw [a] at d1
      cases d1
      exact ⟨h0, _, comp, mesh, List.getElem?_eq_getElem hlt, d2, b⟩
    have hdim : c0.dim = 2 ∨ c0.dim = 3 := by
      obtain ⟨-, _, _, _, -, -, -, hd, -⟩ := hsub 0 _ (List.getElem?_eq_getElem m1)
      exact hd
    dsimp only
    refine ⟨conf, elems n, k, ⟨⟨gname, f, says_iff.2 e1, hd, l1⟩, ⟨n, s1, rfl⟩, s2⟩,
      ⟨s4, m1, l3, l4, fun m hm => (l7 m (l4 ▸ hm)).1, s7, fun nm hnm => ?_,
        ⟨s, fun nm hnm file m hf hm => ?_⟩,
        ⟨c0.dim, hdim, fun nm m h0 hm => ?_, fun τ hτ nm m hnm hm => ?_⟩⟩, m2, fun m τ hm => ?_⟩
    · obtain ⟨file, m, a, -⟩ := s8 nm hnm
      exact ⟨file, a⟩
    · obtain ⟨file', m', a, b, d⟩ := s8 nm hnm
      cases fileOf_unique hf a
      rw [hm] at b
      cases b
      exact d
    · have := hcomp 0 nm m h0 hm
      rw [rd_eq_ok, this] at e4
      cases e4
      rfl
    · obtain ⟨i, hi, rfl⟩ := List.getElem_of_mem hτ
      obtain ⟨-, name, comp, mesh, a, b, -, -, d, -⟩ := hsub i _ (List.getElem?_eq_getElem hi)
      rw [hnm] at a
      cases a
      cases component_unique hm b
      exact d
    · obtain ⟨-, name, comp, mesh, a, b, d, -, -, e⟩ := hsub m τ hm
      exact ⟨name, comp, mesh, a, b, d, e⟩

/-- **C92** Every accepted input is set up, with the names and types it lists. -/
theorem accepted_loads {c : Conv} {x : Meshes α} {disk : String → Option (File ℝ)} {cfg : Node}
    {names : List String} {types : List Int} {conf : Arr2 (Dbl ℝ)} {list : List (Option Node)} {k : Int}
    (hi : Input c disk cfg names types conf list k) (ha : Accepted c x names types conf list k)
    (junk : Int) : ∃ t, load c x disk junk cfg = .ok t ∧ t.layout.names = names ∧
      t.layout.types = types := by
  obtain ⟨gname, f, f1, f2, f3⟩ := hi.file
  obtain ⟨n, n1, rfl⟩ := hi.list
  obtain ⟨l, e2, rfl, rfl⟩ := readComponents_total f3 ha.known ha.rows ha.table junk
  obtain ⟨conf', l1, l2, l3, l4, l5, l6, l7⟩ := readComponents_spec e2
  have : conf' = conf := Except.ok.inj (l1.conf.symm.trans f3.conf)
  subst this
  have hpos : 0 < l.names.length := by
    have := ha.known _ (List.getElem_mem ha.nonempty)
    omega
  obtain ⟨comps, e3⟩ := setupComponents_total l2 n1 hi.refinements ha hpos
  obtain ⟨n', k', s1, s2, s3, s4, s5, s6, -⟩ := setupComponents_spec l2 e3
  have hk : k' = k := Except.ok.inj (s2.symm.trans hi.refinements)
  subst hk
  have hn : n' = n := by
    have a := (find_some_iff _ _ _).2 s1
    have b := (find_some_iff _ _ _).2 n1
    rw [a] at b
    exact Option.some.inj (Except.ok.inj b)
  subst hn
  obtain ⟨d, d1, d2, d3⟩ := ha.points
  obtain ⟨c0, g1, g2⟩ := s6 0 _ (List.getElem?_eq_getElem hpos)
  have hd : c0.dim = d := d2 _ _ (List.getElem?_eq_getElem hpos) g2
  have hmesh : ∃ out, setupMeshes c0.dim l comps = .ok out := by
    have hex : ∀ m, m < l.types.length → ∃ τ comp mesh, l.types[m]? = some τ ∧ 0 ≤ τ ∧
        comps[τ.toNat]? = some comp ∧ (∀ p ∈ comp.nodes, p.length = c0.dim) ∧
        Copy (row conf' m) comp mesh := by
      intro m hm
      have hk := ha.known _ (List.getElem_mem hm)
      have hlt : (l.types[m]).toNat < l.names.length := by omega
      obtain ⟨comp, a, b⟩ := s6 _ _ (List.getElem?_eq_getElem hlt)
      have hp := d3 _ (List.getElem_mem hm) _ _ (List.getElem?_eq_getElem hlt) b
      obtain ⟨mesh, hc⟩ := copy_exists (r := row conf' m) d1 hp
      exact ⟨_, comp, mesh, List.getElem?_eq_getElem hm, hk.1, a, hd ▸ hp, hc⟩
    haveI : Nonempty (Mesh α) := ⟨c0⟩
    choose! τ comp mesh x1 x2 x3 x4 x5 using hex
    refine ⟨tab l.types.length mesh, (setupMeshes_iff l6 (fun m hm => (l7 m hm).2)).2
      ⟨ha.nonempty, by simp, fun m t ht => ?_⟩⟩
    have hm : m < l.types.length := by
      by_contra hcc
      rw [List.getElem?_eq_none (by omega)] at ht
      cases ht
    have : t = τ m := Option.some.inj (ht.symm.trans (x1 m hm))
    subst this
    exact ⟨x2 m hm, comp m, mesh m, x3 m hm, by simp [tab, hm], hd ▸ d1, x4 m hm, x5 m hm⟩
  obtain ⟨out, e5⟩ := hmesh
  refine ⟨⟨l, c0.dim, comps, out⟩, ?_, rfl, rfl⟩
  unfold load
  rw [says_iff.1 f1, ok_bind, f2]
  dsimp only
  rw [e2, ok_bind, e3, ok_bind, rd_eq_ok.2 g1, ok_bind, e5]
  rfl

/-- **C92** (finding) A component that the global file uses first and the configuration does not list
makes the program dereference a null pointer; the check for missing components comes too late. -/
theorem missing_component_ub {c : Conv} {x : Meshes α} {l : Layout} {cfg n : Node} {nm : String}
    (hl : Last l.names l.idx) (hd : l.names.Nodup)
    (h1 : Options.Spec.At cfg (pieces '/' (key "mesh/component-wise/components")) n)
    (he : ∀ (i : Nat) o, (elems n)[i]? = some o → ∃ e n, o = some e ∧ Says c e "name" n ∧
      (n ∈ l.names → ∃ file m, Says c e "file" file ∧ x.load file = .ok m))
    (h0 : l.names[0]? = some nm)
    (hm : ∀ (i : Nat) e, (elems n)[i]? = some (some e) → ¬ Says c e "name" nm) :
    setupComponents c x l cfg = .error .ub := by
  have hpos : 0 < l.names.length := by
    by_contra hc
    rw [List.getElem?_eq_none (by omega)] at h0
    cases h0
  obtain ⟨comps, e2⟩ := entries_total (x := x) hl he
  obtain ⟨hf, -⟩ := entries_spec hl e2
  have hlook : l.idx.look nm = some 0 := (hl _ _).2 ⟨h0, fun q hq hc => by
    have := (List.nodup_iff_getElem?_ne_getElem?.1 hd) 0 q hq (by
      by_contra hh
      rw [List.getElem?_eq_none (by omega)] at hc
      cases hc)
    exact this (h0.trans hc.symm)⟩
  have hc0 : comps[0]? = some none := by
    cases hc : comps[0]? with
    | none =>
      have := List.getElem?_eq_none_iff.1 hc
      rw [hf.len] at this
      omega
    | some o =>
      cases o with
      | none => rfl
      | some m =>
        obtain ⟨nm', file, a, ⟨k, e, b1, b2, -⟩, -⟩ := hf.set 0 m hc
        have : nm' = nm := by
          have := ((hl nm' 0).1 a).1
          rw [h0] at this
          exact (Option.some.inj this).symm
        subst this
        exact absurd b2 (hm k e b1)
  unfold setupComponents
  rw [show decide (0 < l.names.length) = true by simpa using hpos, require_true, ok_bind,
    (find_some_iff _ _ _).2 h1, ok_bind]
  dsimp only
  rw [e2, ok_bind]
  have : collName comps 0 = .error .ub := by
    unfold collName
    rw [rd_eq_ok.2 hc0]
    rfl
  rw [this]
  rfl

/-- **C92** (finding) With components of any other dimension than two and three, in particular
one-dimensional ones, the program calls a null function pointer. -/
theorem one_dimensional_ub {l : Layout} {comps : List (Mesh α)} {dim : Nat} {τ : Int} {comp : Mesh α}
    (hd : dim ≠ 2 ∧ dim ≠ 3) (hc : l.configs.length = l.types.length) (h0 : l.types[0]? = some τ)
    (hτ : 0 ≤ τ) (hcomp : comps[τ.toNat]? = some comp) :
    setupMeshes dim l comps = .error .ub := by
  have hpos : 0 < l.types.length := by
    by_contra hcc
    rw [List.getElem?_eq_none (by omega)] at h0
    cases h0
  have ht : transform dim = none := by
    unfold transform
    split <;> simp_all
  unfold setupMeshes
  rw [show decide (0 < l.types.length) = true by simpa using hpos, require_true, ok_bind, hc,
    show (l.types.length == l.types.length) = true by simp, require_true, ok_bind]
  obtain ⟨n, hn⟩ : ∃ n, l.types.length = n + 1 := ⟨l.types.length - 1, by omega⟩
  rw [hn]
  unfold loop loopFrom
  rw [rd_eq_ok.2 h0, ok_bind, rdI_iff.2 ⟨hτ, hcomp⟩, ok_bind, rd_of_lt (by omega), ok_bind]
  unfold place
  rw [ht]
  rfl

/-! ## The hypotheses can be met -/

/-- Simple conversions, for examples. -/
def demo : Conv where
  str | .scalar s => .ok (String.ofList s) | _ => .error .abort
  strs _ := .error .abort
  int | .scalar s => .ok s.length | _ => .error .abort
  format f v := f ++ toString v

/-- A list of components: a spare one, two that are used, and one of them again with another file. -/
def demoCfg : Node :=
  .map [("mesh".toList, .map [("component-wise".toList, .map [
    ("global_config".toList, .scalar "g.h5".toList),
    ("components".toList, .seq [
      .map [("name".toList, .scalar "spare".toList)],
      .map [("name".toList, .scalar "b".toList), ("file".toList, .scalar "old.mesh".toList)],
      .map [("name".toList, .scalar "a".toList), ("file".toList, .scalar "a.mesh".toList)],
      .map [("name".toList, .scalar "b".toList), ("file".toList, .scalar "b.mesh".toList)]])]),
    ("uniform_refinement".toList, .scalar "i".toList)])]

/-- Three subdomains. -/
def demoFile : File ℝ :=
  [(⟨[], "components", false⟩, .group),
   (⟨["components"], "number_of_components", true⟩, .attrInt 2),
   (⟨["components"], "0", true⟩, .attrStr "a"),
   (⟨["components"], "1", true⟩, .attrStr "b"),
   (⟨["components"], "meshes", false⟩, .dset [3] (.ints [1, 0, 1])),
   (⟨["components"], "configuration", false⟩, .dset [3, 6] (.reals
     [0, 0, 0, 0, 0, 0, 1, 0, 0, 0, 0, 0, 2, 0, 0, 5, 0, 0]))]

/-- The meshes: a segment of nodes; refinement adds a node. -/
def demoMeshes : Meshes Unit where
  load f := if f = "a.mesh" then .ok ⟨2, some "H1", [[0, 0], [1, 0]], ()⟩
    else if f = "b.mesh" ∨ f = "old.mesh" then .ok ⟨2, some "H1", [[0, 0], [0, 1]], ()⟩
    else .error .abort
  refine m := { m with nodes := m.nodes ++ [[0, 0]] }

/-- The table in the file. -/
def demoConf : Arr2 (Dbl ℝ) :=
  ⟨3, 6, ([0, 0, 0, 0, 0, 0, 1, 0, 0, 0, 0, 0, 2, 0, 0, 5, 0, 0] : List ℝ).map Dbl.mk⟩

/-- The list in the configuration. -/
def demoList : List (Option Node) :=
  [some (.map [("name".toList, .scalar "spare".toList)]),
   some (.map [("name".toList, .scalar "b".toList), ("file".toList, .scalar "old.mesh".toList)]),
   some (.map [("name".toList, .scalar "a".toList), ("file".toList, .scalar "a.mesh".toList)]),
   some (.map [("name".toList, .scalar "b".toList), ("file".toList, .scalar "b.mesh".toList)])]

/-- The disk. -/
def demoDisk : String → Option (File ℝ) := fun s => if s = "g.h5" then some demoFile else none

theorem demo_input : Input demo demoDisk demoCfg ["a", "b"] [1, 0, 1] demoConf demoList 1 where
  file := ⟨"g.h5", demoFile, says_iff.2 rfl, rfl, rfl, rfl, fun c n h => by
    match c, h with
    | 0, h => cases h; rfl
    | 1, h => cases h; rfl, rfl, rfl⟩
  list := ⟨_, (find_some_iff _ _ _).1 rfl, rfl⟩
  refinements := rfl

theorem demo_fileOf {n file : String} (h : FileOf demo demoList n file) :
    (n = "a" → file = "a.mesh") ∧ (n = "b" → file = "b.mesh") := by
  constructor
  · rintro rfl
    refine fileOf_unique h ⟨2, _, rfl, says_iff.2 rfl, says_iff.2 rfl, fun k e hk he hs => ?_⟩
    match k, hk, he with
    | 3, _, he =>
      cases he
      have := says_unique (v := "b") (says_iff.2 rfl) hs
      exact absurd this (by decide)
  · rintro rfl
    refine fileOf_unique h ⟨3, _, rfl, says_iff.2 rfl, says_iff.2 rfl, fun k e hk he hs => ?_⟩
    match k, hk, he with
    | k + 4, _, he => cases he

theorem demo_accepted : Accepted demo demoMeshes ["a", "b"] [1, 0, 1] demoConf demoList 1 where
  distinct := by decide
  nonempty := by decide
  known := by decide
  rows := rfl
  table := by
    intro m hm
    have : m < 3 := hm
    simp only [demoConf, List.length_map, List.length_cons, List.length_nil]
    omega
  entries := by
    intro i o h
    match i, h with
    | 0, h =>
      cases h
      exact ⟨_, "spare", rfl, says_iff.2 rfl, fun hm => absurd hm (by decide)⟩
    | 1, h =>
      cases h
      exact ⟨_, "b", rfl, says_iff.2 rfl, fun _ => ⟨"old.mesh", _, says_iff.2 rfl, rfl⟩⟩
    | 2, h =>
      cases h
      exact ⟨_, "a", rfl, says_iff.2 rfl, fun _ => ⟨"a.mesh", _, says_iff.2 rfl, rfl⟩⟩
    | 3, h =>
      cases h
      exact ⟨_, "b", rfl, says_iff.2 rfl, fun _ => ⟨"b.mesh", _, says_iff.2 rfl, rfl⟩⟩
  listed := by
    intro n hn
    simp only [List.mem_cons, List.not_mem_nil, or_false] at hn
    rcases hn with rfl | rfl
    · refine ⟨"a.mesh", 2, _, rfl, says_iff.2 rfl, says_iff.2 rfl, fun k e hk he hs => ?_⟩
      match k, hk, he with
      | 3, _, he =>
        cases he
        have := says_unique (v := "b") (says_iff.2 rfl) hs
        exact absurd this (by decide)
    · refine ⟨"b.mesh", 3, _, rfl, says_iff.2 rfl, says_iff.2 rfl, fun k e hk he hs => ?_⟩
      match k, hk, he with
      | k + 4, _, he => cases he
  collection := by
    refine ⟨"H1", fun n hn file m hf hm => ?_⟩
    obtain ⟨ha, hb⟩ := demo_fileOf hf
    simp only [List.mem_cons, List.not_mem_nil, or_false] at hn
    rcases hn with rfl | rfl
    · rw [ha rfl] at hm; cases hm; rfl
    · rw [hb rfl] at hm; cases hm; rfl
  points := by
    have key : ∀ n ∈ ["a", "b"], ∀ m, Component demo demoMeshes demoList 1 n m →
        m.dim = 2 ∧ ∀ p ∈ m.nodes, p.length = 2 := by
      rintro n hn m ⟨file, m0, hf, hm, rfl⟩
      obtain ⟨ha, hb⟩ := demo_fileOf hf
      simp only [List.mem_cons, List.not_mem_nil, or_false] at hn
      rcases hn with rfl | rfl
      · rw [ha rfl] at hm; cases hm
        refine ⟨rfl, fun p hp => ?_⟩
        simp only [demoMeshes, Function.iterate_one, List.cons_append, List.nil_append, List.mem_cons,
          List.not_mem_nil, or_false] at hp
        rcases hp with rfl | rfl | rfl <;> rfl
      · rw [hb rfl] at hm; cases hm
        refine ⟨rfl, fun p hp => ?_⟩
        simp only [demoMeshes, Function.iterate_one, List.cons_append, List.nil_append, List.mem_cons,
          List.not_mem_nil, or_false] at hp
        rcases hp with rfl | rfl | rfl <;> rfl
    exact ⟨2, .inl rfl, fun n m h hm => (key n (List.mem_of_getElem? h) m hm).1,
      fun τ _ n m h hm => (key n (List.mem_of_getElem? h) m hm).2⟩

/-- The topology of the example, with the last entry for component `b`, the first subdomain where it was
and the second moved by one. -/
example : ∃ t, load demo demoMeshes demoDisk 0 demoCfg = .ok t ∧ t.meshes.length = 3 ∧
    ∃ m, t.meshes[1]? = some m ∧ m.nodes = [[1, 0], [2, 0], [1, 0]] := by
  obtain ⟨t, h, hn, ht⟩ := accepted_loads demo_input demo_accepted 0
  refine ⟨t, h, ?_⟩
  obtain ⟨conf, list, k, hi, -, hl, hm⟩ := subdomain_meshes h
  rw [ht] at hl hm hi
  rw [hn] at hm hi
  refine ⟨hl, ?_⟩
  obtain ⟨name, comp, mesh, h1, ⟨file, m0, h2, h3, rfl⟩, h4, h5⟩ := hm 1 0 rfl
  cases h1
  have hlist : list = demoList := by
    obtain ⟨n, a, rfl⟩ := hi.list
    have b := (find_some_iff _ _ _).2 a
    cases b
    rfl
  subst hlist
  have hk : k = 1 := (Except.ok.inj (hi.refinements.symm.trans demo_input.refinements))
  subst hk
  rw [(demo_fileOf h2).1 rfl] at h3
  cases h3
  have hconf : conf = demoConf := by
    obtain ⟨gn, f, a, b, d⟩ := hi.file
    have : gn = "g.h5" := says_unique a (says_iff.2 rfl)
    subst this
    cases b
    exact Except.ok.inj (d.conf.symm.trans rfl)
  subst hconf
  refine ⟨mesh, h4, ?_⟩
  have r0 : row demoConf 1 0 = 1 := by simp [row, demoConf]
  have r1 : row demoConf 1 1 = 0 := by simp [row, demoConf]
  have r3 : row demoConf 1 3 = 0 := by simp [row, demoConf]
  have pl : ∀ x y q, Placed (row demoConf 1) [x, y] q → q = [x + 1, y] := by
    rintro x y q ⟨⟩
    simp [r0, r1, r3]
  obtain ⟨-, -, -, h5⟩ := h5
  simp only [demoMeshes, Int.toNat_one, Function.iterate_one, List.cons_append, List.nil_append] at h5
  generalize mesh.nodes = ns at h5
  obtain _ | ⟨p1, _ | ⟨p2, _ | ⟨p3, _ | _⟩⟩⟩ := h5
  rw [pl _ _ _ p1, pl _ _ _ p2, pl _ _ _ p3]
  norm_num

/-- A layout whose first component is not listed. -/
example : setupComponents demo demoMeshes
    ⟨["c"], [("c", 0)], [0], ⟨[1], [0]⟩, [⟨fun _ => 0, fun _ => 0⟩]⟩ demoCfg = .error .ub := by
  refine missing_component_ub (nm := "c") ?_ (by decide) ((find_some_iff _ _ _).1 rfl) ?_ rfl ?_
  · exact last_push (names := []) (idx := []) (by simp [Last, Names.look]) "c"
  · intro i o h
    match i, h with
    | 0, h => cases h; exact ⟨_, "spare", rfl, says_iff.2 rfl, fun hm => absurd hm (by decide)⟩
    | 1, h => cases h; exact ⟨_, "b", rfl, says_iff.2 rfl, fun hm => absurd hm (by decide)⟩
    | 2, h => cases h; exact ⟨_, "a", rfl, says_iff.2 rfl, fun hm => absurd hm (by decide)⟩
    | 3, h => cases h; exact ⟨_, "b", rfl, says_iff.2 rfl, fun hm => absurd hm (by decide)⟩
  · intro i e h hs
    match i, h with
    | 0, h => cases h; exact absurd (says_unique (v := "spare") (says_iff.2 rfl) hs) (by decide)
    | 1, h => cases h; exact absurd (says_unique (v := "b") (says_iff.2 rfl) hs) (by decide)
    | 2, h => cases h; exact absurd (says_unique (v := "a") (says_iff.2 rfl) hs) (by decide)
    | 3, h => cases h; exact absurd (says_unique (v := "b") (says_iff.2 rfl) hs) (by decide)

/-- One-dimensional components. -/
example : setupMeshes 1 ⟨["c"], [("c", 0)], [0], ⟨[1], [0]⟩, [⟨fun _ => 0, fun _ => 0⟩]⟩
    [(⟨1, some "H1", [[0], [1]], ()⟩ : Mesh Unit)] = .error .ub :=
  one_dimensional_ub (by decide) rfl rfl (by decide) rfl

end Verif.CompLoad
