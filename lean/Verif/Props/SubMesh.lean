import Verif.Proofs.SubMesh
import Verif.Props.Topology

/-!
# Property C31: interfaces between submeshes
-/

namespace Verif.SubMesh

open Verif.Topology Verif.LinAlg

section
variable {pm : Parent} {subs : List Sub} {faceMaps : List (List Int)} {bes0 : List (List BE)}
  {g : Int}

theorem be0_of {m b : Nat} {l : List BE} {be : BE} (h1 : bes0[m]? = some l) (h2 : l[b]? = some be) :
    be0 bes0 m b = be ∧ b < nb bes0 m ∧ m < bes0.length := by
  have e : bes0.getD m [] = l := by simp [h1]
  refine ⟨by unfold be0; rw [e]; simp [h2], ?_, (List.getElem?_eq_some_iff.1 h1).1⟩
  unfold nb; rw [e]; exact (List.getElem?_eq_some_iff.1 h2).1

theorem exists_be {m b : Nat} (hm : m < bes0.length) (hb : b < nb bes0 m) :
    ∃ l, bes0[m]? = some l ∧ l[b]? = some (be0 bes0 m b) ∧ l.length = nb bes0 m := by
  refine ⟨bes0[m], List.getElem?_eq_getElem hm, ?_, ?_⟩
  · unfold nb at hb
    simp only [List.getD_eq_getElem?_getD, List.getElem?_eq_getElem hm, Option.getD_some] at hb
    unfold be0
    simp [List.getElem?_eq_getElem hm, List.getElem?_eq_getElem hb]
  · unfold nb; simp [List.getElem?_eq_getElem hm]

theorem onFace_pf {m b f : Nat} (h : Spec.OnFace faceMaps bes0 m b f) :
    pf faceMaps bes0 m b = (f : Int) ∧ m < bes0.length ∧ b < nb bes0 m := by
  obtain ⟨l, be, fm, h1, h2, h3, h4⟩ := h
  obtain ⟨e1, e2, e3⟩ := be0_of h1 h2
  refine ⟨?_, e3, e2⟩
  unfold pf
  rw [e1]
  simp [h3, h4]

theorem onFace_of {m b : Nat} (hwf : Spec.WellFormed pm subs faceMaps bes0 g)
    (hm : m < bes0.length) (hb : b < nb bes0 m) :
    ∃ f fc s x, Spec.OnFace faceMaps bes0 m b f ∧ pf faceMaps bes0 m b = (f : Int) ∧
      pm.faces[f]? = some fc ∧ subs[m]? = some s ∧
      s.elemMap[(be0 bes0 m b).elem]? = some x ∧ Spec.Owns subs m (x : Int) ∧
      (((x : Int) = fc.e0 ∧ ¬ Spec.Owns subs m fc.e1) ∨
        ((x : Int) = fc.e1 ∧ ¬ Spec.Owns subs m fc.e0)) := by
  obtain ⟨l, h1, h2, _⟩ := exists_be hm hb
  obtain ⟨f, fc, s, x, h3, h4, h5, h6, h7⟩ := hwf.onFace m b l _ h1 h2
  exact ⟨f, fc, s, x, h3, (onFace_pf h3).1, h4, h5, h6,
    ⟨s, h5, x, List.mem_of_getElem? h6, rfl⟩, h7⟩

theorem geo_of (hwf : Spec.WellFormed pm subs faceMaps bes0 g) (hg : 0 ≤ g) :
    Geo pm subs faceMaps bes0 g bes0.length := by
  have key : ∀ m b, m < bes0.length → b < nb bes0 m → _ := fun m b => onFace_of hwf (m := m) (b := b)
  refine ⟨hwf.bes_length.symm, hg, ?_, ?_, ?_, ?_, ?_⟩
  · intro m b hm hb
    obtain ⟨f, fc, s, x, h1, h2, _⟩ := key m b hm hb
    rw [h2]
    obtain ⟨l, be, fm, k1, k2, k3, k4⟩ := h1
    obtain ⟨e1, _, _⟩ := be0_of k1 k2
    exact ⟨fm, rd_eq_ok.2 k3, rd_eq_ok.2 (e1 ▸ k4)⟩
  · intro i ib j jb a b hi hj hib hjb
    obtain ⟨f, fc', s, x, _, h2, h3, h4, h5, _⟩ := key i ib hi hib
    obtain ⟨f', fc'', s', x', _, _, _, k4, k5, _⟩ := key j jb hj hjb
    unfold findParentInterfaceInfo infsOf
    rw [h2]
    have hfc : fc pm (f : Int) = fc' := by unfold fc; simp [h3]
    have hx : ((subs.getD i ⟨[], [], 0, []⟩).elemMap)[(be0 bes0 i ib).elem]?.getD 0 = x := by
      simp [h4, h5]
    have r1 : rdI pm.faces (f : Int) = .ok fc' := by
      simp [rdI, rd, h3]
    have r2 : rd subs i = .ok s := rd_eq_ok.2 h4
    have r3 : rd s.elemMap (be0 bes0 i ib).elem = .ok x := rd_eq_ok.2 h5
    have r4 : rd subs j = .ok s' := rd_eq_ok.2 k4
    have r5 : rd s'.elemMap (be0 bes0 j jb).elem = .ok x' := rd_eq_ok.2 k5
    simp only [r1, r2, r3, r4, r5, ok_bind, hfc, hx]
    by_cases hc : (x : Int) = fc'.e0
    · rw [if_pos hc, if_pos hc]
    · rw [if_neg hc, if_neg hc]
  · intro m b b' hm hb hb' he
    obtain ⟨f, _, _, _, h1, h2, _⟩ := key m b hm hb
    obtain ⟨f', _, _, _, k1, k2, _⟩ := key m b' hm hb'
    have : f = f' := by rw [h2, k2] at he; exact_mod_cast he
    subst this
    exact hwf.onceFace m b b' f h1 k1
  · intro a x b y c z ha hx hb hy hc hz e1 e2
    obtain ⟨f, fa, sa, xa, _, h2, h3, _, _, oa, h7⟩ := key a x ha hx
    obtain ⟨f', fb, sb, xb, _, k2, k3, _, _, ob, k7⟩ := key b y hb hy
    obtain ⟨f'', fd, sd, xd, _, m2, m3, _, _, od, m7⟩ := key c z hc hz
    have e1' : f = f' := by rw [h2, k2] at e1; exact_mod_cast e1
    have e2' : f' = f'' := by rw [k2, m2] at e2; exact_mod_cast e2
    subst e1'; subst e2'
    rw [h3] at k3 m3
    cases k3; cases m3
    have h7' : (xa : Int) = fa.e0 ∨ (xa : Int) = fa.e1 := h7.imp And.left And.left
    have k7' : (xb : Int) = fa.e0 ∨ (xb : Int) = fa.e1 := k7.imp And.left And.left
    have m7' : (xd : Int) = fa.e0 ∨ (xd : Int) = fa.e1 := m7.imp And.left And.left
    rcases h7' with p | p <;> rcases k7' with q | q <;> rcases m7' with r | r <;>
      rw [p] at oa <;> rw [q] at ob <;> rw [r] at od
    · exact Or.inl (hwf.disjoint _ _ _ oa ob)
    · exact Or.inl (hwf.disjoint _ _ _ oa ob)
    · exact Or.inr (Or.inr (hwf.disjoint _ _ _ oa od))
    · exact Or.inr (Or.inl (hwf.disjoint _ _ _ ob od))
    · exact Or.inr (Or.inl (hwf.disjoint _ _ _ ob od))
    · exact Or.inr (Or.inr (hwf.disjoint _ _ _ oa od))
    · exact Or.inl (hwf.disjoint _ _ _ oa ob)
    · exact Or.inl (hwf.disjoint _ _ _ oa ob)
  · intro a x b y ha hx hb hy he hgen
    obtain ⟨f, _, _, _, h1, h2, _⟩ := key a x ha hx
    obtain ⟨f', _, _, _, k1, k2, _⟩ := key b y hb hy
    have : f = f' := by rw [h2, k2] at he; exact_mod_cast he
    subst this
    obtain ⟨l, l1, l2, _⟩ := exists_be ha hx
    obtain ⟨l', l1', l2', _⟩ := exists_be hb hy
    exact (hwf.attr b y f l' _ l1' l2' k1).2 ((hwf.attr a x f l _ l1 l2 h1).1 hgen)

theorem nodup_flatMap_range {α : Type _} {k : Nat} {f : Nat → List α} (key : α → Nat)
    (h1 : ∀ i, i < k → (f i).Nodup) (h2 : ∀ i, i < k → ∀ x ∈ f i, key x = i) :
    ((List.range k).flatMap f).Nodup := by
  rw [List.nodup_flatMap]
  refine ⟨fun i hi => h1 i (List.mem_range.1 hi), ?_⟩
  refine List.Pairwise.imp_of_mem ?_ List.nodup_range
  intro a b ha hb hab x hxa hxb
  exact hab ((h2 a (List.mem_range.1 ha) x hxa).symm.trans (h2 b (List.mem_range.1 hb) x hxb))

theorem nodup_ev1 (n : Nat) : (ev1 faceMaps bes0 g n n).Nodup := by
  refine nodup_flatMap_range (fun e => e.i) ?_ (fun i hi x hx => ((mem_ev2 hi).1 hx).1)
  intro i hi
  refine nodup_flatMap_range (fun e => e.ib) ?_ ?_
  · intro ib hib
    split
    · refine nodup_flatMap_range (fun e => e.j - (i + 1)) ?_ ?_
      · intro j hj
        unfold ev4
        refine List.Nodup.map ?_ (List.nodup_range.filter _)
        intro a b hab
        simpa using hab
      · intro j hj x hx
        have := (mem_ev4.1 hx).2.2.1
        omega
    · exact List.nodup_nil
  · intro ib hib x hx
    split at hx
    · exact (mem_ev3.1 hx).2.1
    · cases hx

theorem port_at {n p : Nat} {E : List Ev} {P : PortInfo}
    (h : (stateOf pm subs faceMaps bes0 g n E).ports[p]? = some P) :
    (pairs E)[p]? = some (P.mesh1, P.mesh2) ∧ P = portAt g p (P.mesh1, P.mesh2) := by
  simp only [stateOf, List.getElem?_mapIdx, Option.map_eq_some_iff] at h
  obtain ⟨q, h1, h2⟩ := h
  subst h2
  exact ⟨h1, rfl⟩

theorem infos_at {n p : Nat} {E : List Ev} {P : PortInfo} {l : List InterfaceInfo}
    (h : (stateOf pm subs faceMaps bes0 g n E).ports[p]? = some P)
    (hl : (stateOf pm subs faceMaps bes0 g n E).infos[p]? = some l) :
    l = (E.filter (·.pair == (P.mesh1, P.mesh2))).map (infoOf pm subs faceMaps bes0) := by
  obtain ⟨h1, _⟩ := port_at h
  simp only [stateOf, List.getElem?_map, h1, Option.map_some, Option.some.injEq] at hl
  exact hl.symm

theorem info_mem {n p : Nat} {E : List Ev} {P : PortInfo} {l : List InterfaceInfo}
    {I : InterfaceInfo}
    (h : (stateOf pm subs faceMaps bes0 g n E).ports[p]? = some P)
    (hl : (stateOf pm subs faceMaps bes0 g n E).infos[p]? = some l) (hI : I ∈ l) :
    ∃ e ∈ E, e.i = P.mesh1 ∧ e.j = P.mesh2 ∧ I = infoOf pm subs faceMaps bes0 e := by
  rw [infos_at h hl, List.mem_map] at hI
  obtain ⟨e, he, rfl⟩ := hI
  obtain ⟨h1, h2⟩ := List.mem_filter.1 he
  have : e.pair = (P.mesh1, P.mesh2) := by simpa using h2
  exact ⟨e, h1, congrArg Prod.fst this, congrArg Prod.snd this, rfl⟩

theorem Good.onFace {e : Ev} (hwf : Spec.WellFormed pm subs faceMaps bes0 g)
    (he : Good faceMaps bes0 g bes0.length e) :
    ∃ f fc, Spec.OnFace faceMaps bes0 e.i e.ib f ∧ Spec.OnFace faceMaps bes0 e.j e.jb f ∧
      Spec.Between pm subs f e.i e.j ∧ Spec.Free pm f ∧ pm.faces[f]? = some fc ∧
      ((Spec.Owns subs e.i fc.e0 ∧ infsOf pm subs faceMaps bes0 e.i e.ib = (fc.inf0, fc.inf1)) ∨
       (Spec.Owns subs e.i fc.e1 ∧ infsOf pm subs faceMaps bes0 e.i e.ib = (fc.inf1, fc.inf0))) := by
  obtain ⟨hlt, hj, hib, hjb, hface, hgen⟩ := he
  have hi : e.i < bes0.length := by omega
  obtain ⟨f, fc', s, x, h1, h2, h3, h4, h5, o, h7⟩ := onFace_of hwf hi hib
  obtain ⟨f', fc'', s', x', k1, k2, k3, k4, k5, o', k7⟩ := onFace_of hwf hj hjb
  have : f = f' := by rw [h2, k2] at hface; exact_mod_cast hface
  subst this
  rw [h3] at k3
  cases k3
  obtain ⟨l, l1, l2, _⟩ := exists_be hi hib
  have hfree := (hwf.attr e.i e.ib f l _ l1 l2 h1).1 hgen
  have hfc : fc pm (f : Int) = fc' := by unfold fc; simp [h3]
  have hx : ((subs.getD e.i ⟨[], [], 0, []⟩).elemMap)[(be0 bes0 e.i e.ib).elem]?.getD 0 = x := by
    simp [h4, h5]
  have hinf : infsOf pm subs faceMaps bes0 e.i e.ib =
      if (x : Int) = fc'.e0 then (fc'.inf0, fc'.inf1) else (fc'.inf1, fc'.inf0) := by
    unfold infsOf
    simp only [h2, hfc, hx]
  refine ⟨f, fc', h1, k1, ⟨by omega, fc', h3, ?_⟩, hfree, h3, ?_⟩
  · rcases h7 with ⟨p, _⟩ | ⟨p, _⟩ <;> rcases k7 with ⟨q, _⟩ | ⟨q, _⟩ <;> rw [p] at o <;> rw [q] at o'
    · have := hwf.disjoint _ _ _ o o'; omega
    · exact Or.inl ⟨o, o'⟩
    · exact Or.inr ⟨o, o'⟩
    · have := hwf.disjoint _ _ _ o o'; omega
  · rw [hinf]
    rcases h7 with ⟨p, hn⟩ | ⟨p, hn⟩
    · left; rw [if_pos p]; exact ⟨p ▸ o, rfl⟩
    · right
      rw [if_neg (by intro hh; exact hn (hh ▸ o))]
      exact ⟨p ▸ o, rfl⟩

/-- C31: the search for interfaces succeeds on every family of submeshes, and its result is exactly
the set of faces that separate two submeshes and carry no boundary element of the parent mesh, each
once, in the port of its pair, with the right sides. -/
theorem interfaces_correct (hwf : Spec.WellFormed pm subs faceMaps bes0 g)
    (hmax : arrMax pm.bdrAttributes = .ok g) (hg : 0 ≤ g) :
    ∃ st, buildInterfaceInfos pm subs faceMaps bes0 = .ok st ∧
      Spec.Correct pm subs faceMaps bes0 g st := by
  have hgeo := geo_of hwf hg
  refine ⟨_, buildInterfaceInfos_eq hgeo hmax rfl, ?_⟩
  generalize hE : ev1 faceMaps bes0 g bes0.length bes0.length = E
  have hgood : ∀ e, e ∈ E ↔ Good faceMaps bes0 g bes0.length e := by
    intro e
    rw [← hE, mem_ev1 (Nat.le_refl _)]
    constructor
    · exact And.right
    · intro h; exact ⟨by have := h.lt; have := h.jlt; omega, h⟩
  have hnd : E.Nodup := hE ▸ nodup_ev1 _
  constructor
  · simp [stateOf]
  · intro l hl
    simp only [stateOf, List.mem_map] at hl
    obtain ⟨q, hq, rfl⟩ := hl
    obtain ⟨e, he, hep⟩ := mem_pairs.1 hq
    have : e ∈ E.filter (·.pair == q) := List.mem_filter.2 ⟨he, by simp [hep]⟩
    intro hnil
    rw [List.map_eq_nil_iff] at hnil
    rw [hnil] at this; cases this
  · intro p P hP
    obtain ⟨h1, h2⟩ := port_at hP
    obtain ⟨e, he, hep⟩ := mem_pairs.1 (List.mem_of_getElem? h1)
    have hg' := (hgood e).1 he
    have e1 : e.i = P.mesh1 := congrArg Prod.fst hep
    have e2 : e.j = P.mesh2 := congrArg Prod.snd hep
    refine ⟨e1 ▸ e2 ▸ hg'.lt, ?_, ?_, ?_, ?_⟩
    · rw [← hwf.bes_length, ← e2]; exact hg'.jlt
    · rw [h2]; rfl
    · rw [h2]; rfl
    · rw [h2]; rfl
  · intro p q P Q hP hQ e1 e2
    obtain ⟨h1, _⟩ := port_at hP
    obtain ⟨k1, _⟩ := port_at hQ
    rw [← e1, ← e2] at k1
    rw [← getElem?_idxOf (nodup_pairs E) h1, ← getElem?_idxOf (nodup_pairs E) k1]
  · intro p P l I hP hl hI
    obtain ⟨e, he, e1, e2, rfl⟩ := info_mem hP hl hI
    obtain ⟨f, fc', h1, h2, h3, h4, h5, h6⟩ := Good.onFace hwf ((hgood e).1 he)
    rw [← e1, ← e2]
    refine ⟨f, fc', h1, h2, h3, h4, h5, ?_⟩
    rcases h6 with ⟨o, h⟩ | ⟨o, h⟩
    · left; exact ⟨o, by simp [infoOf, h], by simp [infoOf, h]⟩
    · right; exact ⟨o, by simp [infoOf, h], by simp [infoOf, h]⟩
  · intro f i j hb hfree hij
    obtain ⟨b, hob⟩ := hwf.covered f i j hb
    obtain ⟨b', hob'⟩ := hwf.covered f j i ⟨hb.1.symm, by
      obtain ⟨fc', h1, h2⟩ := hb.2
      refine ⟨fc', h1, ?_⟩
      rcases h2 with ⟨a, c⟩ | ⟨a, c⟩
      · exact Or.inr ⟨c, a⟩
      · exact Or.inl ⟨c, a⟩⟩
    obtain ⟨p1, p2, p3⟩ := onFace_pf hob
    obtain ⟨q1, q2, q3⟩ := onFace_pf hob'
    obtain ⟨l, l1, l2, _⟩ := exists_be p2 p3
    have hgen := (hwf.attr i b f l _ l1 l2 hob).2 hfree
    have hge : Good faceMaps bes0 g bes0.length ⟨i, b, j, b'⟩ :=
      ⟨hij, q2, p3, q3, p1.trans q1.symm, hgen⟩
    have hmem := (hgood _).2 hge
    have hpr : (i, j) ∈ pairs E := mem_pairs.2 ⟨_, hmem, rfl⟩
    refine ⟨(pairs E).idxOf (i, j), portAt g ((pairs E).idxOf (i, j)) (i, j),
      (E.filter (·.pair == (i, j))).map (infoOf pm subs faceMaps bes0),
      infoOf pm subs faceMaps bes0 ⟨i, b, j, b'⟩, ?_, rfl, rfl, ?_, ?_, hob, hob'⟩
    · simp only [stateOf, List.getElem?_mapIdx, idxOf_getElem? hpr, Option.map_some]
    · simp only [stateOf, List.getElem?_map, idxOf_getElem? hpr, Option.map_some]
    · exact List.mem_map.2 ⟨_, List.mem_filter.2 ⟨hmem, by simp [Ev.pair]⟩, rfl⟩
  · intro p q P Q l l' a b I J f hP hQ hl hl' hI hJ hoI hoJ
    have hL := infos_at hP hl
    have hL' := infos_at hQ hl'
    rw [hL, List.getElem?_map, Option.map_eq_some_iff] at hI
    rw [hL', List.getElem?_map, Option.map_eq_some_iff] at hJ
    obtain ⟨e, he, rfl⟩ := hI
    obtain ⟨e', he', rfl⟩ := hJ
    have hme := List.mem_filter.1 (List.mem_of_getElem? he)
    have hme' := List.mem_filter.1 (List.mem_of_getElem? he')
    have hep : e.pair = (P.mesh1, P.mesh2) := by simpa using hme.2
    have hep' : e'.pair = (Q.mesh1, Q.mesh2) := by simpa using hme'.2
    have ge := (hgood e).1 hme.1
    have ge' := (hgood e').1 hme'.1
    have ei : e.i = P.mesh1 := congrArg Prod.fst hep
    have ei' : e'.i = Q.mesh1 := congrArg Prod.fst hep'
    rw [← ei] at hoI
    rw [← ei'] at hoJ
    have fI := (onFace_pf hoI).1
    have fJ := (onFace_pf hoJ).1
    change pf faceMaps bes0 e.i e.ib = _ at fI
    change pf faceMaps bes0 e'.i e'.ib = _ at fJ
    have hi : e.i < bes0.length := by have := ge.lt; have := ge.jlt; omega
    have hi' : e'.i < bes0.length := by have := ge'.lt; have := ge'.jlt; omega
    have t1 := hgeo.two e.i e.ib e.j e.jb e'.i e'.ib hi ge.ib ge.jlt ge.jb hi' ge'.ib ge.face
      (ge.face.symm.trans (fI.trans fJ.symm))
    have t2 := hgeo.two e.i e.ib e.j e.jb e'.j e'.jb hi ge.ib ge.jlt ge.jb ge'.jlt ge'.jb ge.face
      (ge.face.symm.trans (fI.trans (fJ.symm.trans ge'.face)))
    have hii : e.i = e'.i := by have := ge.lt; have := ge'.lt; omega
    have hbb : e.ib = e'.ib := by
      refine hgeo.inj e.i e.ib e'.ib hi ge.ib (by rw [hii]; exact ge'.ib) ?_
      rw [fI, hii, fJ]
    have hee : e = e' := hgeo.same (m := e.i) (b := e.ib) ge ge'
      (touches_iff.2 (Or.inl ⟨rfl, rfl⟩)) (touches_iff.2 (Or.inl ⟨hii.symm, hbb.symm⟩))
    subst hee
    have hPQ : (P.mesh1, P.mesh2) = (Q.mesh1, Q.mesh2) := hep.symm.trans hep'
    have hpq : p = q := by
      rw [← getElem?_idxOf (nodup_pairs E) (port_at hP).1,
        ← getElem?_idxOf (nodup_pairs E) (port_at hQ).1, hPQ]
    refine ⟨hpq, ?_⟩
    rw [← hPQ] at he'
    exact (List.getElem?_inj (List.getElem?_eq_some_iff.1 he).1 (hnd.filter _)).1 (he.trans he'.symm)
  · intro p P l I hP hl hI
    obtain ⟨e, he, e1, e2, rfl⟩ := info_mem hP hl hI
    have ge := (hgood e).1 he
    have hi : e.i < bes0.length := by have := ge.lt; have := ge.jlt; omega
    have hPa : P.portAttr = attrOf g E e.pair := by
      rw [(port_at hP).2]
      unfold attrOf portAt
      rw [show e.pair = (P.mesh1, P.mesh2) from by rw [← e1, ← e2]; rfl,
        getElem?_idxOf (nodup_pairs E) (port_at hP).1]
    have hat : ∀ m b, e.touches m b = true → attrNow bes0 g E m b = attrOf g E e.pair := by
      intro m b ht
      unfold attrNow
      cases hf : E.find? (·.touches m b) with
      | none => exact absurd ht (by simpa using List.find?_eq_none.1 hf e he)
      | some y =>
        have hy := List.mem_of_find?_eq_some hf
        have ty : y.touches m b = true := by simpa using List.find?_some hf
        rw [hgeo.same ge ((hgood y).1 hy) ht ty]
    rw [← e1, ← e2, hPa]
    refine ⟨⟨tab (nb bes0 e.i) fun b => beNow bes0 g E e.i b, beNow bes0 g E e.i e.ib, ?_, ?_, hat _ _
        (touches_iff.2 (Or.inl ⟨rfl, rfl⟩))⟩,
      ⟨tab (nb bes0 e.j) fun b => beNow bes0 g E e.j b, beNow bes0 g E e.j e.jb, ?_, ?_, hat _ _
        (touches_iff.2 (Or.inr ⟨rfl, rfl⟩))⟩⟩
    · exact rd_eq_ok.1 (bes_row hi)
    · rw [getElem?_tab]; exact if_pos ge.ib
    · exact rd_eq_ok.1 (bes_row ge.jlt)
    · rw [getElem?_tab]; exact if_pos ge.jb
  · intro m b l be hl hb
    obtain ⟨e1, e2, e3⟩ := be0_of hl hb
    have hlen : l.length = nb bes0 m := by unfold nb; simp [hl]
    refine ⟨tab (nb bes0 m) fun b => beNow bes0 g E m b, beNow bes0 g E m b, rd_eq_ok.1 (bes_row e3), by simp [hlen], ?_, ?_, ?_, ?_⟩
    · rw [getElem?_tab]; exact if_pos e2
    · show (be0 bes0 m b).face = _; rw [e1]
    · show (be0 bes0 m b).elem = _; rw [e1]
    · intro hno
      show attrNow bes0 g E m b = _
      rw [attrNow_untouched, e1]
      intro e he
      by_contra hc
      have hpr : e.pair ∈ pairs E := mem_pairs.2 ⟨e, he, rfl⟩
      have := hno ((pairs E).idxOf e.pair) (portAt g ((pairs E).idxOf e.pair) e.pair)
        ((E.filter (·.pair == e.pair)).map (infoOf pm subs faceMaps bes0))
        (infoOf pm subs faceMaps bes0 e)
        (by simp only [stateOf, List.getElem?_mapIdx, idxOf_getElem? hpr, Option.map_some])
        (by simp only [stateOf, List.getElem?_map, idxOf_getElem? hpr, Option.map_some])
        (List.mem_map.2 ⟨e, List.mem_filter.2 ⟨he, by simp⟩, rfl⟩)
      rcases touches_iff.1 (by simpa using hc) with h | h
      · exact this.1 h
      · exact this.2 h

end

/-- C31: the face map sends every face of the submesh to the face of the parent mesh it is. -/
theorem buildFaceMap2D_spec (pm : Parent) (sm : Sub) (φ : Nat → Nat)
    (h : Spec.FaceCorrespondence pm sm φ) :
    buildFaceMap2D pm sm = .ok (tab sm.numFaces fun s => (φ s : Int)) := by
  unfold buildFaceMap2D
  obtain ⟨t, ht, hl, hI⟩ := loop_total (n := sm.elemEdges.length)
    (body := fun i pfids => do
      let peid ← rd sm.elemMap i
      let sel ← rd sm.elemEdges i
      let pel ← rd pm.elemEdges peid
      loop sel.length (fun j pfids => do
        let s ← rd sel j
        let p ← rd pel j
        wr pfids s (p : Int)) pfids)
    (fun i (t : List Int) => t.length = sm.numFaces ∧
      ∀ a, a < i → ∀ sel, sm.elemEdges[a]? = some sel → ∀ s ∈ sel, t[s]? = some (φ s : Int))
    (s := List.replicate sm.numFaces (-1)) ⟨by simp, by intro a ha; omega⟩
    (by
      intro i t hi ⟨hlen, hprev⟩
      obtain ⟨peid, pel, h1, h2, h3⟩ := h.elem i _ (List.getElem?_eq_getElem hi)
      have r1 : rd sm.elemMap i = .ok peid := rd_eq_ok.2 h1
      have r2 : rd pm.elemEdges peid = .ok pel := rd_eq_ok.2 h2
      simp only [r1, r2, rd_of_lt hi, ok_bind]
      obtain ⟨t', ht', hl', h5, h6⟩ := loop_total (n := sm.elemEdges[i].length)
        (body := fun j pfids => do
          let s ← rd sm.elemEdges[i] j
          let p ← rd pel j
          wr pfids s (p : Int))
        (fun j (t' : List Int) => t'.length = sm.numFaces ∧
          (∀ s : Nat, t[s]? = some (φ s : Int) → t'[s]? = some (φ s : Int)) ∧
          (∀ a, a < j → ∀ s, sm.elemEdges[i][a]? = some s → t'[s]? = some (φ s : Int)))
        (s := t) ⟨hlen, fun _ h => h, by intro a ha; omega⟩
        (by
          intro j u hj ⟨k1, k2, k3⟩
          obtain ⟨hs, hp⟩ := h3 j _ (List.getElem?_eq_getElem hj)
          have r3 : rd pel j = .ok (φ sm.elemEdges[i][j]) := rd_eq_ok.2 hp
          simp only [rd_of_lt hj, ok_bind, r3]
          rw [wr_of_lt (by omega)]
          refine ⟨_, rfl, by simp [k1], ?_, ?_⟩
          · intro s hsφ
            rw [List.getElem?_set]
            by_cases he : sm.elemEdges[i][j] = s
            · rw [if_pos he, if_pos (by omega), he]
            · rw [if_neg he]; exact k2 s hsφ
          · intro a ha s hs'
            rw [List.getElem?_set]
            by_cases he : sm.elemEdges[i][j] = s
            · rw [if_pos he, if_pos (by omega), he]
            · rw [if_neg he]
              refine k3 a ?_ s hs'
              by_contra hc
              have : a = j := by omega
              subst this
              rw [List.getElem?_eq_getElem hj] at hs'
              exact he (by simpa using hs'))
      refine ⟨t', ht', hl', ?_⟩
      intro a ha sel hsel s hs
      by_cases hai : a = i
      · subst hai
        rw [List.getElem?_eq_getElem hi] at hsel
        cases hsel
        obtain ⟨j, hj, rfl⟩ := List.getElem_of_mem hs
        exact h6 j hj _ (List.getElem?_eq_getElem hj)
      · exact h5 s (hprev a (by omega) sel hsel s hs))
  rw [ht]
  congr 1
  apply List.ext_getElem?
  intro s
  rw [getElem?_tab]
  by_cases hs : s < sm.numFaces
  · rw [if_pos hs]
    obtain ⟨sel, hsel, hmem⟩ := h.all s hs
    obtain ⟨a, ha, rfl⟩ := List.getElem_of_mem hsel
    exact hI a ha _ (List.getElem?_eq_getElem ha) s hmem
  · rw [if_neg hs, List.getElem?_eq_none (by omega)]

theorem parentFaceToBe_spec (pm : Parent) (hb : ∀ q ∈ pm.bdr, q.1 < pm.faces.length) :
    ∃ t, parentFaceToBe pm = .ok t ∧ t.length = pm.faces.length ∧
      ∀ f, f < pm.faces.length →
        (t[f]? = some (-1) ∧ Spec.Free pm f) ∨
        (∃ (i : Nat) (q : Nat × Int), t[f]? = some (i : Int) ∧ pm.bdr[i]? = some q ∧ q.1 = f) := by
  unfold parentFaceToBe
  obtain ⟨t, ht, hl, hI⟩ := loop_total (n := pm.bdr.length)
    (body := fun i a => do
      let b ← rd pm.bdr i
      wr a b.1 (i : Int))
    (fun k (t : List Int) => t.length = pm.faces.length ∧
      ∀ f, f < pm.faces.length →
        (t[f]? = some (-1) ∧ ∀ q ∈ pm.bdr.take k, q.1 ≠ f) ∨
        (∃ (i : Nat) (q : Nat × Int), t[f]? = some (i : Int) ∧ pm.bdr[i]? = some q ∧ q.1 = f))
    (s := List.replicate pm.faces.length (-1))
    ⟨by simp, by intro f hf; left; simp [hf]⟩
    (by
      intro k t hk ⟨hl, hI⟩
      have hlt := hb _ (List.getElem_mem hk)
      simp only [rd_of_lt hk, ok_bind]
      rw [wr_of_lt (by omega)]
      refine ⟨_, rfl, by simp [hl], ?_⟩
      intro f hf
      rw [List.getElem?_set]
      by_cases he : pm.bdr[k].1 = f
      · rw [if_pos he, if_pos (by omega)]
        right
        exact ⟨k, pm.bdr[k], rfl, List.getElem?_eq_getElem hk, he⟩
      · rw [if_neg he]
        rcases hI f hf with ⟨h1, h2⟩ | h
        · left
          refine ⟨h1, ?_⟩
          intro q hq
          rw [List.take_add_one, List.getElem?_eq_getElem hk] at hq
          rcases List.mem_append.1 hq with hq | hq
          · exact h2 q hq
          · have : q = pm.bdr[k] := by simpa using hq
            rw [this]; exact he
        · exact Or.inr h)
  refine ⟨t, ht, hl, ?_⟩
  intro f hf
  rcases hI f hf with ⟨h1, h2⟩ | h
  · left; rw [List.take_length] at h2; exact ⟨h1, h2⟩
  · exact Or.inr h

/-- C31: boundary elements of a submesh inherit the attribute of the parent's boundary element on
the same face, and get the generated attribute otherwise. -/
theorem buildSubMeshBoundary2D_spec (pm : Parent) (sm : Sub) (φ : Nat → Nat) (g : Int)
    (hmax : arrMax pm.bdrAttributes = .ok g) (hb : ∀ q ∈ pm.bdr, q.1 < pm.faces.length)
    (hbe : ∀ be ∈ sm.bes, be.face < sm.numFaces ∧ φ be.face < pm.faces.length) :
    ∃ bes', buildSubMeshBoundary2D pm sm (tab sm.numFaces fun s => (φ s : Int)) = .ok bes' ∧
      Spec.Inherited pm sm φ g bes' := by
  obtain ⟨ftb, hftb, hfl, hF⟩ := parentFaceToBe_spec pm hb
  unfold buildSubMeshBoundary2D
  simp only [hmax, ok_bind, hftb]
  obtain ⟨t, ht, hl, h1, h2⟩ := loop_total (n := sm.bes.length)
    (body := fun k bes => do
      let be ← rd bes k
      let pf ← rd (tab sm.numFaces fun s => (φ s : Int)) be.face
      let pbeid ← rdI ftb pf
      if pbeid ≠ -1 then do
        let b ← rdI pm.bdr pbeid
        wr bes k { be with attr := b.2 }
      else
        wr bes k { be with attr := g + 1 })
    (fun k (t : List BE) => t.length = sm.bes.length ∧
      (∀ b, k ≤ b → t[b]? = sm.bes[b]?) ∧
      (∀ (b : Nat) be, b < k → sm.bes[b]? = some be → ∃ be', t[b]? = some be' ∧ be'.face = be.face ∧
        be'.elem = be.elem ∧
        ((∃ q ∈ pm.bdr, q.1 = φ be.face ∧ be'.attr = q.2) ∨
          (Spec.Free pm (φ be.face) ∧ be'.attr = g + 1))))
    (s := sm.bes) ⟨rfl, fun _ _ => rfl, by intro b be h; omega⟩
    (by
      intro k t hk ⟨hl, h1, h2⟩
      have htk : rd t k = .ok sm.bes[k] := rd_eq_ok.2 (by
        rw [h1 k (Nat.le_refl k), List.getElem?_eq_getElem hk])
      obtain ⟨hf, hφ⟩ := hbe _ (List.getElem_mem hk)
      simp only [htk, ok_bind, rd_tab hf]
      have step : ∀ a : Int, ((∃ q ∈ pm.bdr, q.1 = φ sm.bes[k].face ∧ a = q.2) ∨
          (Spec.Free pm (φ sm.bes[k].face) ∧ a = g + 1)) →
          ∃ v, wr t k { sm.bes[k] with attr := a } = .ok v ∧ v.length = sm.bes.length ∧
            (∀ b, k + 1 ≤ b → v[b]? = sm.bes[b]?) ∧
            (∀ (b : Nat) be, b < k + 1 → sm.bes[b]? = some be → ∃ be', v[b]? = some be' ∧
              be'.face = be.face ∧ be'.elem = be.elem ∧
              ((∃ q ∈ pm.bdr, q.1 = φ be.face ∧ be'.attr = q.2) ∨
                (Spec.Free pm (φ be.face) ∧ be'.attr = g + 1))) := by
        intro a ha
        rw [wr_of_lt (by omega)]
        refine ⟨_, rfl, by simp [hl], ?_, ?_⟩
        · intro b hb'
          rw [List.getElem?_set, if_neg (by omega)]
          exact h1 b (by omega)
        · intro b be hb' hbe'
          rw [List.getElem?_set]
          by_cases hkb : k = b
          · subst hkb
            rw [if_pos rfl, if_pos (by omega)]
            rw [List.getElem?_eq_getElem hk] at hbe'
            cases hbe'
            exact ⟨_, rfl, rfl, rfl, ha⟩
          · rw [if_neg hkb]
            exact h2 b be (by omega) hbe'
      rcases hF _ hφ with ⟨h3, h4⟩ | ⟨i, q, h3, h4, h5⟩
      · have r : rdI ftb (φ sm.bes[k].face : Int) = .ok (-1) := by
          simp [rdI, rd, h3]
        simp only [r, ok_bind, ne_eq, not_true, if_false]
        exact step _ (Or.inr ⟨h4, rfl⟩)
      · have r : rdI ftb (φ sm.bes[k].face : Int) = .ok (i : Int) := by
          simp [rdI, rd, h3]
        have r2 : rdI pm.bdr (i : Int) = .ok q := by simp [rdI, rd, h4]
        have hne : (i : Int) ≠ -1 := by omega
        simp only [r, r2, ok_bind, if_pos hne]
        exact step _ (Or.inl ⟨q, List.mem_of_getElem? h4, h5, rfl⟩))
  refine ⟨t, ht, hl, ?_⟩
  intro b be hbe'
  exact h2 b be (List.getElem?_eq_some_iff.1 hbe').1 hbe'

/-- The loop of the constructor that prepares the submeshes. -/
theorem prepare2D (pm : Parent) (subs : List Sub) (φ : Nat → Nat → Nat) (g : Int)
    (hmax : arrMax pm.bdrAttributes = .ok g) (hwf : Spec.WellFormed2D pm subs φ g) :
    ∃ r, loop subs.length (fun k (r : List (List Int) × List (List BE)) => do
      let sm ← rd subs k
      let fm ← buildFaceMap2D pm sm
      let bes ← buildSubMeshBoundary2D pm sm fm
      .ok (r.1 ++ [fm], r.2 ++ [bes])) ([], []) = .ok r ∧
      r.1.length = subs.length ∧ r.2.length = subs.length ∧
      ∀ (k : Nat) sm, subs[k]? = some sm →
        r.1[k]? = some (tab sm.numFaces fun s => (φ k s : Int)) ∧
        ∃ bes', r.2[k]? = some bes' ∧ Spec.Inherited pm sm (φ k) g bes' := by
  obtain ⟨r, hr, h1, h2, h3⟩ := loop_total (n := subs.length)
    (body := fun k (r : List (List Int) × List (List BE)) => do
      let sm ← rd subs k
      let fm ← buildFaceMap2D pm sm
      let bes ← buildSubMeshBoundary2D pm sm fm
      .ok (r.1 ++ [fm], r.2 ++ [bes]))
    (fun j r => r.1.length = j ∧ r.2.length = j ∧
      ∀ (k : Nat) sm, k < j → subs[k]? = some sm →
        r.1[k]? = some (tab sm.numFaces fun s => (φ k s : Int)) ∧
        ∃ bes', r.2[k]? = some bes' ∧ Spec.Inherited pm sm (φ k) g bes')
    (s := ([], [])) ⟨rfl, rfl, by intro k sm h; omega⟩
    (by
      intro j r hj ⟨h1, h2, h3⟩
      have hs : subs[j]? = some subs[j] := List.getElem?_eq_getElem hj
      have hcor := hwf.correspondence j _ hs
      obtain ⟨bes', hb1, hb2⟩ := buildSubMeshBoundary2D_spec pm subs[j] (φ j) g hmax
        (fun q hq => (hwf.parent_bdr q hq).1)
        (by
          intro be hbe
          obtain ⟨b, hb, rfl⟩ := List.getElem_of_mem hbe
          obtain ⟨fc, x, h4, h5, _⟩ := hwf.onFace j b _ _ hs (List.getElem?_eq_getElem hb)
          exact ⟨h4, (List.getElem?_eq_some_iff.1 h5).1⟩)
      simp only [rd_of_lt hj, ok_bind, buildFaceMap2D_spec pm _ (φ j) hcor, hb1]
      refine ⟨_, rfl, by simp [h1], by simp [h2], ?_⟩
      intro k sm hk hsm
      by_cases hkj : k = j
      · subst hkj
        rw [hs] at hsm; cases hsm
        constructor
        · simp [h1]
        · exact ⟨bes', by simp [h2], hb2⟩
      · obtain ⟨k1, bes'', k2, k3⟩ := h3 k sm (by omega) hsm
        constructor
        · show (r.1 ++ _)[k]? = _
          rw [List.getElem?_append_left (by omega)]; exact k1
        · refine ⟨bes'', ?_, k3⟩
          show (r.2 ++ _)[k]? = _
          rw [List.getElem?_append_left (by omega)]; exact k2)
  exact ⟨r, hr, h1, h2, fun k sm hsm => h3 k sm (List.getElem?_eq_some_iff.1 hsm).1 hsm⟩

/-- C31: for every two-dimensional parent mesh cut into submeshes, the constructor builds the face
maps, gives every boundary element its inherited or generated attribute and finds exactly the
interfaces. -/
theorem submeshes2D_correct (pm : Parent) (subs : List Sub) (φ : Nat → Nat → Nat) (g : Int)
    (hmax : arrMax pm.bdrAttributes = .ok g) (hg : 0 ≤ g)
    (hwf : Spec.WellFormed2D pm subs φ g) :
    ∃ st faceMaps bes, buildSubMeshes2D pm subs = .ok (st, faceMaps) ∧
      Spec.Correct pm subs faceMaps bes g st ∧
      ∀ (k : Nat) sm, subs[k]? = some sm →
        faceMaps[k]? = some (tab sm.numFaces fun s => (φ k s : Int)) ∧
        ∃ bes', bes[k]? = some bes' ∧ Spec.Inherited pm sm (φ k) g bes' := by
  obtain ⟨⟨fms, bes⟩, hr, h1, h2, h3⟩ := prepare2D pm subs φ g hmax hwf
  simp only at h1 h2 h3
  -- boundary elements and faces in terms of the submeshes
  have back : ∀ (m b : Nat) l be, bes[m]? = some l → l[b]? = some be →
      ∃ sm be0, subs[m]? = some sm ∧ sm.bes[b]? = some be0 ∧ be.face = be0.face ∧
        be.elem = be0.elem ∧
        ((∃ q ∈ pm.bdr, q.1 = φ m be0.face ∧ be.attr = q.2) ∨
          (Spec.Free pm (φ m be0.face) ∧ be.attr = g + 1)) := by
    intro m b l be hl hb
    have hm : m < subs.length := h2 ▸ (List.getElem?_eq_some_iff.1 hl).1
    obtain ⟨_, bes', hb', hlen, hI⟩ := h3 m _ (List.getElem?_eq_getElem hm)
    rw [hl] at hb'; cases hb'
    have hbl : b < subs[m].bes.length := hlen ▸ (List.getElem?_eq_some_iff.1 hb).1
    obtain ⟨be', k1, k2, k3, k4⟩ := hI b _ (List.getElem?_eq_getElem hbl)
    rw [hb] at k1; cases k1
    exact ⟨_, _, List.getElem?_eq_getElem hm, List.getElem?_eq_getElem hbl, k2, k3, k4⟩
  have onf : ∀ m b f, Spec.OnFace fms bes m b f ↔
      ∃ sm be, subs[m]? = some sm ∧ sm.bes[b]? = some be ∧ φ m be.face = f := by
    intro m b f
    constructor
    · rintro ⟨l, be, fm, k1, k2, k3, k4⟩
      obtain ⟨sm, be0', m1, m2, m3, _⟩ := back m b l be k1 k2
      refine ⟨sm, be0', m1, m2, ?_⟩
      obtain ⟨e1, _⟩ := h3 m sm m1
      rw [k3] at e1; cases e1
      rw [getElem?_tab, m3] at k4
      split at k4
      · simpa using k4
      · cases k4
    · rintro ⟨sm, be, k1, k2, k3⟩
      obtain ⟨e1, bes', e2, _, e3⟩ := h3 m sm k1
      obtain ⟨be', e4, e5, _⟩ := e3 b be k2
      obtain ⟨fc, x, e6, _⟩ := hwf.onFace m b sm be k1 k2
      refine ⟨bes', be', _, e2, e4, e1, ?_⟩
      rw [getElem?_tab, e5, if_pos e6, k3]
  have hWF : Spec.WellFormed pm subs fms bes g := by
    refine ⟨h1, h2, hwf.disjoint, ?_, ?_, ?_, ?_⟩
    · intro m b l be hl hb
      obtain ⟨sm, be0', m1, m2, m3, m4, _⟩ := back m b l be hl hb
      obtain ⟨fc, x, e6, e7, e8, e9⟩ := hwf.onFace m b sm be0' m1 m2
      exact ⟨φ m be0'.face, fc, sm, x, (onf _ _ _).2 ⟨sm, be0', m1, m2, rfl⟩, e7, m1,
        m4 ▸ e8, e9⟩
    · intro m b b' f k1 k2
      obtain ⟨sm, be, m1, m2, m3⟩ := (onf _ _ _).1 k1
      obtain ⟨sm', be', n1, n2, n3⟩ := (onf _ _ _).1 k2
      rw [m1] at n1; cases n1
      exact hwf.onceFace m b b' sm be be' m1 m2 n2 (m3.trans n3.symm)
    · intro f i j hb
      obtain ⟨sm, be, m1, m2, m3⟩ := hwf.covered f i j hb
      obtain ⟨b, hb', rfl⟩ := List.getElem_of_mem m2
      exact ⟨b, (onf _ _ _).2 ⟨sm, _, m1, List.getElem?_eq_getElem hb', m3⟩⟩
    · intro m b f l be hl hb ho
      obtain ⟨sm, be0', m1, m2, m3, m4, m5⟩ := back m b l be hl hb
      obtain ⟨sm', be', n1, n2, n3⟩ := (onf _ _ _).1 ho
      rw [m1] at n1; cases n1
      rw [m2] at n2; cases n2
      rw [n3] at m5
      constructor
      · intro ha
        rcases m5 with ⟨q, hq, hqf, hqa⟩ | ⟨h, _⟩
        · have := (hwf.parent_bdr q hq).2
          omega
        · exact h
      · intro hf
        rcases m5 with ⟨q, hq, hqf, _⟩ | ⟨_, h⟩
        · exact absurd hqf (hf q hq)
        · exact h
  obtain ⟨st, hst, hC⟩ := interfaces_correct hWF hmax hg
  refine ⟨st, fms, bes, ?_, hC, h3⟩
  unfold buildSubMeshes2D
  rw [hr]
  simp only [ok_bind, hst]

/-! Non-vacuity: a strip of three triangles-like cells `0 | 1 | 2` with one face between
neighbours, each cell its own submesh. -/

/-- Parent mesh: faces 0 (cells 0,1), 1 (cells 1,2), boundary faces 2, 3, 4. -/
def demoParent : Parent :=
  { faces := [⟨0, 1, 64, 129⟩, ⟨2, 1, 0, 65⟩, ⟨0, -1, 0, -1⟩, ⟨1, -1, 0, -1⟩, ⟨2, -1, 64, -1⟩]
    elemEdges := [[0, 2], [0, 1, 3], [1, 4]]
    bdr := [(2, 1), (3, 2), (4, 1)]
    bdrAttributes := [1, 2] }

def demoSubs : List Sub :=
  [⟨[[0, 1]], [0], 2, [⟨0, 7, 0⟩, ⟨1, 7, 0⟩]⟩,
   ⟨[[0, 1, 2]], [1], 3, [⟨2, 7, 0⟩, ⟨1, 7, 0⟩, ⟨0, 7, 0⟩]⟩,
   ⟨[[0, 1]], [2], 2, [⟨1, 7, 0⟩, ⟨0, 7, 0⟩]⟩]

/-- The result on the strip: two ports, one interface each, and in the second the side of submesh 1
is the second element of the face. -/
example : (buildSubMeshes2D demoParent demoSubs).map (fun r => (r.1.ports, r.1.infos)) =
    .ok ([⟨4, 0, 1, 4, 4⟩, ⟨5, 1, 2, 5, 5⟩], [[⟨0, 2, 64, 129⟩], [⟨1, 1, 65, 0⟩]]) := by decide

def demoPhi (k s : Nat) : Nat := ([[0, 2], [0, 1, 3], [1, 4]].getD k []).getD s 0

theorem demo_owns {k : Nat} {e : Int} (h : Spec.Owns demoSubs k e) : e = k ∧ k < 3 := by
  obtain ⟨s, hs, x, hx, rfl⟩ := h
  have hk : k < 3 := (List.getElem?_eq_some_iff.1 hs).1
  match k, hk with
  | 0, _ => simp [demoSubs] at hs; subst hs; simpa using hx
  | 1, _ => simp [demoSubs] at hs; subst hs; simpa using hx
  | 2, _ => simp [demoSubs] at hs; subst hs; simp at hx; simp [hx]

/-- The strip meets the hypotheses of `submeshes2D_correct`. -/
theorem demo_wellFormed : Spec.WellFormed2D demoParent demoSubs demoPhi 2 := by
  have own : ∀ k e, Spec.Owns demoSubs k e → e = k ∧ k < 3 := fun _ _ => demo_owns
  refine ⟨?_, by decide, ?_, ?_, ?_, ?_⟩
  · intro k sm h
    have hk : k < 3 := (List.getElem?_eq_some_iff.1 h).1
    match k, hk with
    | 0, _ =>
      simp [demoSubs] at h; subst h
      refine ⟨?_, ?_⟩
      · intro i sel hi
        match i with
        | 0 =>
          cases hi
          refine ⟨0, [0, 2], rfl, rfl, ?_⟩
          intro j s hj
          match j with
          | 0 => cases hj; decide
          | 1 => cases hj; decide
          | j + 2 => simp at hj
        | i + 1 => simp at hi
      · intro s hs
        exact ⟨[0, 1], by simp, by simp at hs; simp; omega⟩
    | 1, _ =>
      simp [demoSubs] at h; subst h
      refine ⟨?_, ?_⟩
      · intro i sel hi
        match i with
        | 0 =>
          cases hi
          refine ⟨1, [0, 1, 3], rfl, rfl, ?_⟩
          intro j s hj
          match j with
          | 0 => cases hj; decide
          | 1 => cases hj; decide
          | 2 => cases hj; decide
          | j + 3 => simp at hj
        | i + 1 => simp at hi
      · intro s hs
        exact ⟨[0, 1, 2], by simp, by simp at hs; simp; omega⟩
    | 2, _ =>
      simp [demoSubs] at h; subst h
      refine ⟨?_, ?_⟩
      · intro i sel hi
        match i with
        | 0 =>
          cases hi
          refine ⟨2, [1, 4], rfl, rfl, ?_⟩
          intro j s hj
          match j with
          | 0 => cases hj; decide
          | 1 => cases hj; decide
          | j + 2 => simp at hj
        | i + 1 => simp at hi
      · intro s hs
        exact ⟨[0, 1], by simp, by simp at hs; simp; omega⟩
  · intro e k k' h1 h2
    have := own _ _ h1; have := own _ _ h2; omega
  · intro m b sm be hm hb
    have hk : m < 3 := (List.getElem?_eq_some_iff.1 hm).1
    match m, hk with
    | 0, _ =>
      simp [demoSubs] at hm; subst hm
      match b with
      | 0 =>
        cases hb
        exact ⟨⟨0, 1, 64, 129⟩, 0, by decide, rfl, rfl, Or.inl ⟨rfl, fun h => by simpa using own _ _ h⟩⟩
      | 1 =>
        cases hb
        exact ⟨⟨0, -1, 0, -1⟩, 0, by decide, rfl, rfl, Or.inl ⟨rfl, fun h => by simpa using own _ _ h⟩⟩
      | b + 2 => simp at hb
    | 1, _ =>
      simp [demoSubs] at hm; subst hm
      match b with
      | 0 =>
        cases hb
        exact ⟨⟨1, -1, 0, -1⟩, 1, by decide, rfl, rfl, Or.inl ⟨rfl, fun h => by simpa using own _ _ h⟩⟩
      | 1 =>
        cases hb
        exact ⟨⟨2, 1, 0, 65⟩, 1, by decide, rfl, rfl, Or.inr ⟨rfl, fun h => by simpa using own _ _ h⟩⟩
      | 2 =>
        cases hb
        exact ⟨⟨0, 1, 64, 129⟩, 1, by decide, rfl, rfl, Or.inr ⟨rfl, fun h => by simpa using own _ _ h⟩⟩
      | b + 3 => simp at hb
    | 2, _ =>
      simp [demoSubs] at hm; subst hm
      match b with
      | 0 =>
        cases hb
        exact ⟨⟨2, -1, 64, -1⟩, 2, by decide, rfl, rfl, Or.inl ⟨rfl, fun h => by simpa using own _ _ h⟩⟩
      | 1 =>
        cases hb
        exact ⟨⟨2, 1, 0, 65⟩, 2, by decide, rfl, rfl, Or.inl ⟨rfl, fun h => by simpa using own _ _ h⟩⟩
      | b + 2 => simp at hb
  · intro m b b' sm be be' hm hb hb' he
    have hk : m < 3 := (List.getElem?_eq_some_iff.1 hm).1
    match m, hk with
    | 0, _ =>
      simp [demoSubs] at hm; subst hm
      match b, b' with
      | 0, 0 => rfl
      | 0, 1 => cases hb; cases hb'; revert he; decide
      | 1, 0 => cases hb; cases hb'; revert he; decide
      | 1, 1 => rfl
      | b + 2, _ => simp at hb
      | _, b' + 2 => simp at hb'
    | 1, _ =>
      simp [demoSubs] at hm; subst hm
      match b, b' with
      | 0, 0 => rfl
      | 0, 1 => cases hb; cases hb'; revert he; decide
      | 0, 2 => cases hb; cases hb'; revert he; decide
      | 1, 0 => cases hb; cases hb'; revert he; decide
      | 1, 1 => rfl
      | 1, 2 => cases hb; cases hb'; revert he; decide
      | 2, 0 => cases hb; cases hb'; revert he; decide
      | 2, 1 => cases hb; cases hb'; revert he; decide
      | 2, 2 => rfl
      | b + 3, _ => simp at hb
      | _, b' + 3 => simp at hb'
    | 2, _ =>
      simp [demoSubs] at hm; subst hm
      match b, b' with
      | 0, 0 => rfl
      | 0, 1 => cases hb; cases hb'; revert he; decide
      | 1, 0 => cases hb; cases hb'; revert he; decide
      | 1, 1 => rfl
      | b + 2, _ => simp at hb
      | _, b' + 2 => simp at hb'
  · rintro f i j ⟨hne, fc, hf, h⟩
    have hfl : f < 5 := (List.getElem?_eq_some_iff.1 hf).1
    match f, hfl with
    | 0, _ =>
      cases hf
      rcases h with ⟨h1, h2⟩ | ⟨h1, h2⟩
      · have : i = 0 := by have := own _ _ h1; simp at this; omega
        subst this; exact ⟨_, ⟨0, 7, 0⟩, rfl, by simp, rfl⟩
      · have : i = 1 := by have := own _ _ h1; simp at this; omega
        subst this; exact ⟨_, ⟨0, 7, 0⟩, rfl, by simp, rfl⟩
    | 1, _ =>
      cases hf
      rcases h with ⟨h1, h2⟩ | ⟨h1, h2⟩
      · have : i = 2 := by have := own _ _ h1; simp at this; omega
        subst this; exact ⟨_, ⟨0, 7, 0⟩, rfl, by simp, rfl⟩
      · have : i = 1 := by have := own _ _ h1; simp at this; omega
        subst this; exact ⟨_, ⟨1, 7, 0⟩, rfl, by simp, rfl⟩
    | 2, _ =>
      cases hf
      rcases h with ⟨h1, h2⟩ | ⟨h1, h2⟩
      · have := own _ _ h2; simp at this
      · have := own _ _ h1; simp at this
    | 3, _ =>
      cases hf
      rcases h with ⟨h1, h2⟩ | ⟨h1, h2⟩
      · have := own _ _ h2; simp at this
      · have := own _ _ h1; simp at this
    | 4, _ =>
      cases hf
      rcases h with ⟨h1, h2⟩ | ⟨h1, h2⟩
      · have := own _ _ h2; simp at this
      · have := own _ _ h1; simp at this

/-- C31, limitation of the code: if the parent mesh has a boundary element on a face between two
submeshes, the two submeshes are not coupled there.  Same strip with a boundary element on face 0:
only the port of submeshes 1 and 2 is left. -/
theorem covered_face_not_coupled :
    (buildSubMeshes2D { demoParent with bdr := [(2, 1), (3, 2), (4, 1), (0, 2)] } demoSubs).map
      (fun r => (r.1.ports, r.1.infos)) = .ok ([⟨4, 1, 2, 4, 4⟩], [[⟨1, 1, 65, 0⟩]]) := by decide

end Verif.SubMesh
