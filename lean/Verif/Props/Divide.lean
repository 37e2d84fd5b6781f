import Verif.Proofs.DivideReal
import Verif.Props.SubMesh

/-!
# C111: dividing a mesh does not change the discrete problem
-/

namespace Verif.Divide

open Verif Verif.LinAlg Verif.LinAlg.Spec Verif.SubMesh Verif.SubMesh.Spec Finset Spec
open Verif.InterfaceForm (Space FMesh Integ Tr MatArr side)
open Verif.InterfaceForm.Spec (dofsOf sizeIn MatsOk mget formTerm matOf)
open Verif.RomAssembly (BForm loop_collect weakTerm domainMatrix domainMatrix_spec domainStep fomArray
  fomMats fomMixed bdrMarkers_ok)
open Verif.Boundary (BC)

variable {R δ F : Type} [CommRing R] {pm : Parent} {subs : List Sub} {φ : Nat → Nat → Nat} {g : Int}
variable {W : Whole R} {ints : List (ITr δ → Mat R)} {views : List (View R δ)}
variable {fnfi : List (Option (Integ R δ))} {st : IState} {fms : List (List Int)}
variable {bes : List (List BE)}

/-- The forms of the subdomains. -/
theorem forms_spec (D : Division pm subs φ g) (hF : Fits W pm subs φ views ints fnfi) :
    ∃ fs, forms views ints = .ok fs ∧ fs.length = subs.length ∧
      ∀ (k : Nat) sm v, subs[k]? = some sm → views[k]? = some v → ∃ s, fs[k]? = some ⟨s, v.bel⟩ ∧
        (s.h = v.test.vsize ∧ s.w = v.trial.vsize) ∧
        ∀ i e i' e' a b, sm.elemMap[i]? = some e → sm.elemMap[i']? = some e' → a < W.nt e →
          b < W.ns e' → s.get (pos v.test i a) (pos v.trial i' b) =
            (if e = e' then W.vol e a b else 0) +
            ∑ s ∈ range sm.numFaces, innerTerm v ints s (pos v.test i a) (pos v.trial i' b) := by
  unfold forms
  obtain ⟨fs, e, hl, h⟩ := loop_collect (n := views.length)
    (body := fun k (acc : List (BForm R)) => do
      let v ← rd views k
      let s ← base v ints
      return acc ++ [⟨s, v.bel⟩])
    (fun k f => ∀ sm v, subs[k]? = some sm → views[k]? = some v → ∃ s, f = ⟨s, v.bel⟩ ∧
        (s.h = v.test.vsize ∧ s.w = v.trial.vsize) ∧
        ∀ i e i' e' a b, sm.elemMap[i]? = some e → sm.elemMap[i']? = some e' → a < W.nt e →
          b < W.ns e' → s.get (pos v.test i a) (pos v.trial i' b) =
            (if e = e' then W.vol e a b else 0) +
            ∑ s ∈ range sm.numFaces, innerTerm v ints s (pos v.test i a) (pos v.trial i' b)) (by
      intro k acc hk
      have hv := List.getElem?_eq_getElem hk
      have hlt : k < subs.length := by rw [← hF.count]; exact hk
      have hs := List.getElem?_eq_getElem hlt
      have V := hF.view _ _ _ hs hv
      obtain ⟨s, e1, h1, h2⟩ := base_spec D hs V
      refine ⟨⟨s, views[k].bel⟩, ?_, ?_⟩
      · rw [rd_eq_ok.2 hv, ok_bind, e1, ok_bind]; rfl
      · intro sm v hsm hv'
        rw [hs] at hsm; cases hsm
        rw [hv] at hv'; cases hv'
        refine ⟨s, rfl, h1, ?_⟩
        intro i e i' e' a b hi hi' ha hb
        have := congrFun (congrFun h2 (pos views[k].test i a)) (pos views[k].trial i' b)
        rw [this, Pi.add_apply, Pi.add_apply, Finset.sum_apply, Finset.sum_apply, Finset.sum_apply,
          Finset.sum_apply, elem_sum D hs V hi hi' ha hb])
  refine ⟨fs, e, hl.trans hF.count, ?_⟩
  intro k sm v hs hv
  obtain ⟨f, hf, h1⟩ := h k (List.getElem?_eq_some_iff.1 hv).1
  obtain ⟨s, rfl, h2⟩ := h1 sm v hs hv
  exact ⟨s, hf, h2⟩

/-- The contributions of the faces inside submesh `k` and of those between submeshes are all
contributions of faces. -/
theorem face_split (D : Division pm subs φ g) {k k' i i' e e' : Nat} (hi : At subs k i e)
    (hi' : At subs k' i' e') (a b : Nat) : by
      classical exact
      (if k = k' then ∑ f ∈ range pm.faces.length,
        (if InsideAt pm subs k f then faceSum W pm e a e' b f else 0) else 0) +
      ∑ f ∈ range pm.faces.length, (if Split pm subs f then faceSum W pm e a e' b f else 0) =
      ∑ f ∈ range pm.faces.length, faceSum W pm e a e' b f := by
  classical
  have zero : ∀ f, ¬ Split pm subs f → ¬ (k = k' ∧ InsideAt pm subs k f) →
      faceSum W pm e a e' b f = 0 := by
    intro f h1 h2
    unfold faceSum
    cases hf : pm.faces[f]? with
    | none => rfl
    | some fc =>
      dsimp only
      by_cases hneg : fc.e1 < 0
      · rw [if_pos hneg]
      rw [if_neg hneg]
      have hin : ∃ m, Inside subs m fc := by
        by_contra hc
        exact h1 ⟨fc, hf, by omega, hc⟩
      obtain ⟨m, hm⟩ := hin
      refine sum_eq_zero fun I _ => sum_eq_zero fun J _ => ?_
      rw [if_neg]
      rintro ⟨q1, q2⟩
      have own : ∀ I, Owns subs m (elemAt fc I) := by
        intro I; cases I
        · exact hm.2.1
        · exact hm.2.2
      have o1 := own I
      have o2 := own J
      rw [q1] at o1
      rw [q2] at o2
      have w1 := D.wf.disjoint _ _ _ o1 hi.owns
      have w2 := D.wf.disjoint _ _ _ o2 hi'.owns
      subst w1
      exact h2 ⟨w2, fc, hf, hm⟩
  have excl : ∀ f, InsideAt pm subs k f → ¬ Split pm subs f := by
    rintro f ⟨fc, h1, h2⟩ ⟨fc', h3, _, h4⟩
    rw [h1] at h3; cases h3
    exact h4 ⟨k, h2⟩
  by_cases hkk : k = k'
  · rw [if_pos hkk, ← sum_add_distrib]
    refine sum_congr rfl fun f _ => ?_
    by_cases h1 : InsideAt pm subs k f
    · rw [if_pos h1, if_neg (excl f h1), add_zero]
    · rw [if_neg h1, zero_add]
      by_cases h2 : Split pm subs f
      · rw [if_pos h2]
      · rw [if_neg h2, zero f h2 fun h => h1 h.2]
  · rw [if_neg hkk, zero_add]
    refine sum_congr rfl fun f _ => ?_
    by_cases h2 : Split pm subs f
    · rw [if_pos h2]
    · rw [if_neg h2, zero f h2 fun h => hkk h.1]

/-- C111: on every division of a mesh the program assembles the matrix of the undivided mesh: the entry
for two degrees of freedom depends only on the elements of the parent mesh they belong to. -/
theorem operator_spec (mixed : Bool) {bc : BC F} (D : Division pm subs φ g) (hbc : Conditions pm bc)
    (hF : Fits W pm subs φ views ints fnfi) :
    ∃ M, operator mixed bc pm subs views ints fnfi = .ok M ∧
      MatsOk M subs.length (sizeIn (views.map (·.test))) (sizeIn (views.map (·.trial))) ∧
      ∀ (k i e k' i' e' a b : Nat) sm v sm' v', subs[k]? = some sm → views[k]? = some v →
        sm.elemMap[i]? = some e → subs[k']? = some sm' → views[k']? = some v' →
        sm'.elemMap[i']? = some e' → a < W.nt e → b < W.ns e' →
        mget M k k' (pos v.test i a) (pos v'.trial i' b) = entry W pm bc e a e' b := by
  classical
  obtain ⟨st, fms, bes, hst, hC, hE⟩ := submeshes2D_correct pm subs φ g D.max D.pos D.wf
  have T : Result pm subs φ g st fms bes := ⟨hC, hE⟩
  obtain ⟨mesh, hmesh, hml, hm⟩ := attributes_spec D T
  have hpos : ∀ (k : Nat) sm (l' : List BE), subs[k]? = some sm → l'.length = sm.bes.length →
      (∀ (b : Nat) be, sm.bes[b]? = some be → ∃ be', l'[b]? = some be' ∧
        ((∃ q ∈ pm.bdr, q.1 = φ k be.face ∧ be'.attr = q.2) ∨
          (Free pm (φ k be.face) ∧ g < be'.attr))) → ∀ a ∈ l'.map (fun b => b.attr), 0 < a := by
    intro k sm l' hk hl h a ha
    obtain ⟨be', hbe', rfl⟩ := List.mem_map.1 ha
    obtain ⟨b, hb⟩ := List.mem_iff_getElem?.1 hbe'
    have hlt : b < sm.bes.length := by rw [← hl]; exact (List.getElem?_eq_some_iff.1 hb).1
    obtain ⟨be2, h1, h2⟩ := h b _ (List.getElem?_eq_getElem hlt)
    rw [hb] at h1; cases h1
    rcases h2 with ⟨q, hq, _, hqa⟩ | ⟨_, h2⟩
    · rw [hqa]; exact D.bdrPos q hq
    · have := D.pos; omega
  obtain ⟨mks, hmks⟩ := bdrMarkers_total (battrs := bc.attrs) (mesh := mesh) (by
      intro x hx
      obtain ⟨k, hk⟩ := List.mem_iff_getElem?.1 hx
      have hlt : k < subs.length := by rw [← hml]; exact (List.getElem?_eq_some_iff.1 hk).1
      have hs := List.getElem?_eq_getElem hlt
      obtain ⟨l', u, h1, h2, h3, _⟩ := hm k _ hs
      rw [hk] at h1; cases h1
      have hne : 0 < l'.length := by rw [h3]; exact List.length_pos_of_ne_nil (D.bdrSome k _ hs)
      intro hu
      have := (h2.complete _).2 (List.mem_map.2 ⟨l'[0], List.getElem_mem hne, rfl⟩)
      dsimp only at hu
      rw [hu] at this
      exact absurd this (by simp)) (by
      intro a ha
      obtain ⟨q, hq, rfl⟩ := hbc.occur a ha
      refine ⟨D.bdrPos q hq, ?_⟩
      have hfc := List.getElem?_eq_getElem (D.wf.parent_bdr q hq).1
      obtain ⟨⟨k, hown⟩, _⟩ := D.owned _ _ hfc
      obtain ⟨sm, hs, _⟩ := id hown
      obtain ⟨be, hbe, hbf⟩ := D.bdrAll q hq k sm _ hs hfc hown
      obtain ⟨b, hb⟩ := List.mem_iff_getElem?.1 hbe
      obtain ⟨l', u, h1, h2, _, h4⟩ := hm k sm hs
      obtain ⟨be', h5, h6⟩ := h4 b be hb
      refine ⟨_, List.mem_of_getElem? h1, (h2.complete _).2 (List.mem_map.2 ⟨be', List.mem_of_getElem? h5, ?_⟩)⟩
      rcases h6 with ⟨q', hq', g1, g2⟩ | ⟨hfree, _⟩
      · rw [g2, bdr_unique D hq' hq (g1.trans hbf)]
      · exact absurd hbf.symm (hfree q hq))
  obtain ⟨mx, hmx, hmk⟩ := bdrMarkers_ok hmks
  obtain ⟨fs, hfs, hfl, hf⟩ := forms_spec D hF
  have hvl : ∀ k, k < subs.length → k < views.length := by intro k hk; rw [hF.count]; exact hk
  -- the array before the interfaces
  obtain ⟨ds, e, hdl, hds⟩ := loop_collect (n := fs.length) (body := domainStep bc mks mesh fs)
    (fun k s => ∀ sm v, subs[k]? = some sm → views[k]? = some v →
      (s.h = v.test.vsize ∧ s.w = v.trial.vsize) ∧
      ∀ i e i' e' a b, sm.elemMap[i]? = some e → sm.elemMap[i']? = some e' → a < W.nt e →
          b < W.ns e' → s.get (pos v.test i a) (pos v.trial i' b) =
            ((if e = e' then W.vol e a b else 0) +
            ∑ f ∈ range pm.faces.length, if InsideAt pm subs k f then faceSum W pm e a e' b f else 0) +
            (pm.bdr.map (bdrSum W pm bc e a e' b)).sum) (by
      intro k acc hk
      rw [hfl] at hk
      have hs := List.getElem?_eq_getElem hk
      have hkv := hvl k hk
      have hv := List.getElem?_eq_getElem hkv
      have V := hF.view _ _ _ hs hv
      obtain ⟨s0, f1, f2, f3⟩ := hf k _ _ hs hv
      obtain ⟨l', u, m1, m2, m3, m4⟩ := hm k _ hs
      have hBF := bform_ok D hs V f2.1 f2.2
      obtain ⟨s, s1, s2, s3⟩ := domainMatrix_spec (e := (l'.map fun b => b.attr, u)) (f := ⟨s0, views[k].bel⟩)
        hbc.wf hmk (hmx _ (List.mem_of_getElem? m1)) hbc.nodup m2 (hpos k _ l' hs m3 m4)
        (by rw [List.length_map, m3]; exact hBF)
      refine ⟨s, ?_, ?_⟩
      · unfold domainStep
        rw [rd_eq_ok.2 m1, ok_bind, rd_eq_ok.2 f1, ok_bind, s1, ok_bind]; rfl
      · intro sm v hsm hv'
        rw [hs] at hsm; cases hsm
        rw [hv] at hv'; cases hv'
        refine ⟨⟨s2.1.trans f2.1, s2.2.trans f2.2⟩, ?_⟩
        intro i e i' e' a b hi hi' ha hb
        have := congrFun (congrFun s3 (pos views[k].test i a)) (pos views[k].trial i' b)
        rw [this, Pi.add_apply, Pi.add_apply, f3 i e i' e' a b hi hi' ha hb,
          weak_sum D T hbc hs V m3 m4 hi hi' ha hb, inner_sum D hs V hi hi' ha hb])
  set mats : MatArr R := ⟨fs.length, fs.length, fun i j => if i = j then ds[i]? else
    some ⟨((views.map (fun v : View R δ => v.test))[i]?.getD (⟨0, []⟩ : Space)).vsize, ((views.map (fun v : View R δ => v.trial))[j]?.getD (⟨0, []⟩ : Space)).vsize, []⟩⟩
    with hmats
  have harr : fomArray bc mks mesh fs (itf views fnfi st).test (itf views fnfi st).trial = .ok mats := by
    unfold fomArray
    rw [e, ok_bind]; rfl
  have hMok : MatsOk mats subs.length (sizeIn (views.map (·.test))) (sizeIn (views.map (·.trial))) := by
    refine ⟨hfl, hfl, ?_⟩
    intro x y hx hy
    rw [hmats]
    dsimp only
    by_cases hxy : x = y
    · subst hxy
      rw [if_pos rfl]
      obtain ⟨s, z1, z2⟩ := hds x (by rw [hfl]; exact hx)
      have hv := List.getElem?_eq_getElem (hvl x hx)
      obtain ⟨z3, _⟩ := z2 _ _ (List.getElem?_eq_getElem hx) hv
      refine ⟨s, z1, ?_, ?_⟩
      · unfold sizeIn; rw [List.getElem?_map, hv]; exact z3.1
      · unfold sizeIn; rw [List.getElem?_map, hv]; exact z3.2
    · rw [if_neg hxy]
      exact ⟨_, rfl, rfl, rfl⟩
  obtain ⟨hFO, hIO⟩ := itf_ok D T hF
  have hlen : (itf views fnfi st).meshes.length = subs.length := by
    show (views.map _).length = _
    rw [List.length_map, hF.count]
  have hMok' : MatsOk mats (itf views fnfi st).meshes.length (sizeIn (itf views fnfi st).test)
      (sizeIn (itf views fnfi st).trial) := by rw [hlen]; exact hMok
  obtain ⟨M, e1, k1, k2⟩ := InterfaceForm.assemble_spec hFO hMok' hIO
  obtain ⟨M', e2, _⟩ := InterfaceForm.assembleMixed_spec hFO hMok' hIO
  have hMM : M' = M := by
    unfold InterfaceForm.Form.assemble at e1
    simp only [bind_eq_ok] at e1
    obtain ⟨_, _, _, _, _, _, e1⟩ := e1
    rw [e2] at e1; exact Except.ok.inj e1
  subst hMM
  refine ⟨M', ?_, by rw [hlen] at k1; exact k1, ?_⟩
  · unfold operator
    rw [hst, ok_bind]
    dsimp only
    rw [hmesh, ok_bind, hmks, ok_bind, hfs, ok_bind]
    cases mixed
    · simp only [Bool.false_eq_true, if_false]
      unfold fomMats
      rw [harr, ok_bind, e1]
    · simp only [if_true]
      unfold fomMixed
      rw [harr, ok_bind, e2]
  · intro k i ee k' i' ee' a b sm v sm' v' hk hv hi hk' hv' hi' ha hb
    rw [k2, form_sum D T hF hk hk' hv hv' hi hi' ha hb]
    have A : At subs k i ee := ⟨sm, hk, hi⟩
    have A' : At subs k' i' ee' := ⟨sm', hk', hi'⟩
    have hsplit := face_split (W := W) D A A' a b
    unfold entry
    rw [← hsplit]
    have hdiag : mget mats k k' (pos v.test i a) (pos v'.trial i' b) = if k = k' then
        ((if ee = ee' then W.vol ee a b else 0) +
            ∑ f ∈ range pm.faces.length, if InsideAt pm subs k f then faceSum W pm ee a ee' b f else 0) +
            (pm.bdr.map (bdrSum W pm bc ee a ee' b)).sum else 0 := by
      unfold mget
      rw [hmats]
      dsimp only
      by_cases hkk : k = k'
      · subst hkk
        rw [hk] at hk'; cases hk'
        rw [hv] at hv'; cases hv'
        rw [if_pos rfl, if_pos rfl]
        obtain ⟨s, z1, z2⟩ := hds k (by rw [hfl]; exact (List.getElem?_eq_some_iff.1 hk).1)
        rw [z1]
        exact (z2 _ _ hk hv).2 i ee i' ee' a b hi hi' ha hb
      · rw [if_neg hkk, if_neg hkk]
        rfl
    rw [hdiag]
    by_cases hkk : k = k'
    · rw [if_pos hkk, if_pos hkk]
      ring
    · rw [if_neg hkk, if_neg hkk]
      have hne : ee ≠ ee' := fun h => hkk ((At.eq_iff D A A').2 h).1
      rw [if_neg hne]
      have : (pm.bdr.map (bdrSum W pm bc ee a ee' b)).sum = 0 := by
        apply List.sum_eq_zero
        intro x hx
        obtain ⟨q, _, rfl⟩ := List.mem_map.1 hx
        unfold bdrSum
        rw [if_neg fun h => hne h.1]
      rw [this]
      ring

/-- C111: two divisions of the same mesh give the same matrix: degrees of freedom of the same elements
are coupled by the same entries. -/
theorem divisions_agree (mixed : Bool) {bc : BC F} {subs₂ : List Sub} {φ₂ : Nat → Nat → Nat}
    {views₂ : List (View R δ)} (hbc : Conditions pm bc)
    (D : Division pm subs φ g) (hF : Fits W pm subs φ views ints fnfi)
    (D₂ : Division pm subs₂ φ₂ g) (hF₂ : Fits W pm subs₂ φ₂ views₂ ints fnfi) :
    ∃ M M₂, operator mixed bc pm subs views ints fnfi = .ok M ∧
      operator mixed bc pm subs₂ views₂ ints fnfi = .ok M₂ ∧
      ∀ (k i e k' i' e' l j l' j' a b : Nat) sm v sm' v' sm₂ v₂ sm₂' v₂',
        subs[k]? = some sm → views[k]? = some v → sm.elemMap[i]? = some e →
        subs[k']? = some sm' → views[k']? = some v' → sm'.elemMap[i']? = some e' →
        subs₂[l]? = some sm₂ → views₂[l]? = some v₂ → sm₂.elemMap[j]? = some e →
        subs₂[l']? = some sm₂' → views₂[l']? = some v₂' → sm₂'.elemMap[j']? = some e' →
        a < W.nt e → b < W.ns e' →
        mget M k k' (pos v.test i a) (pos v'.trial i' b) =
          mget M₂ l l' (pos v₂.test j a) (pos v₂'.trial j' b) := by
  obtain ⟨M, h1, _, h2⟩ := operator_spec mixed D hbc hF
  obtain ⟨M₂, h3, _, h4⟩ := operator_spec mixed D₂ hbc hF₂
  refine ⟨M, M₂, h1, h3, ?_⟩
  intro k i e k' i' e' l j l' j' a b sm v sm' v' sm₂ v₂ sm₂' v₂' a1 a2 a3 a4 a5 a6 b1 b2 b3 b4 b5 b6 ha hb
  rw [h2 k i e k' i' e' a b sm v sm' v' a1 a2 a3 a4 a5 a6 ha hb,
    h4 l j e l' j' e' a b sm₂ v₂ sm₂' v₂' b1 b2 b3 b4 b5 b6 ha hb]

/-! Non-vacuity.  The strip of three cells `0 | 1 | 2` as one mesh, as the two submeshes `{1, 0}` and
`{2}`, and as three submeshes. -/

def oneSub : List Sub :=
  [⟨[[0, 2], [0, 1, 3], [1, 4]], [0, 1, 2], 5, [⟨2, 7, 0⟩, ⟨3, 7, 1⟩, ⟨4, 7, 2⟩]⟩]

def twoSubs : List Sub :=
  [⟨[[0, 2, 3], [0, 1]], [1, 0], 4, [⟨1, 7, 1⟩, ⟨2, 7, 0⟩, ⟨3, 7, 0⟩]⟩,
   ⟨[[0, 1]], [2], 2, [⟨1, 7, 0⟩, ⟨0, 7, 0⟩]⟩]

def onePhi (_ s : Nat) : Nat := s

def twoPhi (k s : Nat) : Nat := ([[0, 2, 1, 3], [1, 4]].getD k []).getD s 0

theorem one_division : Division demoParent oneSub onePhi 2 :=
  division_of_check rfl (by decide +kernel)

theorem two_division : Division demoParent twoSubs twoPhi 2 :=
  division_of_check rfl (by decide +kernel)

theorem three_division : Division demoParent demoSubs demoPhi 2 :=
  division_of_check rfl (by decide +kernel)

/-- Two test functions on cell 1, one on the others, one trial function each. -/
def demoWhole : Whole Int where
  nt e := if e = 1 then 2 else 1
  ns _ := 1
  vol e a b := 100 * e + 10 * a + b + 1
  face f I J a b := 1000 * (f + 1) + (if I then 200 else 100) + (if J then 20 else 10) + 3 * a + b
  bdr f a _ := 7 * f + a

def demoBC : BC Int := ⟨[1, 2], [some 5, none], [.dirichlet, .neumann], false⟩

theorem demo_conditions : Conditions demoParent demoBC :=
  ⟨⟨rfl, rfl⟩, by decide, by decide⟩

/-- On the two submeshes the second cell of the first face comes first. -/
def demoFlips (k s : Nat) : Bool := k == 0 && s == 0

/-- The theorem applies to all three. -/
example : ∃ M M₂, operator false demoBC demoParent demoSubs
      (realize demoWhole demoParent demoSubs demoPhi demoFlips) [innerInt demoWhole]
      [some (itfInt demoWhole)] = .ok M ∧
    operator false demoBC demoParent twoSubs (realize demoWhole demoParent twoSubs twoPhi demoFlips)
      [innerInt demoWhole] [some (itfInt demoWhole)] = .ok M₂ ∧
    ∀ (k i e k' i' e' l j l' j' a b : Nat) sm sm' sm₂ sm₂', demoSubs[k]? = some sm →
      sm.elemMap[i]? = some e → demoSubs[k']? = some sm' → sm'.elemMap[i']? = some e' →
      twoSubs[l]? = some sm₂ → sm₂.elemMap[j]? = some e → twoSubs[l']? = some sm₂' →
      sm₂'.elemMap[j']? = some e' → a < demoWhole.nt e → b < demoWhole.ns e' →
      mget M k k' (pos (space sm.elemMap demoWhole.nt) i a) (pos (space sm'.elemMap demoWhole.ns) i' b) =
        mget M₂ l l' (pos (space sm₂.elemMap demoWhole.nt) j a)
          (pos (space sm₂'.elemMap demoWhole.ns) j' b) := by
  have at_ : ∀ (subs : List Sub) φ (k : Nat) sm, subs[k]? = some sm →
      (realize demoWhole demoParent subs φ demoFlips)[k]? =
        some (view demoWhole demoParent (φ k) (demoFlips k) sm) := by
    intro subs φ k sm h
    unfold realize
    rw [List.getElem?_mapIdx, h]; rfl
  obtain ⟨M, M₂, h1, h2, h3⟩ := divisions_agree (W := demoWhole) false demo_conditions three_division
    (realize_fits demoWhole demoFlips three_division) two_division
    (realize_fits demoWhole demoFlips two_division)
  refine ⟨M, M₂, h1, h2, ?_⟩
  intro k i e k' i' e' l j l' j' a b sm sm' sm₂ sm₂' a1 a2 a3 a4 a5 a6 a7 a8 ha hb
  exact h3 k i e k' i' e' l j l' j' a b sm (view demoWhole demoParent (demoPhi k) (demoFlips k) sm)
    sm' (view demoWhole demoParent (demoPhi k') (demoFlips k') sm')
    sm₂ (view demoWhole demoParent (twoPhi l) (demoFlips l) sm₂)
    sm₂' (view demoWhole demoParent (twoPhi l') (demoFlips l') sm₂')
    a1 (at_ demoSubs demoPhi k sm a1) a2 a3 (at_ demoSubs demoPhi k' sm' a3) a4
    a5 (at_ twoSubs twoPhi l sm₂ a5) a6 a7 (at_ twoSubs twoPhi l' sm₂' a7) a8 ha hb

/-- The blocks as lists of rows. -/
def table (n : Nat) (mixed : Bool) (bc : BC Int) (pm : Parent) (subs : List Sub) (φ : Nat → Nat → Nat)
    (p : List (Nat × Nat)) (q : List (Nat × Nat)) : Outcome (List (List Int)) := do
  let M ← operator mixed bc pm subs (realize demoWhole pm subs φ demoFlips) [innerInt demoWhole]
    [some (itfInt demoWhole)]
  require (M.nr = n)
  return p.map fun x => q.map fun y => mget M x.1 y.1 x.2 y.2

/-- The computed matrices, rows and columns in the order of the cells. -/
example : table 1 false demoBC demoParent oneSub onePhi [(0, 0), (0, 1), (0, 2), (0, 3)]
      [(0, 0), (0, 1), (0, 2)] = .ok [[1125, 1120, 0], [1210, 3541, 2210], [1213, 3557, 2213],
        [0, 2120, 2339]] ∧
    table 2 true demoBC demoParent twoSubs twoPhi [(0, 2), (0, 0), (0, 1), (1, 0)]
      [(0, 1), (0, 0), (1, 0)] = .ok [[1125, 1120, 0], [1210, 3541, 2210], [1213, 3557, 2213],
        [0, 2120, 2339]] ∧
    table 3 false demoBC demoParent demoSubs demoPhi [(0, 0), (1, 0), (1, 1), (2, 0)]
      [(0, 0), (1, 0), (2, 0)] = .ok [[1125, 1120, 0], [1210, 3541, 2210], [1213, 3557, 2213],
        [0, 2120, 2339]] := by
  decide +kernel

/-- The strip with a boundary element on the face between cells 0 and 1. -/
def slitParent : Parent :=
  { demoParent with bdr := [(2, 1), (3, 2), (4, 1), (0, 3)], bdrAttributes := [1, 2, 3] }

/-- C111, why boundary elements must lie on the outer boundary: with a boundary element on the face
between cells 0 and 1 the undivided mesh still couples them, the divided mesh does not. -/
theorem boundary_between_not_coupled :
    table 1 false demoBC slitParent oneSub onePhi [(0, 0), (0, 1)] [(0, 0), (0, 1)] =
      .ok [[1125, 1120], [1210, 3541]] ∧
    table 3 false demoBC slitParent demoSubs demoPhi [(0, 0), (1, 0)] [(0, 0), (1, 0)] =
      .ok [[15, 0], [0, 2321]] := by
  decide +kernel

end Verif.Divide
