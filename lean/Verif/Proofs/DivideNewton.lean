import Verif.Props.DivideSteady
import Verif.Props.DivideJac
import Verif.Spec.DivideNewton

/-!
# Lemmas for C120
-/

namespace Verif.Divide

open Verif Verif.LinAlg Verif.LinAlg.Spec Verif.SubMesh Verif.SubMesh.Spec Finset Spec
open Verif.InterfaceForm (Space Integ MatArr)
open Verif.InterfaceForm.Spec (sizeIn mget MatsOk)
open Verif.RomAssembly (pickMarkers bdrMarkers)
open Verif.Boundary (BC)
open Verif.Blocks (BlockVector)
open Verif.Blocks.Spec (HasSizes IsOffsets)
open Verif.RomHandler (readBlock readBlock_eq)
open Verif.RomHandler.Spec (bent)
open Verif.Unsteady (first_bound)
open Verif.Unsteady.Spec (first vecOf part)

variable {R δ F : Type} [CommRing R] {pm : Parent} {subs : List Sub} {φ : Nat → Nat → Nat} {g : Int}

/-! ## Shapes of gradients -/

/-- `t` has the shape of `s`. -/
def SameShape (s t : Sp R) : Prop := t.h = s.h ∧ t.w = s.w

theorem SameShape.trans {s t u : Sp R} (h : SameShape s t) (h' : SameShape t u) : SameShape s u :=
  ⟨h'.1.trans h.1, h'.2.trans h.2⟩

theorem shape_loop {n : Nat} {body : Nat → Sp R → Outcome (Sp R)} {s t : Sp R}
    (hb : ∀ j u v, body j u = .ok v → SameShape u v) (h : loop n body s = .ok t) : SameShape s t :=
  loop_inv (fun _ u => SameShape s u) ⟨rfl, rfl⟩ (fun _ _ _ _ h1 h2 => h1.trans (hb _ _ _ h2)) h

theorem shape_add {s t : Sp R} {i j : Nat} {v : R} (h : s.add i j v = .ok t) : SameShape s t := by
  unfold Sp.add Sp.set at h
  split at h
  · cases h; exact ⟨rfl, rfl⟩
  · cases h

theorem shape_addSubMatrix {rows cols : List Int} {a : Mat R} {s t : Sp R}
    (h : addSubMatrix rows cols a s = .ok t) : SameShape s t := by
  unfold addSubMatrix at h
  refine shape_loop (fun i u v hv => shape_loop (fun j u' v' hv' => ?_) hv) h
  simp only [bind_eq_ok] at hv'
  obtain ⟨_, _, _, _, _, _, hv'⟩ := hv'
  exact shape_add hv'

theorem shape_gForm {v : GView R δ F} {ints : List (ITr δ → List R → Mat R)} {e : List Int × List Int}
    {t : List (Nat × Option F) × List (List Int)} {x : List R} {s : Sp R} (h : gForm v ints e t x = .ok s) :
    s.h = v.space.vsize ∧ s.w = v.space.vsize := by
  unfold gForm at h
  simp only [bind_eq_ok] at h
  obtain ⟨_, _, s1, h1, s2, h2, h3⟩ := h
  have a1 : SameShape ⟨v.space.vsize, v.space.vsize, []⟩ s1 := by
    unfold gElems at h1
    refine shape_loop (fun i u w hw => ?_) h1
    unfold gElem at hw
    simp only [bind_eq_ok] at hw
    obtain ⟨_, _, _, _, hw⟩ := hw
    exact shape_addSubMatrix hw
  have a2 : SameShape s1 s2 := by
    unfold gInterior at h2
    split at h2
    · cases h2; exact ⟨rfl, rfl⟩
    · refine shape_loop (fun i u w hw => ?_) h2
      simp only [bind_eq_ok] at hw
      obtain ⟨tr, _, hw⟩ := hw
      unfold gFace at hw
      split at hw
      · cases hw; exact ⟨rfl, rfl⟩
      · simp only [bind_eq_ok] at hw
        obtain ⟨_, _, _, _, _, _, hw⟩ := hw
        refine shape_loop (fun j u' w' hw' => ?_) hw
        simp only [bind_eq_ok] at hw'
        obtain ⟨_, _, hw'⟩ := hw'
        exact shape_addSubMatrix hw'
  have a3 : SameShape s2 s := by
    unfold gBdr at h3
    split at h3
    · cases h3; exact ⟨rfl, rfl⟩
    · simp only [bind_eq_ok] at h3
      obtain ⟨_, _, h3⟩ := h3
      refine shape_loop (fun i u w hw => ?_) h3
      unfold gBdrElem at hw
      simp only [bind_eq_ok] at hw
      obtain ⟨_, _, _, _, _, _, hw⟩ := hw
      split at hw
      · split at hw
        · cases hw; exact ⟨rfl, rfl⟩
        · unfold gMarked at hw
          simp only [bind_eq_ok] at hw
          obtain ⟨_, _, hw⟩ := hw
          refine shape_loop (fun j u' w' hw' => ?_) hw
          simp only [bind_eq_ok] at hw'
          obtain ⟨_, _, _, _, hw'⟩ := hw'
          split at hw'
          · cases hw'; exact ⟨rfl, rfl⟩
          · simp only [bind_eq_ok] at hw'
            obtain ⟨_, _, hw'⟩ := hw'
            exact shape_addSubMatrix hw'
      · cases hw; exact ⟨rfl, rfl⟩
  exact (a1.trans a2).trans a3

/-! ## The parts of the gradient -/

variable {G : Grad R F} {ints : List (ITr δ → List R → Mat R)} {views : List (GView R δ F)}
variable {fnfi : List (Option (Integ R δ))} {bc : BC F}

/-- The interface form adds the same terms to all matrices. -/
theorem itf_gradient (D : Division pm subs φ g) (hbc : Conditions pm bc)
    (hF : GFits G pm subs φ views ints fnfi) {st : IState} {fms : List (List Int)}
    (hst : buildSubMeshes2D pm subs = .ok (st, fms)) {x : BlockVector R}
    (hx : HasSizes x (views.map fun v => v.space.vsize)) :
    ∃ T : Nat → Nat → Nat → Nat → R, ∀ M, MatsOk M subs.length (sizeIn (views.map (·.space)))
        (sizeIn (views.map (·.space))) →
      ∃ M', (itf (views.map gAsView) fnfi st).gradient x M = .ok M' ∧
        MatsOk M' subs.length (sizeIn (views.map (·.space))) (sizeIn (views.map (·.space))) ∧
        ∀ i j r c, mget M' i j r c = mget M i j r c + T i j r c := by
  obtain ⟨st0, fms0, mesh, mks, mx, hst0, hmesh, hmks, hmk, hall⟩ := setup D hbc
  obtain ⟨st', fms', bes, hst', hC, hE⟩ := submeshes2D_correct pm subs φ g D.max D.pos D.wf
  rw [hst] at hst' hst0
  obtain ⟨rfl, rfl⟩ := Prod.mk.inj (Except.ok.inj hst')
  obtain ⟨rfl, rfl⟩ := Prod.mk.inj (Except.ok.inj hst0)
  have T : Result pm subs φ g st fms bes := ⟨hC, hE⟩
  obtain ⟨ξ, hξ⟩ := represents_of (n := G.n) (spaces := views.map (·.space)) D (bent x)
  have hX : ∀ (k i e b : Nat) sm v, subs[k]? = some sm → views[k]? = some v → sm.elemMap[i]? = some e →
      b < G.n e → bent x k (pos v.space i b) = ξ e b := by
    intro k i e b sm v hk hv hi hb
    exact hξ k sm v.space i e b hk (by rw [List.getElem?_map, hv]; rfl) hi hb
  set c : Nat → Nat → Option F := fun k b =>
    (condN bc (((mesh[k]?).map (fun e => e.1[b]?.getD 0)).getD 0)).getD none with hcdef
  have hc : ∀ (k b : Nat) sm be q, subs[k]? = some sm → sm.bes[b]? = some be → q ∈ pm.bdr →
      q.1 = φ k be.face → c k b = (condN bc q.2).getD none := by
    intro k b sm be q hk hb hq hqf
    obtain ⟨l', u, m1, _, _, _, _, m6⟩ := hall k sm hk
    obtain ⟨be', g1, g2⟩ := m6 b be hb
    rw [hcdef]
    dsimp only
    rw [m1, Option.map_some, Option.getD_some, List.getElem?_map, g1, Option.map_some, Option.getD_some]
    rcases g2 with ⟨q', hq', hf', ha'⟩ | ⟨hfree, _⟩
    · have : q' = q := List.inj_on_of_nodup_map D.bdrOnce hq' hq (hf'.trans hqf.symm)
      rw [ha', this]
    · exact absurd hqf (hfree q hq)
  have hFits := gviews_fits (bc := bc) (c := c) D hF hX hc
  obtain ⟨hFO, hIO⟩ := itf_ok D T hFits
  have hsp1 : (itf (gviews views x c) (gfnfi fnfi) st).test = views.map (·.space) := by
    show (gviews views x c).map (·.test) = _
    apply List.ext_getElem?
    intro k
    unfold gviews
    rw [List.getElem?_map, List.getElem?_mapIdx, List.getElem?_map]
    cases views[k]? <;> rfl
  have hsp2 : (itf (gviews views x c) (gfnfi fnfi) st).trial = views.map (·.space) := by
    show (gviews views x c).map (·.trial) = _
    apply List.ext_getElem?
    intro k
    unfold gviews
    rw [List.getElem?_map, List.getElem?_mapIdx, List.getElem?_map]
    cases views[k]? <;> rfl
  have hlen : (itf (gviews views x c) (gfnfi fnfi) st).meshes.length = subs.length := by
    show ((gviews views x c).map _).length = _
    rw [List.length_map, hFits.count]
  refine ⟨fun i j r c' => InterfaceForm.Spec.formTerm (itf (gviews views x c) (gfnfi fnfi) st)
    InterfaceForm.Spec.matOf i j r c', ?_⟩
  intro M hM
  obtain ⟨M', e1, k1, k2⟩ := InterfaceForm.assemble_spec hFO (mats := M) (by rw [hlen, hsp1, hsp2]; exact hM) hIO
  rw [hlen, hsp1, hsp2] at k1
  refine ⟨M', ?_, k1, k2⟩
  rw [gradient_eq c hx (by
    intro v hv
    obtain ⟨j, hj⟩ := List.mem_iff_getElem?.1 hv
    have hjl : j < subs.length := by rw [← hF.count]; exact (List.getElem?_eq_some_iff.1 hj).1
    exact (hF.view j _ v (List.getElem?_eq_getElem hjl) hj).space.inside)]
  exact e1

/-- The gradient at a block vector: one matrix for each subdomain, and what the interfaces add. -/
theorem grad_run (D : Division pm subs φ g) (hbc : Conditions pm bc) (hfun : HasFunctions bc)
    (hF : GFits G pm subs φ views ints fnfi) {st : IState} {fms : List (List Int)}
    {mesh : List (List Int × List Int)} {mks : List (List Int)}
    {ts : List (List (Nat × Option F) × List (List Int))} (hst : buildSubMeshes2D pm subs = .ok (st, fms))
    (hmesh : attributes subs.length st = .ok mesh) (hmks : bdrMarkers bc.attrs mesh = .ok mks)
    (hts : nlTerms true bc mks mesh = .ok ts) {x : BlockVector R}
    (hx : HasSizes x (views.map fun v => v.space.vsize)) :
    ∃ (ds : List (Sp R)) (T : Nat → Nat → Nat → Nat → R),
      (∀ (k : Nat) v, views[k]? = some v → ∃ e t s, mesh[k]? = some e ∧ ts[k]? = some t ∧ ds[k]? = some s ∧
        gForm v ints e t (tab v.space.vsize (bent x k)) = .ok s) ∧
      (∀ M, MatsOk M subs.length (sizeIn (views.map (·.space))) (sizeIn (views.map (·.space))) →
        ∃ M', (itf (views.map gAsView) fnfi st).gradient x M = .ok M' ∧
          MatsOk M' subs.length (sizeIn (views.map (·.space))) (sizeIn (views.map (·.space))) ∧
          ∀ i j r c, mget M' i j r c = mget M i j r c + T i j r c) ∧
      ∀ ξ, (∀ (k i e b : Nat) sm v, subs[k]? = some sm → views[k]? = some v → sm.elemMap[i]? = some e →
          b < G.n e → bent x k (pos v.space i b) = ξ e b) →
        ∀ (k i e k' i' e' a b : Nat) sm v sm' v', subs[k]? = some sm → views[k]? = some v →
          sm.elemMap[i]? = some e → subs[k']? = some sm' → views[k']? = some v' →
          sm'.elemMap[i']? = some e' → a < G.n e → b < G.n e' →
          (if k = k' then ((ds[k]?.map fun s => s.get (pos v.space i a) (pos v'.space i' b)).getD 0) else 0) +
            T k k' (pos v.space i a) (pos v'.space i' b) = gradAt true G pm bc ξ e a e' b := by
  obtain ⟨T, hT⟩ := itf_gradient D hbc hF hst hx
  have run : ∀ J, convGrad true true bc pm subs views ints fnfi x = .ok J → ∃ m0,
      hopGrad views ints mesh ts x = .ok m0 ∧ (itf (views.map gAsView) fnfi st).gradient x m0 = .ok J := by
    intro J hJ
    unfold convGrad at hJ
    rw [hst, ok_bind] at hJ
    dsimp only at hJ
    rw [hmesh, ok_bind, hmks, ok_bind, hts, ok_bind] at hJ
    simp only [Bool.and_self, if_true, bind_eq_ok] at hJ
    exact hJ
  obtain ⟨ξ0, hξ0⟩ := represents_of (n := G.n) (spaces := views.map (·.space)) D (bent x)
  obtain ⟨J0, j1, -, -⟩ := convGrad_lf (ξ := ξ0) D hbc hfun hF hx (by
    intro k i e b sm v hk hv hi hb
    exact hξ0 k sm v.space i e b hk (by rw [List.getElem?_map, hv]; rfl) hi hb)
  obtain ⟨m0, r1, r2⟩ := run J0 j1
  unfold hopGrad at r1
  rw [bind_eq_ok] at r1
  obtain ⟨ds, d1, d2⟩ := r1
  have hds : ∀ (k : Nat) v, views[k]? = some v → ∃ e t s, mesh[k]? = some e ∧ ts[k]? = some t ∧ ds[k]? = some s ∧
      gForm v ints e t (tab v.space.vsize (bent x k)) = .ok s := by
    have := loop_inv (fun k (acc : List (Sp R)) => acc.length = k ∧ ∀ (j : Nat) v, j < k →
      views[j]? = some v → ∃ e t s, mesh[j]? = some e ∧ ts[j]? = some t ∧ acc[j]? = some s ∧
        gForm v ints e t (tab v.space.vsize (bent x j)) = .ok s) ⟨rfl, by intro j _ hj; omega⟩ (by
      rintro k acc acc' hk ⟨hl, hI⟩ hs
      simp only [bind_eq_ok] at hs
      obtain ⟨v, hv, e, he, t, ht, xk, hxk, s, hb, hs⟩ := hs
      cases hs
      rw [rd_eq_ok] at hv he ht
      refine ⟨by rw [List.length_append, hl]; rfl, ?_⟩
      intro j w hj hw
      by_cases hjk : j = k
      · subst hjk
        rw [hw] at hv; cases hv
        rw [readBlock_eq hx (s := v.space.vsize) (by rw [List.getElem?_map, hw]; rfl)] at hxk
        cases hxk
        exact ⟨e, t, s, he, ht, by rw [List.getElem?_append_right (by omega), hl, Nat.sub_self]; rfl, hb⟩
      · obtain ⟨e', t', s', h1, h2, h3, h4⟩ := hI j w (by omega) hw
        exact ⟨e', t', s', h1, h2, by rw [List.getElem?_append_left (by omega)]; exact h3, h4⟩) d1
    exact fun k v hk => this.2 k v (List.getElem?_eq_some_iff.1 hk).1 hk
  have hm0 : MatsOk m0 subs.length (sizeIn (views.map (·.space))) (sizeIn (views.map (·.space))) := by
    cases d2
    refine ⟨hF.count, hF.count, ?_⟩
    have hlen : ∀ i, blockLen x i = sizeIn (views.map fun v => v.space) i := by
      intro i
      unfold sizeIn
      rw [blockLen_eq hx, List.getElem?_map, List.getElem?_map]
      cases views[i]? <;> rfl
    intro i j hi hj
    dsimp only
    by_cases hij : i = j
    · subst hij
      rw [if_pos rfl]
      have hv := List.getElem?_eq_getElem (show i < views.length by rw [hF.count]; exact hi)
      obtain ⟨e, t, s, _, _, s1, s2⟩ := hds i _ hv
      have s3 := shape_gForm s2
      refine ⟨s, s1, ?_, ?_⟩
      · unfold sizeIn; rw [List.getElem?_map, hv]; exact s3.1
      · unfold sizeIn; rw [List.getElem?_map, hv]; exact s3.2
    · rw [if_neg hij]
      exact ⟨_, rfl, hlen i, hlen j⟩
  refine ⟨ds, T, hds, hT, ?_⟩
  intro ξ hX k i e k' i' e' a b sm v sm' v' hk hv hi hk' hv' hi' ha hb
  obtain ⟨J, j1', -, j3⟩ := convGrad_lf (ξ := ξ) D hbc hfun hF hx hX
  rw [j1] at j1'; cases j1'
  obtain ⟨M', e1, -, e3⟩ := hT m0 hm0
  rw [r2] at e1; cases e1
  rw [← j3 k i e k' i' e' a b sm v sm' v' hk hv hi hk' hv' hi' ha hb, e3]
  congr 1
  cases d2
  unfold mget
  dsimp only
  by_cases hkk : k = k'
  · rw [if_pos hkk, if_pos hkk]
  · rw [if_neg hkk, if_neg hkk]
    rfl

/-! ## The solver on a division -/

section
variable {R δ F : Type} [Field R] {pm : Parent} {subs : List Sub} {φ : Nat → Nat → Nat} {g : Int}
variable {E : SteadyEq R F} {G : Grad R F} {bc : BC F} {I : SteadyInput R δ F} {uspaces pspaces : List Space}

open Verif.SteadyNS (Oper Solver Newton Guess Sol Forms Grads)
open Verif.SteadyNS.Spec (Flow)

/-- The gradient of the form of subdomain `m`. -/
def formGrad (I : SteadyInput R δ F) (mesh : List (List Int × List Int))
    (ts : List (List (Nat × Option F) × List (List Int))) (m : Nat) (x : List R) : Outcome (Sp R) := do
  let v ← rd I.gviews m
  let e ← rd mesh m
  let b ← rd ts m
  gForm v I.gints e b x

/-- What the interfaces add to empty matrices. -/
def itfMats (I : SteadyInput R δ F) (offs : List Nat) (st : IState) (w : Nat → Nat) (n : Nat) (x : List R) :
    Outcome (MatArr R) :=
  (itf (I.gviews.map gAsView) I.gfnfi st).gradient ⟨x, offs⟩ ⟨n, n, fun i j => some ⟨w i, w j, []⟩⟩

/-- The entry of a matrix, zero if there is none. -/
def entryOr (o : Outcome (Sp R)) (r c : Nat) : R :=
  match o with
  | .ok s => s.get r c
  | .error _ => 0

def entriesOr (o : Outcome (MatArr R)) (i r j c : Nat) : R :=
  match o with
  | .ok m => mget m i j r c
  | .error _ => 0

/-- The solver set up on a division is set up for a problem with the residuals and the gradients of the undivided
mesh. -/
theorem newton_problem (hE : E.Consistent) (D : Division pm subs φ g) (hcov : Covers pm subs)
    (hbc : Conditions pm bc) (hfun : HasFunctions bc) (H : SteadyForms E pm subs φ uspaces pspaces I)
    (HG : GradForms E G pm subs φ uspaces I) (presDbc : Bool) :
    ∃ s rhs P, steadySetup bc pm subs uspaces pspaces I presDbc = .ok (s, rhs) ∧ Flow.Ok P s.oper ∧
      IsOffsets s.p ((List.range P.n).map P.np) ∧ P.RhsOk rhs ∧
      s.presDbc = presDbc ∧ P.n = subs.length ∧ P.nu = sizeIn uspaces ∧ P.np = sizeIn pspaces ∧
      (∀ u q υ π, Represents subs uspaces E.W.nt (blocksOf (sizeIn uspaces) u) υ →
        Represents subs pspaces E.W'.nt (blocksOf (sizeIn pspaces) q) π →
        (∀ (k i e a : Nat) sm s, subs[k]? = some sm → uspaces[k]? = some s → sm.elemMap[i]? = some e →
          a < E.W.nt e → P.momentum u q k (pos s i a) - P.f k (pos s i a) = E.momentum pm bc υ π e a ∧
            ∑ c ∈ range P.NU, P.K (first P.nu k + pos s i a) c * u c = applied E.W pm bc υ e a ∧
            ∑ c ∈ range P.NP, P.Bt (first P.nu k + pos s i a) c * q c = appliedT E.W' pm bc π e a) ∧
        ∀ (k i e a : Nat) sm s, subs[k]? = some sm → pspaces[k]? = some s → sm.elemMap[i]? = some e →
          a < E.W'.nt e → P.divergence u k (pos s i a) - P.g k (pos s i a) = E.mass pm bc υ e a ∧
            ∑ c ∈ range P.NU, P.B (first P.np k + pos s i a) c * u c = applied E.W' pm bc υ e a) ∧
      ∀ u υ, Represents subs uspaces E.W.nt (blocksOf (sizeIn uspaces) u) υ →
        ∀ (k i e k' i' e' a b : Nat) sm s sm' s', subs[k]? = some sm → uspaces[k]? = some s →
          sm.elemMap[i]? = some e → subs[k']? = some sm' → uspaces[k']? = some s' → sm'.elemMap[i']? = some e' →
          a < E.W.nt e → b < E.W.nt e' →
          P.dconv u k (pos s i a) k' (pos s' i' b) = gradAt true G pm bc υ e a e' b := by
  obtain ⟨s, rhs, P, p1, p2, p3, p4, p5, p6, p7, p8, p9⟩ := steady_problem' hE D hcov hbc hfun H presDbc
  have hset := p1
  unfold steadySetup at hset
  simp only [bind_eq_ok] at hset
  obtain ⟨⟨st, fms⟩, c1, mesh, c2, mks, c3, ts, c4, ⟨⟨f, h⟩, M, B⟩, c5, mm, c6, bm, c7, c8⟩ := hset
  have hs : s.oper.forms = steadyForms I (offsetsOf uspaces) subs.length st mesh ts := by cases c8; rfl
  have hut := H.uspace
  have ho : IsOffsets (offsetsOf uspaces) (tab subs.length (sizeIn uspaces)) := offsetsOf_ok hut.1
  have hz : I.gviews.map (fun v => v.space.vsize) = tab subs.length (sizeIn uspaces) := by
    rw [show (fun v : GView R δ F => v.space.vsize) = (fun s : Space => s.vsize) ∘ (·.space) from rfl,
      ← List.map_map, HG.space]
    exact sizes_eq hut.1
  have hsum : (tab subs.length (sizeIn uspaces)).sum = first (sizeIn uspaces) subs.length := by
    rw [EqpRom.tab_sum]; rfl
  have sized : ∀ x : List R, x.length = first (sizeIn uspaces) subs.length →
      HasSizes (⟨x, offsetsOf uspaces⟩ : BlockVector R) (I.gviews.map fun v => v.space.vsize) :=
    fun x hx => ⟨by rw [hz]; exact ho, by rw [hz, hsum]; exact hx⟩
  have bent_at : ∀ (x : List R) (m k : Nat), x.length = first (sizeIn uspaces) subs.length → m < subs.length →
      k < sizeIn uspaces m →
      bent (⟨x, offsetsOf uspaces⟩ : BlockVector R) m k = ve x (first (sizeIn uspaces) m + k) := by
    intro x m k hx hm hk
    have := sized x hx
    rw [hz] at this
    rw [RomHandler.bent_eq this (by rw [getElem?_tab, if_pos hm]) hk, EqpRom.tab_take_sum _ _ (by omega)]
    rfl
  have view_at : ∀ k, k < subs.length → ∃ v s, I.gviews[k]? = some v ∧ uspaces[k]? = some s ∧ v.space = s ∧
      sizeIn uspaces k = v.space.vsize := by
    intro k hk
    obtain ⟨v, hv⟩ : ∃ v, I.gviews[k]? = some v :=
      ⟨_, List.getElem?_eq_getElem (show k < I.gviews.length by rw [HG.fits.count]; exact hk)⟩
    have hs : uspaces[k]? = some v.space := by rw [← HG.space, List.getElem?_map, hv]; rfl
    exact ⟨_, _, hv, hs, rfl, sizeIn_of hs⟩
  have hempty : MatsOk (⟨subs.length, subs.length, fun i j => some ⟨sizeIn uspaces i, sizeIn uspaces j, []⟩⟩ : MatArr R)
      subs.length (sizeIn uspaces) (sizeIn uspaces) := ⟨rfl, rfl, fun i j _ _ => ⟨_, rfl, rfl, rfl⟩⟩
  -- one subdomain
  have hform : ∀ (m : Nat) (x : List R), m < subs.length → x.length = sizeIn uspaces m →
      ∃ sp, formGrad I mesh ts m x = .ok sp := by
    intro m x hm hx
    obtain ⟨u, hu⟩ := flat_vec subs.length (sizeIn uspaces) (fun _ r => ve x r)
    have hl : (vecOf (first (sizeIn uspaces) subs.length) u).length = first (sizeIn uspaces) subs.length :=
      length_tab _ _
    obtain ⟨ds, T, d1, -, -⟩ := grad_run D hbc hfun HG.fits c1 c2 c3 c4 (sized _ hl)
    obtain ⟨v, sp, hv, hsp, rfl, hsz⟩ := view_at m hm
    obtain ⟨e, t, gm, g1, g2, g3, g4⟩ := d1 m v hv
    have hxt : tab v.space.vsize (bent ⟨vecOf (first (sizeIn uspaces) subs.length) u, offsetsOf uspaces⟩ m) = x := by
      rw [← hsz, ← hx]
      apply List.ext_getElem?
      intro i
      rw [getElem?_tab]
      by_cases hi : i < x.length
      · have hi' : i < sizeIn uspaces m := by rw [← hx]; exact hi
        have hb := first_bound (sizeIn uspaces) hm
        rw [if_pos hi, bent_at _ _ _ hl hm hi', Unsteady.ve_vecOf _ _ (by omega), hu m i hm hi',
          List.getElem?_eq_getElem hi]
        unfold ve
        rw [List.getElem?_eq_getElem hi]; rfl
      · rw [if_neg hi, List.getElem?_eq_none (by omega)]
    rw [hxt] at g4
    refine ⟨gm, ?_⟩
    unfold formGrad
    rw [rd_eq_ok.2 hv, ok_bind, rd_eq_ok.2 g1, ok_bind, rd_eq_ok.2 g2, ok_bind, g4]
  let P' : Flow R := { P with
    DF := fun m x r c => entryOr (formGrad I mesh ts m x) r c
    DI := fun x i r j c => entriesOr (itfMats I (offsetsOf uspaces) st (sizeIn uspaces) subs.length x) i r j c }
  have hNU : P.NU = first (sizeIn uspaces) subs.length := by unfold Flow.NU; rw [p6, p7]
  refine ⟨s, rhs, P', p1, ⟨p2.n, p2.u, p2.roffs, p2.coffs, p2.M, p2.Bt, p2.B, p2.rest,
    ⟨p2.forms.mult, ?_, p2.forms.itf, ?_, p2.forms.noItf, ?_⟩⟩, p3, p4, p5, p6, p7, p8, p9, ?_⟩
  · intro m x gm hm hx hg hg'
    have hm' : m < subs.length := by rw [← p6]; exact hm
    have hx' : x.length = sizeIn uspaces m := by rw [← p7]; exact hx
    obtain ⟨sp, hsp⟩ := hform m x hm' hx'
    refine ⟨⟨gm.h, gm.w, fun r c => gm.val r c + sp.get r c⟩, ?_, hg, hg', ?_⟩
    · rw [hs]
      show addGrad I mesh ts m x gm = _
      unfold formGrad at hsp
      unfold addGrad
      simp only [bind_eq_ok] at hsp
      obtain ⟨v, h1, e, h2, b, h3, h4⟩ := hsp
      rw [h1, ok_bind, h2, ok_bind, h3, ok_bind, h4, ok_bind]
      rfl
    · intro k l _ _
      show _ = gm.val k l + entryOr (formGrad I mesh ts m x) k l
      rw [hsp]; rfl
  · intro op hop x mats hx hmats
    rw [hs] at hop
    have hop' : op = addItfGrad I (offsetsOf uspaces) st subs.length := by
      have : some (addItfGrad I (offsetsOf uspaces) st subs.length) = some op := hop
      exact (Option.some.inj this).symm
    subst hop'
    have hx' : x.length = first (sizeIn uspaces) subs.length := by rw [← hNU]; exact hx
    obtain ⟨T, hT⟩ := itf_gradient D hbc HG.fits c1 (sized x hx')
    rw [HG.space] at hT
    obtain ⟨M0, t1, t2, t3⟩ := hT _ hempty
    obtain ⟨M1, u1, u2, u3⟩ := hT ⟨subs.length, subs.length, fun i j => some ⟨(mats i j).h, (mats i j).w, []⟩⟩
      ⟨rfl, rfl, fun i j hi hj => ⟨_, rfl, by
        rw [← p7]; exact (hmats i j (by show i < P.n; rw [p6]; exact hi) (by show j < P.n; rw [p6]; exact hj)).1, by
        rw [← p7]; exact (hmats i j (by show i < P.n; rw [p6]; exact hi) (by show j < P.n; rw [p6]; exact hj)).2⟩⟩
    refine ⟨_, by unfold addItfGrad; rw [u1, ok_bind]; rfl, ?_⟩
    intro i j hi hj
    obtain ⟨hh, hw⟩ := hmats i j hi hj
    have hi' : i < subs.length := by rw [← p6]; exact hi
    have hj' : j < subs.length := by rw [← p6]; exact hj
    obtain ⟨sp, a1, _, _⟩ := u2.2.2 i j hi' hj'
    rw [a1]
    refine ⟨hh, hw, ?_⟩
    intro k l _ _
    show (mats i j).val k l + sp.get k l = (mats i j).val k l +
      entriesOr (itfMats I (offsetsOf uspaces) st (sizeIn uspaces) subs.length x) i k j l
    unfold itfMats
    rw [t1]
    show _ = _ + mget M0 i j k l
    have e1 : mget M1 i j k l = sp.get k l := by unfold mget; rw [a1]; rfl
    rw [← e1, u3, t3]
    rfl
  · intro hop
    rw [hs] at hop
    cases hop
  · intro u υ hυ k i e k' i' e' a b sm sp sm' sp' hk hsp hi hk' hsp' hi' ha hb
    have hlt := (List.getElem?_eq_some_iff.1 hk).1
    have hlt' := (List.getElem?_eq_some_iff.1 hk').1
    have hl : (vecOf (first (sizeIn uspaces) subs.length) u).length = first (sizeIn uspaces) subs.length :=
      length_tab _ _
    obtain ⟨ds, T, d1, d2, d3⟩ := grad_run D hbc hfun HG.fits c1 c2 c3 c4 (sized _ hl)
    obtain ⟨v, sp0, hv, hs0, rfl, hsz⟩ := view_at k hlt
    rw [hsp] at hs0; cases hs0
    obtain ⟨v', sp0', hv', hs0', rfl, hsz'⟩ := view_at k' hlt'
    rw [hsp'] at hs0'; cases hs0'
    rw [← d3 υ (by
      intro k i e b sm v hk hv hi hb
      have hk1 := (List.getElem?_eq_some_iff.1 hk).1
      have hsv : uspaces[k]? = some v.space := by rw [← HG.space, List.getElem?_map, hv]; rfl
      have hb' : b < E.W.nt e := by rw [← HG.sizes]; exact hb
      have hr := dof_lt hut hk hsv hi hb'
      have hb1 := first_bound (sizeIn uspaces) hk1
      rw [bent_at _ _ _ hl hk1 hr, Unsteady.ve_vecOf _ _ (by omega)]
      exact hυ k sm v.space i e b hk hsv hi hb') k i e k' i' e' a b sm v sm' v' hk hv hi hk' hv' hi'
      (by rw [HG.sizes]; exact ha) (by rw [HG.sizes]; exact hb)]
    unfold Flow.dconv
    show (if k = k' then entryOr (formGrad I mesh ts k (Unsteady.Spec.part P.nu u k)) _ _ else 0) +
      entriesOr (itfMats I (offsetsOf uspaces) st (sizeIn uspaces) subs.length (vecOf P.NU u)) k _ k' _ = _
    rw [hNU, p7]
    congr 1
    · by_cases hkk : k = k'
      · rw [if_pos hkk, if_pos hkk]
        obtain ⟨e0, t0, gm, g1, g2, g3, g4⟩ := d1 k v hv
        have hxt : tab v.space.vsize (bent ⟨vecOf (first (sizeIn uspaces) subs.length) u, offsetsOf uspaces⟩ k) =
            Unsteady.Spec.part (sizeIn uspaces) u k := by
          unfold Unsteady.Spec.part
          rw [← hsz]
          apply List.ext_getElem?
          intro i
          rw [getElem?_tab]
          by_cases hi : i < sizeIn uspaces k
          · have hb1 := first_bound (sizeIn uspaces) hlt
            rw [if_pos hi, bent_at _ _ _ hl hlt hi, Unsteady.ve_vecOf _ _ (by omega), List.getElem?_map,
              List.getElem?_range hi]
            rfl
          · rw [if_neg hi, List.getElem?_eq_none (by simp; omega)]
        rw [hxt] at g4
        unfold formGrad
        rw [rd_eq_ok.2 hv, ok_bind, rd_eq_ok.2 g1, ok_bind, rd_eq_ok.2 g2, ok_bind, g4, g3]
        rfl
      · rw [if_neg hkk, if_neg hkk]
    · rw [HG.space] at d2
      obtain ⟨M0, t1, t2, t3⟩ := d2 _ hempty
      unfold itfMats
      rw [t1]
      show mget M0 _ _ _ _ = _
      rw [t3]
      show (0 : R) + _ = _
      rw [zero_add]

/-- The operator `o` belongs to a problem with the residuals and the gradients of the undivided mesh. -/
structure OnDivision (E : SteadyEq R F) (G : Grad R F) (pm : Parent) (bc : BC F) (subs : List Sub)
    (uspaces pspaces : List Space) (o : Oper R) (P : Flow R) : Prop where
  ok : Flow.Ok P o
  n : P.n = subs.length
  nu : P.nu = sizeIn uspaces
  np : P.np = sizeIn pspaces
  res : ∀ u q υ π, Represents subs uspaces E.W.nt (blocksOf (sizeIn uspaces) u) υ →
    Represents subs pspaces E.W'.nt (blocksOf (sizeIn pspaces) q) π →
    (∀ (k i e a : Nat) sm s, subs[k]? = some sm → uspaces[k]? = some s → sm.elemMap[i]? = some e →
      a < E.W.nt e → P.momentum u q k (pos s i a) - P.f k (pos s i a) = E.momentum pm bc υ π e a ∧
        ∑ c ∈ range P.NU, P.K (first P.nu k + pos s i a) c * u c = applied E.W pm bc υ e a ∧
        ∑ c ∈ range P.NP, P.Bt (first P.nu k + pos s i a) c * q c = appliedT E.W' pm bc π e a) ∧
    ∀ (k i e a : Nat) sm s, subs[k]? = some sm → pspaces[k]? = some s → sm.elemMap[i]? = some e →
      a < E.W'.nt e → P.divergence u k (pos s i a) - P.g k (pos s i a) = E.mass pm bc υ e a ∧
        ∑ c ∈ range P.NU, P.B (first P.np k + pos s i a) c * u c = applied E.W' pm bc υ e a
  grad : ∀ u υ, Represents subs uspaces E.W.nt (blocksOf (sizeIn uspaces) u) υ →
    ∀ (k i e k' i' e' a b : Nat) sm s sm' s', subs[k]? = some sm → uspaces[k]? = some s →
      sm.elemMap[i]? = some e → subs[k']? = some sm' → uspaces[k']? = some s' → sm'.elemMap[i']? = some e' →
      a < E.W.nt e → b < E.W.nt e' →
      P.dconv u k (pos s i a) k' (pos s' i' b) = gradAt true G pm bc υ e a e' b

variable {P : Flow R} {o : Oper R}

theorem OnDivision.NU (N : OnDivision E G pm bc subs uspaces pspaces o P) :
    P.NU = first (sizeIn uspaces) subs.length := by unfold Flow.NU; rw [N.n, N.nu]

theorem OnDivision.NP (N : OnDivision E G pm bc subs uspaces pspaces o P) :
    P.NP = first (sizeIn pspaces) subs.length := by unfold Flow.NP; rw [N.n, N.np]

/-- Both parts of a vector. -/
def Both (E : SteadyEq R F) (subs : List Sub) (uspaces pspaces : List Space) (x : Nat → R) (υ π : Nat → Nat → R) :
    Prop :=
  Represents subs uspaces E.W.nt (blocksOf (sizeIn uspaces) x) υ ∧
    Represents subs pspaces E.W'.nt
      (blocksOf (sizeIn pspaces) fun c => x (first (sizeIn uspaces) subs.length + c)) π

/-- The rows of the gradient are the linearised equations of the undivided mesh. -/
theorem grad_rows (D : Division pm subs φ g) (hcov : Covers pm subs)
    (H : SteadyForms E pm subs φ uspaces pspaces I) (hn : G.n = E.W.nt)
    (N : OnDivision E G pm bc subs uspaces pspaces o P) {x : Nat → R} {J : Nat → Nat → R} (hJ : P.Jacobian x J)
    {υ ζ κ : Nat → Nat → R} (hυ : Represents subs uspaces E.W.nt (blocksOf (sizeIn uspaces) x) υ) {z : Nat → R}
    (hz : Both E subs uspaces pspaces z ζ κ) :
    (∀ (k i e a : Nat) sm s, subs[k]? = some sm → uspaces[k]? = some s → sm.elemMap[i]? = some e → a < E.W.nt e →
      ∑ c ∈ range (P.NU + P.NP), J (first P.nu k + pos s i a) c * z c = E.linMomentum G pm bc υ ζ κ e a) ∧
    ∀ (k i e a : Nat) sm s, subs[k]? = some sm → pspaces[k]? = some s → sm.elemMap[i]? = some e → a < E.W'.nt e →
      ∑ c ∈ range (P.NU + P.NP), J (P.NU + (first P.np k + pos s i a)) c * z c = applied E.W' pm bc ζ e a := by
  obtain ⟨r1, r2⟩ := N.res z (fun c => z (P.NU + c)) ζ κ hz.1 (by rw [N.NU]; exact hz.2)
  constructor
  · intro k i e a sm s hk hs hi ha
    obtain ⟨-, q1, q2⟩ := r1 k i e a sm s hk hs hi ha
    have hlt : k < P.n := by rw [N.n]; exact (List.getElem?_eq_some_iff.1 hk).1
    have hr : pos s i a < P.nu k := by rw [N.nu]; exact dof_lt H.uspace hk hs hi ha
    have hrow : first P.nu k + pos s i a < P.NU := by
      have := first_bound P.nu hlt
      unfold Flow.NU; omega
    rw [sum_range_add]
    have e2 : ∑ c ∈ range P.NP, J (first P.nu k + pos s i a) (P.NU + c) * z (P.NU + c) =
        appliedT E.W' pm bc κ e a := by
      rw [← q2]
      exact sum_congr rfl fun c hc => by rw [hJ.up _ c hrow (mem_range.1 hc)]
    have e1 : ∑ c ∈ range P.NU, J (first P.nu k + pos s i a) c * z c =
        applied E.W pm bc ζ e a + gradApplied true G pm bc υ ζ e a := by
      have hsum : ∑ c ∈ range P.NU, J (first P.nu k + pos s i a) c * z c =
          ∑ c ∈ range P.NU, P.K (first P.nu k + pos s i a) c * z c +
          ∑ k' ∈ range P.n, ∑ c ∈ range (P.nu k'), P.dconv x k (pos s i a) k' c * z (first P.nu k' + c) := by
        rw [show P.NU = first P.nu P.n from rfl, SteadyNS.sum_blocks_eq, SteadyNS.sum_blocks_eq, ← sum_add_distrib]
        refine sum_congr rfl fun k' hk' => ?_
        rw [← sum_add_distrib]
        refine sum_congr rfl fun c hc => ?_
        rw [hJ.uu k _ k' c hlt (mem_range.1 hk') hr (mem_range.1 hc), add_mul]
      rw [hsum, q1]
      congr 1
      rw [N.n, N.nu]
      unfold gradApplied
      rw [hn]
      refine sum_blocks D hcov H.uspace
        (fun k' c => P.dconv x k (pos s i a) k' c * z (first (sizeIn uspaces) k' + c))
        (fun e' b => gradAt true G pm bc υ e a e' b * ζ e' b) ?_
      intro k' i' e' b sm' s' hk' hs' hi' hb
      rw [N.grad x υ hυ k i e k' i' e' a b sm s sm' s' hk hs hi hk' hs' hi' ha hb]
      exact congrArg _ (hz.1 k' sm' s' i' e' b hk' hs' hi' hb)
    rw [e1, e2]
    unfold SteadyEq.linMomentum
    ring
  · intro k i e a sm s hk hs hi ha
    obtain ⟨-, q1⟩ := r2 k i e a sm s hk hs hi ha
    have hlt : k < P.n := by rw [N.n]; exact (List.getElem?_eq_some_iff.1 hk).1
    have hr : pos s i a < P.np k := by rw [N.np]; exact dof_lt H.pspace hk hs hi ha
    have hrow : first P.np k + pos s i a < P.NP := by
      have := first_bound P.np hlt
      unfold Flow.NP; omega
    rw [sum_range_add, ← q1]
    have e2 : ∑ c ∈ range P.NP, J (P.NU + (first P.np k + pos s i a)) (P.NU + c) * z (P.NU + c) = 0 :=
      sum_eq_zero fun c hc => by rw [hJ.pp _ c hrow (mem_range.1 hc), zero_mul]
    rw [e2, add_zero]
    exact sum_congr rfl fun c hc => by rw [hJ.pu _ c hrow (mem_range.1 hc)]

/-- Every element of the mesh is in some submesh. -/
theorem elem_at {n : Nat → Nat} {spaces : List Space} (hcov : Covers pm subs) (hsp : Spaces subs n spaces) {e : Nat}
    (he : e < pm.elemEdges.length) :
    ∃ (k i : Nat) (sm : Sub) (s : Space), subs[k]? = some sm ∧ spaces[k]? = some s ∧ sm.elemMap[i]? = some e := by
  obtain ⟨k, hown⟩ := (hcov e).2 he
  obtain ⟨i, y, ⟨sm, h1, h2⟩, h3⟩ := owns_at hown
  have hy : y = e := by exact_mod_cast h3
  subst hy
  have hk : k < spaces.length := by rw [hsp.1]; exact (List.getElem?_eq_some_iff.1 h1).1
  exact ⟨k, i, sm, _, h1, List.getElem?_eq_getElem hk, h2⟩

/-- A vector is zero if the function it represents is. -/
theorem both_zero (hcov : Covers pm subs) (H : SteadyForms E pm subs φ uspaces pspaces I)
    (N : OnDivision E G pm bc subs uspaces pspaces o P) {z : Nat → R} {ζ κ : Nat → Nat → R}
    (hz : Both E subs uspaces pspaces z ζ κ)
    (h1 : ∀ e a, e < pm.elemEdges.length → a < E.W.nt e → ζ e a = 0)
    (h2 : ∀ e a, e < pm.elemEdges.length → a < E.W'.nt e → κ e a = 0) {t : Nat} (ht : t < P.NU + P.NP) : z t = 0 := by
  have inside : ∀ {k i e : Nat} {sm : Sub}, subs[k]? = some sm → sm.elemMap[i]? = some e →
      e < pm.elemEdges.length := fun hk hi => (hcov _).1 ⟨_, (show At subs _ _ _ from ⟨_, hk, hi⟩).owns⟩
  rw [N.NU, N.NP] at ht
  rcases Nat.lt_or_ge t (first (sizeIn uspaces) subs.length) with h | h
  · obtain ⟨k, r, hk, hr, rfl⟩ := Unsteady.locate _ _ h
    obtain ⟨sm, s, i, e, a, a1, a2, a3, a4, rfl⟩ := dof_at hcov H.uspace hk hr
    exact (hz.1 k sm s i e a a1 a2 a3 a4).trans (h1 e a (inside a1 a3) a4)
  · obtain ⟨k, r, hk, hr, hkr⟩ := Unsteady.locate subs.length (sizeIn pspaces)
      (show t - first (sizeIn uspaces) subs.length < first (sizeIn pspaces) subs.length by omega)
    obtain ⟨sm, s, i, e, a, a1, a2, a3, a4, rfl⟩ := dof_at hcov H.pspace hk hr
    have := (hz.2 k sm s i e a a1 a2 a3 a4).trans (h2 e a (inside a1 a3) a4)
    unfold blocksOf at this
    rw [← hkr] at this
    dsimp only at this
    rw [Nat.add_sub_cancel' h] at this
    exact this

/-- The gradient is nonsingular if the linearised equations of the undivided mesh are. -/
theorem grad_injective (D : Division pm subs φ g) (hcov : Covers pm subs)
    (H : SteadyForms E pm subs φ uspaces pspaces I) (hn : G.n = E.W.nt) (hreg : E.Regular G pm bc)
    (N : OnDivision E G pm bc subs uspaces pspaces o P) {x : Nat → R} {J : Nat → Nat → R} (hJ : P.Jacobian x J)
    {υ : Nat → Nat → R} (hυ : Represents subs uspaces E.W.nt (blocksOf (sizeIn uspaces) x) υ) {z : Nat → R}
    (hz : ∀ i, i < P.NU + P.NP → ∑ j ∈ range (P.NU + P.NP), J i j * z j = 0) {t : Nat} (ht : t < P.NU + P.NP) :
    z t = 0 := by
  obtain ⟨ζ, hζ⟩ := represents_of (n := E.W.nt) (spaces := uspaces) D (blocksOf (sizeIn uspaces) z)
  obtain ⟨κ, hκ⟩ := represents_of (n := E.W'.nt) (spaces := pspaces) D
    (blocksOf (sizeIn pspaces) fun c => z (first (sizeIn uspaces) subs.length + c))
  obtain ⟨r1, r2⟩ := grad_rows D hcov H hn N hJ hυ ⟨hζ, hκ⟩
  obtain ⟨z1, z2⟩ := hreg υ ζ κ (by
    intro e a he ha
    obtain ⟨k, i, sm, s, a1, a2, a3⟩ := elem_at hcov H.uspace he
    have hlt : k < P.n := by rw [N.n]; exact (List.getElem?_eq_some_iff.1 a1).1
    have hr : pos s i a < P.nu k := by rw [N.nu]; exact dof_lt H.uspace a1 a2 a3 ha
    rw [← r1 k i e a sm s a1 a2 a3 ha]
    refine hz _ ?_
    have := first_bound P.nu hlt
    unfold Flow.NU; omega) (by
    intro e a he ha
    obtain ⟨k, i, sm, s, a1, a2, a3⟩ := elem_at hcov H.pspace he
    have hlt : k < P.n := by rw [N.n]; exact (List.getElem?_eq_some_iff.1 a1).1
    have hr : pos s i a < P.np k := by rw [N.np]; exact dof_lt H.pspace a1 a2 a3 ha
    rw [← r2 k i e a sm s a1 a2 a3 ha]
    refine hz _ ?_
    have := first_bound P.np hlt
    unfold Flow.NP; omega)
  exact both_zero hcov H N ⟨hζ, hκ⟩ z1 z2 ht

theorem ve_zipWith_sub {x y : List R} (h : x.length = y.length) (t : Nat) :
    ve (List.zipWith (· - ·) x y) t = ve x t - ve y t := by
  unfold ve
  rw [List.getElem?_zipWith]
  by_cases ht : t < x.length
  · rw [List.getElem?_eq_getElem ht, List.getElem?_eq_getElem (by omega)]; rfl
  · rw [List.getElem?_eq_none (by omega), List.getElem?_eq_none (by omega)]; simp

theorem sqNorm_eq (r : List R) : sqNorm r = ∑ t ∈ range r.length, ve r t ^ 2 := by
  unfold sqNorm
  induction r with
  | nil => rfl
  | cons a r ih =>
    rw [List.map_cons, List.sum_cons, ih, List.length_cons, sum_range_succ', add_comm]
    congr 1
    show a * a = a ^ 2
    ring

/-- The right-hand side of the operator equation. -/
structure IsRhs (P : Flow R) (b : List R) : Prop where
  len : b.length = P.NU + P.NP
  f : ∀ m k, m < P.n → k < P.nu m → ve b (first P.nu m + k) = P.f m k
  g : ∀ m k, m < P.n → k < P.np m → ve b (P.NU + (first P.np m + k)) = P.g m k

/-- The residual of a vector that represents `υ` and `π`. -/
theorem residual_ok (D : Division pm subs φ g) (hcov : Covers pm subs)
    (H : SteadyForms E pm subs φ uspaces pspaces I) (N : OnDivision E G pm bc subs uspaces pspaces o P)
    {b : List R} (hb : IsRhs P b) {x : List R} (hx : x.length = P.NU + P.NP) {υ π : Nat → Nat → R}
    (hυ : Both E subs uspaces pspaces (ve x) υ π) :
    ∃ r, residualAt o b x = .ok r ∧ r.length = P.NU + P.NP ∧ sqNorm r = E.residual pm bc υ π ∧
      (∀ (k i e a : Nat) sm s, subs[k]? = some sm → uspaces[k]? = some s → sm.elemMap[i]? = some e → a < E.W.nt e →
        ve r (first P.nu k + pos s i a) = E.momentum pm bc υ π e a) ∧
      ∀ (k i e a : Nat) sm s, subs[k]? = some sm → pspaces[k]? = some s → sm.elemMap[i]? = some e → a < E.W'.nt e →
        ve r (P.NU + (first P.np k + pos s i a)) = E.mass pm bc υ e a := by
  obtain ⟨y, y1, y2, y3⟩ := SteadyNS.mult_spec N.ok hx
  have hl : y.length = b.length := y2.trans hb.len.symm
  have hres := fun u q υ π h1 h2 => N.res u q υ π h1 h2
  obtain ⟨r1, r2⟩ := N.res (ve x) (fun c => ve x (P.NU + c)) υ π hυ.1 (by rw [N.NU]; exact hυ.2)
  refine ⟨List.zipWith (· - ·) y b, by unfold residualAt; rw [y1, ok_bind]; rfl, by
    rw [List.length_zipWith, hl, Nat.min_self, hb.len], ?_, ?_, ?_⟩
  · rw [← distance_eq D hcov H N.n N.nu N.np (fun u q υ π h1 h2 =>
      ⟨fun k i e a sm s a1 a2 a3 a4 => ((N.res u q υ π h1 h2).1 k i e a sm s a1 a2 a3 a4).1,
        fun k i e a sm s a1 a2 a3 a4 => ((N.res u q υ π h1 h2).2 k i e a sm s a1 a2 a3 a4).1⟩)
      y3 hb.len hb.f hb.g hυ.1 hυ.2, sqNorm_eq]
    unfold distance
    rw [List.length_zipWith, hl, Nat.min_self]
    exact sum_congr rfl fun t _ => by rw [ve_zipWith_sub hl]
  · intro k i e a sm s hk hs hi ha
    have hlt : k < P.n := by rw [N.n]; exact (List.getElem?_eq_some_iff.1 hk).1
    have hr : pos s i a < P.nu k := by rw [N.nu]; exact dof_lt H.uspace hk hs hi ha
    rw [ve_zipWith_sub hl, ← (r1 k i e a sm s hk hs hi ha).1, ← y3.1 k _ hlt hr, hb.f k _ hlt hr]
  · intro k i e a sm s hk hs hi ha
    have hlt : k < P.n := by rw [N.n]; exact (List.getElem?_eq_some_iff.1 hk).1
    have hr : pos s i a < P.np k := by rw [N.np]; exact dof_lt H.pspace hk hs hi ha
    rw [ve_zipWith_sub hl, ← (r2 k i e a sm s hk hs hi ha).1, ← y3.2 k _ hlt hr, hb.g k _ hlt hr]

theorem zipWith_both {x c : List R} (h : x.length = c.length) {υ π ζ κ : Nat → Nat → R}
    (hx : Both E subs uspaces pspaces (ve x) υ π) (hc : Both E subs uspaces pspaces (ve c) ζ κ) :
    Both E subs uspaces pspaces (ve (List.zipWith (· - ·) x c)) (fun e a => υ e a - ζ e a)
      (fun e a => π e a - κ e a) := by
  constructor
  · intro k sm s i e a a1 a2 a3 a4
    have h1 := hx.1 k sm s i e a a1 a2 a3 a4
    have h2 := hc.1 k sm s i e a a1 a2 a3 a4
    unfold blocksOf at h1 h2 ⊢
    rw [ve_zipWith_sub h, h1, h2]
  · intro k sm s i e a a1 a2 a3 a4
    have h1 := hx.2 k sm s i e a a1 a2 a3 a4
    have h2 := hc.2 k sm s i e a a1 a2 a3 a4
    unfold blocksOf at h1 h2 ⊢
    dsimp only at h1 h2 ⊢
    rw [ve_zipWith_sub h, h1, h2]

/-- Every pair of functions is represented by a vector. -/
theorem both_exists (H : SteadyForms E pm subs φ uspaces pspaces I) (υ π : Nat → Nat → R) :
    ∃ x : Nat → R, Both E subs uspaces pspaces x υ π := by
  obtain ⟨xu, hxu⟩ := represented H.uspace υ
  obtain ⟨xp, hxp⟩ := represented H.pspace π
  obtain ⟨u, hu⟩ := flat_vec subs.length (sizeIn uspaces) xu
  obtain ⟨q, hq⟩ := flat_vec subs.length (sizeIn pspaces) xp
  refine ⟨fun t => if t < first (sizeIn uspaces) subs.length then u t else
    q (t - first (sizeIn uspaces) subs.length), ?_, ?_⟩
  · intro k sm sp i e a hk hs hi ha
    have hlt := (List.getElem?_eq_some_iff.1 hk).1
    have hr := dof_lt H.uspace hk hs hi ha
    have := first_bound (sizeIn uspaces) hlt
    rw [← hxu k sm sp i e a hk hs hi ha, ← hu k _ hlt hr]
    unfold blocksOf
    dsimp only
    rw [if_pos (by omega)]
  · intro k sm sp i e a hk hs hi ha
    have hlt := (List.getElem?_eq_some_iff.1 hk).1
    have hr := dof_lt H.pspace hk hs hi ha
    rw [← hxp k sm sp i e a hk hs hi ha, ← hq k _ hlt hr]
    unfold blocksOf
    dsimp only
    rw [if_neg (by omega), Nat.add_sub_cancel_left]

/-- One step: the vector `x - c` where `J c` is the residual. -/
theorem step_ok (D : Division pm subs φ g) (hcov : Covers pm subs)
    (H : SteadyForms E pm subs φ uspaces pspaces I) (hn : G.n = E.W.nt) (hreg : E.Regular G pm bc)
    (N : OnDivision E G pm bc subs uspaces pspaces o P) {x r c : List R} {J : Nat → Nat → R}
    (hJ : P.Jacobian (ve x) J) (hx : x.length = P.NU + P.NP) (hc : c.length = P.NU + P.NP) {υ π : Nat → Nat → R}
    (hυ : Both E subs uspaces pspaces (ve x) υ π)
    (hr : (∀ (k i e a : Nat) sm s, subs[k]? = some sm → uspaces[k]? = some s → sm.elemMap[i]? = some e → a < E.W.nt e →
        ve r (first P.nu k + pos s i a) = E.momentum pm bc υ π e a) ∧
      ∀ (k i e a : Nat) sm s, subs[k]? = some sm → pspaces[k]? = some s → sm.elemMap[i]? = some e → a < E.W'.nt e →
        ve r (P.NU + (first P.np k + pos s i a)) = E.mass pm bc υ e a)
    (hs : ∀ i, i < P.NU + P.NP → ∑ j ∈ range (P.NU + P.NP), J i j * ve c j = ve r i) :
    (∃ υ₁ π₁, E.NewtonStep G pm bc υ π υ₁ π₁) ∧ ∀ υ₁ π₁, E.NewtonStep G pm bc υ π υ₁ π₁ →
      Both E subs uspaces pspaces (ve (List.zipWith (· - ·) x c)) υ₁ π₁ := by
  obtain ⟨ζ, hζ⟩ := represents_of (n := E.W.nt) (spaces := uspaces) D (blocksOf (sizeIn uspaces) (ve c))
  obtain ⟨κ, hκ⟩ := represents_of (n := E.W'.nt) (spaces := pspaces) D
    (blocksOf (sizeIn pspaces) fun t => ve c (first (sizeIn uspaces) subs.length + t))
  obtain ⟨r1, r2⟩ := grad_rows D hcov H hn N hJ hυ.1 (z := ve c) ⟨hζ, hκ⟩
  have urow : ∀ {k i e a : Nat} {sm : Sub} {s : Space}, subs[k]? = some sm → uspaces[k]? = some s →
      sm.elemMap[i]? = some e → a < E.W.nt e → first P.nu k + pos s i a < P.NU + P.NP := by
    intro k i e a sm s a1 a2 a3 ha
    have hlt : k < P.n := by rw [N.n]; exact (List.getElem?_eq_some_iff.1 a1).1
    have hr : pos s i a < P.nu k := by rw [N.nu]; exact dof_lt H.uspace a1 a2 a3 ha
    have := first_bound P.nu hlt
    unfold Flow.NU; omega
  have prow : ∀ {k i e a : Nat} {sm : Sub} {s : Space}, subs[k]? = some sm → pspaces[k]? = some s →
      sm.elemMap[i]? = some e → a < E.W'.nt e → P.NU + (first P.np k + pos s i a) < P.NU + P.NP := by
    intro k i e a sm s a1 a2 a3 ha
    have hlt : k < P.n := by rw [N.n]; exact (List.getElem?_eq_some_iff.1 a1).1
    have hr : pos s i a < P.np k := by rw [N.np]; exact dof_lt H.pspace a1 a2 a3 ha
    have := first_bound P.np hlt
    unfold Flow.NP; omega
  refine ⟨⟨fun e a => υ e a - ζ e a, fun e a => π e a - κ e a, ?_, ?_⟩, ?_⟩
  · intro e a he ha
    obtain ⟨k, i, sm, s, a1, a2, a3⟩ := elem_at hcov H.uspace he
    simp only [sub_sub_cancel]
    rw [← hr.1 k i e a sm s a1 a2 a3 ha, ← hs _ (urow a1 a2 a3 ha)]
    exact (r1 k i e a sm s a1 a2 a3 ha).symm
  · intro e a he ha
    obtain ⟨k, i, sm, s, a1, a2, a3⟩ := elem_at hcov H.pspace he
    simp only [sub_sub_cancel]
    rw [← hr.2 k i e a sm s a1 a2 a3 ha, ← hs _ (prow a1 a2 a3 ha)]
    exact (r2 k i e a sm s a1 a2 a3 ha).symm
  · intro υ₁ π₁ hstep
    have inside : ∀ {k i e : Nat} {sm : Sub}, subs[k]? = some sm → sm.elemMap[i]? = some e →
        e < pm.elemEdges.length := fun hk hi => (hcov _).1 ⟨_, (show At subs _ _ _ from ⟨_, hk, hi⟩).owns⟩
    obtain ⟨d, hd⟩ := both_exists H (fun e a => υ e a - υ₁ e a) (fun e a => π e a - π₁ e a)
    obtain ⟨t1, t2⟩ := grad_rows D hcov H hn N hJ hυ.1 hd
    have hrow : ∀ i, i < P.NU + P.NP → ∑ j ∈ range (P.NU + P.NP), J i j * d j = ve r i := by
      intro t ht
      rcases Nat.lt_or_ge t P.NU with h | h
      · rw [N.NU] at h
        obtain ⟨k, q, hk, hq, rfl⟩ := Unsteady.locate _ _ h
        obtain ⟨sm, s, i, e, a, a1, a2, a3, a4, rfl⟩ := dof_at hcov H.uspace hk hq
        rw [← N.nu, t1 k i e a sm s a1 a2 a3 a4, hr.1 k i e a sm s a1 a2 a3 a4]
        exact hstep.momentum e a (inside a1 a3) a4
      · obtain ⟨k, q, hk, hq, hkq⟩ := Unsteady.locate subs.length (sizeIn pspaces)
          (show t - P.NU < first (sizeIn pspaces) subs.length by rw [← N.NP]; omega)
        obtain ⟨sm, s, i, e, a, a1, a2, a3, a4, rfl⟩ := dof_at hcov H.pspace hk hq
        obtain rfl : t = P.NU + (first (sizeIn pspaces) k + pos s i a) := by omega
        rw [← N.np, t2 k i e a sm s a1 a2 a3 a4, hr.2 k i e a sm s a1 a2 a3 a4]
        exact hstep.mass e a (inside a1 a3) a4
    have heq : ∀ t, t < P.NU + P.NP → ve c t = d t := by
      intro t ht
      refine sub_eq_zero.1 (grad_injective D hcov H hn hreg N hJ hυ.1 (z := fun t => ve c t - d t) ?_ ht)
      intro i hi
      simp only [mul_sub, sum_sub_distrib]
      rw [hs i hi, hrow i hi, sub_self]
    have hcd : Both E subs uspaces pspaces (ve c) (fun e a => υ e a - υ₁ e a) (fun e a => π e a - π₁ e a) := by
      constructor
      · intro k sm s i e a a1 a2 a3 a4
        rw [← hd.1 k sm s i e a a1 a2 a3 a4]
        unfold blocksOf
        rw [← N.nu]
        exact heq _ (urow a1 a2 a3 a4)
      · intro k sm s i e a a1 a2 a3 a4
        rw [← hd.2 k sm s i e a a1 a2 a3 a4]
        unfold blocksOf
        dsimp only
        rw [← N.np, ← N.NU]
        exact heq _ (prow a1 a2 a3 a4)
    have := zipWith_both (hx.trans hc.symm) hυ hcd
    simp only [sub_sub_cancel] at this
    exact this

section
variable [LinearOrder R]

/-- The loop runs as Newton's method on the undivided mesh. -/
theorem loop_ok (D : Division pm subs φ g) (hcov : Covers pm subs)
    (H : SteadyForms E pm subs φ uspaces pspaces I) (hn : G.n = E.W.nt) (hreg : E.Regular G pm bc)
    (N : OnDivision E G pm bc subs uspaces pspaces o P) {lin : LinSolver R} (hlin : SolvesRegular lin) {b : List R}
    (hb : IsRhs P b) (goal : R) : ∀ (left : Nat) (gs : Grads R) (x : List R) (υ π : Nat → Nat → R), P.GradsOk gs →
      x.length = P.NU + P.NP → Both E subs uspaces pspaces (ve x) υ π →
      (∃ conv υ' π', E.NewtonRun G pm bc goal left υ π conv υ' π') ∧
      ∀ conv υ' π', E.NewtonRun G pm bc goal left υ π conv υ' π' →
        ∃ x', newtonLoop lin o b goal left gs x = .ok (x', conv) ∧ x'.length = P.NU + P.NP ∧
          Both E subs uspaces pspaces (ve x') υ' π' := by
  intro left
  induction left with
  | zero =>
    intro gs x υ π _ hx hυ
    obtain ⟨r, r1, r2, r3, -⟩ := residual_ok D hcov H N hb hx hυ
    constructor
    · by_cases h : E.residual pm bc υ π ≤ goal
      · exact ⟨_, _, _, .done h⟩
      · exact ⟨_, _, _, .stop h⟩
    · intro conv υ' π' hrun
      unfold newtonLoop
      rw [r1, ok_bind, r3]
      cases hrun with
      | done h => exact ⟨x, by rw [if_pos h]; rfl, hx, hυ⟩
      | stop h => exact ⟨x, by rw [if_neg h]; rfl, hx, hυ⟩
  | succ left ih =>
    intro gs x υ π hgs hx hυ
    obtain ⟨r, r1, r2, r3, r4⟩ := residual_ok D hcov H N hb hx hυ
    obtain ⟨J, gs', j1, j2, j3, j4, j5⟩ := SteadyNS.gradient_ok N.ok hgs hx
    obtain ⟨c, c1, c2, c3⟩ := hlin J r _ j3 j4 r2 fun z hz t ht => grad_injective D hcov H hn hreg N j5 hυ.1 hz ht
    obtain ⟨⟨υ₁, π₁, s1⟩, s2⟩ := step_ok D hcov H hn hreg N j5 hx c2 hυ r4 c3
    have hl : (List.zipWith (· - ·) x c).length = P.NU + P.NP := by
      rw [List.length_zipWith, hx, c2, Nat.min_self]
    constructor
    · by_cases h : E.residual pm bc υ π ≤ goal
      · exact ⟨_, _, _, .done h⟩
      · obtain ⟨⟨conv, υ', π', h'⟩, -⟩ := ih gs' _ υ₁ π₁ j2 hl (s2 _ _ s1)
        exact ⟨_, _, _, .step h s1 h'⟩
    · intro conv υ' π' hrun
      unfold newtonLoop
      rw [r1, ok_bind, r3]
      cases hrun with
      | done h => exact ⟨x, by rw [if_pos h]; rfl, hx, hυ⟩
      | step h hs hrest =>
        rw [if_neg h]
        dsimp only
        rw [j1, ok_bind]
        dsimp only
        rw [c1, ok_bind]
        exact (ih gs' _ _ _ j2 hl (s2 _ _ hs)).2 conv υ' π' hrest

end

end

end Verif.Divide
