import Verif.Proofs.DivideNSReal
import Verif.Props.DivideRhs

/-!
# C114: dividing a mesh does not change the convective terms
-/

namespace Verif.Divide

open Verif Verif.LinAlg Verif.LinAlg.Spec Verif.SubMesh Verif.SubMesh.Spec Finset Spec
open Verif.InterfaceForm (Space Integ MatArr)
open Verif.InterfaceForm.Spec (dofsOf dofAt sizeIn mget)
open Verif.RomAssembly (loop_collect pickMarkers bdrMarkers)
open Verif.Boundary (BC)
open Verif.Blocks (BlockVector)
open Verif.Blocks.Spec (HasSizes)
open Verif.RomHandler.Spec (bent)

variable {R δ F : Type} [CommRing R] {pm : Parent} {subs : List Sub} {φ : Nat → Nat → Nat} {g : Int}
variable {N : Conv R F} {ints : List (ITr δ → List R → List R)} {views : List (NView R δ F)}
variable {fnfi : List (Option (Integ R δ))} {bc : BC F} {x : BlockVector R} {ξ : Nat → Nat → R}

theorem zero_sizes {z : List Nat} (hx : HasSizes x z) :
    HasSizes (⟨List.replicate x.data.length 0, x.offsets⟩ : BlockVector R) z :=
  ⟨hx.1, by rw [List.length_replicate]; exact hx.2⟩

/-- C114: on every division of a mesh the program computes the convective terms of the undivided mesh:
the entry of a degree of freedom depends only on the element of the parent mesh it belongs to and on the
discrete function. -/
theorem convection_spec (lf fullDg : Bool) (D : Division pm subs φ g) (hbc : Conditions pm bc)
    (hfun : lf = true → HasFunctions bc) (hdg : lf = true → fullDg = true)
    (hF : NFits N pm subs φ views ints fnfi)
    (hx : HasSizes x (views.map fun v => v.space.vsize))
    (hξ : Represents subs (views.map (·.space)) N.n (bent x) ξ) :
    ∃ y, convection lf fullDg bc pm subs views ints fnfi x = .ok y ∧
      HasSizes y (views.map fun v => v.space.vsize) ∧
      ∀ (k i e a : Nat) sm v, subs[k]? = some sm → views[k]? = some v → sm.elemMap[i]? = some e →
        a < N.n e → bent y k (pos v.space i a) = convAt lf N pm bc ξ e a := by
  classical
  obtain ⟨st, fms, mesh, mks, mx, hst, hmesh, hmks, hmk, hall⟩ := setup D hbc
  obtain ⟨st', fms', bes, hst', hC, hE⟩ := submeshes2D_correct pm subs φ g D.max D.pos D.wf
  rw [hst] at hst'
  obtain ⟨rfl, rfl⟩ := Prod.mk.inj (Except.ok.inj hst')
  have T : Result pm subs φ g st fms bes := ⟨hC, hE⟩
  obtain ⟨mesh', hmesh', hml, _⟩ := attributes_spec D T
  rw [hmesh] at hmesh'; cases hmesh'
  have hX : Values N subs views x ξ := by
    intro k i e b sm v hk hv hi hb
    exact hξ k sm v.space i e b hk (by rw [List.getElem?_map, hv]; rfl) hi hb
  have vs : ∀ {k : Nat}, k < subs.length → k < views.length := by
    intro k h; rw [hF.count]; exact h
  -- the boundary terms
  obtain ⟨ts, hts, htl, hta⟩ := loop_collect (n := mesh.length)
    (body := fun k (acc : List (List (Nat × Option F) × List (List Int))) => do
      let e ← rd mesh k
      let act ← if lf then nlBC bc e.2 else .ok []
      let ms ← pickMarkers (act.map fun c => (c.1, ())) mks
      return acc ++ [(act, ms)])
    (fun k t => ∀ sm v e, subs[k]? = some sm → views[k]? = some v → mesh[k]? = some e →
      ∃ y, nlForm v (if lf && fullDg then ints else []) e t (tab v.space.vsize (bent x k)) = .ok y ∧
        y.length = v.space.vsize ∧ ∀ (i e a : Nat), sm.elemMap[i]? = some e → a < N.n e →
          ve y (pos v.space i a) = insideAt lf N pm subs bc ξ k e a) (by
      intro k acc hk
      have hs := List.getElem?_eq_getElem (show k < subs.length by rw [← hml]; exact hk)
      have hv := List.getElem?_eq_getElem (vs (show k < subs.length by rw [← hml]; exact hk))
      have V := hF.view _ _ _ hs hv
      have hXk : ∀ (i e b : Nat), (subs[k]'(by rw [← hml]; exact hk)).elemMap[i]? = some e → b < N.n e →
          bent x k (pos (views[k]'(vs (by rw [← hml]; exact hk))).space i b) = ξ e b :=
        fun i e b hi hb => hX k i e b _ _ hs hv hi hb
      obtain ⟨l', u, m1, m2, m3, m4, m5, m6⟩ := hall k _ hs
      cases lf with
      | true =>
        obtain ⟨act, ms, y, c1, c2, c3, c4, c5⟩ := form_lf D hbc (hfun rfl) hs V hXk hmk m2 m3 m5 m4 m6
        refine ⟨(act, ms), ?_, ?_⟩
        · rw [rd_eq_ok.2 m1, ok_bind, if_pos rfl, c1, ok_bind]
          dsimp only
          rw [c2, ok_bind]; rfl
        · intro sm v e h1 h2 h3
          rw [hs] at h1; cases h1
          rw [hv] at h2; cases h2
          rw [m1] at h3; cases h3
          rw [hdg rfl]
          exact ⟨y, c3, c4, c5⟩
      | false =>
        refine ⟨([], []), ?_, ?_⟩
        · rw [rd_eq_ok.2 m1, ok_bind]; rfl
        · intro sm v e h1 h2 h3
          rw [hs] at h1; cases h1
          rw [hv] at h2; cases h2
          exact form_plain D hs V hXk bc e)
  obtain ⟨y, hy, hysz, hyat⟩ := hopMult_spec (views := views) (mesh := mesh) (ts := ts)
    (ii := if lf && fullDg then ints else []) (y := ⟨List.replicate x.data.length 0, x.offsets⟩)
    (fun k yk => ∀ sm v, subs[k]? = some sm → views[k]? = some v →
      ∀ (i e a : Nat), sm.elemMap[i]? = some e → a < N.n e →
          ve yk (pos v.space i a) = insideAt lf N pm subs bc ξ k e a) rfl hx (zero_sizes hx) (by
      intro k v hv
      have hk : k < views.length := (List.getElem?_eq_some_iff.1 hv).1
      have hs := List.getElem?_eq_getElem (show k < subs.length by rw [← hF.count]; exact hk)
      have hm := List.getElem?_eq_getElem (show k < mesh.length by rw [hml, ← hF.count]; exact hk)
      obtain ⟨t, t1, t2⟩ := hta k (by rw [hml, ← hF.count]; exact hk)
      obtain ⟨yk, y1, y2, y3⟩ := t2 _ _ _ hs hv hm
      refine ⟨_, t, yk, hm, t1, y1, y2, ?_⟩
      intro sm v' h1 h2
      rw [hs] at h1; cases h1
      rw [hv] at h2; cases h2
      exact y3)
  have inside : ∀ (k i e a : Nat) sm v, subs[k]? = some sm → views[k]? = some v →
      sm.elemMap[i]? = some e → a < N.n e →
      bent y k (pos v.space i a) = insideAt lf N pm subs bc ξ k e a := by
    intro k i e a sm v hk hv hi ha
    have V := hF.view _ _ _ hk hv
    obtain ⟨yk, p1, p2⟩ := hyat k v hv
    obtain ⟨_, b2, b3⟩ := sized_dofs V.space hi
    have hlt : pos v.space i a < v.space.vsize := by
      refine b3 _ ?_
      unfold dofAt
      rw [List.getElem?_eq_getElem (by rw [b2]; exact ha)]
      exact List.getElem_mem _
    rw [p2 _ hlt, p1 sm v hk hv i e a hi ha]
  have hrun : convection lf fullDg bc pm subs views ints fnfi x =
      if lf then (itf (views.map asView) fnfi st).addMult x y else .ok y := by
    unfold convection
    rw [hst, ok_bind]
    dsimp only
    rw [hmesh, ok_bind, hmks, ok_bind]
    have : nlTerms lf bc mks mesh = .ok ts := hts
    rw [this, ok_bind, hy, ok_bind]
  cases lf with
  | false =>
    refine ⟨y, hrun, hysz, ?_⟩
    intro k i e a sm v hk hv hi ha
    rw [inside k i e a sm v hk hv hi ha]
    simp [insideAt, convAt]
  | true =>
    obtain ⟨fo, vo⟩ := nitf_ok D T hF
    have hsz : InterfaceForm.sizes (itf (views.map asView) fnfi st) =
        views.map fun v => v.space.vsize := by
      show ((views.map asView).map _).map _ = _
      rw [List.map_map, List.map_map]; rfl
    obtain ⟨y', a1, a2, a3⟩ := InterfaceForm.addMult_spec fo vo (x := x) (y := y) (by rw [hsz]; exact hx)
      (by rw [hsz]; exact hysz)
    rw [hsz] at a2
    refine ⟨y', hrun.trans a1, a2, ?_⟩
    intro k i e a sm v hk hv hi ha
    rw [a3, inside k i e a sm v hk hv hi ha, nform_sum D T hF hX hk hv hi ha]
    unfold insideAt convAt
    rw [if_pos rfl, if_pos rfl, ← nface_split D (show At subs k i e from ⟨sm, hk, hi⟩) a]
    ring

/-- C114: on two divisions of the same mesh the convective terms of the same discrete function are the
same. -/
theorem convection_agree (lf fullDg : Bool) {subs₂ : List Sub} {φ₂ : Nat → Nat → Nat}
    {views₂ : List (NView R δ F)} {x₂ : BlockVector R} (hbc : Conditions pm bc)
    (hfun : lf = true → HasFunctions bc) (hdg : lf = true → fullDg = true)
    (D : Division pm subs φ g) (hcov : Covers pm subs) (hF : NFits N pm subs φ views ints fnfi)
    (hx : HasSizes x (views.map fun v => v.space.vsize))
    (D₂ : Division pm subs₂ φ₂ g) (hcov₂ : Covers pm subs₂) (hF₂ : NFits N pm subs₂ φ₂ views₂ ints fnfi)
    (hx₂ : HasSizes x₂ (views₂.map fun v => v.space.vsize))
    (hsame : SameFunction N.n subs (views.map (·.space)) (bent x) subs₂ (views₂.map (·.space)) (bent x₂)) :
    ∃ y y₂, convection lf fullDg bc pm subs views ints fnfi x = .ok y ∧
      convection lf fullDg bc pm subs₂ views₂ ints fnfi x₂ = .ok y₂ ∧
      SameFunction N.n subs (views.map (·.space)) (bent y) subs₂ (views₂.map (·.space)) (bent y₂) := by
  obtain ⟨ξ, hξ⟩ := represents_of (n := N.n) (spaces := views.map (·.space)) D (bent x)
  have hξ₂ := represents_same hcov hcov₂ (by rw [List.length_map, hF.count]) hsame hξ
  obtain ⟨y, e1, _, h1⟩ := convection_spec lf fullDg D hbc hfun hdg hF hx hξ
  obtain ⟨y₂, e2, _, h2⟩ := convection_spec lf fullDg D₂ hbc hfun hdg hF₂ hx₂ hξ₂
  refine ⟨y, y₂, e1, e2, ?_⟩
  intro k i l j e b sm s sm₂ s₂ a1 a2 a3 b1 b2 b3 hb
  rw [List.getElem?_map] at a2 b2
  cases hv : views[k]? with
  | none => rw [hv] at a2; cases a2
  | some v =>
    cases hv₂ : views₂[l]? with
    | none => rw [hv₂] at b2; cases b2
    | some v₂ =>
      rw [hv] at a2; cases a2
      rw [hv₂] at b2; cases b2
      rw [h1 k i e b sm v a1 hv a3 hb, h2 l j e b sm₂ v₂ b1 hv₂ b3 hb]

theorem terms_abort (D : Division pm subs φ g) (hbc : Conditions pm bc)
    {b : Nat} (hb : b < bc.attrs.length) (hn : bc.types[b]? ≠ some .neumann)
    (hf : bc.coeffs[b]? = some none) :
    ∃ st fms mesh mks, buildSubMeshes2D pm subs = .ok (st, fms) ∧ attributes subs.length st = .ok mesh ∧
      bdrMarkers bc.attrs mesh = .ok mks ∧ nlTerms true bc mks mesh = .error .abort := by
  obtain ⟨st, fms, mesh, mks, mx, hst, hmesh, hmks, hmk, hall⟩ := setup D hbc
  obtain ⟨st', fms', bes, hst', hC, hE⟩ := submeshes2D_correct pm subs φ g D.max D.pos D.wf
  rw [hst] at hst'
  obtain ⟨rfl, rfl⟩ := Prod.mk.inj (Except.ok.inj hst')
  have T : Result pm subs φ g st fms bes := ⟨hC, hE⟩
  obtain ⟨mesh', hmesh', hml, _⟩ := attributes_spec D T
  rw [hmesh] at hmesh'; cases hmesh'
  obtain ⟨ms0, hms, hl, _⟩ := Boundary.markers_spec (RomAssembly.markers_ok hmk)
  rw [hmk] at hms; cases hms
  have hab := List.getElem?_eq_getElem hb
  obtain ⟨q, hq, hqa⟩ := hbc.occur _ (List.getElem_mem hb)
  have stop : nlTerms true bc mks mesh = .error .abort := by
    unfold nlTerms
    refine loop_abort ?_ ?_
    · intro k acc hk
      rw [rd_of_lt hk, ok_bind, if_pos rfl]
      by_cases hc : ∀ (b : Nat) a, bc.attrs[b]? = some a → a ∈ (mesh[k]).2 →
          bc.types[b]? = some .neumann ∨ ∃ f, bc.coeffs[b]? = some (some f)
      · left
        rw [nlBC_ok hbc.wf hc, Boundary.rhsBC_eq (bcN_wf bc), ok_bind]
        dsimp only
        rw [RomAssembly.pickMarkers_eq, ok_bind]
        · exact ⟨_, rfl⟩
        · intro c hc
          obtain ⟨c', hc', rfl⟩ := List.mem_map.1 hc
          rw [List.mem_filterMap] at hc'
          obtain ⟨b', hb', hb''⟩ := hc'
          have hlt := List.mem_range.1 hb'
          split at hb''
          · obtain ⟨w, _, rfl⟩ := Option.map_eq_some_iff.1 hb''
            rw [hl]; exact hlt
          · cases hb''
      · right
        push Not at hc
        obtain ⟨b', a', h1, h2, h3, h4⟩ := hc
        have hlt : b' < bc.coeffs.length := by
          rw [hbc.wf.1]; exact (List.getElem?_eq_some_iff.1 h1).1
        have hnone : bc.coeffs[b']? = some none := by
          rw [List.getElem?_eq_getElem hlt]
          cases hv : bc.coeffs[b'] with
          | none => rfl
          | some f =>
            exact absurd (by rw [List.getElem?_eq_getElem hlt, hv]) (h4 f)
        rw [nlBC_abort hbc.wf h1 h2 h3 hnone]; rfl
    · have hqlt := (D.wf.parent_bdr q hq).1
      have hfc := List.getElem?_eq_getElem hqlt
      obtain ⟨⟨k, hown⟩, _⟩ := D.owned _ _ hfc
      obtain ⟨sm, hk, _⟩ := id hown
      obtain ⟨be, hbe, hbf⟩ := D.bdrAll q hq k sm _ hk hfc hown
      obtain ⟨j, hj⟩ := List.mem_iff_getElem?.1 hbe
      obtain ⟨l', u, m1, m2, m3, m4, m5, m6⟩ := hall k _ hk
      obtain ⟨be', g1, g2⟩ := m6 j be hj
      have hattr : be'.attr = bc.attrs[b] := by
        rcases g2 with ⟨q', hq', hf', ha'⟩ | ⟨hfree, _⟩
        · have := D.bdrOnce
          have hqq : q' = q := by
            have heq : q'.1 = q.1 := by rw [hf', hbf]
            exact List.inj_on_of_nodup_map D.bdrOnce hq' hq heq
          rw [ha', hqq, hqa]
        · exact absurd hbf.symm (hfree q hq)
      refine ⟨k, by rw [hml]; exact (List.getElem?_eq_some_iff.1 hk).1, fun acc => ?_⟩
      rw [rd_eq_ok.2 m1, ok_bind, if_pos rfl, nlBC_abort hbc.wf hab ?_ hn hf]
      · rfl
      · have : be'.attr ∈ l'.map (fun b => b.attr) := List.mem_map.2 ⟨be', List.mem_of_getElem? g1, rfl⟩
        rw [← hattr]
        exact (m3.complete _).2 this
  exact ⟨st, fms, mesh, mks, hst, hmesh, hmks, stop⟩

/-- C114: with the Lax-Friedrichs flux a boundary with a condition other than Neumann and without a
function ends the program. -/
theorem convection_needs_functions (fullDg : Bool) (D : Division pm subs φ g) (hbc : Conditions pm bc)
    {b : Nat} (hb : b < bc.attrs.length) (hn : bc.types[b]? ≠ some .neumann)
    (hf : bc.coeffs[b]? = some none) :
    convection true fullDg bc pm subs views ints fnfi x = .error .abort := by
  obtain ⟨st, fms, mesh, mks, h1, h2, h3, h4⟩ := terms_abort D hbc hb hn hf
  unfold convection
  rw [h1, ok_bind]
  dsimp only
  rw [h2, ok_bind, h3, ok_bind, h4]
  rfl

/-! ## The steady Navier-Stokes equations -/

variable {W W' : Whole R} {Ld Ld' : Loads R F} {sviews sviews' : List (View R δ)}
variable {sints sints' : List (ITr δ → Mat R)} {sfnfi sfnfi' : List (Option (Integ R δ))}
variable {Ls Ls' : List (LView R F)}

/-- C114: velocity and pressure solve the steady Navier-Stokes equations on a division exactly if the
discrete functions solve those of the undivided mesh. -/
theorem ns_solution_iff (lf fullDg : Bool) {uspaces pspaces : List Space} (hn : W.ns = W.nt)
    (hn' : W'.ns = W.nt) (hnn : N.n = W.nt) (D : Division pm subs φ g) (hbc : Conditions pm bc)
    (hfun : lf = true → HasFunctions bc) (hdg : lf = true → fullDg = true) (hcov : Covers pm subs)
    (S : StokesForms W W' Ld Ld' pm subs φ uspaces pspaces sviews sviews' sints sints' sfnfi sfnfi' Ls Ls')
    (hF : NFits N pm subs φ views ints fnfi) (hsp : views.map (·.space) = uspaces) :
    ∃ f h M B, stokesEquations bc pm subs sviews sviews' sints sints' sfnfi sfnfi' Ls Ls' =
        .ok ((f, h), (M, B)) ∧
      ∀ (u : BlockVector R) p υ π, HasSizes u (uspaces.map (·.vsize)) →
        Represents subs uspaces W.nt (bent u) υ → Represents subs pspaces W'.nt p π →
        ∃ c, convection lf fullDg bc pm subs views ints fnfi u = .ok c ∧
          (SolvesNS M B f h subs.length (sizeIn uspaces) (sizeIn pspaces) (bent c) (bent u) p ↔
            (∀ e a, e < pm.elemEdges.length → a < W.nt e →
              convAt lf N pm bc υ e a + (applied W pm bc υ e a + appliedT W' pm bc π e a) =
                loadAt Ld pm bc e a) ∧
            ∀ e a, e < pm.elemEdges.length → a < W'.nt e →
              applied W' pm bc υ e a = loadAt Ld' pm bc e a) := by
  obtain ⟨f, f1, _, f3⟩ := rhs_spec D hbc S.momentum
  obtain ⟨h, h1, _, h3⟩ := rhs_spec D hbc S.mass
  obtain ⟨M, m1, m2⟩ := entries_of_operator false D hbc S.viscous
  obtain ⟨B, b1, b2⟩ := entries_of_operator true D hbc S.divergence
  refine ⟨f, h, M, B, ?_, ?_⟩
  · unfold stokesEquations
    rw [f1, ok_bind, h1, ok_bind, m1, ok_bind, b1, ok_bind]; rfl
  · intro u p υ π hsz hu hp
    have hst : Spaces subs W.nt uspaces := by
      have := spaces_test S.viscous (fun v hv => S.ucomplete _ (by
        rw [← S.utest]; exact List.mem_map.2 ⟨v, hv, rfl⟩))
      rw [S.utest] at this; exact this
    have hpt : Spaces subs W'.nt pspaces := by
      have := spaces_test S.divergence (fun v hv => S.pcomplete _ (by
        rw [← S.pdiv]; exact List.mem_map.2 ⟨v, hv, rfl⟩))
      rw [S.pdiv] at this; exact this
    rw [S.utest, S.utrial] at m2
    rw [S.pdiv, S.udiv] at b2
    obtain ⟨c, c1, _, c3⟩ := convection_spec lf fullDg D hbc hfun hdg hF (x := u) (ξ := υ)
      (by rw [← hsp, List.map_map] at hsz; exact hsz) (by rw [hsp, hnn]; exact hu)
    refine ⟨c, c1, and_congr ?_ ?_⟩
    · refine all_entries hcov hst ?_
      intro k i e a sm s hk hs hi ha
      have hc : bent c k (pos s i a) = convAt lf N pm bc υ e a := by
        rw [← hsp, List.getElem?_map] at hs
        cases hv : views[k]? with
        | none => rw [hv] at hs; cases hs
        | some v =>
          rw [hv] at hs; cases hs
          exact c3 k i e a sm v hk hv hi (by rw [hnn]; exact ha)
      rw [hc, row_eq D hcov m2 (by rw [hn]; exact hst) (by rw [hn]; exact hu) hk hs hi ha,
        col_eq D hcov b2 hpt hp hk hs hi (by rw [hn']; exact ha), rhs_at S.uload f3 hk hs hi ha]
    · refine all_entries hcov hpt ?_
      intro k i e a sm s hk hs hi ha
      rw [row_eq D hcov b2 (by rw [hn']; exact hst) (by rw [hn']; exact hu) hk hs hi ha,
        rhs_at S.pload h3 hk hs hi ha]

/-- C114: two divisions of the same mesh have the same solutions of the steady Navier-Stokes equations. -/
theorem ns_solutions_agree (lf fullDg : Bool) {uspaces pspaces uspaces₂ pspaces₂ : List Space}
    {subs₂ : List Sub} {φ₂ : Nat → Nat → Nat} {sviews₂ sviews₂' : List (View R δ)}
    {Ls₂ Ls₂' : List (LView R F)} {views₂ : List (NView R δ F)}
    (hn : W.ns = W.nt) (hn' : W'.ns = W.nt) (hnn : N.n = W.nt) (hbc : Conditions pm bc)
    (hfun : lf = true → HasFunctions bc) (hdg : lf = true → fullDg = true)
    (D : Division pm subs φ g) (hcov : Covers pm subs)
    (S : StokesForms W W' Ld Ld' pm subs φ uspaces pspaces sviews sviews' sints sints' sfnfi sfnfi' Ls Ls')
    (hF : NFits N pm subs φ views ints fnfi) (hsp : views.map (·.space) = uspaces)
    (D₂ : Division pm subs₂ φ₂ g) (hcov₂ : Covers pm subs₂)
    (S₂ : StokesForms W W' Ld Ld' pm subs₂ φ₂ uspaces₂ pspaces₂ sviews₂ sviews₂' sints sints' sfnfi sfnfi'
      Ls₂ Ls₂')
    (hF₂ : NFits N pm subs₂ φ₂ views₂ ints fnfi) (hsp₂ : views₂.map (·.space) = uspaces₂) :
    ∃ f h M B f₂ h₂ M₂ B₂,
      stokesEquations bc pm subs sviews sviews' sints sints' sfnfi sfnfi' Ls Ls' = .ok ((f, h), (M, B)) ∧
      stokesEquations bc pm subs₂ sviews₂ sviews₂' sints sints' sfnfi sfnfi' Ls₂ Ls₂' =
        .ok ((f₂, h₂), (M₂, B₂)) ∧
      ∀ (u u₂ : BlockVector R) p p₂, HasSizes u (uspaces.map (·.vsize)) →
        HasSizes u₂ (uspaces₂.map (·.vsize)) →
        SameFunction W.nt subs uspaces (bent u) subs₂ uspaces₂ (bent u₂) →
        SameFunction W'.nt subs pspaces p subs₂ pspaces₂ p₂ →
        ∃ c c₂, convection lf fullDg bc pm subs views ints fnfi u = .ok c ∧
          convection lf fullDg bc pm subs₂ views₂ ints fnfi u₂ = .ok c₂ ∧
          (SolvesNS M B f h subs.length (sizeIn uspaces) (sizeIn pspaces) (bent c) (bent u) p ↔
            SolvesNS M₂ B₂ f₂ h₂ subs₂.length (sizeIn uspaces₂) (sizeIn pspaces₂) (bent c₂) (bent u₂)
              p₂) := by
  obtain ⟨f, h, M, B, e1, h1⟩ := ns_solution_iff lf fullDg hn hn' hnn D hbc hfun hdg hcov S hF hsp
  obtain ⟨f₂, h₂, M₂, B₂, e2, h2⟩ := ns_solution_iff lf fullDg hn hn' hnn D₂ hbc hfun hdg hcov₂ S₂ hF₂ hsp₂
  refine ⟨f, h, M, B, f₂, h₂, M₂, B₂, e1, e2, ?_⟩
  intro u u₂ p p₂ hz hz₂ hu hp
  have lu : uspaces.length = subs.length := by
    rw [← S.utest, List.length_map, S.viscous.count]
  have lp : pspaces.length = subs.length := by
    rw [← S.pdiv, List.length_map, S.divergence.count]
  obtain ⟨υ, hυ⟩ := represents_of (n := W.nt) (spaces := uspaces) D (bent u)
  obtain ⟨π, hπ⟩ := represents_of (n := W'.nt) (spaces := pspaces) D p
  obtain ⟨c, c1, c2⟩ := h1 u p υ π hz hυ hπ
  obtain ⟨c₂, d1, d2⟩ := h2 u₂ p₂ υ π hz₂ (represents_same hcov hcov₂ lu hu hυ)
    (represents_same hcov hcov₂ lp hp hπ)
  exact ⟨c, c₂, c1, d1, by rw [c2, d2]⟩

/-! Non-vacuity: the strip of three cells, as in C111. -/

/-- Convective integrals with one degree of freedom per cell, quadratic in the values. -/
def demoConv : Conv Int Int where
  n _ := 1
  vol e l _ := l.headD 0 * l.headD 0 + e
  face f I l _ := (if I then -1 else 1) * ((l false).headD 0 - 2 * (l true).headD 0) * (l false).headD 0 + f
  bdr f c l _ := (match c with | some c => c * l.headD 0 | none => l.headD 0 * l.headD 0) + 10 * f

theorem demo_functions : HasFunctions demoBC := by
  intro b hb
  have : b = 0 ∨ b = 1 := by
    have : demoBC.attrs.length = 2 := rfl
    omega
  rcases this with rfl | rfl
  · exact .inr ⟨5, rfl⟩
  · exact .inl rfl

/-- The theorem applies to the two and the three submeshes. -/
example (u u₂ : BlockVector Int)
    (hz : HasSizes u ((nrealize demoConv demoParent twoSubs twoPhi demoFlips).map fun v => v.space.vsize))
    (hz₂ : HasSizes u₂ ((nrealize demoConv demoParent demoSubs demoPhi demoFlips).map
      fun v => v.space.vsize))
    (hsame : SameFunction demoConv.n twoSubs
      ((nrealize demoConv demoParent twoSubs twoPhi demoFlips).map (·.space)) (bent u) demoSubs
      ((nrealize demoConv demoParent demoSubs demoPhi demoFlips).map (·.space)) (bent u₂)) :
    ∃ y y₂, convection true true demoBC demoParent twoSubs
        (nrealize demoConv demoParent twoSubs twoPhi demoFlips) [innerVec demoConv] [some (itfVec demoConv)]
        u = .ok y ∧
      convection true true demoBC demoParent demoSubs
        (nrealize demoConv demoParent demoSubs demoPhi demoFlips) [innerVec demoConv]
        [some (itfVec demoConv)] u₂ = .ok y₂ := by
  obtain ⟨y, y₂, h1, h2, _⟩ := convection_agree true true demo_conditions (fun _ => demo_functions)
    (fun _ => rfl) two_division demo_covers.2.1 (nrealize_fits demoConv demoFlips two_division) hz
    three_division demo_covers.2.2 (nrealize_fits demoConv demoFlips three_division) hz₂ hsame
  exact ⟨y, y₂, h1, h2⟩

/-- The computed convective terms of the function with values 1, 2, 3 on the cells. -/
example :
    (convection true true demoBC demoParent oneSub (nrealize demoConv demoParent oneSub onePhi demoFlips)
      [innerVec demoConv] [some (itfVec demoConv)] ⟨[1, 2, 3], [0, 3]⟩).map (·.data) = .ok [23, 46, 64] ∧
    (convection true true demoBC demoParent twoSubs (nrealize demoConv demoParent twoSubs twoPhi demoFlips)
      [innerVec demoConv] [some (itfVec demoConv)] ⟨[2, 1, 3], [0, 2, 3]⟩).map (·.data) = .ok [46, 23, 64] ∧
    (convection true true demoBC demoParent demoSubs
      (nrealize demoConv demoParent demoSubs demoPhi demoFlips)
      [innerVec demoConv] [some (itfVec demoConv)] ⟨[1, 2, 3], [0, 1, 2, 3]⟩).map (·.data) =
        .ok [23, 46, 64] := by
  decide +kernel

/-- The theorem on the equations applies to the one and the three meshes. -/
example : ∃ f h M B f₂ h₂ M₂ B₂,
    stokesEquations demoBC demoParent oneSub (realize demoSquare demoParent oneSub onePhi demoFlips)
      (realize demoDiv demoParent oneSub onePhi demoFlips) [innerInt demoSquare] [innerInt demoDiv]
      [some (itfInt demoSquare)] [some (itfInt demoDiv)]
      (realizeLoads demoLoads demoSquare.nt oneSub onePhi)
      (realizeLoads demoLoads demoDiv.nt oneSub onePhi) = .ok ((f, h), (M, B)) ∧
    stokesEquations demoBC demoParent demoSubs (realize demoSquare demoParent demoSubs demoPhi demoFlips)
      (realize demoDiv demoParent demoSubs demoPhi demoFlips) [innerInt demoSquare] [innerInt demoDiv]
      [some (itfInt demoSquare)] [some (itfInt demoDiv)]
      (realizeLoads demoLoads demoSquare.nt demoSubs demoPhi)
      (realizeLoads demoLoads demoDiv.nt demoSubs demoPhi) = .ok ((f₂, h₂), (M₂, B₂)) := by
  obtain ⟨f, h, M, B, f₂, h₂, M₂, B₂, h1, h2, _⟩ := ns_solutions_agree true true (N := demoConv)
    (W := demoSquare) (W' := demoDiv) rfl rfl rfl demo_conditions (fun _ => demo_functions) (fun _ => rfl)
    one_division demo_covers.1
    (realize_stokes demoSquare demoDiv demoLoads demoLoads rfl rfl demoFlips one_division)
    (nrealize_fits demoConv demoFlips one_division) (nrealize_sizes _ _ _ _ _)
    three_division demo_covers.2.2
    (realize_stokes demoSquare demoDiv demoLoads demoLoads rfl rfl demoFlips three_division)
    (nrealize_fits demoConv demoFlips three_division) (nrealize_sizes _ _ _ _ _)
  exact ⟨f, h, M, B, f₂, h₂, M₂, B₂, h1, h2⟩

/-- A Dirichlet condition without a function. -/
def noFunction : BC Int := ⟨[1, 2], [none, none], [.dirichlet, .neumann], false⟩

theorem noFunction_conditions : Conditions demoParent noFunction :=
  ⟨⟨rfl, rfl⟩, demo_conditions.nodup, demo_conditions.occur⟩

example (x : BlockVector Int) : convection true true noFunction demoParent demoSubs
    (nrealize demoConv demoParent demoSubs demoPhi demoFlips) [innerVec demoConv]
    [some (itfVec demoConv)] x = .error .abort :=
  convection_needs_functions true three_division noFunction_conditions (b := 0) (by decide) (by decide) rfl

end Verif.Divide
