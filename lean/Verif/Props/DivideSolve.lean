import Verif.Proofs.DivideSolve

/-!
# C118: dividing a mesh does not change the computed solution

`Assemble` and `Solve` with an exact direct solver, from the parent mesh to the solution.
-/

namespace Verif.Divide

open Verif Verif.LinAlg Verif.LinAlg.Spec Verif.SubMesh Verif.SubMesh.Spec Finset Spec
open Verif.InterfaceForm (Space Integ MatArr)
open Verif.InterfaceForm.Spec (sizeIn mget MatsOk)
open Verif.Boundary (BC ElastRhs)
open Verif.Blocks (BlockVector)
open Verif.Blocks.Spec (HasSizes IsOffsets)
open Verif.Unsteady.Spec (first Direct)
open Verif.FomSolve (Ext Opts)
open Verif.FomSolve.Spec (at_ dofs StokesSolves stokesLhs NoForce ZeroMean)
open Verif.SteadyNS (Sol)

variable {R δ F α : Type} [Field R] {pm : Parent} {subs subs₂ : List Sub} {φ φ₂ : Nat → Nat → Nat} {g : Int}
variable {bc : BC F} {W W' : Whole R} {spaces spaces₂ : List Space} {views views₂ : List (View R δ)}
variable {ints : List (ITr δ → Mat R)} {fnfi : List (Option (Integ R δ))} {L : Loads R F} {Ls Ls₂ : List (LView R F)}

/-- The blocks of a right-hand side have the sizes of the spaces. -/
theorem rhs_sizes {Ls : List (LView R F)} {n : Nat → Nat} {L : Loads R F} {f : List (List R)}
    (hl : Ls.map (·.space) = spaces) (hc : Ls.length = subs.length) (hfl : f.length = subs.length)
    (hf : ∀ (k : Nat) sm v, subs[k]? = some sm → Ls[k]? = some v → ∃ y, f[k]? = some y ∧
        y.length = v.space.vsize ∧ ∀ (i e a : Nat), sm.elemMap[i]? = some e → a < n e →
          ve y (pos v.space i a) = loadAt L pm bc e a) :
    ∀ (k : Nat) y, f[k]? = some y → y.length = sizeIn spaces k := by
  intro k y hy
  have hk : k < subs.length := by rw [← hfl]; exact (List.getElem?_eq_some_iff.1 hy).1
  have hv := List.getElem?_eq_getElem (show k < Ls.length by rw [hc]; exact hk)
  obtain ⟨y', h1, h2, -⟩ := hf k _ _ (List.getElem?_eq_getElem hk) hv
  rw [hy] at h1; cases h1
  rw [h2, sizeIn_of (show spaces[k]? = some _ by rw [← hl, List.getElem?_map, hv]; rfl)]

/-! ### Poisson -/

/-- C118, Poisson: if the equations of the undivided mesh are symmetric and nonsingular, the solver on a division
with an exact direct solver reports success, and its solution is the discrete function that solves them; it is
saved exactly if a sample generator is given. -/
theorem poisson_run (D : Division pm subs φ g) (hbc : Conditions pm bc) (hcov : Covers pm subs) (hn : W.ns = W.nt)
    (hP : PoissonFits W L pm subs φ spaces views ints fnfi Ls)
    (hs : SymmetricForm pm.elemEdges.length W.nt (entry W pm bc))
    (hns : Nonsingular pm.elemEdges.length W.nt (entry W pm bc))
    {x : Ext R} (hd : Direct x.direct) {o : Opts} (hdir : o.direct = true) (gen : Bool) {st : Sol R}
    (hU : HasSizes st.U (spaces.map (·.vsize))) :
    ∃ st' ξ, poissonRun x o bc pm subs spaces views ints fnfi Ls gen st = .ok (true, st') ∧
      HasSizes st'.U (spaces.map (·.vsize)) ∧ Represents subs spaces W.nt (part (sizeIn spaces) st'.U.data) ξ ∧
      (∀ e a, e < pm.elemEdges.length → a < W.nt e → applied W pm bc ξ e a = loadAt L pm bc e a) ∧
      st'.saved = if gen then st.saved ++ [st'.U] else st.saved := by
  obtain ⟨f, f1, f2, f3⟩ := rhs_spec D hbc hP.load
  obtain ⟨M, m1, m2, _⟩ := operator_spec false D hbc hP.form
  obtain ⟨M', m1', m3⟩ := entries_of_operator false D hbc hP.form
  rw [m1] at m1'; cases m1'
  have hsp : Spaces subs W.nt spaces := by
    have := spaces_test hP.form (fun v hv => hP.complete _ (by rw [← hP.test]; exact List.mem_map.2 ⟨v, hv, rfl⟩))
    rwa [hP.test] at this
  rw [hP.test, hP.trial] at m2 m3
  obtain ⟨st', ξ, r1, r⟩ := direct_run .poisson D hcov hn m2 m3 hsp hs hns f2
    (rhs_sizes hP.loads hP.load.count f2 f3)
    (fun k i e a sm s hk hs hi ha => rhs_at hP.loads f3 hk hs hi ha) hd hdir gen hU
  refine ⟨st', ξ, ?_, r⟩
  unfold poissonRun equations
  rw [f1, ok_bind, m1, ok_bind]
  exact r1

/-- C118, Poisson: on two divisions of a mesh the solver computes the same discrete function. -/
theorem poisson_runs_agree (hbc : Conditions pm bc) (hn : W.ns = W.nt)
    (hs : SymmetricForm pm.elemEdges.length W.nt (entry W pm bc))
    (hns : Nonsingular pm.elemEdges.length W.nt (entry W pm bc))
    (D : Division pm subs φ g) (hcov : Covers pm subs) (hP : PoissonFits W L pm subs φ spaces views ints fnfi Ls)
    (D₂ : Division pm subs₂ φ₂ g) (hcov₂ : Covers pm subs₂)
    (hP₂ : PoissonFits W L pm subs₂ φ₂ spaces₂ views₂ ints fnfi Ls₂)
    {x x₂ : Ext R} (hd : Direct x.direct) (hd₂ : Direct x₂.direct) {o o₂ : Opts} (hdir : o.direct = true)
    (hdir₂ : o₂.direct = true) (gen gen₂ : Bool) {st st₂ : Sol R} (hU : HasSizes st.U (spaces.map (·.vsize)))
    (hU₂ : HasSizes st₂.U (spaces₂.map (·.vsize))) :
    ∃ st' st₂', poissonRun x o bc pm subs spaces views ints fnfi Ls gen st = .ok (true, st') ∧
      poissonRun x₂ o₂ bc pm subs₂ spaces₂ views₂ ints fnfi Ls₂ gen₂ st₂ = .ok (true, st₂') ∧
      SameFunction W.nt subs spaces (part (sizeIn spaces) st'.U.data) subs₂ spaces₂
        (part (sizeIn spaces₂) st₂'.U.data) := by
  obtain ⟨st', ξ, r1, -, r2, r3, -⟩ := poisson_run D hbc hcov hn hP hs hns hd hdir gen hU
  obtain ⟨st₂', ξ₂, s1, -, s2, s3, -⟩ := poisson_run D₂ hbc hcov₂ hn hP₂ hs hns hd₂ hdir₂ gen₂ hU₂
  refine ⟨st', st₂', r1, s1, same_of_represents r2 ?_⟩
  have hz := hns (fun e a => ξ₂ e a - ξ e a) (fun e a he ha => by
    have h1 := r3 e a he ha
    have h2 := s3 e a he ha
    unfold applied at h1 h2
    rw [hn] at h1 h2
    simp only [mul_sub, sum_sub_distrib]
    rw [h1, h2, sub_self])
  intro k sm s i e b hk hs' hi hb
  rw [s2 k sm s i e b hk hs' hi hb]
  have he : e < pm.elemEdges.length := (hcov₂ e).1 ⟨k, (show At subs₂ k i e from ⟨sm, hk, hi⟩).owns⟩
  exact sub_eq_zero.1 (hz e b he hb)

/-- Where symmetry comes from: the integrals over elements, inner faces and boundary faces are symmetric. -/
theorem entry_symmetric (hv : ∀ e a b, W.vol e a b = W.vol e b a) (hf : ∀ f I J a b, W.face f I J a b = W.face f J I b a)
    (hb : ∀ f a b, W.bdr f a b = W.bdr f b a) (m : Nat) (n : Nat → Nat) :
    SymmetricForm m n (entry W pm bc) ∧ SymmetricForm m n (elastEntry W pm bc) := by
  have h1 : ∀ e a e' b f, faceSum W pm e a e' b f = faceSum W pm e' b e a f := by
    intro e a e' b f
    unfold faceSum
    split
    · rfl
    · split
      · rfl
      · rw [sum_comm]
        refine sum_congr rfl fun I _ => sum_congr rfl fun J _ => ?_
        rw [hf f J I a b]
        exact if_congr and_comm rfl rfl
  have h3 : ∀ e a e' b, (if e = e' then W.vol e a b else 0) = if e' = e then W.vol e' b a else 0 := by
    intro e a e' b
    by_cases h : e = e'
    · subst h; rw [if_pos rfl, if_pos rfl, hv]
    · rw [if_neg h, if_neg (Ne.symm h)]
  constructor
  · intro e a e' b _ _ _ _
    unfold entry
    rw [h3]
    simp only [h1 e a e' b]
    congr 2
    refine List.map_congr_left fun q _ => ?_
    unfold bdrSum
    by_cases h : e = e'
    · subst h; rw [hb]
    · rw [if_neg (fun c => h c.1), if_neg (fun c => h c.1.symm)]
  · intro e a e' b _ _ _ _
    unfold elastEntry
    rw [h3]
    simp only [h1 e a e' b]
    congr 2
    refine List.map_congr_left fun q _ => ?_
    by_cases h : e = e'
    · subst h; rw [hb]
    · rw [if_neg (fun c => h c.1), if_neg (fun c => h c.1.symm)]

/-- Where nonsingularity comes from: functions other than zero have positive energy. -/
theorem nonsingular_of_energy [LinearOrder R] [IsStrictOrderedRing R] {m : Nat} {n : Nat → Nat}
    {A : Nat → Nat → Nat → Nat → R}
    (h : ∀ ξ : Nat → Nat → R, (∃ e a, e < m ∧ a < n e ∧ ξ e a ≠ 0) →
      0 < ∑ e ∈ range m, ∑ a ∈ range (n e), ∑ e' ∈ range m, ∑ b ∈ range (n e'), ξ e a * (A e a e' b * ξ e' b)) :
    Nonsingular m n A := by
  intro ξ hξ e a he ha
  by_contra hc
  have := h ξ ⟨e, a, he, ha, hc⟩
  rw [sum_eq_zero] at this
  · exact lt_irrefl _ this
  · intro e he
    refine sum_eq_zero fun a ha => ?_
    simp only [← mul_sum]
    rw [hξ e a (mem_range.1 he) (mem_range.1 ha), mul_zero]

/-! ### Elasticity -/

variable {p p₂ : ElastParts R δ F α} {l u : α} {Le : Loads R (ElastRhs F)}

/-- C118, elasticity. -/
theorem elast_run (D : Division pm subs φ g) (hbc : Conditions pm bc) (hcov : Covers pm subs)
    (h0 : 0 < subs.length) (hn : W.ns = W.nt) (hE : ElastFits W Le pm subs φ spaces p l u)
    (hs : SymmetricForm pm.elemEdges.length W.nt (elastEntry W pm bc))
    (hns : Nonsingular pm.elemEdges.length W.nt (elastEntry W pm bc))
    {x : Ext R} (hd : Direct x.direct) {o : Opts} (hdir : o.direct = true) (gen : Bool) {st : Sol R}
    (hU : HasSizes st.U (spaces.map (·.vsize))) :
    ∃ st' ξ, elastRun x o [l, u] bc pm subs spaces p gen st = .ok (true, st') ∧
      HasSizes st'.U (spaces.map (·.vsize)) ∧ Represents subs spaces W.nt (part (sizeIn spaces) st'.U.data) ξ ∧
      Equilibrium W Le pm bc ξ ∧
      st'.saved = if gen then st.saved ++ [st'.U] else st.saved := by
  have hmt : (p.views.map fun v => v l u).map (·.test) = spaces := by rw [List.map_map]; exact hE.test
  have hms : (p.views.map fun v => v l u).map (·.trial) = spaces := by rw [List.map_map]; exact hE.trial
  have hml : (p.loads.map fun v => v l u).map (·.space) = spaces := by rw [List.map_map]; exact hE.loads
  have hent : entry W pm (fixedBC bc) = elastEntry W pm bc := by
    funext e a e' b; exact entry_fixed W hbc e a e' b
  obtain ⟨f, f1, f2, f3⟩ := rhs_spec D (imposed_conditions hbc) hE.load
  obtain ⟨M, m1, m2, _⟩ := operator_spec false D (fixed_conditions hbc) hE.form
  obtain ⟨M', m1', m3⟩ := entries_of_operator false D (fixed_conditions hbc) hE.form
  rw [m1] at m1'; cases m1'
  have hsp : Spaces subs W.nt spaces := by
    have := spaces_test hE.form (fun v hv => hE.complete _ (by rw [← hmt]; exact List.mem_map.2 ⟨v, hv, rfl⟩))
    rwa [hmt] at this
  rw [hmt, hms] at m2 m3
  rw [← hent] at hs hns
  obtain ⟨st', ξ, r1, r2, r3, r4, r5⟩ := direct_run .elasticity D hcov hn m2 m3 hsp hs hns f2
    (rhs_sizes hml hE.load.count f2 f3)
    (fun k i e a sm s hk hs hi ha => rhs_at hml f3 hk hs hi ha) hd hdir gen hU
  refine ⟨st', ξ, ?_, r2, r3, ?_, r5⟩
  · have := elast_eq D hbc h0 (p := p) (l := l) (u := u)
      (by have := hE.load.count; rwa [List.length_map] at this)
      (by have := hE.form.count; rwa [List.length_map] at this) f1 m1
    unfold elastRun
    rw [this, ok_bind]
    exact r1
  · intro e a he ha
    have := r4 e a he ha
    unfold applied at this
    rw [hent, load_imposed Le hbc] at this
    exact this

/-- C118, elasticity: on two divisions of a mesh the solver computes the same displacement. -/
theorem elast_runs_agree (hbc : Conditions pm bc) (hn : W.ns = W.nt)
    (hs : SymmetricForm pm.elemEdges.length W.nt (elastEntry W pm bc))
    (hns : Nonsingular pm.elemEdges.length W.nt (elastEntry W pm bc))
    (D : Division pm subs φ g) (hcov : Covers pm subs) (h0 : 0 < subs.length)
    (hE : ElastFits W Le pm subs φ spaces p l u)
    (D₂ : Division pm subs₂ φ₂ g) (hcov₂ : Covers pm subs₂) (h0₂ : 0 < subs₂.length)
    (hE₂ : ElastFits W Le pm subs₂ φ₂ spaces₂ p₂ l u)
    {x x₂ : Ext R} (hd : Direct x.direct) (hd₂ : Direct x₂.direct) {o o₂ : Opts} (hdir : o.direct = true)
    (hdir₂ : o₂.direct = true) (gen gen₂ : Bool) {st st₂ : Sol R} (hU : HasSizes st.U (spaces.map (·.vsize)))
    (hU₂ : HasSizes st₂.U (spaces₂.map (·.vsize))) :
    ∃ st' st₂', elastRun x o [l, u] bc pm subs spaces p gen st = .ok (true, st') ∧
      elastRun x₂ o₂ [l, u] bc pm subs₂ spaces₂ p₂ gen₂ st₂ = .ok (true, st₂') ∧
      SameFunction W.nt subs spaces (part (sizeIn spaces) st'.U.data) subs₂ spaces₂
        (part (sizeIn spaces₂) st₂'.U.data) := by
  obtain ⟨st', ξ, r1, -, r2, r3, -⟩ := elast_run D hbc hcov h0 hn hE hs hns hd hdir gen hU
  obtain ⟨st₂', ξ₂, s1, -, s2, s3, -⟩ := elast_run D₂ hbc hcov₂ h0₂ hn hE₂ hs hns hd₂ hdir₂ gen₂ hU₂
  refine ⟨st', st₂', r1, s1, same_of_represents r2 ?_⟩
  have hz := hns (fun e a => ξ₂ e a - ξ e a) (fun e a he ha => by
    have h1 := r3 e a he ha
    have h2 := s3 e a he ha
    rw [hn] at h1 h2
    simp only [mul_sub, sum_sub_distrib]
    rw [h1, h2, sub_self])
  intro k sm s i e b hk hs' hi hb
  rw [s2 k sm s i e b hk hs' hi hb]
  have he : e < pm.elemEdges.length := (hcov₂ e).1 ⟨k, (show At subs₂ k i e from ⟨sm, hk, hi⟩).owns⟩
  exact sub_eq_zero.1 (hz e b he hb)

/-! ### Stokes -/

variable {uspaces pspaces uspaces₂ pspaces₂ : List Space} {views' views₂' : List (View R δ)}
variable {ints' : List (ITr δ → Mat R)} {fnfi' : List (Option (Integ R δ))} {L' : Loads R F} {Ls' Ls₂' : List (LView R F)}

/-- C118, Stokes: if the equations of the undivided mesh have a solution, the viscous form is symmetric, and a
constant pressure exerts no force unless a pressure is prescribed, the solver on a division with an exact direct
solver reports success, its velocity and pressure solve the equations of the undivided mesh, and the pressure has
mean zero unless one is prescribed. -/
theorem stokes_run [CharZero R] (hn : W.ns = W.nt) (hn' : W'.ns = W.nt) (D : Division pm subs φ g)
    (hbc : Conditions pm bc) (hcov : Covers pm subs)
    (S : StokesForms W W' L L' pm subs φ uspaces pspaces views views' ints ints' fnfi fnfi' Ls Ls')
    (hs : SymmetricForm pm.elemEdges.length W.nt (entry W pm bc)) (presDbc : Bool)
    (hfree : presDbc = true ∨ Enclosed W W' pm bc) (hsol : ∃ υ π, StokesSolution W W' L L' pm bc υ π)
    {x : Ext R} (hd : Direct x.direct) {o : Opts} (hdir : o.direct = true) (gen : Bool) {st : Sol R}
    (hU : HasSizes st.U ((List.range subs.length).flatMap fun m => [sizeIn uspaces m, sizeIn pspaces m])) :
    ∃ st' υ π, stokesRun x o presDbc bc pm subs uspaces pspaces views views' ints ints' fnfi fnfi' Ls Ls' gen st =
        .ok (true, st') ∧
      Represents subs uspaces W.nt (flowPart (sizeIn uspaces) (sizeIn pspaces) st'.U.data 0) υ ∧
      Represents subs pspaces W'.nt (flowPart (sizeIn uspaces) (sizeIn pspaces) st'.U.data 1) π ∧
      StokesSolution W W' L L' pm bc υ π ∧ (presDbc = false → ZeroMeanOn W' pm π) ∧
      st'.saved = if gen then st.saved ++ [st'.U] else st.saved := by
  obtain ⟨f, f1, f2, f3⟩ := rhs_spec D hbc S.momentum
  obtain ⟨h, h1, h2, h3⟩ := rhs_spec D hbc S.mass
  obtain ⟨M, m1, m2, _⟩ := operator_spec false D hbc S.viscous
  obtain ⟨M', m1', m3⟩ := entries_of_operator false D hbc S.viscous
  rw [m1] at m1'; cases m1'
  obtain ⟨B, b1, b2, _⟩ := operator_spec true D hbc S.divergence
  obtain ⟨B', b1', b3⟩ := entries_of_operator true D hbc S.divergence
  rw [b1] at b1'; cases b1'
  obtain ⟨f', h', N, C, q1, q2⟩ := stokes_solution_iff hn hn' D hbc hcov S
  have heq : stokesEquations bc pm subs views views' ints ints' fnfi fnfi' Ls Ls' = .ok ((f, h), (M, B)) := by
    unfold stokesEquations
    rw [f1, ok_bind, h1, ok_bind, m1, ok_bind, b1, ok_bind]; rfl
  rw [heq] at q1; cases q1
  have hst : Spaces subs W.nt uspaces := by
    have := spaces_test S.viscous (fun v hv => S.ucomplete _ (by
      rw [← S.utest]; exact List.mem_map.2 ⟨v, hv, rfl⟩))
    rwa [S.utest] at this
  have hpt : Spaces subs W'.nt pspaces := by
    have := spaces_test S.divergence (fun v hv => S.pcomplete _ (by
      rw [← S.pdiv]; exact List.mem_map.2 ⟨v, hv, rfl⟩))
    rwa [S.pdiv] at this
  rw [S.utest, S.utrial] at m2 m3
  rw [S.pdiv, S.udiv] at b2 b3
  obtain ⟨g1, g2, g3⟩ := rhsVec_sizes f2 h2 (rhs_sizes S.uload S.momentum.count f2 f3)
    (rhs_sizes S.pload S.mass.count h2 h3)
  have hat : ∀ m v k, at_ (sizeIn uspaces) (sizeIn pspaces) m v k = if v = 0 then
      first (sizeIn uspaces) m + first (sizeIn pspaces) m + k else
      first (sizeIn uspaces) (m + 1) + first (sizeIn pspaces) m + k := by
    intro m v k
    unfold at_
    split
    · omega
    · rw [show first (sizeIn uspaces) (m + 1) = first (sizeIn uspaces) m + sizeIn uspaces m from sum_range_succ _ _]
      omega
  -- vectors on the division
  have hiff : ∀ z : Nat → R, StokesSolves subs.length (sizeIn uspaces) (sizeIn pspaces) M B
      (ve (rhsVec f h).data) z ↔ SolvesStokes M B f h subs.length (sizeIn uspaces) (sizeIn pspaces)
        (fun k r => z (at_ (sizeIn uspaces) (sizeIn pspaces) k 0 r))
        (fun k r => z (at_ (sizeIn uspaces) (sizeIn pspaces) k 1 r)) := by
    intro z
    have e0 : ∀ m k, stokesLhs subs.length (sizeIn uspaces) (sizeIn pspaces) M B z m 0 k =
        rowMult M subs.length (sizeIn uspaces) (fun k r => z (at_ (sizeIn uspaces) (sizeIn pspaces) k 0 r)) m k +
        colMult B subs.length (sizeIn pspaces) (fun k r => z (at_ (sizeIn uspaces) (sizeIn pspaces) k 1 r)) m k := by
      intro m k
      unfold stokesLhs rowMult colMult
      rw [← sum_add_distrib]
      refine sum_congr rfl fun m' _ => ?_
      rw [sum_range_succ, sum_range_one]
      rfl
    have e1 : ∀ m k, stokesLhs subs.length (sizeIn uspaces) (sizeIn pspaces) M B z m 1 k =
        rowMult B subs.length (sizeIn uspaces)
          (fun k r => z (at_ (sizeIn uspaces) (sizeIn pspaces) k 0 r)) m k := by
      intro m k
      unfold stokesLhs rowMult
      refine sum_congr rfl fun m' _ => ?_
      rw [sum_range_succ, sum_range_one, sum_eq_zero (s := range (dofs (sizeIn uspaces) (sizeIn pspaces) m' 1))
        (fun l _ => by unfold RomAssembly.Spec.saddle; simp), add_zero]
      rfl
    have d0 : ∀ m k, m < subs.length → k < sizeIn uspaces m →
        ve (rhsVec f h).data (at_ (sizeIn uspaces) (sizeIn pspaces) m 0 k) = ve (f[m]?.getD []) k := by
      intro m k hm hk
      unfold ve
      rw [hat, if_pos rfl, g2 m k hm hk]
    have d1 : ∀ m k, m < subs.length → k < sizeIn pspaces m →
        ve (rhsVec f h).data (at_ (sizeIn uspaces) (sizeIn pspaces) m 1 k) = ve (h[m]?.getD []) k := by
      intro m k hm hk
      unfold ve
      rw [hat, if_neg (by decide), g3 m k hm hk]
    constructor
    · intro c
      refine ⟨fun k r hk hr => ?_, fun k r hk hr => ?_⟩
      · rw [← e0, ← d0 k r hk hr]; exact c k 0 r hk (by decide) hr
      · rw [← e1, ← d1 k r hk hr]; exact c k 1 r hk (by decide) hr
    · rintro ⟨c0, c1⟩ m v k hm hv hk
      have hv : v < 2 := hv
      interval_cases v
      · rw [e0, d0 m k hm hk]; exact c0 m k hm hk
      · rw [e1, d1 m k hm hk]; exact c1 m k hm hk
  obtain ⟨υ₀, π₀, hυπ⟩ := hsol
  obtain ⟨u₀, hu₀⟩ := represented hst υ₀
  obtain ⟨p₀, hp₀⟩ := represented hpt π₀
  have hz : ∃ z : Nat → R, ∀ k, k < subs.length →
      (∀ r, r < sizeIn uspaces k → z (at_ (sizeIn uspaces) (sizeIn pspaces) k 0 r) = u₀ k r) ∧
      ∀ r, r < sizeIn pspaces k → z (at_ (sizeIn uspaces) (sizeIn pspaces) k 1 r) = p₀ k r := by
    obtain ⟨z, hz⟩ := flat_vec subs.length (fun k => sizeIn uspaces k + sizeIn pspaces k)
      (fun k r => if r < sizeIn uspaces k then u₀ k r else p₀ k (r - sizeIn uspaces k))
    have hfirst : ∀ k, first (fun k => sizeIn uspaces k + sizeIn pspaces k) k =
        first (sizeIn uspaces) k + first (sizeIn pspaces) k := fun k => sum_add_distrib
    refine ⟨z, fun k hk => ⟨fun r hr => ?_, fun r hr => ?_⟩⟩
    · have := hz k r hk (by omega)
      rw [if_pos hr, hfirst] at this
      rw [← this]
      congr 1
    · have := hz k (sizeIn uspaces k + r) hk (by omega)
      rw [if_neg (by omega), hfirst, show sizeIn uspaces k + r - sizeIn uspaces k = r by omega] at this
      rw [← this]
      congr 1
      unfold at_; simp; omega
  obtain ⟨z, hz⟩ := hz
  have hzsol : StokesSolves subs.length (sizeIn uspaces) (sizeIn pspaces) M B (ve (rhsVec f h).data) z := by
    refine (hiff z).2 ((q2 _ _ υ₀ π₀ ?_ ?_).2 hυπ)
    · intro k sm s i e b hk hs hi hb
      rw [← hu₀ k sm s i e b hk hs hi hb]
      exact (hz k (List.getElem?_eq_some_iff.1 hk).1).1 _ (dof_lt hst hk hs hi hb)
    · intro k sm s i e b hk hs hi hb
      rw [← hp₀ k sm s i e b hk hs hi hb]
      exact (hz k (List.getElem?_eq_some_iff.1 hk).1).2 _ (dof_lt hpt hk hs hi hb)
  have hforce : presDbc = true ∨ NoForce subs.length (sizeIn uspaces) (sizeIn pspaces) B := by
    refine hfree.imp id fun hE => ?_
    have := (all_entries (P := fun k r => colMult B subs.length (sizeIn pspaces) (fun _ _ => 1) k r = 0)
      (Q := fun e a => appliedT W' pm bc (fun _ _ => 1) e a = 0) hcov hst (by
        intro k i e a sm s hk hs hi ha
        rw [col_eq D hcov b3 hpt (η := fun _ _ => 1) (fun _ _ _ _ _ _ _ _ _ _ => rfl) hk hs hi
          (by rw [hn']; exact ha)])).2 hE
    intro m k hm hk
    have := this m k hm hk
    unfold colMult at this
    simpa only [mul_one] using this
  obtain ⟨st', r1, r2, r3, r4, r5⟩ := FomSolve.stokes_direct_partial hd hdir presDbc (offsetsOf_ok hst.1)
    (offsetsOf_ok hpt.1) m2 b2 (symmetric_of hcov hn m3 hst hs) hforce g1 gen hU ⟨z, hzsol⟩
  obtain ⟨υ, hυ⟩ := represents_of (n := W.nt) (spaces := uspaces) D
    (flowPart (sizeIn uspaces) (sizeIn pspaces) st'.U.data 0)
  obtain ⟨π, hπ⟩ := represents_of (n := W'.nt) (spaces := pspaces) D
    (flowPart (sizeIn uspaces) (sizeIn pspaces) st'.U.data 1)
  refine ⟨st', υ, π, ?_, hυ, hπ, (q2 _ _ υ π hυ hπ).1 ((hiff _).1 r3), fun hp => ?_, r5⟩
  · unfold stokesRun
    rw [heq, ok_bind]
    dsimp only
    rw [sizes_eq hst.1, sizes_eq hpt.1]
    rw [show ((List.range subs.length).map (sizeIn uspaces)).sum = first (sizeIn uspaces) subs.length from
      EqpRom.tab_sum _ _, show ((List.range subs.length).map (sizeIn pspaces)).sum =
      first (sizeIn pspaces) subs.length from EqpRom.tab_sum _ _]
    exact r1
  · have := r4 hp
    unfold ZeroMean at this
    unfold ZeroMeanOn
    rw [← this]
    exact (sum_blocks D hcov hpt (fun k c => ve st'.U.data (at_ (sizeIn uspaces) (sizeIn pspaces) k 1 c)) π
      (fun k i e b sm s hk hs hi hb => hπ k sm s i e b hk hs hi hb)).symm

/-- C118, Stokes: on two divisions of a mesh the solver computes the same velocity and pressure. -/
theorem stokes_runs_agree [CharZero R] (hn : W.ns = W.nt) (hn' : W'.ns = W.nt) (hbc : Conditions pm bc)
    (hs : SymmetricForm pm.elemEdges.length W.nt (entry W pm bc)) (presDbc : Bool)
    (hfree : presDbc = true ∨ Enclosed W W' pm bc) (hsol : ∃ υ π, StokesSolution W W' L L' pm bc υ π)
    (huniq : StokesUnique W W' L L' pm bc presDbc)
    (D : Division pm subs φ g) (hcov : Covers pm subs)
    (S : StokesForms W W' L L' pm subs φ uspaces pspaces views views' ints ints' fnfi fnfi' Ls Ls')
    (D₂ : Division pm subs₂ φ₂ g) (hcov₂ : Covers pm subs₂)
    (S₂ : StokesForms W W' L L' pm subs₂ φ₂ uspaces₂ pspaces₂ views₂ views₂' ints ints' fnfi fnfi' Ls₂ Ls₂')
    {x x₂ : Ext R} (hd : Direct x.direct) (hd₂ : Direct x₂.direct) {o o₂ : Opts} (hdir : o.direct = true)
    (hdir₂ : o₂.direct = true) (gen gen₂ : Bool) {st st₂ : Sol R}
    (hU : HasSizes st.U ((List.range subs.length).flatMap fun m => [sizeIn uspaces m, sizeIn pspaces m]))
    (hU₂ : HasSizes st₂.U ((List.range subs₂.length).flatMap fun m => [sizeIn uspaces₂ m, sizeIn pspaces₂ m])) :
    ∃ st' st₂', stokesRun x o presDbc bc pm subs uspaces pspaces views views' ints ints' fnfi fnfi' Ls Ls' gen st =
        .ok (true, st') ∧
      stokesRun x₂ o₂ presDbc bc pm subs₂ uspaces₂ pspaces₂ views₂ views₂' ints ints' fnfi fnfi' Ls₂ Ls₂' gen₂ st₂ =
        .ok (true, st₂') ∧
      SameFunction W.nt subs uspaces (flowPart (sizeIn uspaces) (sizeIn pspaces) st'.U.data 0) subs₂ uspaces₂
        (flowPart (sizeIn uspaces₂) (sizeIn pspaces₂) st₂'.U.data 0) ∧
      SameFunction W'.nt subs pspaces (flowPart (sizeIn uspaces) (sizeIn pspaces) st'.U.data 1) subs₂ pspaces₂
        (flowPart (sizeIn uspaces₂) (sizeIn pspaces₂) st₂'.U.data 1) := by
  obtain ⟨st', υ, π, r1, r2, r3, r4, r5, -⟩ := stokes_run hn hn' D hbc hcov S hs presDbc hfree hsol hd hdir gen hU
  obtain ⟨st₂', υ₂, π₂, s1, s2, s3, s4, s5, -⟩ :=
    stokes_run hn hn' D₂ hbc hcov₂ S₂ hs presDbc hfree hsol hd₂ hdir₂ gen₂ hU₂
  obtain ⟨hv, c, hc, hp⟩ := huniq υ₂ π₂ υ π s4 r4
  have elem : ∀ {k i e : Nat} {sm : Sub}, subs₂[k]? = some sm → sm.elemMap[i]? = some e → e < pm.elemEdges.length :=
    fun {k i e sm} hk hi => (hcov₂ e).1 ⟨k, (show At subs₂ k i e from ⟨sm, hk, hi⟩).owns⟩
  refine ⟨st', st₂', r1, s1, same_of_represents r2 ?_, same_of_represents r3 ?_⟩
  · intro k sm s i e b hk hs' hi hb
    rw [s2 k sm s i e b hk hs' hi hb]
    exact hv e b (elem hk hi) hb
  · intro k sm s i e b hk hs' hi hb
    rw [s3 k sm s i e b hk hs' hi hb, hp e b (elem hk hi) hb]
    have hc0 : c = 0 := by
      cases presDbc with
      | true => exact hc rfl
      | false =>
        have h1 := r5 rfl
        have h2 := s5 rfl
        unfold ZeroMeanOn at h1 h2
        rw [sum_congr rfl fun e he => sum_congr rfl fun a ha => hp e a (mem_range.1 he) (mem_range.1 ha)] at h2
        simp only [sum_add_distrib, h1, zero_add, sum_const, card_range, nsmul_eq_mul, ← sum_mul] at h2
        rcases mul_eq_zero.1 h2 with h3 | h3
        · exfalso
          have h4 : ((∑ e ∈ range pm.elemEdges.length, W'.nt e : Nat) : R) = 0 := by push_cast; exact h3
          have h5 := sum_eq_zero_iff.1 (Nat.cast_eq_zero.1 h4) e (mem_range.2 (elem hk hi))
          omega
        · exact h3
    rw [hc0, add_zero]

/-! Non-vacuity: the strip of three cells, as in C111, with the exact solver of C65. -/

noncomputable def exactExt (R : Type) [CommRing R] : Ext R :=
  ⟨true, Unsteady.exact, fun _ _ _ x => .ok (x, false), fun _ _ _ x => .ok (x, false), fun _ _ _ x => .ok (x, false)⟩

/-- Coupled cells; the boundary term is that of a prescribed value. -/
def ratWhole : Whole ℚ where
  nt _ := 1
  ns _ := 1
  vol e _ _ := 10 * e + 4
  face f I J _ _ := (if I = J then 1 else -1) * ((f : ℚ) + 1)
  bdr f _ _ := 7 * f

def ratLoads : Loads ℚ Int where
  vol e _ := e + 1
  bdr f c _ := 2 * f + c

theorem poisson_realized (W : Whole R) (L : Loads R F) (hn : W.ns = W.nt) (flips : Nat → Nat → Bool)
    (D : Division pm subs φ g) :
    PoissonFits W L pm subs φ ((realize W pm subs φ flips).map (·.test)) (realize W pm subs φ flips) [innerInt W]
      [some (itfInt W)] (realizeLoads L W.nt subs φ) := by
  refine ⟨realize_fits W flips D, realizeLoads_fits L W.nt D, rfl, ?_, realize_same W L flips, ?_⟩
  · unfold realize
    rw [map_mapIdx, map_mapIdx]
    unfold view
    simp only [hn]
  · intro s hs
    obtain ⟨v, hv, rfl⟩ := List.mem_map.1 hs
    exact (realize_complete W flips).1 v hv

theorem rat_symmetric {bc : BC Int} : SymmetricForm demoParent.elemEdges.length ratWhole.nt
      (entry ratWhole demoParent bc) ∧
    SymmetricForm demoParent.elemEdges.length ratWhole.nt (elastEntry ratWhole demoParent bc) :=
  entry_symmetric (fun _ _ _ => rfl) (fun f I J _ _ => by simp only [ratWhole, eq_comm]) (fun _ _ _ => rfl) _ _

theorem two_sizes : HasSizes (⟨[0, 0, 0], [0, 2, 3]⟩ : BlockVector ℚ)
    ((((realize ratWhole demoParent twoSubs twoPhi demoFlips).map (·.test))).map (·.vsize)) := by
  have : ((realize ratWhole demoParent twoSubs twoPhi demoFlips).map (·.test)).map (·.vsize) = [2, 1] := by
    decide +kernel
  rw [this]
  exact ⟨Blocks.isOffsets_partialSum [2, 1], rfl⟩

theorem three_sizes : HasSizes (⟨[0, 0, 0], [0, 1, 2, 3]⟩ : BlockVector ℚ)
    ((((realize ratWhole demoParent demoSubs demoPhi demoFlips).map (·.test))).map (·.vsize)) := by
  have : ((realize ratWhole demoParent demoSubs demoPhi demoFlips).map (·.test)).map (·.vsize) = [1, 1, 1] := by
    decide +kernel
  rw [this]
  exact ⟨Blocks.isOffsets_partialSum [1, 1, 1], rfl⟩

theorem rat_entry {e e' : Nat} (he : e < 3) (he' : e' < 3) : entry ratWhole demoParent demoBC e 0 e' 0 =
    ([[19, -1, 0], [-1, 17, -2], [0, -2, 54]].getD e []).getD e' 0 := by
  have w1 : RomAssembly.Spec.Weak demoBC 1 := ⟨0, 5, rfl, rfl, by decide⟩
  have w2 : ¬ RomAssembly.Spec.Weak demoBC 2 := by
    rintro ⟨k, f, h1, h2, h3⟩
    have hk : k < 2 := (List.getElem?_eq_some_iff.1 h1).1
    interval_cases k
    · cases h1
    · cases h2
  unfold entry
  simp only [demoParent, List.length_cons, List.length_nil, List.map_cons, List.map_nil, sum_range_succ, sum_range_zero]
  interval_cases e <;> interval_cases e' <;>
    simp [faceSum, bdrSum, w1, w2, elemAt, ratWhole] <;> norm_num

/-- Three equations in three unknowns. -/
theorem rat_three {A : Nat → Nat → Nat → Nat → ℚ} (hA : ∀ e e', e < 3 → e' < 3 → A e 0 e' 0 =
    ([[19, -1, 0], [-1, 17, -2], [0, -2, 54]].getD e []).getD e' 0) : Nonsingular 3 (fun _ => 1) A := by
  intro ξ h
  have key : ∀ e, e < 3 → A e 0 0 0 * ξ 0 0 + A e 0 1 0 * ξ 1 0 + A e 0 2 0 * ξ 2 0 = 0 := by
    intro e he
    have := h e 0 he Nat.one_pos
    simpa [sum_range_succ] using this
  have h0 := key 0 (by decide)
  have h1 := key 1 (by decide)
  have h2 := key 2 (by decide)
  simp only [hA _ _ (show 0 < 3 by decide), hA _ _ (show 1 < 3 by decide), hA _ _ (show 2 < 3 by decide),
    show 0 < 3 by decide, show 1 < 3 by decide, show 2 < 3 by decide] at h0 h1 h2
  simp at h0 h1 h2
  intro e a he ha
  have ha : a < 1 := ha
  interval_cases a
  interval_cases e <;> linarith

theorem rat_nonsingular : Nonsingular demoParent.elemEdges.length ratWhole.nt (entry ratWhole demoParent demoBC) :=
  rat_three fun _ _ => rat_entry

/-- The theorem applies to the two and the three submeshes. -/
example (gen : Bool) : ∃ st' st₂',
    poissonRun (exactExt ℚ) ⟨true, false, false⟩ demoBC demoParent twoSubs
      ((realize ratWhole demoParent twoSubs twoPhi demoFlips).map (·.test))
      (realize ratWhole demoParent twoSubs twoPhi demoFlips) [innerInt ratWhole] [some (itfInt ratWhole)]
      (realizeLoads ratLoads ratWhole.nt twoSubs twoPhi) gen ⟨⟨[0, 0, 0], [0, 2, 3]⟩, []⟩ = .ok (true, st') ∧
    poissonRun (exactExt ℚ) ⟨true, false, false⟩ demoBC demoParent demoSubs
      ((realize ratWhole demoParent demoSubs demoPhi demoFlips).map (·.test))
      (realize ratWhole demoParent demoSubs demoPhi demoFlips) [innerInt ratWhole] [some (itfInt ratWhole)]
      (realizeLoads ratLoads ratWhole.nt demoSubs demoPhi) gen ⟨⟨[0, 0, 0], [0, 1, 2, 3]⟩, []⟩ = .ok (true, st₂') := by
  obtain ⟨st', st₂', h1, h2, _⟩ := poisson_runs_agree demo_conditions rfl rat_symmetric.1 rat_nonsingular
    two_division demo_covers.2.1 (poisson_realized ratWhole ratLoads rfl demoFlips two_division)
    three_division demo_covers.2.2 (poisson_realized ratWhole ratLoads rfl demoFlips three_division)
    (x := exactExt ℚ) (x₂ := exactExt ℚ) Unsteady.exact_direct Unsteady.exact_direct
    (o := ⟨true, false, false⟩) (o₂ := ⟨true, false, false⟩) rfl rfl gen gen
    (st := ⟨⟨[0, 0, 0], [0, 2, 3]⟩, []⟩) (st₂ := ⟨⟨[0, 0, 0], [0, 1, 2, 3]⟩, []⟩) two_sizes three_sizes
  exact ⟨st', st₂', h1, h2⟩

/-- The same integrals as functions of the material. -/
def ratElast (l u : ℚ) : Whole ℚ where
  nt _ := 1
  ns _ := 1
  vol e _ _ := l * (10 * e + 4)
  face f I J _ _ := (if I = J then u else -u) * ((f : ℚ) + 1)
  bdr f _ _ := (l + 6 * u) * f

def ratElastLoad (l u : ℚ) : Loads ℚ (ElastRhs Int) where
  vol e _ := e + 1
  bdr f c _ := match c with
    | .dirichlet d => (l + 2 * u) * f * d
    | .traction t => t * (f + 1)

theorem ratElast_eq : ratElast 1 1 = ratWhole := by
  unfold ratElast ratWhole
  congr 1
  · funext e a b; ring
  · funext f a b; ring

theorem rat_elastEntry {e e' : Nat} (he : e < 3) (he' : e' < 3) : elastEntry ratWhole demoParent elastBC e 0 e' 0 =
    ([[19, -1, 0], [-1, 17, -2], [0, -2, 54]].getD e []).getD e' 0 := by
  have w1 : Fixed elastBC 1 := ⟨5, by decide⟩
  have w2 : ¬ Fixed elastBC 2 := by
    rintro ⟨f, hf⟩
    have : imposed elastBC 2 = some (.traction 3) := by decide
    rw [this] at hf
    cases hf
  unfold elastEntry
  simp only [demoParent, List.length_cons, List.length_nil, List.map_cons, List.map_nil, sum_range_succ, sum_range_zero]
  interval_cases e <;> interval_cases e' <;>
    simp [faceSum, w1, w2, elemAt, ratWhole] <;> norm_num

/-- The theorem applies to the two and the three submeshes. -/
example (gen : Bool) : ∃ st' st₂',
    elastRun (exactExt ℚ) ⟨true, false, false⟩ [(1 : ℚ), 1] elastBC demoParent twoSubs
      ((realize (ratElast 1 1) demoParent twoSubs twoPhi demoFlips).map (·.test))
      (elastParts ratElast ratElastLoad demoParent twoSubs twoPhi demoFlips) gen
      ⟨⟨[0, 0, 0], [0, 2, 3]⟩, []⟩ = .ok (true, st') ∧
    elastRun (exactExt ℚ) ⟨true, false, false⟩ [(1 : ℚ), 1] elastBC demoParent demoSubs
      ((realize (ratElast 1 1) demoParent demoSubs demoPhi demoFlips).map (·.test))
      (elastParts ratElast ratElastLoad demoParent demoSubs demoPhi demoFlips) gen
      ⟨⟨[0, 0, 0], [0, 1, 2, 3]⟩, []⟩ = .ok (true, st₂') := by
  obtain ⟨st', st₂', h1, h2, _⟩ := elast_runs_agree (W := ratElast 1 1) (Le := ratElastLoad 1 1) elast_conditions rfl
    (by rw [ratElast_eq]; exact rat_symmetric.2)
    (by rw [ratElast_eq]; exact rat_three fun _ _ => rat_elastEntry)
    two_division demo_covers.2.1 (by decide)
    (elastParts_fits ratElast ratElastLoad demoFlips two_division 1 1 rfl)
    three_division demo_covers.2.2 (by decide)
    (elastParts_fits ratElast ratElastLoad demoFlips three_division 1 1 rfl)
    (x := exactExt ℚ) (x₂ := exactExt ℚ) Unsteady.exact_direct Unsteady.exact_direct
    (o := ⟨true, false, false⟩) (o₂ := ⟨true, false, false⟩) rfl rfl gen gen
    (st := ⟨⟨[0, 0, 0], [0, 2, 3]⟩, []⟩) (st₂ := ⟨⟨[0, 0, 0], [0, 1, 2, 3]⟩, []⟩)
    (by rw [ratElast_eq]; exact two_sizes) (by rw [ratElast_eq]; exact three_sizes)
  exact ⟨st', st₂', h1, h2⟩

/-! Stokes with two degrees of freedom of the velocity and one of the pressure per cell, as in C116. -/

theorem stokes_demo {bc : BC Int} (υ π : Nat → Nat → ℚ) :
    StokesSolution demoFlow.W demoFlow.W' demoFlow.Ld demoFlow.Ld' demoParent bc υ π ↔
      ∀ e, e < demoParent.elemEdges.length → υ e 0 = loadAt demoFlow.Ld' demoParent bc e 0 ∧
        υ e 1 = loadAt demoFlow.Ld demoParent bc e 1 ∧
        π e 0 = loadAt demoFlow.Ld demoParent bc e 0 - applied demoFlow.W demoParent bc υ e 0 := by
  constructor
  · rintro ⟨h1, h2⟩ e he
    have a0 := h1 e 0 he (show 0 < 2 by decide)
    have a1 := h1 e 1 he (show 1 < 2 by decide)
    have b0 := h2 e 0 he (show 0 < 1 by decide)
    rw [demo_appliedT π he] at a0 a1
    rw [demo_applied υ he] at a1
    rw [demo_applied' υ he] at b0
    simp only [if_true, one_ne_zero, if_false] at a0 a1
    exact ⟨b0, by linarith, by linarith⟩
  · intro h
    refine ⟨?_, ?_⟩
    · intro e a he ha
      obtain ⟨h0, h1, h2⟩ := h e he
      have ha : a < 2 := ha
      rw [demo_appliedT π he]
      interval_cases a
      · rw [if_pos rfl, h2]; ring
      · rw [if_neg (by decide), demo_applied υ he, h1]; ring
    · intro e a he ha
      have ha : a < 1 := ha
      interval_cases a
      rw [demo_applied' υ he]
      exact (h e he).1

theorem stokes_demo_solvable (bc : BC Int) : ∃ υ π,
    StokesSolution demoFlow.W demoFlow.W' demoFlow.Ld demoFlow.Ld' demoParent bc υ π := by
  let υ : Nat → Nat → ℚ := fun e a => if a = 0 then loadAt demoFlow.Ld' demoParent bc e 0 else
    loadAt demoFlow.Ld demoParent bc e 1
  exact ⟨υ, fun e _ => loadAt demoFlow.Ld demoParent bc e 0 - applied demoFlow.W demoParent bc υ e 0,
    (stokes_demo υ _).2 fun e _ => ⟨rfl, rfl, rfl⟩⟩

theorem stokes_demo_unique (bc : BC Int) (presDbc : Bool) :
    StokesUnique demoFlow.W demoFlow.W' demoFlow.Ld demoFlow.Ld' demoParent bc presDbc := by
  intro υ₁ π₁ υ₂ π₂ h1 h2
  rw [stokes_demo] at h1 h2
  have hυ : ∀ e a, e < demoParent.elemEdges.length → a < 2 → υ₁ e a = υ₂ e a := by
    intro e a he ha
    obtain ⟨a0, a1, _⟩ := h1 e he
    obtain ⟨b0, b1, _⟩ := h2 e he
    interval_cases a
    · rw [a0, b0]
    · rw [a1, b1]
  refine ⟨hυ, 0, fun _ => rfl, ?_⟩
  intro e a he ha
  have ha : a < 1 := ha
  interval_cases a
  obtain ⟨_, _, a2⟩ := h1 e he
  obtain ⟨_, _, b2⟩ := h2 e he
  have : applied demoFlow.W demoParent bc υ₁ e 0 = applied demoFlow.W demoParent bc υ₂ e 0 := by
    unfold applied
    refine sum_congr rfl fun e' he' => sum_congr rfl fun b hb => ?_
    rw [hυ e' b (mem_range.1 he') (mem_range.1 hb)]
  rw [a2, b2, this, add_zero]

/-- The theorem applies to the two and the three submeshes. -/
example (gen : Bool) : ∃ st' st₂',
    stokesRun (exactExt ℚ) ⟨true, false, false⟩ true demoBC demoParent twoSubs
      (twoSubs.map fun sm => space sm.elemMap demoFlow.W.nt) (twoSubs.map fun sm => space sm.elemMap demoFlow.W'.nt)
      (realize demoFlow.W demoParent twoSubs twoPhi demoFlips)
      (realize demoFlow.W' demoParent twoSubs twoPhi demoFlips) [innerInt demoFlow.W] [innerInt demoFlow.W']
      [some (itfInt demoFlow.W)] [some (itfInt demoFlow.W')]
      (realizeLoads demoFlow.Ld demoFlow.W.nt twoSubs twoPhi)
      (realizeLoads demoFlow.Ld' demoFlow.W'.nt twoSubs twoPhi) gen
      ⟨⟨List.replicate 9 0, [0, 4, 6, 8, 9]⟩, []⟩ = .ok (true, st') ∧
    stokesRun (exactExt ℚ) ⟨true, false, false⟩ true demoBC demoParent demoSubs
      (demoSubs.map fun sm => space sm.elemMap demoFlow.W.nt) (demoSubs.map fun sm => space sm.elemMap demoFlow.W'.nt)
      (realize demoFlow.W demoParent demoSubs demoPhi demoFlips)
      (realize demoFlow.W' demoParent demoSubs demoPhi demoFlips) [innerInt demoFlow.W] [innerInt demoFlow.W']
      [some (itfInt demoFlow.W)] [some (itfInt demoFlow.W')]
      (realizeLoads demoFlow.Ld demoFlow.W.nt demoSubs demoPhi)
      (realizeLoads demoFlow.Ld' demoFlow.W'.nt demoSubs demoPhi) gen
      ⟨⟨List.replicate 9 0, [0, 2, 3, 5, 6, 8, 9]⟩, []⟩ = .ok (true, st₂') := by
  obtain ⟨st', st₂', h1, h2, _⟩ := stokes_runs_agree (W := demoFlow.W) (W' := demoFlow.W') (L := demoFlow.Ld)
    (L' := demoFlow.Ld') rfl rfl demo_conditions
    (fun e a e' b _ ha _ hb => (demo_symmetric demoBC).2 e a e' b ha hb) true (.inl rfl) (stokes_demo_solvable _)
    (stokes_demo_unique _ _) two_division demo_covers.2.1
    (realize_stokes demoFlow.W demoFlow.W' demoFlow.Ld demoFlow.Ld' rfl rfl demoFlips two_division)
    three_division demo_covers.2.2
    (realize_stokes demoFlow.W demoFlow.W' demoFlow.Ld demoFlow.Ld' rfl rfl demoFlips three_division)
    (x := exactExt ℚ) (x₂ := exactExt ℚ) Unsteady.exact_direct Unsteady.exact_direct
    (o := ⟨true, false, false⟩) (o₂ := ⟨true, false, false⟩) rfl rfl gen gen
    (st := ⟨⟨List.replicate 9 0, [0, 4, 6, 8, 9]⟩, []⟩)
    (st₂ := ⟨⟨List.replicate 9 0, [0, 2, 3, 5, 6, 8, 9]⟩, []⟩)
    (by
      rw [show ((List.range twoSubs.length).flatMap fun m =>
        [sizeIn (twoSubs.map fun sm => space sm.elemMap demoFlow.W.nt) m,
          sizeIn (twoSubs.map fun sm => space sm.elemMap demoFlow.W'.nt) m]) = [4, 2, 2, 1] by decide +kernel]
      exact ⟨Blocks.isOffsets_partialSum [4, 2, 2, 1], rfl⟩)
    (by
      rw [show ((List.range demoSubs.length).flatMap fun m =>
        [sizeIn (demoSubs.map fun sm => space sm.elemMap demoFlow.W.nt) m,
          sizeIn (demoSubs.map fun sm => space sm.elemMap demoFlow.W'.nt) m]) = [2, 1, 2, 1, 2, 1] by decide +kernel]
      exact ⟨Blocks.isOffsets_partialSum [2, 1, 2, 1, 2, 1], rfl⟩)
  exact ⟨st', st₂', h1, h2⟩

end Verif.Divide
