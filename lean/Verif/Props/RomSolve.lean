import Verif.Spec.RomSolve
import Verif.Props.Online
import Verif.Props.FomSolve
import Verif.Props.Options
import Verif.Props.Eqp

/-!
# C96: linear solves of a ROM
-/

namespace Verif.RomSolve

open Verif Verif.LinAlg Verif.LinAlg.Spec Verif.RomSolve.Spec Verif.Mumps Finset
open Verif.Blocks (BlockVector)
open Verif.Blocks.Spec (IsOffsets HasSizes)
open Verif.RomHandler
open Verif.RomHandler.Spec
open Verif.RomAssembly.Spec (galerkin)
open Verif.Online (view projectRHS Projects mono_projects pos pos_lt pos_surj orthogonal_iff bent_pos sum_pos)
open Verif.Online.Spec
open Verif.Unsteady (mono addMult mono_dims Shapes)
open Verif.Unsteady.Spec (Direct vecOf)
open Verif.FomSolve (Ext Krylov apply_isMatrix addMult_isMatrix)
open Verif.FomSolve.Spec (IsMatrix Sound resid)
open Verif.Options (Node Conv key option option_iff pieces)

variable {R : Type}

/-! ### Options -/

theorem readOpts_direct {c : Conv} {cfg : Node} (h : SaysSolver c cfg "direct") {s : String} (ht : SaysType c cfg s)
    {t : MatType} (hm : matTypeOf s = .ok t) : readOpts c cfg = .ok (.direct t) := by
  unfold readOpts
  rw [(option_iff _ _ _ _ _).2 h, ok_bind, if_pos rfl, (option_iff _ _ _ _ _).2 ht, ok_bind, hm, ok_bind]
  rfl

theorem readOpts_cg {c : Conv} {cfg : Node} (h : SaysSolver c cfg "cg") : readOpts c cfg = .ok .cg := by
  unfold readOpts
  rw [(option_iff _ _ _ _ _).2 h, ok_bind, if_neg (by decide), if_pos rfl]
  rfl

theorem readOpts_minres {c : Conv} {cfg : Node} (h : SaysSolver c cfg "minres") : readOpts c cfg = .ok .minres := by
  unfold readOpts
  rw [(option_iff _ _ _ _ _).2 h, ok_bind, if_neg (by decide), if_neg (by decide), if_pos rfl]
  rfl

variable [Field R]

/-- **C96.** Unknown names of the solver, or of the kind of system for the direct solver, end the program. -/
theorem unknown_stops (x : Ext R) {c : Conv} {cfg : Node} {s : String}
    (h : (SaysSolver c cfg s ∧ s ≠ "direct" ∧ s ≠ "cg" ∧ s ≠ "minres") ∨
      (SaysSolver c cfg "direct" ∧ SaysType c cfg s ∧ s ≠ "spd" ∧ s ≠ "sid" ∧ s ≠ "us"))
    (hd : Handler R) (rom : BlockMat R) (varOffs domOffs : List Nat) (RHS U : List R) (junk : Nat → R) :
    online x c cfg hd rom varOffs domOffs RHS U junk = .error .abort := by
  unfold online readOpts
  rcases h with ⟨h, h1, h2, h3⟩ | ⟨h, ht, h1, h2, h3⟩
  · rw [(option_iff _ _ _ _ _).2 h, ok_bind, if_neg h1, if_neg h2, if_neg h3]; rfl
  · rw [(option_iff _ _ _ _ _).2 h, ok_bind, if_pos rfl, (option_iff _ _ _ _ _).2 ht, ok_bind]
    unfold matTypeOf
    rw [if_neg h1, if_neg h2, if_neg h3]; rfl

/-! ### The direct solver -/

theorem galerkin_symm {h : Handler R} {A : Nat → Nat → Nat → Nat → Nat → Nat → R} (hs : Symmetric h A)
    {m m' v w : Nat} (hm : m < h.numSub) (hm' : m' < h.numSub) (hv : v < vars h) (hw : w < vars h) (p q : Nat) :
    galerkin (V h m v) (V h m' w) (A m m' v w) p q = galerkin (V h m' w) (V h m v) (A m' m w v) q p := by
  unfold galerkin
  rw [sum_comm]
  refine sum_congr rfl fun l hl => sum_congr rfl fun k hk => ?_
  rw [hs m m' v w k l hm hm' hv hw (mem_range.1 hk) (mem_range.1 hl)]
  ring

theorem mono_symm {h : Handler R} {zr zf : List Nat} (hr : Ready h zr zf)
    {A : Nat → Nat → Nat → Nat → Nat → Nat → R} {rom : BlockMat R} (hp : Projects h zr A rom) (hs : Symmetric h A) :
    ∀ r c, r < zr.sum → c < zr.sum → (mono rom).val r c = (mono rom).val c r := by
  intro r c hrr hc
  obtain ⟨m, v, p, hm, hv, hpp, rfl⟩ := pos_surj hr hrr
  obtain ⟨m', w, q, hm', hw, hq, rfl⟩ := pos_surj hr hc
  rw [mono_projects hr hp hm hm' hv hw hpp hq, mono_projects hr hp hm' hm hw hv hq hpp,
    galerkin_symm hs hm hm' hv hw]

theorem view_of {h : Handler R} {varOffs domOffs : List Nat} {U : List R} {zf : List Nat}
    (hU : HasSizes (view h varOffs domOffs U) zf) {u : BlockVector R} (hu : HasSizes u zf) :
    view h varOffs domOffs u.data = u := by
  have h1 : IsOffsets (view h varOffs domOffs U).offsets zf := hU.1
  have h2 := h1.unique hu.1
  unfold view at h2 ⊢
  split at h2 <;> rename_i hh
  · rw [if_pos hh]; exact congrArg (BlockVector.mk u.data) h2
  · rw [if_neg hh]; exact congrArg (BlockVector.mk u.data) h2

theorem row_pos {h : Handler R} {zr zf : List Nat} (hr : Ready h zr zf)
    {A : Nat → Nat → Nat → Nat → Nat → Nat → R} {rom : BlockMat R} (hp : Projects h zr A rom) (x : Nat → R)
    {m v p : Nat} (hm : m < h.numSub) (hv : v < vars h) (hpp : p < (V h m v).w) :
    ∑ c ∈ range zr.sum, (mono rom).val (pos h zr m v p) c * x c =
      ∑ m' ∈ range h.numSub, ∑ w ∈ range (vars h), ∑ q ∈ range (V h m' w).w,
        galerkin (V h m v) (V h m' w) (A m m' v w) p q * x (pos h zr m' w q) := by
  rw [sum_pos hr]
  refine sum_congr rfl fun m' hm' => sum_congr rfl fun w hw => sum_congr rfl fun q hq => ?_
  rw [mono_projects hr hp hm (mem_range.1 hm') hv (mem_range.1 hw) hpp (mem_range.1 hq)]

/-- The run, once the options are read: what is lifted, and what it leaves of the tested equations. -/
theorem parts {h : Handler R} {zr zf : List Nat} (hr : Ready h zr zf)
    {A : Nat → Nat → Nat → Nat → Nat → Nat → R} {rom : BlockMat R} (hp : Projects h zr A rom)
    {varOffs domOffs : List Nat} {RHS U : List R} (hR : HasSizes (view h varOffs domOffs RHS) zf)
    (hU : HasSizes (view h varOffs domOffs U) zf) (junk : Nat → R) :
    ∃ r : BlockVector R, projectRHS h varOffs domOffs RHS junk = .ok r ∧ r.data.length = zr.sum ∧
      (∀ m v p, m < h.numSub → v < vars h → p < (V h m v).w → ve r.data (pos h zr m v p) =
        ∑ k ∈ range (V h m v).h, ent (V h m v) k p * bent (view h varOffs domOffs RHS) (fomBlock h m v) k) ∧
      ∀ (x : Ext R) (l : LinSol) (prec : String),
        (∀ f, linearSolve x l prec rom r.data (List.replicate zr.sum 0) = .error f →
          solve x l prec h rom (some r) (view h varOffs domOffs U) = .error f) ∧
        ∀ y, linearSolve x l prec rom r.data (List.replicate zr.sum 0) = .ok y → y.length = zr.sum →
          ∃ u, solve x l prec h rom (some r) (view h varOffs domOffs U) = .ok u ∧
            HasSizes (view h varOffs domOffs u.data) zf ∧
            Combines h (fun m v p => ve y (pos h zr m v p)) (view h varOffs domOffs u.data) ∧
            ∀ m v p, m < h.numSub → v < vars h → p < (V h m v).w →
              tested h A (view h varOffs domOffs RHS) (view h varOffs domOffs u.data) m v p =
                ve r.data (pos h zr m v p) - ∑ c ∈ range zr.sum, (mono rom).val (pos h zr m v p) c * ve y c := by
  obtain ⟨r, e1, hrs, hro, hrv⟩ := project_spec hr _ hR junk
  have hrv' : ∀ m v p, m < h.numSub → v < vars h → p < (V h m v).w → ve r.data (pos h zr m v p) =
        ∑ k ∈ range (V h m v).h, ent (V h m v) k p * bent (view h varOffs domOffs RHS) (fomBlock h m v) k := by
    intro m v p hm hv hpp
    rw [← bent_pos hr hrs hm hv hpp]
    exact hrv m v p hm hv hpp
  have hn : (view h varOffs domOffs U).numBlocks = h.numBlocks := by rw [hU.numBlocks, hr.lenF, numBlocks_eq]
  have hlast : h.romOffs[h.numBlocks]? = some zr.sum := by
    rw [numBlocks_eq, ← hr.lenR]; exact hr.offs.last
  have hsolve : ∀ (x : Ext R) l prec, solve x l prec h rom (some r) (view h varOffs domOffs U) =
      (linearSolve x l prec rom r.data (List.replicate zr.sum 0) >>= fun y =>
        h.lift ⟨y, h.romOffs⟩ (view h varOffs domOffs U)) := by
    intro x l prec
    unfold solve
    rw [hn, beq_self_eq_true, require_true, ok_bind]
    show ((.ok r : Outcome _) >>= _) = _
    rw [ok_bind, (rd_eq_ok).2 hlast, ok_bind]
  refine ⟨r, e1, hrs.2, hrv', fun x l prec => ⟨fun f hf => by rw [hsolve, hf]; rfl, fun y hy ly => ?_⟩⟩
  obtain ⟨u, e2, hus, huv⟩ := lift_spec hr ⟨y, h.romOffs⟩ _ ⟨hr.offs, ly⟩ hU
  have hv := view_of hU hus
  have hys : HasSizes (⟨y, h.romOffs⟩ : BlockVector R) zr := ⟨hr.offs, ly⟩
  have hcomb : Combines h (fun m v p => ve y (pos h zr m v p)) u := by
    intro m v k hm hv hk
    rw [huv m v k hm hv hk]
    exact sum_congr rfl fun q hq => by rw [bent_pos hr hys hm hv (mem_range.1 hq)]
  refine ⟨u, by rw [hsolve, hy, ok_bind, e2], by rw [hv]; exact hus, by rw [hv]; exact hcomb,
    fun m v p hm hv' hpp => ?_⟩
  rw [hv, row_pos hr hp _ hm hv' hpp, hrv' m v p hm hv' hpp, ← Online.apply_combines A hcomb]
  unfold tested
  simp only [mul_sub, sum_sub_distrib]

/-- What the direct solver returns for the reduced system. -/
theorem direct_solves {x : Ext R} (hd : Direct x.direct) {t : MatType} {A : Blk R} {N : Nat} (h1 : A.h = N)
    (h2 : A.w = N) (hsym : t = .unsymmetric ∨ ∀ r c, r < N → c < N → A.val r c = A.val c r) {b : List R}
    (hb : b.length = N) (hz : ∃ z : Nat → R, ∀ r, r < N → ∑ c ∈ range N, A.val r c * z c = ve b r) :
    ∃ y, x.direct (seen x.lower t A) b = .ok y ∧ y.length = N ∧
      ∀ r, r < N → ∑ c ∈ range N, A.val r c * ve y c = ve b r := by
  obtain ⟨s1, s2, s3⟩ := seen_eq x.lower t A N hsym
  obtain ⟨z, hz⟩ := hz
  obtain ⟨y, e, ly, hy⟩ := hd (seen x.lower t A) b (by rw [s1, h1, hb]) (by rw [s2, h2, hb]) ⟨z, fun r hr => by
    rw [hb] at hr ⊢
    rw [← hz r hr]
    exact sum_congr rfl fun c hc => by rw [s3 r c hr (mem_range.1 hc)]⟩
  rw [hb] at ly hy
  refine ⟨y, e, ly, fun r hr => ?_⟩
  rw [← hy r hr]
  exact sum_congr rfl fun c hc => by rw [s3 r c hr (mem_range.1 hc)]

/-- **C96.** With the direct solver the run ends with the Galerkin solution - the vector in the span of the bases
whose residual is orthogonal to them - provided the kind of system is `us`, or the full-order operator is
symmetric, whatever kind is named. -/
theorem direct_galerkin_partial {x : Ext R} (hd : Direct x.direct) {c : Conv} {cfg : Node}
    (hc : SaysSolver c cfg "direct") {s : String} (hsy : SaysType c cfg s) {pr : String} (hpr : SaysPrec c cfg pr)
    {h : Handler R} {zr zf : List Nat} (hr : Ready h zr zf)
    {A : Nat → Nat → Nat → Nat → Nat → Nat → R} {rom : BlockMat R} (hp : Projects h zr A rom) (hreg : Regular h A)
    (hk : s = "us" ∨ (s = "spd" ∨ s = "sid") ∧ Symmetric h A)
    {varOffs domOffs : List Nat} {RHS U : List R} (hR : HasSizes (view h varOffs domOffs RHS) zf)
    (hU : HasSizes (view h varOffs domOffs U) zf) (junk : Nat → R) :
    ∃ u, online x c cfg h rom varOffs domOffs RHS U junk = .ok u ∧
      HasSizes (view h varOffs domOffs u) zf ∧ InSpan h (view h varOffs domOffs u) ∧
      Orthogonal h A (view h varOffs domOffs RHS) (view h varOffs domOffs u) := by
  obtain ⟨t, hm, hsym⟩ : ∃ t, matTypeOf s = .ok t ∧
      (t = .unsymmetric ∨ ∀ r c, r < zr.sum → c < zr.sum → (mono rom).val r c = (mono rom).val c r) := by
    rcases hk with rfl | ⟨rfl | rfl, hs⟩
    · exact ⟨_, rfl, .inl rfl⟩
    · exact ⟨_, rfl, .inr (mono_symm hr hp hs)⟩
    · exact ⟨_, rfl, .inr (mono_symm hr hp hs)⟩
  have hdim := mono_dims (b := rom) (zr := zr) (zc := zr) (by rw [hp.roffs]; exact hr.offs)
    (by rw [hp.coffs]; exact hr.offs)
  obtain ⟨r, e1, lr, hrv, hsol⟩ := parts hr hp hR hU junk
  have hex : ∃ z : Nat → R, ∀ r', r' < zr.sum → ∑ c ∈ range zr.sum, (mono rom).val r' c * z c = ve r.data r' := by
    refine Online.solvable _ _ _ fun z hz => ?_
    have := hreg (fun m v p => z (pos h zr m v p)) (fun m v p hm hv hpp => by
      rw [← hz _ (pos_lt hr hm hv hpp), row_pos hr hp z hm hv hpp]; rfl)
    intro t ht
    obtain ⟨m, v, p, hm, hv, hpp, rfl⟩ := pos_surj hr ht
    exact this m v p hm hv hpp
  obtain ⟨y, ey, ly, hy⟩ := direct_solves hd hdim.1 hdim.2 hsym lr hex
  obtain ⟨u, eu, hus, hcomb, ht⟩ := (hsol x (.direct t) pr).2 y ey ly
  refine ⟨u.data, ?_, hus, ⟨_, hcomb⟩, fun m v p hm hv hpp => ?_⟩
  · unfold online
    rw [readOpts_direct hc hsy hm, ok_bind, e1, ok_bind, (option_iff _ _ _ _ _).2 hpr, ok_bind, eu, ok_bind]
    rfl
  · have := ht m v p hm hv hpp
    rw [hy _ (pos_lt hr hm hv hpp), sub_self] at this
    exact this

/-! ### The iterative solvers -/

/-- The iterative solver chosen by the option. -/
def krylov (x : Ext R) (minres : Bool) : Krylov R := if minres then x.minres else x.cg

/-- The preconditioners of the manual. -/
def Known (p : String) : Prop := p = "amg" ∨ p = "gs" ∨ p = "none" ∨ p = "block_gs" ∨ p = "block_jacobi"

theorem operOf_isMatrix {h : Handler R} {zr zf : List Nat} (hr : Ready h zr zf)
    {A : Nat → Nat → Nat → Nat → Nat → Nat → R} {rom : BlockMat R} (hp : Projects h zr A rom) {pr : String}
    (hk : Known pr) : ∃ op, operOf rom pr = .ok op ∧ IsMatrix op zr.sum (mono rom).val := by
  have hro : IsOffsets rom.roffs zr := by rw [hp.roffs]; exact hr.offs
  have hco : IsOffsets rom.coffs zr := by rw [hp.coffs]; exact hr.offs
  have hdim := mono_dims hro hco
  unfold operOf
  rcases hk with rfl | rfl | rfl | rfl | rfl
  · exact ⟨_, if_pos (by simp), apply_isMatrix hdim.1 hdim.2⟩
  · exact ⟨_, if_pos (by simp), apply_isMatrix hdim.1 hdim.2⟩
  · exact ⟨_, if_pos (by simp), apply_isMatrix hdim.1 hdim.2⟩
  · refine ⟨_, by rw [if_neg (by decide), if_pos (by simp)], ?_⟩
    rw [hdim.1]; exact addMult_isMatrix hro hco hp.shapes rfl
  · refine ⟨_, by rw [if_neg (by decide), if_pos (by simp)], ?_⟩
    rw [hdim.1]; exact addMult_isMatrix hro hco hp.shapes rfl

/-- `linearSolve` with an iterative solver. -/
theorem linearSolve_iter (x : Ext R) (mr : Bool) (pr : String) (rom : BlockMat R) (b x0 : List R) :
    linearSolve x (if mr then .minres else .cg) pr rom b x0 = iterate (krylov x mr) pr rom b x0 := by
  cases mr <;> rfl

theorem readOpts_iter {c : Conv} {cfg : Node} {mr : Bool} (h : SaysSolver c cfg (if mr then "minres" else "cg")) :
    readOpts c cfg = .ok (if mr then .minres else .cg) := by
  cases mr
  · exact readOpts_cg h
  · exact readOpts_minres h

/-- **C96.** With an iterative solver the run ends with the lift of the coefficients that the solver returned for the
reduced system from a zero guess; if the solver says it converged, the residual tested with the bases passes the
test of the solver relative to that of the zero state.  Missing: nothing is promised if it did not converge, and the
run does not tell (`unconverged_lifted`). -/
theorem iterative_partial {x : Ext R} {mr : Bool} {small : FomSolve.Prec → List R → List R → Prop} {sym : Bool}
    (hk : Sound sym (krylov x mr) small) {c : Conv} {cfg : Node}
    (hc : SaysSolver c cfg (if mr then "minres" else "cg")) {pr : String} (hpr : SaysPrec c cfg pr) (hkn : Known pr)
    {h : Handler R} {zr zf : List Nat} (hr : Ready h zr zf)
    {A : Nat → Nat → Nat → Nat → Nat → Nat → R} {rom : BlockMat R} (hp : Projects h zr A rom)
    (hsym : sym = true → Symmetric h A)
    {varOffs domOffs : List Nat} {RHS U : List R} (hR : HasSizes (view h varOffs domOffs RHS) zf)
    (hU : HasSizes (view h varOffs domOffs U) zf) (junk : Nat → R) :
    ∃ op b, IsMatrix op zr.sum (mono rom).val ∧
      TestedResidual h zr A (view h varOffs domOffs RHS) (view h varOffs domOffs (List.replicate zf.sum 0)) b ∧
      (∀ f, krylov x mr op (.named pr) b (List.replicate zr.sum 0) = .error f →
        online x c cfg h rom varOffs domOffs RHS U junk = .error f) ∧
      ∀ y conv, krylov x mr op (.named pr) b (List.replicate zr.sum 0) = .ok (y, conv) →
        ∃ u, online x c cfg h rom varOffs domOffs RHS U junk = .ok u ∧ HasSizes (view h varOffs domOffs u) zf ∧
          Combines h (fun m v p => ve y ((zr.take (romBlock h m v)).sum + p)) (view h varOffs domOffs u) ∧
          (conv = true → ∃ r, TestedResidual h zr A (view h varOffs domOffs RHS) (view h varOffs domOffs u) r ∧
            small (.named pr) b r) := by
  obtain ⟨op, eop, hop⟩ := operOf_isMatrix hr hp hkn
  obtain ⟨r, e1, lr, hrv, hsol⟩ := parts hr hp hR hU junk
  have hon : online x c cfg h rom varOffs domOffs RHS U junk =
      (solve x (if mr then .minres else .cg) pr h rom (some r) (view h varOffs domOffs U) >>= fun u =>
        pure u.data) := by
    unfold online
    rw [readOpts_iter hc, ok_bind, e1, ok_bind, (option_iff _ _ _ _ _).2 hpr, ok_bind]
  obtain ⟨hf, hg⟩ := hsol x (if mr then .minres else .cg) pr
  have hb : ∀ i k, bent (view h varOffs domOffs (List.replicate zf.sum 0) : BlockVector R) i k = 0 := by
    intro i k
    have hz : ∀ o : List Nat, bent (⟨List.replicate zf.sum 0, o⟩ : BlockVector R) i k = 0 := by
      intro o
      unfold bent Blocks.Spec.blockOf
      simp only [ve, List.getElem?_take, List.getElem?_drop, List.getElem?_replicate]
      split_ifs <;> rfl
    unfold view
    split
    · exact hz _
    · exact hz _
  have hzero : TestedResidual h zr A (view h varOffs domOffs RHS)
      (view h varOffs domOffs (List.replicate zf.sum 0)) r.data := by
    refine ⟨lr, fun m v p hm hv hpp => ?_⟩
    have := hrv m v p hm hv hpp
    rw [show (zr.take (romBlock h m v)).sum + p = pos h zr m v p from rfl, this]
    unfold tested Online.Spec.apply
    simp only [hb, mul_zero, sum_const_zero, sub_zero]
  refine ⟨op, r.data, hop, hzero, fun f e => ?_, fun y conv e => ?_⟩
  · rw [hon, hf f (by rw [linearSolve_iter]; unfold iterate; rw [eop, ok_bind, e]; rfl)]; rfl
  · obtain ⟨ly, hconv⟩ := hk op (.named pr) zr.sum (mono rom).val r.data _ y conv hop
      (fun hs => mono_symm hr hp (hsym hs)) lr (by simp) e
    obtain ⟨u, eu, hus, hcomb, ht⟩ := hg y (by rw [linearSolve_iter]; unfold iterate; rw [eop, ok_bind, e]; rfl) ly
    refine ⟨u.data, by rw [hon, eu]; rfl, hus, hcomb, fun hcv => ⟨resid zr.sum (mono rom).val r.data y,
      ⟨by simp [resid, vecOf], ?_⟩, ?_⟩⟩
    · intro m v p hm hv hpp
      rw [ht m v p hm hv hpp]
      show ve (resid zr.sum (mono rom).val r.data y) (pos h zr m v p) = _
      unfold resid
      rw [Unsteady.ve_vecOf _ _ (pos_lt hr hm hv hpp)]
    · have h0 : resid zr.sum (mono rom).val r.data (List.replicate zr.sum 0) = r.data := by
        refine Eqp.eq_of_ve (n := zr.sum) (by simp [resid, vecOf]) lr fun t ht => ?_
        unfold resid
        rw [Unsteady.ve_vecOf _ _ ht]
        simp only [SteadyNS.ve_zero, mul_zero, sum_const_zero, sub_zero]
      have := hconv hcv
      rw [h0] at this
      exact this

/-- **C96.** An unknown preconditioner ends the program (with an iterative solver). -/
theorem unknown_preconditioner (x : Ext R) {c : Conv} {cfg : Node} {mr : Bool}
    (hc : SaysSolver c cfg (if mr then "minres" else "cg")) {pr : String} (hpr : SaysPrec c cfg pr) (hkn : ¬ Known pr)
    {h : Handler R} {zr zf : List Nat} (hr : Ready h zr zf)
    {A : Nat → Nat → Nat → Nat → Nat → Nat → R} {rom : BlockMat R} (hp : Projects h zr A rom)
    {varOffs domOffs : List Nat} {RHS U : List R} (hR : HasSizes (view h varOffs domOffs RHS) zf)
    (hU : HasSizes (view h varOffs domOffs U) zf) (junk : Nat → R) :
    online x c cfg h rom varOffs domOffs RHS U junk = .error .abort := by
  obtain ⟨r, e1, lr, hrv, hsol⟩ := parts hr hp hR hU junk
  have hop : operOf rom pr = .error .abort := by
    unfold Known at hkn
    unfold operOf
    rw [if_neg (by tauto), if_neg (by tauto)]
  unfold online
  rw [readOpts_iter hc, ok_bind, e1, ok_bind, (option_iff _ _ _ _ _).2 hpr, ok_bind,
    (hsol x (if mr then .minres else .cg) pr).1 .abort (by rw [linearSolve_iter]; unfold iterate; rw [hop]; rfl)]
  rfl

/-! ### Where the promise is not kept -/

/-- One subdomain with two dofs and the full basis. -/
def exH : Handler ℚ :=
  ⟨false, .domain, 1, [0], [0, 2], [⟨2, 2, [1, 0, 0, 1]⟩], [⟨2, 2, [1, 0, 0, 1]⟩], true⟩

/-- The operator with rows `(2, b)` and `(c, 1)`. -/
def exA (b c : ℚ) (_ _ _ _ k l : Nat) : ℚ := ve [2, c, b, 1] (k + l * 2)

/-- Its projection. -/
def exRom (b c : ℚ) : BlockMat ℚ :=
  ⟨[0, 2], [0, 2], true, fun i j => if i = 0 ∧ j = 0 then some ⟨2, 2, fun k l => ve [2, c, b, 1] (k + l * 2)⟩ else none⟩

theorem exOffs : IsOffsets [0, 2] [2] := by
  refine ⟨rfl, rfl, ?_⟩
  intro i s hs
  have : i < 1 := (List.getElem?_eq_some_iff.1 hs).1
  interval_cases i <;> simp at hs <;> subst hs <;> exact ⟨_, rfl, rfl⟩

theorem exH_ready : Ready exH [2] [2] where
  loaded := rfl
  basis m v hm hv := by
    have hm2 : m < 1 := hm
    have hv1 : v < 1 := hv
    interval_cases m <;> interval_cases v <;> rfl
  offs := exOffs
  lenR := rfl
  lenF := rfl
  szR m v hm hv := by
    have hm2 : m < 1 := hm
    have hv1 : v < 1 := hv
    interval_cases m <;> interval_cases v <;> rfl
  szF m v hm hv := by
    have hm2 : m < 1 := hm
    have hv1 : v < 1 := hv
    interval_cases m <;> interval_cases v <;> rfl

theorem exV {m v : Nat} (hm : m < exH.numSub) (hv : v < vars exH) : V exH m v = ⟨2, 2, [1, 0, 0, 1]⟩ := by
  have hm2 : m < 1 := hm
  have hv1 : v < 1 := hv
  interval_cases m <;> interval_cases v <;> rfl

theorem ex_projects (b c : ℚ) : Projects exH [2] (exA b c) (exRom b c) where
  roffs := rfl
  coffs := rfl
  shapes i j m e := by
    unfold exRom at e
    dsimp only at e
    split at e
    · rename_i h
      obtain ⟨rfl, rfl⟩ := h
      cases e
      exact ⟨rfl, rfl⟩
    · cases e
  val m m' v w p q hm hm' hv hw hp hq := by
    rw [exV hm hv] at hp ⊢
    rw [exV hm' hw] at hq ⊢
    have hm2 : m < 1 := hm
    have hm2' : m' < 1 := hm'
    have hv1 : v < 1 := hv
    have hw1 : w < 1 := hw
    have hp2 : p < 2 := hp
    have hq2 : q < 2 := hq
    interval_cases m; interval_cases m'; interval_cases v; interval_cases w
    interval_cases p <;> interval_cases q <;>
      simp [galerkin, exA, sum_range_succ, ent, ve, bval, exRom, romBlock, exH]

theorem exMono (b c : ℚ) {k l : Nat} (hk : k < 2) (hl : l < 2) :
    (mono (exRom b c)).val k l = ve [2, c, b, 1] (k + l * 2) := by
  have h := mono_projects exH_ready (ex_projects b c) (m := 0) (m' := 0) (v := 0) (w := 0) (p := k) (q := l)
    (by decide) (by decide) (by decide) (by decide) hk hl
  have e : ∀ p, pos exH [2] 0 0 p = p := fun p => Nat.zero_add p
  rw [e, e] at h
  rw [h]
  rw [exV (by decide) (by decide)]
  interval_cases k <;> interval_cases l <;> simp [galerkin, exA, sum_range_succ, ent, ve]

theorem ex_regular {b c : ℚ} (h : b * c ≠ 2) : Regular exH (exA b c) := by
  intro z hz
  have h0 := hz 0 0 0 (by decide) (by decide) (by decide)
  have h1 := hz 0 0 1 (by decide) (by decide) (by decide)
  have e1 : exH.numSub = 1 := rfl
  have e2 : vars exH = 1 := rfl
  have e3 : V exH 0 0 = ⟨2, 2, [1, 0, 0, 1]⟩ := rfl
  simp [e1, e2, e3, sum_range_succ, exA, ent, ve] at h0 h1
  have z1 : (2 - b * c) * z 0 0 1 = 0 := by linear_combination 2 * h1 - c * h0
  have z1 : z 0 0 1 = 0 := (mul_eq_zero.1 z1).resolve_left (sub_ne_zero.2 (Ne.symm h))
  have z0 : z 0 0 0 = 0 := by rw [z1] at h0; linarith
  intro m v p hm hv hp
  rw [exV hm hv] at hp
  have hm2 : m < 1 := hm
  have hv1 : v < 1 := hv
  have hp2 : p < 2 := hp
  interval_cases m; interval_cases v
  interval_cases p
  · exact z0
  · exact z1

theorem ex_symmetric (b : ℚ) : Symmetric exH (exA b b) := by
  intro m m' v w k l hm hm' hv hw hk hl
  rw [exV hm hv] at hk
  rw [exV hm' hw] at hl
  have hk2 : k < 2 := hk
  have hl2 : l < 2 := hl
  interval_cases k <;> interval_cases l <;> rfl

/-- An input file. -/
def exConf (l : List (String × String)) : Node :=
  .map [(key "model_reduction", .map (l.map fun e => (key e.1, .scalar e.2.toList)))]

theorem says_of {cfg : Node} {keys dflt v : String}
    (h : option Options.exConv.str (key keys) dflt cfg = .ok v) : Says Options.exConv cfg keys dflt v :=
  (option_iff _ _ _ _ _).1 h

/-- **C96 does not hold as stated: the direct solver factorises one triangle unless told that the system is
unsymmetric.**  The input file asks for the direct solver and leaves the kind of system to the default, the
operator has rows `(2, 1)` and `(0, 1)`: whichever triangle the external solver reads, the run ends without
complaint and the residual is not orthogonal to the bases. -/
theorem spd_wrong {x : Ext ℚ} (hd : Direct x.direct) (junk : Nat → ℚ) :
    Regular exH (exA 1 0) ∧
    ∃ u, online x Options.exConv (exConf [("linear_solver_type", "direct")]) exH (exRom 1 0) [] [0, 2] [0, 1] [9, 9]
        junk = .ok u ∧
      ¬ Orthogonal exH (exA 1 0) (view exH [] [0, 2] [0, 1]) (view exH [] [0, 2] u) := by
  refine ⟨ex_regular (by norm_num), ?_⟩
  obtain ⟨r, e1, lr, hrv, hsol⟩ := parts (varOffs := []) (domOffs := [0, 2]) (RHS := [0, 1]) (U := [9, 9])
    exH_ready (ex_projects 1 0) ⟨exOffs, rfl⟩ ⟨exOffs, rfl⟩ junk
  have hr0 : ve r.data 0 = 0 := by
    refine (hrv 0 0 0 (by decide) (by decide) (by decide)).trans ?_
    decide +kernel
  have hr1 : ve r.data 1 = 1 := by
    refine (hrv 0 0 1 (by decide) (by decide) (by decide)).trans ?_
    decide +kernel
  have lr : r.data.length = 2 := lr
  set t : MatType := .symmetricPositiveDefinite with ht
  have hs : ∀ k l, k < 2 → l < 2 → (seen x.lower t (mono (exRom 1 0))).val k l =
      if x.lower then ve [2, 0, 0, 1] (k + l * 2) else ve [2, 1, 1, 1] (k + l * 2) := by
    intro k l hk hl
    have : (seen x.lower t (mono (exRom 1 0))).val k l = if x.lower then (mono (exRom 1 0)).val (max k l) (min k l)
      else (mono (exRom 1 0)).val (min k l) (max k l) := rfl
    rw [this, exMono _ _ (by omega) (by omega), exMono _ _ (by omega) (by omega)]
    interval_cases k <;> interval_cases l <;> rfl
  obtain ⟨y, ey, ly, hy⟩ := hd (seen x.lower t (mono (exRom 1 0))) r.data (by rw [lr]; rfl) (by rw [lr]; rfl)
    ⟨fun k => if x.lower then ve [0, 1] k else ve [-1, 2] k, fun k hk => by
      rw [lr] at hk ⊢
      rw [sum_range_succ, sum_range_succ, sum_range_zero, hs k 0 hk (by omega), hs k 1 hk (by omega)]
      interval_cases k
      · rw [hr0]; cases x.lower <;> decide +kernel
      · rw [hr1]; cases x.lower <;> decide +kernel⟩
  rw [lr] at ly hy
  have y0 := hy 0 (by omega)
  have y1 := hy 1 (by omega)
  rw [sum_range_succ, sum_range_succ, sum_range_zero, hs _ 0 (by omega) (by omega),
    hs _ 1 (by omega) (by omega)] at y0 y1
  rw [hr0] at y0
  rw [hr1] at y1
  obtain ⟨u, eu, hus, hcomb, htest⟩ := (hsol x (.direct t) "none").2 y ey ly
  refine ⟨u.data, ?_, fun ho => ?_⟩
  · unfold online
    have : readOpts Options.exConv (exConf [("linear_solver_type", "direct")]) = .ok (.direct t) := rfl
    have hp : option Options.exConv.str (key "model_reduction/preconditioner") "none"
      (exConf [("linear_solver_type", "direct")]) = .ok "none" := rfl
    rw [this, ok_bind, e1, ok_bind, hp, ok_bind, eu]
    rfl
  · have h0 := (htest 0 0 0 (by decide) (by decide) (by decide)).symm.trans (ho 0 0 0 (by decide) (by decide) (by decide))
    have h1 := (htest 0 0 1 (by decide) (by decide) (by decide)).symm.trans (ho 0 0 1 (by decide) (by decide) (by decide))
    have e : ∀ p, pos exH [2] 0 0 p = p := fun p => Nat.zero_add p
    have e2 : ([2] : List Nat).sum = 2 := rfl
    rw [e, e2, sum_range_succ, sum_range_succ, sum_range_zero, exMono _ _ (by omega) (by omega),
      exMono _ _ (by omega) (by omega)] at h0 h1
    rw [hr0] at h0
    rw [hr1] at h1
    cases hl : x.lower
    · simp [hl, ve] at y0 y1 h0 h1
      linarith
    · simp [hl, ve] at y0 y1 h0 h1
      linarith

/-- An iterative solver that gives up at once, and says so. -/
def givesUp : Krylov ℚ := fun _ _ _ x0 => .ok (x0, false)

/-- **C96 does not hold as stated: a run of the ROM does not notice that the iterative solver did not converge.**
With a solver that meets the contract but gives up, the run ends without complaint and lifts what was left. -/
theorem unconverged_lifted (mr : Bool) (small : FomSolve.Prec → List ℚ → List ℚ → Prop) (sym : Bool) :
    Sound sym givesUp small ∧
    online ⟨true, fun _ _ => .error .abort, givesUp, givesUp, givesUp⟩ Options.exConv
      (exConf [("linear_solver_type", if mr then "minres" else "cg")]) exH (exRom 1 1) [] [0, 2] [0, 1] [9, 9]
        (fun _ => 7) = .ok [0, 0] ∧
      Regular exH (exA 1 1) ∧ Symmetric exH (exA 1 1) ∧
      ¬ Orthogonal exH (exA 1 1) (view exH [] [0, 2] [0, 1]) (view exH [] [0, 2] [0, 0]) := by
  refine ⟨?_, ?_, ex_regular (by norm_num), ?_, fun h => ?_⟩
  · intro op prec N A b x0 y conv _ _ _ h0 e
    cases e
    exact ⟨h0, fun hc => by cases hc⟩
  · cases mr <;> decide +kernel
  · exact ex_symmetric 1
  · have := h 0 0 1 (by decide) (by decide) (by decide)
    revert this
    decide +kernel

/-! ### The hypotheses can be met -/

/-- The direct solver, told that the system is unsymmetric, or left at the default with a symmetric operator. -/
example (lower : Bool) :
    (∃ u, online (FomSolve.exExt lower) Options.exConv
        (exConf [("linear_solver_type", "direct"), ("linear_system_type", "us")]) exH (exRom 1 0) [] [0, 2] [0, 1]
        [9, 9] (fun _ => 7) = .ok u ∧
      Orthogonal exH (exA 1 0) (view exH [] [0, 2] [0, 1]) (view exH [] [0, 2] u)) ∧
    ∃ u, online (FomSolve.exExt lower) Options.exConv (exConf [("linear_solver_type", "direct")]) exH (exRom 1 1) []
        [0, 2] [0, 1] [9, 9] (fun _ => 7) = .ok u ∧
      Orthogonal exH (exA 1 1) (view exH [] [0, 2] [0, 1]) (view exH [] [0, 2] u) := by
  refine ⟨?_, ?_⟩
  · obtain ⟨u, e, -, -, h⟩ := direct_galerkin_partial (x := FomSolve.exExt lower) Unsteady.exact_direct
      (c := Options.exConv) (cfg := exConf [("linear_solver_type", "direct"), ("linear_system_type", "us")])
      (says_of rfl) (says_of (v := "us") rfl) (says_of (v := "none") rfl) exH_ready (ex_projects 1 0)
      (ex_regular (by norm_num)) (.inl rfl) (varOffs := []) (domOffs := [0, 2]) (RHS := [0, 1]) (U := [9, 9])
      ⟨exOffs, rfl⟩ ⟨exOffs, rfl⟩ (fun _ => 7)
    exact ⟨u, e, h⟩
  · obtain ⟨u, e, -, -, h⟩ := direct_galerkin_partial (x := FomSolve.exExt lower) Unsteady.exact_direct
      (c := Options.exConv) (cfg := exConf [("linear_solver_type", "direct")])
      (says_of rfl) (says_of (v := "spd") rfl) (says_of (v := "none") rfl) exH_ready (ex_projects 1 1)
      (ex_regular (by norm_num)) (.inr ⟨.inl rfl, ex_symmetric 1⟩) (varOffs := []) (domOffs := [0, 2])
      (RHS := [0, 1]) (U := [9, 9]) ⟨exOffs, rfl⟩ ⟨exOffs, rfl⟩ (fun _ => 7)
    exact ⟨u, e, h⟩

/-- MINRES with the block Jacobi preconditioner, and an iterative solver that converges. -/
example (lower : Bool) : ∃ u, online (FomSolve.exExt lower) Options.exConv
      (exConf [("linear_solver_type", "minres"), ("preconditioner", "block_jacobi")]) exH (exRom 1 1) [] [0, 2] [0, 1]
      [9, 9] (fun _ => 7) = .ok u ∧
    ∃ r, TestedResidual exH [2] (exA 1 1) (view exH [] [0, 2] [0, 1]) (view exH [] [0, 2] u) r ∧ ∀ t, ve r t = 0 := by
  obtain ⟨op, b, hop, hb, -, H⟩ := iterative_partial (x := FomSolve.exExt lower) (mr := true) (sym := true)
    (FomSolve.exKrylov_sound true) (c := Options.exConv)
    (cfg := exConf [("linear_solver_type", "minres"), ("preconditioner", "block_jacobi")])
    (says_of rfl) (says_of (v := "block_jacobi") rfl) (.inr (.inr (.inr (.inr rfl)))) exH_ready (ex_projects 1 1)
    (fun _ => ex_symmetric 1) (varOffs := []) (domOffs := [0, 2]) (RHS := [0, 1]) (U := [9, 9])
    ⟨exOffs, rfl⟩ ⟨exOffs, rfl⟩ (fun _ => 7)
  have hb1 : ve b 1 = 1 := by
    refine (hb.2 0 0 1 (by decide) (by decide) (by decide)).trans ?_
    decide +kernel
  have hb0 : ve b 0 = 0 := by
    refine (hb.2 0 0 0 (by decide) (by decide) (by decide)).trans ?_
    decide +kernel
  obtain ⟨y, e⟩ := FomSolve.exKrylov_converges hop (.named "block_jacobi") (b := b) (x0 := List.replicate 2 0) hb.1
    (by simp) ⟨ve [-1, 2], fun t ht => by
      have ht2 : t < 2 := ht
      show ∑ c ∈ range 2, _ = _
      rw [sum_range_succ, sum_range_succ, sum_range_zero, exMono _ _ ht2 (by omega), exMono _ _ ht2 (by omega)]
      interval_cases t
      · rw [hb0]; decide +kernel
      · rw [hb1]; decide +kernel⟩
  obtain ⟨u, eu, -, -, h⟩ := H y true e
  exact ⟨u, eu, h rfl⟩

/-- Unknown names. -/
example (x : Ext ℚ) :
    online x Options.exConv (exConf [("linear_solver_type", "gmres")]) exH (exRom 1 1) [] [0, 2] [0, 1] [9, 9]
      (fun _ => 7) = .error .abort ∧
    online x Options.exConv (exConf [("linear_solver_type", "direct"), ("linear_system_type", "general")]) exH
      (exRom 1 1) [] [0, 2] [0, 1] [9, 9] (fun _ => 7) = .error .abort ∧
    online x Options.exConv (exConf [("preconditioner", "ilu")]) exH (exRom 1 1) [] [0, 2] [0, 1] [9, 9]
      (fun _ => 7) = .error .abort :=
  ⟨unknown_stops x (s := "gmres") (.inl ⟨says_of rfl, by decide, by decide, by decide⟩) _ _ _ _ _ _ _,
    unknown_stops x (s := "general") (.inr ⟨says_of rfl, says_of rfl, by decide, by decide, by decide⟩) _ _ _ _ _ _ _,
    unknown_preconditioner x (mr := false) (says_of rfl) (pr := "ilu") (says_of rfl) (by unfold Known; decide)
      exH_ready (ex_projects 1 1) ⟨exOffs, rfl⟩ ⟨exOffs, rfl⟩ _⟩

end Verif.RomSolve
