import Verif.Proofs.FomSolve
import Verif.Props.InterfaceForm
import Verif.Props.Penalty

/-!
# C95: full-order linear solves
-/

namespace Verif.FomSolve

open Verif Verif.LinAlg Verif.LinAlg.Spec Verif.FomSolve.Spec Verif.Mumps Finset
open Verif.InterfaceForm (MatArr Integ Tr Form)
open Verif.InterfaceForm.Spec (mget MatsOk)
open Verif.Blocks (BlockVector)
open Verif.Blocks.Spec (IsOffsets HasSizes)
open Verif.RomAssembly.Spec (saddle)
open Verif.Unsteady
open Verif.Unsteady.Spec (first vecOf Direct)
open Verif.SteadyNS (sum_blocks_eq two_offsets saddle_rows Sol unsort_ok)
open Verif.EqpRom (tab_take_sum tab_sum)

variable {R : Type}

/-! ### Poisson, elasticity, advection-diffusion -/

section
variable [CommRing R]

theorem assembleGlobal_ok (ph : Physics) (x : Ext R) (o : Opts) {n : Nat} {w : Nat → Nat} {offs : List Nat}
    (ho : IsOffsets offs (tab n w)) {M : MatArr R} (hM : MatsOk M n w w) :
    ∃ b, assembleGlobal ph x o n offs M = .ok ⟨b, if o.amg || o.direct then some (mono b) else none,
        if (o.amg || o.direct) && setsMumps ph o then some (seen x.lower ph.matType (mono b)) else none⟩ ∧
      b.roffs = offs ∧ b.coffs = offs ∧ Shapes b (tab n w) (tab n w) ∧
      (mono b).h = first w n ∧ (mono b).w = first w n ∧
      ∀ i j k l, i < n → j < n → k < w i → l < w j →
        (mono b).val (first w i + k) (first w j + l) = mget M i j k l := by
  obtain ⟨b, e, h⟩ := setBlocks_ok ho ho hM
  refine ⟨b, ?_, h⟩
  unfold assembleGlobal
  rw [e, ok_bind]
  cases o.amg || o.direct <;> cases setsMumps ph o <;> rfl

theorem setsMumps_direct (ph : Physics) {o : Opts} (h : o.direct = true) : setsMumps ph o = true := by
  cases ph <;> simp [setsMumps, h]

/-- **C95.** With the direct solver: if the assembled equations have a solution, the solve reports success and
leaves one, and it takes a snapshot of it exactly if a sample generator is given.  For Poisson and elasticity
this needs a symmetric operator (see `direct_wrong`). -/
theorem direct_solve_partial (ph : Physics) {x : Ext R} (hd : Direct x.direct) {o : Opts} (hdir : o.direct = true)
    {n : Nat} {w : Nat → Nat} {offs : List Nat} (ho : IsOffsets offs ((List.range n).map w)) {M : MatArr R}
    (hM : MatsOk M n w w) (hsym : ph = .advdiff ∨ Symmetric n w M) {rhs : BlockVector R}
    (hr : HasSizes rhs ((List.range n).map w)) (gen : Bool) {st : Sol R} (hU : HasSizes st.U ((List.range n).map w))
    (hsol : ∃ z, Solves n w M (ve rhs.data) z) :
    ∃ st', run ph x o n offs M rhs gen st = .ok (true, st') ∧ HasSizes st'.U ((List.range n).map w) ∧
      Solves n w M (ve rhs.data) (ve st'.U.data) ∧
      st'.saved = if gen then st.saved ++ [st'.U] else st.saved := by
  obtain ⟨b, e, _, _, _, h4, h5, h6⟩ := assembleGlobal_ok ph x o ho hM
  obtain ⟨s1, s2, s3⟩ := seen_eq x.lower ph.matType (mono b) (first w n)
    (hsym.imp (by rintro rfl; rfl) fun h => symm_mono h h6)
  have hl : rhs.data.length = first w n := by rw [hr.2]; exact tab_sum n w
  obtain ⟨z, hz⟩ := hsol
  have hrow : ∀ y : Nat → R, (∀ r, r < rhs.data.length →
      ∑ c ∈ range rhs.data.length, (seen x.lower ph.matType (mono b)).val r c * y c = ve rhs.data r) ↔
      Solves n w M (ve rhs.data) y := by
    intro y
    rw [hl]
    constructor
    · intro h m k hm hk
      have hb := first_bound w hm
      rw [← h _ (by omega), ← row_lhs h6 y hm hk]
      exact sum_congr rfl fun c hc => by rw [s3 _ _ (by omega) (mem_range.1 hc)]
    · intro h r hr
      obtain ⟨m, k, hm, hk, rfl⟩ := locate n w hr
      rw [← h m k hm hk, ← row_lhs h6 y hm hk]
      exact sum_congr rfl fun c hc => by rw [s3 _ _ hr (mem_range.1 hc)]
  obtain ⟨u, e1, l1, h1⟩ := hd (seen x.lower ph.matType (mono b)) rhs.data (by rw [s1, h4, hl]) (by rw [s2, h5, hl])
    ⟨z, (hrow z).2 hz⟩
  refine ⟨⟨⟨u, st.U.offsets⟩, if gen then st.saved ++ [⟨u, st.U.offsets⟩] else st.saved⟩, ?_,
    ⟨hU.1, by rw [l1]; exact hr.2⟩, (hrow _).1 h1, rfl⟩
  unfold run solve solveSystem
  rw [e, ok_bind, setsMumps_direct ph hdir, if_pos hdir, hdir]
  simp only [Bool.or_true, Bool.and_true, if_true, nonNull, ok_bind, e1]
  rfl

/-- The preconditioner given to the iterative solver. -/
def precOf (o : Opts) : Prec := if o.amg then .amg else if o.blockDiag then .blockDiag else .none

/-- Both theorems on iterative solves: `sym` tells whether the solver is only trusted with symmetric operators. -/
theorem iterative_run (sym : Bool) (ph : Physics) {x : Ext R} {small : Prec → List R → List R → Prop}
    (hk : Sound sym (Physics.krylov ph x) small) {o : Opts} (hdir : o.direct = false)
    {n : Nat} {w : Nat → Nat} {offs : List Nat} (ho : IsOffsets offs ((List.range n).map w)) {M : MatArr R}
    (hM : MatsOk M n w w) (hsym : sym = true → Symmetric n w M) {rhs : BlockVector R} (hr : HasSizes rhs ((List.range n).map w)) (gen : Bool) {st st' : Sol R}
    (hU : HasSizes st.U ((List.range n).map w)) {conv : Bool}
    (hrun : run ph x o n offs M rhs gen st = .ok (conv, st')) :
    HasSizes st'.U ((List.range n).map w) ∧
      (conv = true → ∃ r0 r, Residual n w M (ve rhs.data) (fun _ => 0) r0 ∧
        Residual n w M (ve rhs.data) (ve st'.U.data) r ∧ small (precOf o) r0 r) ∧
      st'.saved = if conv = true ∧ gen = true then st.saved ++ [st'.U] else st.saved := by
  obtain ⟨b, e, h1, h2, h3, h4, h5, h6⟩ := assembleGlobal_ok ph x o ho hM
  have hl : rhs.data.length = first w n := by rw [hr.2]; exact tab_sum n w
  have hlU : st.U.data.length = first w n := by rw [hU.2]; exact tab_sum n w
  unfold run at hrun
  rw [e, ok_bind] at hrun
  unfold solve at hrun
  simp only [bind_eq_ok] at hrun
  obtain ⟨⟨u, c⟩, hs, hrun⟩ := hrun
  cases hrun
  have key : ∃ op, IsMatrix op (first w n) (mono b).val ∧
      Physics.krylov ph x op (precOf o) rhs.data (List.replicate (first w n) 0) = .ok (u, c) := by
    unfold solveSystem at hs
    rw [hdir, if_neg (by simp), hlU] at hs
    unfold precOf
    cases ha : o.amg with
    | true =>
      rw [ha, if_pos rfl] at hs
      exact ⟨_, apply_isMatrix h4 h5, by rw [if_pos rfl]; exact hs⟩
    | false =>
      rw [ha, if_neg (by simp)] at hs
      exact ⟨_, addMult_isMatrix (by rw [h1]; exact ho) (by rw [h2]; exact ho) h3 (tab_sum n w),
        by rw [if_neg (by simp)]; exact hs⟩
  obtain ⟨op, hop, hkr⟩ := key
  obtain ⟨lu, hc⟩ := hk op (precOf o) (first w n) (mono b).val rhs.data _ u c hop
    (fun h => symm_mono (hsym h) h6) hl (by simp) hkr
  refine ⟨⟨hU.1, by rw [lu]; exact (tab_sum n w).symm⟩, fun ht => ⟨_, _, ?_, ?_, hc ht⟩, ?_⟩
  · refine ⟨by simp [resid, vecOf], fun m k hm hk' => ?_⟩
    have hb := first_bound w hm
    unfold resid
    rw [ve_vecOf _ _ (by omega), ← row_lhs h6 _ hm hk']
    simp only [SteadyNS.ve_zero]
  · refine ⟨by simp [resid, vecOf], fun m k hm hk' => ?_⟩
    have hb := first_bound w hm
    unfold resid
    rw [ve_vecOf _ _ (by omega), ← row_lhs h6 _ hm hk']
  · cases c <;> cases gen <;> rfl

/-- **C95.** With the iterative solver: a solve that reports convergence leaves a state whose residual in the
equations of the subdomains passes the test of the iterative solver, relative to the residual of the zero
state. -/
theorem iterative_solve (ph : Physics) {x : Ext R} {small : Prec → List R → List R → Prop}
    (hk : Sound false (Physics.krylov ph x) small) {o : Opts} (hdir : o.direct = false)
    {n : Nat} {w : Nat → Nat} {offs : List Nat} (ho : IsOffsets offs ((List.range n).map w)) {M : MatArr R}
    (hM : MatsOk M n w w) {rhs : BlockVector R} (hr : HasSizes rhs ((List.range n).map w)) (gen : Bool) {st st' : Sol R}
    (hU : HasSizes st.U ((List.range n).map w)) {conv : Bool}
    (hrun : run ph x o n offs M rhs gen st = .ok (conv, st')) :
    HasSizes st'.U ((List.range n).map w) ∧
      (conv = true → ∃ r0 r, Residual n w M (ve rhs.data) (fun _ => 0) r0 ∧
        Residual n w M (ve rhs.data) (ve st'.U.data) r ∧ small (precOf o) r0 r) ∧
      st'.saved = if conv = true ∧ gen = true then st.saved ++ [st'.U] else st.saved :=
  iterative_run false ph hk hdir ho hM (fun h => by cases h) hr gen hU hrun

/-- **C95.** The same, when conjugate gradients are only trusted with symmetric operators: the operators of the
problem are symmetric, or it is an advection-diffusion problem, which is solved by GMRES. -/
theorem iterative_solve_method (ph : Physics) {x : Ext R} {small : Prec → List R → List R → Prop}
    (hcg : Sound true x.cg small) (hgm : Sound false x.gmres small) {o : Opts} (hdir : o.direct = false)
    {n : Nat} {w : Nat → Nat} {offs : List Nat} (ho : IsOffsets offs ((List.range n).map w)) {M : MatArr R}
    (hM : MatsOk M n w w) (hsym : ph = .advdiff ∨ Symmetric n w M) {rhs : BlockVector R} (hr : HasSizes rhs ((List.range n).map w)) (gen : Bool) {st st' : Sol R}
    (hU : HasSizes st.U ((List.range n).map w)) {conv : Bool}
    (hrun : run ph x o n offs M rhs gen st = .ok (conv, st')) :
    HasSizes st'.U ((List.range n).map w) ∧
      (conv = true → ∃ r0 r, Residual n w M (ve rhs.data) (fun _ => 0) r0 ∧
        Residual n w M (ve rhs.data) (ve st'.U.data) r ∧ small (precOf o) r0 r) ∧
      st'.saved = if conv = true ∧ gen = true then st.saved ++ [st'.U] else st.saved := by
  rcases ph with _ | _ | _
  · exact iterative_run true .poisson hcg hdir ho hM (fun _ => hsym.resolve_left nofun) hr gen hU hrun
  · exact iterative_run true .elasticity hcg hdir ho hM (fun _ => hsym.resolve_left nofun) hr gen hU hrun
  · exact iterative_run false .advdiff hgm hdir ho hM nofun hr gen hU hrun

/-- **C95.** Solving before the operator has been assembled for the chosen solver aborts; nothing is computed. -/
theorem not_assembled (ph : Physics) (x : Ext R) {o : Opts} (h : o.direct = true ∨ o.amg = true)
    (rhs : BlockVector R) (gen : Bool) (st : Sol R) :
    solve ph x o Global.start rhs gen st = .error .abort := by
  unfold solve solveSystem
  cases hd : o.direct with
  | true => rfl
  | false => rw [h.resolve_left (by simp [hd])]; rfl

end

/-! ### Stokes -/

section
variable [CommRing R]

/-- Position of an unknown in the vector ordered by variable. -/
def byVarAt (n : Nat) (nu np : Nat → Nat) (m v k : Nat) : Nat :=
  if v = 0 then first nu m + k else first nu n + (first np m + k)

theorem byVarAt_lt {n : Nat} {nu np : Nat → Nat} {m v k : Nat} (hm : m < n) (hk : k < dofs nu np m v) :
    byVarAt n nu np m v k < first nu n + first np n := by
  have h1 := first_bound nu hm
  have h2 := first_bound np hm
  unfold byVarAt; unfold dofs at hk
  split at hk <;> rename_i h <;> simp only [h, if_true, if_false] <;> omega

theorem byVarAt_surj {n : Nat} {nu np : Nat → Nat} {r : Nat} (hr : r < first nu n + first np n) :
    ∃ m v k, m < n ∧ v < 2 ∧ k < dofs nu np m v ∧ r = byVarAt n nu np m v k := by
  by_cases h : r < first nu n
  · obtain ⟨m, k, hm, hk, rfl⟩ := locate n nu h
    exact ⟨m, 0, k, hm, by omega, hk, rfl⟩
  · obtain ⟨m, k, hm, hk, e⟩ := locate n np (t := r - first nu n) (by omega)
    exact ⟨m, 1, k, hm, by omega, hk, by unfold byVarAt; rw [if_neg (by omega)]; omega⟩

theorem sum_byVar (n : Nat) (nu np : Nat → Nat) (g : Nat → R) :
    ∑ c ∈ range (first nu n + first np n), g c =
      ∑ m ∈ range n, ∑ v ∈ range 2, ∑ l ∈ range (dofs nu np m v), g (byVarAt n nu np m v l) := by
  rw [sum_range_add, sum_blocks_eq n nu g, sum_blocks_eq n np fun c => g (first nu n + c), ← sum_add_distrib]
  exact sum_congr rfl fun m _ => by rw [sum_range_succ, sum_range_one]; rfl

/-- A row of the saddle-point matrix, block by block. -/
theorem row_stokes {n : Nat} {nu np : Nat → Nat} {M B : MatArr R} {A : Nat → Nat → R}
    (hA : ∀ m m' v v' k l, m < n → m' < n → v < 2 → v' < 2 → k < dofs nu np m v → l < dofs nu np m' v' →
      A (byVarAt n nu np m v k) (byVarAt n nu np m' v' l) = saddle M B m m' v v' k l)
    {x z : Nat → R} (hx : ∀ m v k, m < n → v < 2 → k < dofs nu np m v →
      x (byVarAt n nu np m v k) = z (at_ nu np m v k))
    {m v k : Nat} (hm : m < n) (hv : v < 2) (hk : k < dofs nu np m v) :
    ∑ c ∈ range (first nu n + first np n), A (byVarAt n nu np m v k) c * x c =
      stokesLhs n nu np M B z m v k := by
  rw [sum_byVar n nu np fun c => A (byVarAt n nu np m v k) c * x c]
  refine sum_congr rfl fun m' hm' => sum_congr rfl fun v' hv' => sum_congr rfl fun l hl => ?_
  rw [hA _ _ _ _ _ _ hm (mem_range.1 hm') hv (mem_range.1 hv') hk (mem_range.1 hl),
    hx _ _ _ (mem_range.1 hm') (mem_range.1 hv') (mem_range.1 hl)]

theorem saddle_symm {n : Nat} {nu np : Nat → Nat} {M B : MatArr R} (hs : Symmetric n nu M) {A : Nat → Nat → R}
    (hA : ∀ m m' v v' k l, m < n → m' < n → v < 2 → v' < 2 → k < dofs nu np m v → l < dofs nu np m' v' →
      A (byVarAt n nu np m v k) (byVarAt n nu np m' v' l) = saddle M B m m' v v' k l) :
    ∀ r c, r < first nu n + first np n → c < first nu n + first np n → A r c = A c r := by
  intro r c hr hc
  obtain ⟨m, v, k, hm, hv, hk, rfl⟩ := byVarAt_surj hr
  obtain ⟨m', v', l, hm', hv', hl, rfl⟩ := byVarAt_surj hc
  rw [hA _ _ _ _ _ _ hm hm' hv hv' hk hl, hA _ _ _ _ _ _ hm' hm hv' hv hl hk]
  unfold saddle
  interval_cases v <;> interval_cases v' <;> simp
  exact hs _ _ _ _ hm hm' hk hl

end

section
variable [Field R]

omit [Field R] in
theorem blk_eta {a : Blk R} {h w : Nat} (ha : a.h = h) (hw : a.w = w) : a = ⟨h, w, a.val⟩ := by
  subst ha hw; rfl

theorem assembleStokes_ok (x : Ext R) (o : Opts) {n : Nat} {nu np : Nat → Nat} {u p : List Nat}
    (hu : IsOffsets u (tab n nu)) (hp : IsOffsets p (tab n np)) {M B : MatArr R} (hM : MatsOk M n nu nu)
    (hB : MatsOk B n np nu) :
    ∃ s, assembleStokes x o n u p [0, first nu n, first nu n + first np n] M B =
        .ok ⟨s, if o.direct then some (seen x.lower stokesType (mono s)) else none, !o.direct⟩ ∧
      IsOffsets s.roffs [first nu n, first np n] ∧ IsOffsets s.coffs [first nu n, first np n] ∧
      Shapes s [first nu n, first np n] [first nu n, first np n] ∧
      (mono s).h = first nu n + first np n ∧ (mono s).w = first nu n + first np n ∧
      ∀ m m' v v' k l, m < n → m' < n → v < 2 → v' < 2 → k < dofs nu np m v → l < dofs nu np m' v' →
        (mono s).val (byVarAt n nu np m v k) (byVarAt n nu np m' v' l) = saddle M B m m' v v' k l := by
  obtain ⟨mm, e1, _, _, _, a4, a5, a6⟩ := setBlocks_ok hu hu hM
  obtain ⟨bm, e2, _, _, _, b4, b5, b6⟩ := setBlocks_ok hp hu hB
  have hz := two_offsets (first nu n) (first np n)
  unfold assembleStokes
  rw [e1, ok_bind, e2, ok_bind]
  dsimp only
  rw [setBlock_ok (zr := [first nu n, first np n]) (zc := [first nu n, first np n]) hz hz (i := 0) (j := 0)
      (by rw [a4]; rfl) (by rw [a5]; rfl), ok_bind,
    setBlock_ok (zr := [first nu n, first np n]) (zc := [first nu n, first np n]) hz hz (i := 0) (j := 1)
      (by unfold transpose; rw [b5]; rfl) (by unfold transpose; rw [b4]; rfl), ok_bind,
    setBlock_ok (zr := [first nu n, first np n]) (zc := [first nu n, first np n]) hz hz (i := 1) (j := 0)
      (by rw [b4]; rfl) (by rw [b5]; rfl), ok_bind]
  dsimp only
  refine ⟨_, by cases o.direct <;> rfl, hz, hz, ?_⟩
  have am : mono mm = ⟨first nu n, first nu n, (mono mm).val⟩ := blk_eta a4 a5
  have bm' : mono bm = ⟨first np n, first nu n, (mono bm).val⟩ := blk_eta b4 b5
  obtain ⟨q1, q2, q3, q4, q5, q6, q7⟩ := saddle_rows (R := R)
    (b := ⟨[0, first nu n, first nu n + first np n], [0, first nu n, first nu n + first np n], false,
      fun i' j' => if i' = 1 ∧ j' = 0 then some (mono bm) else if i' = 0 ∧ j' = 1 then some (transpose (mono bm))
        else if i' = 0 ∧ j' = 0 then some (mono mm) else none⟩) (a := first nu n) (p := first np n)
    (K := (mono mm).val) (Bt := fun r c => (mono bm).val c r) (B := (mono bm).val) rfl rfl
    (by simpa using am) (by simp [transpose, b4, b5]) (by simpa using bm')
    (fun i j h1 h2 h3 => by simp [h1, h2, h3])
  refine ⟨q1, q2, q3, fun m m' v v' k l hm hm' hv hv' hk hl => ?_⟩
  have c1 := first_bound nu hm
  have c2 := first_bound np hm
  have c3 := first_bound nu hm'
  have c4 := first_bound np hm'
  unfold byVarAt saddle
  unfold dofs at hk hl
  interval_cases v <;> interval_cases v' <;> simp only [if_true, if_false, Nat.one_ne_zero, and_true,
    and_false, and_self, Nat.zero_ne_one] at hk hl ⊢
  · rw [q4 _ _ (by omega) (by omega), a6 _ _ _ _ hm hm' hk hl]
  · rw [q5 _ _ (by omega) (by omega), b6 _ _ _ _ hm' hm hl hk]
  · rw [q6 _ _ (by omega) (by omega), b6 _ _ _ _ hm hm' hk hl]
  · rw [q7 _ _ (by omega) (by omega)]

/-- Everything around the solution of the saddle-point system. -/
theorem solveStokes_ok (x : Ext R) (o : Opts) (presDbc : Bool) {n : Nat} {nu np : Nat → Nat} {u p : List Nat}
    (hu : IsOffsets u (tab n nu)) (hp : IsOffsets p (tab n np)) (s : StokesSys R) {rhs : BlockVector R}
    (hr : HasSizes rhs (bySub n nu np)) (gen : Bool) {st : Sol R} (hU : HasSizes st.U (bySub n nu np)) :
    ∃ b : List R, b.length = first nu n + first np n ∧
      (∀ m v k, m < n → v < 2 → k < dofs nu np m v → ve b (byVarAt n nu np m v k) = ve rhs.data (at_ nu np m v k)) ∧
      (∀ e, solveSaddle x o presDbc s b (first nu n + first np n) = .error e →
        solveStokes x o presDbc n u p [0, first nu n, first nu n + first np n] s rhs gen st = .error e) ∧
      ∀ y conv, solveSaddle x o presDbc s b (first nu n + first np n) = .ok (y, conv) →
        y.length = first nu n + first np n →
        ∃ U, solveStokes x o presDbc n u p [0, first nu n, first nu n + first np n] s rhs gen st =
            .ok (conv, ⟨U, if conv && gen then st.saved ++ [U] else st.saved⟩) ∧ HasSizes U (bySub n nu np) ∧
          ∀ m v k, m < n → v < 2 → k < dofs nu np m v → ve U.data (at_ nu np m v k) =
            ve y (byVarAt n nu np m v k) - if v = 1 ∧ presDbc = false then
              (∑ c ∈ range (first np n), ve y (first nu n + c)) / (first np n : Nat) else 0 := by
  obtain ⟨of, e1, ho⟩ := byVar_ok hu hp
  have hl : rd of (2 * n) = .ok (first nu n + first np n) := by
    rw [rd_eq_ok, ho.value (show 2 * n ≤ _ by simp; omega), List.take_of_length_le (by simp; omega), byVar_sum]
  obtain ⟨b, e2, l2, h2, h2'⟩ := sort_ok hr ho (old := List.replicate (first nu n + first np n) 0) (by simp)
  refine ⟨b.data, l2, fun m v k hm hv hk => ?_, fun e he => ?_, fun y conv hy ly => ?_⟩
  · unfold byVarAt at_
    unfold dofs at hk
    interval_cases v <;> simp only [if_true, if_false, Nat.one_ne_zero, Nat.add_zero] at hk ⊢
    · exact h2 m k hm hk
    · rw [h2' m k hm hk, first_succ]; congr 1; omega
  · unfold solveStokes
    rw [e1, ok_bind, hl, ok_bind]
    dsimp only
    rw [e2, ok_bind, he]
    rfl
  · have hx : ∃ x', orthogonalize presDbc (first nu n) (first nu n + first np n) y = .ok x' ∧
        x'.length = first nu n + first np n ∧ (∀ t, t < first nu n → ve x' t = ve y t) ∧
        ∀ t, t < first np n → ve x' (first nu n + t) = ve y (first nu n + t) - if presDbc = false then
              (∑ c ∈ range (first np n), ve y (first nu n + c)) / (first np n : Nat) else 0 := by
      unfold orthogonalize
      cases presDbc with
      | true => exact ⟨y, rfl, ly, fun _ _ => rfl, fun t ht => by simp⟩
      | false =>
        obtain ⟨x', e, l, h1, h2⟩ := subtractMean_ok ly
        exact ⟨x', by rw [if_neg (by simp), Nat.add_sub_cancel_left, e], l, h1, fun t ht => by
          rw [if_pos rfl]; exact h2 t ht⟩
    obtain ⟨x', e4, l4, h4, h4'⟩ := hx
    obtain ⟨U, e5, s5, h5, h5'⟩ := unsort_ok hU ho l4
    refine ⟨U, ?_, s5, fun m v k hm hv hk => ?_⟩
    · unfold solveStokes
      rw [e1, ok_bind, hl, ok_bind]
      dsimp only
      rw [e2, ok_bind, hy, ok_bind, show rd [0, first nu n, first nu n + first np n] 1 = .ok (first nu n) from rfl,
        ok_bind, show rd [0, first nu n, first nu n + first np n] 2 = .ok (first nu n + first np n) from rfl,
        ok_bind, e4, ok_bind, e5]
      rfl
    · have b1 := first_bound nu hm
      have b2 := first_bound np hm
      unfold byVarAt at_
      unfold dofs at hk
      interval_cases v <;> simp only [if_true, if_false, Nat.one_ne_zero, Nat.add_zero, Nat.zero_ne_one, false_and,
        true_and, sub_zero] at hk ⊢
      · rw [h5 m k hm hk, h4 _ (by omega)]
      · rw [← h4' _ (by omega), ← h5' m k hm hk, first_succ]; congr 1; omega

/-- Removing the mean of the pressure does not change the equations if constant pressures exert no force. -/
theorem shift_lhs {n : Nat} {nu np : Nat → Nat} {M B : MatArr R} {A : Nat → Nat → R}
    (hA : ∀ m m' v v' k l, m < n → m' < n → v < 2 → v' < 2 → k < dofs nu np m v → l < dofs nu np m' v' →
      A (byVarAt n nu np m v k) (byVarAt n nu np m' v' l) = saddle M B m m' v v' k l)
    {y z : Nat → R} {c0 : R} (hc : c0 = 0 ∨ NoForce n nu np B)
    (hz : ∀ m v k, m < n → v < 2 → k < dofs nu np m v →
      z (at_ nu np m v k) = y (byVarAt n nu np m v k) - if v = 1 then c0 else 0)
    {m v k : Nat} (hm : m < n) (hv : v < 2) (hk : k < dofs nu np m v) :
    stokesLhs n nu np M B z m v k =
      ∑ c ∈ range (first nu n + first np n), A (byVarAt n nu np m v k) c * y c := by
  rw [sum_byVar n nu np fun c => A (byVarAt n nu np m v k) c * y c]
  unfold stokesLhs
  rw [← sub_eq_zero, ← sum_sub_distrib]
  have : ∀ m' ∈ range n, (∑ v' ∈ range 2, ∑ l ∈ range (dofs nu np m' v'),
        saddle M B m m' v v' k l * z (at_ nu np m' v' l)) -
      ∑ v' ∈ range 2, ∑ l ∈ range (dofs nu np m' v'),
        A (byVarAt n nu np m v k) (byVarAt n nu np m' v' l) * y (byVarAt n nu np m' v' l) =
      -(∑ l ∈ range (np m'), saddle M B m m' v 1 k l) * c0 := by
    intro m' hm'
    rw [← sum_sub_distrib, sum_range_succ, sum_range_one, ← sum_sub_distrib, ← sum_sub_distrib,
      sum_eq_zero (s := range (dofs nu np m' 0)) fun l hl => by
        rw [hA _ _ _ _ _ _ hm (mem_range.1 hm') hv (by omega) hk (mem_range.1 hl),
          hz _ _ _ (mem_range.1 hm') (by omega) (mem_range.1 hl)]
        simp,
      zero_add, ← sum_neg_distrib, sum_mul]
    refine sum_congr rfl fun l hl => ?_
    rw [hA _ _ _ _ _ _ hm (mem_range.1 hm') hv (by omega) hk (mem_range.1 hl),
      hz _ _ _ (mem_range.1 hm') (by omega) (mem_range.1 hl), if_pos rfl]
    ring
  rw [sum_congr rfl this, ← sum_mul]
  rcases hc with rfl | hc
  · rw [mul_zero]
  · rw [sum_neg_distrib]
    interval_cases v
    · have := hc m k hm hk
      simp only [saddle, and_false, Nat.one_ne_zero, if_false, and_true, true_and, if_true, Nat.zero_ne_one, false_and]
      rw [this, neg_zero, zero_mul]
    · simp [saddle]

theorem zero_mean [CharZero R] {n : Nat} {nu np : Nat → Nat} {y z : Nat → R}
    (hz : ∀ m k, m < n → k < np m → z (at_ nu np m 1 k) = y (byVarAt n nu np m 1 k) -
      (∑ c ∈ range (first np n), y (first nu n + c)) / (first np n : Nat)) : ZeroMean n nu np z := by
  unfold ZeroMean
  rw [sum_congr rfl fun m hm => sum_congr rfl fun k hk => hz m k (mem_range.1 hm) (mem_range.1 hk)]
  have := sum_blocks_eq n np fun c => y (first nu n + c) -
      (∑ c ∈ range (first np n), y (first nu n + c)) / (first np n : Nat)
  refine this.symm.trans ?_
  rw [sum_sub_distrib, sum_const, card_range, nsmul_eq_mul]
  rcases Nat.eq_zero_or_pos (first np n) with h0 | h0
  · simp [h0]
  · have : ((first np n : Nat) : R) ≠ 0 := by exact_mod_cast h0.ne'
    rw [mul_div_cancel₀ _ this, sub_self]

/-- **C95.** Stokes, with the direct solver: if the assembled equations have a solution, the solve reports success
and leaves one, provided a pressure is prescribed or constant pressures exert no force; in the latter case the
pressure dofs sum to zero.  Needs a symmetric viscous operator (see `stokes_direct_wrong`). -/
theorem stokes_direct_partial [CharZero R] {x : Ext R} (hd : Direct x.direct) {o : Opts} (hdir : o.direct = true)
    (presDbc : Bool) {n : Nat} {nu np : Nat → Nat} {u p : List Nat} (hu : IsOffsets u ((List.range n).map nu))
    (hp : IsOffsets p ((List.range n).map np)) {M B : MatArr R} (hM : MatsOk M n nu nu) (hB : MatsOk B n np nu)
    (hsym : Symmetric n nu M) (hf : presDbc = true ∨ NoForce n nu np B) {rhs : BlockVector R}
    (hr : HasSizes rhs ((List.range n).flatMap fun m => [nu m, np m])) (gen : Bool) {st : Sol R}
    (hU : HasSizes st.U ((List.range n).flatMap fun m => [nu m, np m]))
    (hsol : ∃ z, StokesSolves n nu np M B (ve rhs.data) z) :
    ∃ st', runStokes x o presDbc n u p [0, first nu n, first nu n + first np n] M B rhs gen st = .ok (true, st') ∧
      HasSizes st'.U ((List.range n).flatMap fun m => [nu m, np m]) ∧
      StokesSolves n nu np M B (ve rhs.data) (ve st'.U.data) ∧
      (presDbc = false → ZeroMean n nu np (ve st'.U.data)) ∧
      st'.saved = if gen then st.saved ++ [st'.U] else st.saved := by
  obtain ⟨s, e, hro, hco, hsh, h4, h5, h6⟩ := assembleStokes_ok x o hu hp hM hB
  obtain ⟨s1, s2, s3⟩ := seen_eq x.lower stokesType (mono s) (first nu n + first np n)
    (.inr (saddle_symm hsym h6))
  unfold runStokes
  rw [e, ok_bind, if_pos hdir, hdir]
  obtain ⟨b, lb, hb, _, hok⟩ := solveStokes_ok x o presDbc hu hp
    ⟨s, some (seen x.lower stokesType (mono s)), !true⟩ hr gen hU
  obtain ⟨z, hz⟩ := hsol
  have hzv : ∃ y : Nat → R, ∀ m v k, m < n → v < 2 → k < dofs nu np m v →
      y (byVarAt n nu np m v k) = z (at_ nu np m v k) := by
    obtain ⟨of, _, ho⟩ := byVar_ok hu hp
    have hN : (bySub n nu np).sum = first nu n + first np n := by
      have := bySub_take (n := n) (a := nu) (b := np) (m := n) le_rfl
      rwa [List.take_of_length_le (by rw [bySub_length])] at this
    obtain ⟨b, _, _, h2, h2'⟩ := sort_ok (rhs := ⟨vecOf (first nu n + first np n) z, rhs.offsets⟩)
      (n := n) (a := nu) (b := np) ⟨hr.1, by rw [hN]; simp [vecOf]⟩ ho
      (old := List.replicate (first nu n + first np n) 0) (by simp)
    refine ⟨ve b.data, fun m v k hm hv hk => ?_⟩
    have b1 := first_bound nu hm
    have b2 := first_bound np hm
    unfold byVarAt at_
    unfold dofs at hk
    interval_cases v <;> simp only [if_true, if_false, Nat.one_ne_zero, Nat.add_zero] at hk ⊢
    · rw [h2 m k hm hk, ve_vecOf _ _ (by omega)]
    · rw [h2' m k hm hk, first_succ, ve_vecOf _ _ (by omega)]; congr 1; omega
  obtain ⟨y, hy⟩ := hzv
  obtain ⟨a, e1, l1, h1⟩ := hd (seen x.lower stokesType (mono s)) b (by rw [s1, h4, lb]) (by rw [s2, h5, lb]) ⟨y, by
    intro r hr'
    rw [lb] at hr' ⊢
    obtain ⟨m, v, k, hm, hv, hk, rfl⟩ := byVarAt_surj hr'
    rw [hb m v k hm hv hk, ← hz m v k hm hv hk, ← row_stokes h6 hy hm hv hk]
    exact sum_congr rfl fun c hc => by rw [s3 _ _ hr' (mem_range.1 hc)]⟩
  rw [lb] at l1 h1
  obtain ⟨U, e2, hUs, hUv⟩ := hok a true (by
    unfold solveSaddle
    rw [if_pos hdir]
    simp only [nonNull, ok_bind, e1]
    rfl) l1
  refine ⟨_, e2, hUs, fun m v k hm hv hk => ?_, fun hpf => zero_mean (y := ve a) fun m k hm hk => ?_, by
    cases gen <;> rfl⟩
  · rw [shift_lhs h6 (y := ve a) (c0 := if presDbc = false then
        (∑ c ∈ range (first np n), ve a (first nu n + c)) / (first np n : Nat) else 0) (hf.imp (by simp +contextual) id)
      (fun m v k hm hv hk => by
        rw [hUv m v k hm hv hk]; congr 1
        by_cases hv1 : v = 1 <;> simp [hv1]) hm hv hk, ← hb m v k hm hv hk,
      ← h1 _ (byVarAt_lt hm hk)]
    exact sum_congr rfl fun c hc => by rw [s3 _ _ (byVarAt_lt hm hk) (mem_range.1 hc)]
  · rw [hUv m 1 k hm (by omega) hk, if_pos ⟨rfl, hpf⟩]

/-- The preconditioner given to MINRES. -/
def stokesPrec (o : Opts) (presDbc : Bool) : Prec := if o.amg then .stokes (!presDbc) else .none

/-- **C95.** Stokes, with the iterative solver: a solve that reports convergence leaves a state whose residual passes
the test of the iterative solver, relative to that of the zero state, provided a pressure is prescribed or constant
pressures exert no force; without a prescribed pressure the pressure dofs sum to zero, converged or not.  Needs a
symmetric viscous operator, as MINRES does. -/
theorem stokes_iterative_partial [CharZero R] {x : Ext R} {small : Prec → List R → List R → Prop}
    (hk : Sound true x.minres small) {o : Opts} (hdir : o.direct = false)
    (presDbc : Bool) {n : Nat} {nu np : Nat → Nat} {u p : List Nat} (hu : IsOffsets u ((List.range n).map nu))
    (hp : IsOffsets p ((List.range n).map np)) {M B : MatArr R} (hM : MatsOk M n nu nu) (hB : MatsOk B n np nu)
    (hsym : Symmetric n nu M) (hf : presDbc = true ∨ NoForce n nu np B) {rhs : BlockVector R}
    (hr : HasSizes rhs ((List.range n).flatMap fun m => [nu m, np m])) (gen : Bool) {st st' : Sol R}
    (hU : HasSizes st.U ((List.range n).flatMap fun m => [nu m, np m])) {conv : Bool}
    (hrun : runStokes x o presDbc n u p [0, first nu n, first nu n + first np n] M B rhs gen st =
      .ok (conv, st')) :
    HasSizes st'.U ((List.range n).flatMap fun m => [nu m, np m]) ∧
      (conv = true → ∃ r0 r, StokesResidual n nu np M B (ve rhs.data) (fun _ => 0) r0 ∧
        StokesResidual n nu np M B (ve rhs.data) (ve st'.U.data) r ∧ small (stokesPrec o presDbc) r0 r) ∧
      (presDbc = false → ZeroMean n nu np (ve st'.U.data)) ∧
      st'.saved = if conv = true ∧ gen = true then st.saved ++ [st'.U] else st.saved := by
  obtain ⟨s, e, hro, hco, hsh, h4, h5, h6⟩ := assembleStokes_ok x o hu hp hM hB
  unfold runStokes at hrun
  rw [e, ok_bind, hdir] at hrun
  obtain ⟨b, lb, hb, herr, hok⟩ := solveStokes_ok x o presDbc hu hp
    ⟨s, if false then some (seen x.lower stokesType (mono s)) else none, !false⟩ hr gen hU
  cases hs : solveSaddle x o presDbc ⟨s, if false then some (seen x.lower stokesType (mono s)) else none, !false⟩ b
      (first nu n + first np n) with
  | error er => rw [herr er hs] at hrun; cases hrun
  | ok q =>
    obtain ⟨y, c⟩ := q
    have hkr : x.minres (fun v => addMult s v (List.replicate (first nu n + first np n) 0) 1) (stokesPrec o presDbc) b
        (List.replicate (first nu n + first np n) 0) = .ok (y, c) := by
      unfold solveSaddle at hs
      rw [hdir, if_neg (by simp)] at hs
      unfold stokesPrec
      cases ha : o.amg with
      | true => rw [ha, if_pos rfl] at hs; rw [if_pos rfl]; exact hs
      | false => rw [ha, if_neg (by simp)] at hs; rw [if_neg (by simp)]; exact hs
    obtain ⟨ly, hc⟩ := hk _ _ _ (mono s).val b _ y c
      (addMult_isMatrix hro hco hsh (N := first nu n + first np n) (by simp))
      (fun _ => saddle_symm hsym h6) lb (by simp) hkr
    obtain ⟨U, e2, hUs, hUv⟩ := hok y c hs ly
    rw [e2] at hrun
    cases hrun
    refine ⟨hUs, fun ht => ⟨_, _, ?_, ?_, hc ht⟩, fun hpf => zero_mean (y := ve y) fun m k hm hk => ?_, ?_⟩
    · refine ⟨by simp [resid, vecOf], fun m v k hm hv hk' => ?_⟩
      show ve _ (byVarAt n nu np m v k) = _
      unfold resid
      rw [ve_vecOf _ _ (byVarAt_lt hm hk'), hb m v k hm hv hk',
        row_stokes h6 (x := ve (List.replicate (first nu n + first np n) 0)) (z := fun _ => 0)
          (fun m v k _ _ _ => SteadyNS.ve_zero _ _) hm hv hk']
    · refine ⟨by simp [resid, vecOf], fun m v k hm hv hk' => ?_⟩
      show ve _ (byVarAt n nu np m v k) = _
      unfold resid
      rw [ve_vecOf _ _ (byVarAt_lt hm hk'), hb m v k hm hv hk',
        shift_lhs h6 (y := ve y) (c0 := if presDbc = false then
        (∑ c ∈ range (first np n), ve y (first nu n + c)) / (first np n : Nat) else 0) (hf.imp (by simp +contextual) id)
      (fun m v k hm hv hk => by
        rw [hUv m v k hm hv hk]; congr 1
        by_cases hv1 : v = 1 <;> simp [hv1]) hm hv hk']
    · rw [hUv m 1 k hm (by omega) hk, if_pos ⟨rfl, hpf⟩]
    · cases conv <;> cases gen <;> rfl

end

/-! ### When the operator is symmetric -/

section
open Verif.InterfaceForm.Spec Verif.InterfaceForm
open Verif.Penalty Verif.Spec.Penalty

variable {δ : Type}

section
variable [CommRing R]

theorem scatter_symm {rows cols : List Int} {a b : Mat R}
    (h : ∀ k l, k < rows.length → l < cols.length → ent a k l = ent b l k) (r c : Nat) :
    scatter rows cols a r c = scatter cols rows b c r := by
  unfold scatter
  rw [sum_comm]
  refine sum_congr rfl fun l hl => sum_congr rfl fun k hk => ?_
  rw [h k l (mem_range.1 hk) (mem_range.1 hl)]
  simp only [and_comm, mul_comm]

theorem blockTerm_symm {a b : Nat} {rows : Nat → List Int} {em : Nat → Nat → Mat R}
    (h : ∀ i j k l, i < 2 → j < 2 → k < (rows i).length → l < (rows j).length → ent (em i j) k l = ent (em j i) l k)
    (p q r c : Nat) : blockTerm a b rows rows em p q r c = blockTerm a b rows rows em q p c r := by
  unfold blockTerm
  rw [sum_comm]
  refine sum_congr rfl fun j hj => sum_congr rfl fun i hi => ?_
  rw [scatter_symm (fun k l => h i j k l (mem_range.1 hi) (mem_range.1 hj)) r c]
  simp only [and_comm]

theorem list_sum_symm {α : Type} (l : List α) (g : α → Nat → Nat → Nat → Nat → R)
    (h : ∀ x ∈ l, ∀ p q r c, g x p q r c = g x q p c r) (p q r c : Nat) :
    (l.map g).sum p q r c = (l.map g).sum q p c r := by
  induction l with
  | nil => rfl
  | cons x l ih =>
    rw [List.map_cons, List.sum_cons]
    show g x p q r c + _ = g x q p c r + _
    rw [h x (by simp), ih fun y hy => h y (by simp [hy])]

/-- An integrator is symmetric on a face: block `(j, i)` is the transpose of block `(i, j)`. -/
theorem formTerm_symm {f : Form R δ} (hsame : f.trial = f.test)
    (hg : ∀ p ∈ f.ports, IntegsOk (sidesOf f p) p.infos f.fnfi (fun g => g.mat))
    (hs : ∀ g, some g ∈ f.fnfi → ∀ t1 t2 i j k l, i < 2 → j < 2 → k < (g.mat t1 t2 i j).h →
      l < (g.mat t1 t2 i j).w → ent (g.mat t1 t2 i j) k l = ent (g.mat t1 t2 j i) l k) (p q r c : Nat) :
    formTerm f matOf p q r c = formTerm f matOf q p c r := by
  refine list_sum_symm _ _ (fun x hx => ?_) p q r c
  refine list_sum_symm _ _ (fun i hi => ?_)
  unfold faceTerm
  cases hf : (sidesOf f x).face i with
  | none => exact fun _ _ _ _ => rfl
  | some t =>
    obtain ⟨t1, t2⟩ := t
    refine list_sum_symm _ _ (fun g hg' => ?_)
    cases g with
    | none => exact fun _ _ _ _ => rfl
    | some g =>
      obtain ⟨g', e, hd⟩ := hg x hx _ hg'
      cases e
      have hrc : (sidesOf f x).cols t1 t2 = (sidesOf f x).rows t1 t2 := by
        funext i; unfold Sides.cols Sides.rows sidesOf; rw [hsame]
      dsimp only
      rw [hrc]
      refine blockTerm_symm fun a b k l ha hb hk hl => ?_
      obtain ⟨d1, d2, _⟩ := hd i hi t1 t2 hf a b ha hb
      exact hs g hg' t1 t2 a b k l ha hb (by rw [d1]; exact hk) (by rw [d2, hrc]; exact hl)

end

/-- **C95.** The operator assembled by the solvers is symmetric if the matrices of the subdomains are and the
interface integrators run with `sigma = -1` (for elasticity `alpha = -1`), the default: so the theorems above
apply. -/
theorem assembled_symmetric [Field R] [DecidableEq R] {f : Form R δ} (hf : FormOk f) (hsame : f.trial = f.test)
    {mats : MatArr R} (hm : MatsOk mats f.meshes.length (sizeIn f.test) (sizeIn f.test))
    (hg : ∀ p ∈ f.ports, IntegsOk (sidesOf f p) p.infos f.fnfi (fun g => g.mat))
    (hbase : Spec.Symmetric f.meshes.length (sizeIn f.test) mats)
    (hint : ∀ g, some g ∈ f.fnfi → ∃ kappa geo, (∀ t1 t2, Regular (geo t1 t2).2) ∧
      (Computes diffusion (-1) kappa geo g ∨ Computes vecDiffusion (-1) kappa geo g ∨
        Computes Penalty.elasticity (-1) kappa geo g)) :
    ∃ M, f.assemble mats = .ok M ∧ MatsOk M f.meshes.length (sizeIn f.test) (sizeIn f.test) ∧
      Spec.Symmetric f.meshes.length (sizeIn f.test) M := by
  obtain ⟨M, e, h1, h2⟩ := InterfaceForm.assemble_spec hf (by rw [hsame]; exact hm) hg
  refine ⟨M, e, by rw [hsame] at h1; exact h1, fun m m' k l hm hm' hk hl => ?_⟩
  rw [h2, h2, hbase m m' k l hm hm' hk hl, formTerm_symm hsame hg]
  intro g hg' t1 t2 i j k l hi hj hk hl
  obtain ⟨kappa, geo, hreg, hc⟩ := hint g hg'
  have key : ∀ (asm : Dims → R → R → List (Pt R) → Outcome (Four R)) (z : Dims → Bool → Nat),
      Computes asm (-1) kappa geo g →
      (∃ m, asm (geo t1 t2).1 (-1) kappa (geo t1 t2).2 = .ok m ∧ Sized m (z (geo t1 t2).1) (z (geo t1 t2).1)) →
      (∃ m, asm (geo t1 t2).1 (-1) kappa (geo t1 t2).2 = .ok m ∧ ∀ I J r c, r < z (geo t1 t2).1 I →
        c < z (geo t1 t2).1 J → (blk m J I).val c r = (blk m I J).val r c) →
      ent (g.mat t1 t2 i j) k l = ent (g.mat t1 t2 j i) l k := by
    intro asm z hC hS hY
    obtain ⟨m, e, hv⟩ := hC t1 t2
    obtain ⟨m', e', hS⟩ := hS
    obtain rfl := Except.ok.inj (e.symm.trans e')
    obtain ⟨m', e', hY⟩ := hY
    obtain rfl := Except.ok.inj (e.symm.trans e')
    obtain ⟨a1, a2, a3⟩ := hv i j hi hj
    obtain ⟨b1, b2, b3⟩ := hv j i hj hi
    rw [(hS _ _).1] at a1 b1
    rw [(hS _ _).2] at a2 b2
    rw [a3 k l hk hl, b3 l k (by rw [b1, ← a2]; exact hl) (by rw [b2, ← a1]; exact hk)]
    exact (hY _ _ k l (by rw [← a1]; exact hk) (by rw [← a2]; exact hl)).symm
  obtain ⟨y1, y2, y3⟩ := Penalty.symmetric (d := (geo t1 t2).1) (kappa := kappa) (hreg t1 t2)
  rcases hc with hc | hc | hc
  · exact key _ nd hc (by
      obtain ⟨m, e, h, _⟩ := diffusion_form (d := (geo t1 t2).1) (sigma := -1) (kappa := kappa) (hreg t1 t2)
      exact ⟨m, e, h⟩) y1
  · exact key _ nv hc (by
      obtain ⟨m, e, h, _⟩ := vecDiffusion_form (d := (geo t1 t2).1) (alpha := -1) (kappa := kappa) (hreg t1 t2)
      exact ⟨m, e, h⟩) y2
  · exact key _ nv hc (by
      obtain ⟨m, e, h, _⟩ := elasticity_form (d := (geo t1 t2).1) (alpha := -1) (kappa := kappa) (hreg t1 t2)
      exact ⟨m, e, h⟩) y3

end

/-! ### Two intervals: the default works, `sigma = 1` does not -/

section Example
open Verif.InterfaceForm.Spec Verif.InterfaceForm
open Verif.Penalty Verif.Spec.Penalty

/-- The face between `[0, 1]` and `[1, 2]`, each one linear element. -/
def exPt : Pt ℚ where
  wt := 1
  nor := fun _ => 1
  s1 := ⟨fun i => if i = 1 then 1 else 0, fun i _ => if i = 1 then 1 else -1, fun _ _ => 1, 1, .one, 0, 1⟩
  s2 := ⟨fun i => if i = 0 then 1 else 0, fun i _ => if i = 1 then 1 else -1, fun _ _ => 1, 1, .one, 0, 1⟩

/-- The interior-penalty matrices of that face with `kappa = 4`. -/
def exInteg (sigma : ℚ) : Integ ℚ Unit :=
  ⟨fun _ _ i j => match diffusion ⟨1, 2, 2⟩ sigma 4 [exPt] with
    | .ok m =>
      let b := blk m (decide (i = 1)) (decide (j = 1))
      ⟨2, 2, [b.val 0 0, b.val 1 0, b.val 0 1, b.val 1 1]⟩
    | .error _ => ⟨2, 2, [0, 0, 0, 0]⟩,
   fun _ _ _ _ _ => [], fun _ _ _ _ _ _ => ⟨0, 0, []⟩⟩

/-- Two subdomains, one interval each. -/
def exForm (sigma : ℚ) : Form ℚ Unit :=
  let m : FMesh Unit := ⟨fun be => if be < 2 then some ⟨0, ()⟩ else none, fun _ => 64, fun t _ => t⟩
  ⟨[m, m], [⟨2, [[0, 1]]⟩, ⟨2, [[0, 1]]⟩], [⟨2, [[0, 1]]⟩, ⟨2, [[0, 1]]⟩], [some (exInteg sigma)],
    [⟨0, 1, [⟨1, 0, 64, 64⟩]⟩]⟩

/-- A two by two matrix. -/
def two (a b c d : ℚ) : Sp ℚ := ⟨2, 2, [((0, 0), a), ((0, 1), b), ((1, 0), c), ((1, 1), d)]⟩

/-- The matrices of the subdomains: stiffness of a unit interval, with the interior-penalty boundary condition at
the outer end (`DGDiffusionIntegrator(sigma, kappa)`, src/poisson_solver.cpp:246-250). -/
def exBase (sigma : ℚ) : MatArr ℚ :=
  ⟨2, 2, fun i j => if i = j then some (if i = 0 then two (sigma + 4) 0 (-1 - sigma) 1
    else two 1 (-1 - sigma) 0 (sigma + 4)) else some ⟨2, 2, []⟩⟩

theorem exForm_ok (sigma : ℚ) : FormOk (exForm sigma) := by
  have hsp : SpaceOk ⟨2, [[0, 1]]⟩ := by unfold SpaceOk; decide
  refine ⟨rfl, rfl, fun p hp => ?_⟩
  have hp' : p = ⟨0, 1, [⟨1, 0, 64, 64⟩]⟩ := by simpa [exForm] using hp
  subst hp'
  refine ⟨Nat.zero_lt_two, Nat.one_lt_two, Nat.zero_ne_one, ?_, ?_, ?_, hsp, hsp, hsp, hsp⟩
  · intro i hi
    simp at hi; subst hi; left; rfl
  · intro i hi
    simp at hi; subst hi; left; rfl
  · intro i hi t1 t2 h
    simp at hi; subst hi
    simp [Sides.face, sidesOf, exForm, trOf] at h
    obtain ⟨rfl, rfl⟩ := h
    exact ⟨Nat.one_pos, Nat.one_pos, Nat.one_pos, Nat.one_pos⟩

theorem exInteg_shape (sigma : ℚ) (i j : Nat) (t1 t2 : Tr Unit) : ((exInteg sigma).mat t1 t2 i j).h = 2 ∧
    ((exInteg sigma).mat t1 t2 i j).w = 2 ∧ MatOk ((exInteg sigma).mat t1 t2 i j) := by
  unfold exInteg
  dsimp only
  split <;> exact ⟨rfl, rfl, Nat.le_refl 4⟩

theorem exForm_integs (sigma : ℚ) (p : Port) (hp : p ∈ (exForm sigma).ports) :
    IntegsOk (sidesOf (exForm sigma) p) p.infos (exForm sigma).fnfi (fun g => g.mat) := by
  intro g hg
  have : g = some (exInteg sigma) := by simpa [exForm] using hg
  subst this
  have hp' : p = ⟨0, 1, [⟨1, 0, 64, 64⟩]⟩ := by simpa [exForm] using hp
  subst hp'
  refine ⟨exInteg sigma, rfl, fun i hi t1 t2 h k l _ _ => ?_⟩
  simp at hi; subst hi
  simp [Sides.face, sidesOf, exForm, trOf] at h
  obtain ⟨rfl, rfl⟩ := h
  obtain ⟨a, b, c⟩ := exInteg_shape sigma k l ⟨0, ()⟩ ⟨0, ()⟩
  refine ⟨a.trans ?_, b.trans ?_, c⟩
  · unfold Sides.rows; split <;> rfl
  · unfold Sides.cols; split <;> rfl

theorem exBase_ok (sigma : ℚ) : MatsOk (exBase sigma) 2 (fun _ => 2) (fun _ => 2) := by
  refine ⟨rfl, rfl, fun a b ha hb => ?_⟩
  interval_cases a <;> interval_cases b <;> exact ⟨_, rfl, rfl, rfl⟩

theorem exForm_size (sigma : ℚ) {m : Nat} (hm : m < 2) : sizeIn (exForm sigma).test m = 2 := by
  interval_cases m <;> rfl

theorem matsOk_congr {M : MatArr ℚ} {n : Nat} {w w' : Nat → Nat} (h : ∀ m, m < n → w m = w' m)
    (hM : MatsOk M n w w) : MatsOk M n w' w' :=
  ⟨hM.1, hM.2.1, fun a b ha hb => by
    obtain ⟨s, e, h1, h2⟩ := hM.2.2 a b ha hb
    exact ⟨s, e, h1.trans (h a ha), h2.trans (h b hb)⟩⟩

/-- The assembled operator of the two intervals. -/
theorem exAssemble (sigma : ℚ) : ∃ M, (exForm sigma).assemble (exBase sigma) = .ok M ∧
    MatsOk M 2 (fun _ => 2) (fun _ => 2) := by
  obtain ⟨M, e, h, _⟩ := InterfaceForm.assemble_spec (exForm_ok sigma) (mats := exBase sigma)
    (matsOk_congr (fun m hm => (exForm_size sigma hm).symm) (exBase_ok sigma)) (exForm_integs sigma)
  exact ⟨M, e, matsOk_congr (fun m hm => exForm_size sigma hm) h⟩

/-- All entries, row by row. -/
def entries (M : MatArr ℚ) : List ℚ :=
  (List.range 2).flatMap fun m => (List.range 2).flatMap fun k => (List.range 2).flatMap fun m' =>
    (List.range 2).map fun l => mget M m m' k l

example : (((exForm (-1)).assemble (exBase (-1))).map entries) = .ok [3, 1 / 2, -1 / 2, 0, 1 / 2, 4, -3, -1 / 2,
    -1 / 2, -3, 4, 1 / 2, 0, -1 / 2, 1 / 2, 3] := by decide +kernel

theorem exEntries : (((exForm 1).assemble (exBase 1)).map entries) = .ok [5, -1 / 2, 1 / 2, 0, -3 / 2, 5, -4, -1 / 2,
    -1 / 2, -4, 5, -3 / 2, 0, 1 / 2, -1 / 2, 5] := by decide +kernel

theorem ones_offsets (w : Nat) : IsOffsets [0, w, w + w] ((List.range 2).map fun _ => w) :=
  two_offsets w w

/-- The entries with `sigma = 1`, as one matrix. -/
def exA (r c : Nat) : ℚ :=
  ve [5, -1 / 2, 1 / 2, 0, -3 / 2, 5, -4, -1 / 2, -1 / 2, -4, 5, -3 / 2, 0, 1 / 2, -1 / 2, 5] (4 * r + c)

theorem exA_eq {M : MatArr ℚ} (e : (exForm 1).assemble (exBase 1) = .ok M) {i j k l : Nat} (hi : i < 2) (hj : j < 2)
    (hk : k < 2) (hl : l < 2) : mget M i j k l = exA (2 * i + k) (2 * j + l) := by
  have h := exEntries
  rw [e] at h
  have h := Except.ok.inj h
  unfold exA
  rw [← h]
  interval_cases i <;> interval_cases j <;> interval_cases k <;> interval_cases l <;> rfl

theorem exSolvable {M : MatArr ℚ} (e : (exForm 1).assemble (exBase 1) = .ok M) :
    Solves 2 (fun _ => 2) M (ve [0, 1, 0, 0]) (ve [1 / 88, 49 / 88, 39 / 88, -1 / 88]) := by
  intro m k hm hk
  unfold lhs
  rw [sum_congr rfl fun m' hm' => sum_congr rfl fun l hl => by
    rw [exA_eq e hm (mem_range.1 hm') hk (mem_range.1 hl)]]
  have hk : k < 2 := hk
  interval_cases m <;> interval_cases k <;>
    (simp only [sum_range_succ, sum_range_zero, first, exA]; norm_num [ve])

/-- **C95, negation.** With the direct solver and `sigma = 1`, an option of the Poisson solver (`alpha` for
elasticity), the operator is not symmetric, but only one triangle of it is used.  Whatever the triangle, a problem with
a unique solution is reported as solved, and a snapshot taken, although the state does not satisfy the equations. -/
theorem direct_wrong {x : Ext ℚ} (hd : Direct x.direct) {ph : Physics} (hph : ph ≠ .advdiff) :
    ∃ M, (exForm 1).assemble (exBase 1) = .ok M ∧ (∃ z, Solves 2 (fun _ => 2) M (ve [0, 1, 0, 0]) z) ∧
      ∃ st', run ph x ⟨true, false, false⟩ 2 [0, 2, 4] M ⟨[0, 1, 0, 0], [0, 2, 4]⟩ true
          ⟨⟨[0, 0, 0, 0], [0, 2, 4]⟩, []⟩ = .ok (true, st') ∧ st'.saved = [st'.U] ∧
        ¬ Solves 2 (fun _ => 2) M (ve [0, 1, 0, 0]) (ve st'.U.data) := by
  obtain ⟨M, e, hM⟩ := exAssemble 1
  refine ⟨M, e, ⟨_, exSolvable e⟩, ?_⟩
  obtain ⟨b, e1, _, _, _, h4, h5, h6⟩ := assembleGlobal_ok ph x ⟨true, false, false⟩ (ones_offsets 2) hM
  have hA : ∀ r c, r < 4 → c < 4 → (mono b).val r c = exA r c := by
    intro r c hr hc
    have := h6 (r / 2) (c / 2) (r % 2) (c % 2) (by omega) (by omega) (by omega) (by omega)
    rw [exA_eq e (by omega) (by omega) (by omega) (by omega)] at this
    simp only [first, sum_const, card_range, smul_eq_mul] at this
    rwa [show r / 2 * 2 + r % 2 = r by omega, show c / 2 * 2 + c % 2 = c by omega,
      show 2 * (r / 2) + r % 2 = r by omega, show 2 * (c / 2) + c % 2 = c by omega] at this
  have hS : ∀ r c, r < 4 → c < 4 → (seen x.lower ph.matType (mono b)).val r c =
      if x.lower then exA (max r c) (min r c) else exA (min r c) (max r c) := by
    intro r c hr hc
    have : ph.matType = .symmetricPositiveDefinite := by cases ph <;> first | rfl | exact absurd rfl hph
    rw [this, ← hA _ _ (max_lt hr hc) (min_lt_of_left_lt hr), ← hA _ _ (min_lt_of_left_lt hr) (max_lt hr hc)]
    rfl
  have hdim : (seen x.lower ph.matType (mono b)).h = 4 ∧ (seen x.lower ph.matType (mono b)).w = 4 := by
    unfold seen; split
    · exact ⟨h4, h5⟩
    · exact ⟨h4, h5⟩
  obtain ⟨u, e2, l2, h2⟩ := hd (seen x.lower ph.matType (mono b)) [0, 1, 0, 0] hdim.1 hdim.2 ⟨if x.lower then
      ve [47 / 131, 245 / 262, 205 / 262, -2 / 131] else ve [1 / 131, 225 / 262, 205 / 262, 42 / 131], by
    intro r hr
    have hr : r < 4 := hr
    show ∑ c ∈ range 4, _ = _
    rw [sum_congr rfl fun c hc => by rw [hS r c hr (mem_range.1 hc)]]
    cases x.lower <;> interval_cases r <;>
      (simp only [sum_range_succ, sum_range_zero, exA]; norm_num [ve])⟩
  refine ⟨⟨⟨u, [0, 2, 4]⟩, [⟨u, [0, 2, 4]⟩]⟩, ?_, rfl, fun hsol => ?_⟩
  · unfold run solve solveSystem
    rw [show [0, 2, 4] = [0, 2, 2 + 2] from rfl, e1, ok_bind, setsMumps_direct ph rfl]
    simp only [Bool.or_true, Bool.and_true, if_true, nonNull, ok_bind, e2]
    rfl
  · have k1 := h2 1 (by simp)
    have k2 := h2 2 (by simp)
    have k0 := h2 0 (by simp)
    have k3 := h2 3 (by simp)
    have hT : ∀ r, r < 4 → ∑ c ∈ range 4, exA r c * ve u c = ve [0, 1, 0, 0] r := by
      intro r hr
      have := hsol (r / 2) (r % 2) (by omega) (by show r % 2 < 2; omega)
      rw [← row_lhs (A := exA) (w := fun _ => 2) (fun i j k l hi hj hk hl => by
        simp only [first, sum_const, card_range, smul_eq_mul]
        rw [exA_eq e hi hj hk hl, Nat.mul_comm i, Nat.mul_comm j]) _ (by omega) (by omega)] at this
      simp only [first, sum_const, card_range, smul_eq_mul] at this
      rwa [show r / 2 * 2 + r % 2 = r by omega] at this
    have t0 := hT 0 (by omega)
    have t1 := hT 1 (by omega)
    have t2 := hT 2 (by omega)
    have t3 := hT 3 (by omega)
    simp only [List.length_cons, List.length_nil, Nat.zero_add, Nat.reduceAdd] at k0 k1 k2 k3
    rw [sum_congr rfl fun c hc => by rw [hS _ c (by omega) (mem_range.1 hc)]] at k0 k1 k2 k3
    cases hl : x.lower <;> rw [hl] at k0 k1 k2 k3 <;>
      simp only [sum_range_succ, sum_range_zero, exA] at t0 t1 t2 t3 k0 k1 k2 k3 <;>
      norm_num [ve] at t0 t1 t2 t3 k0 k1 k2 k3 <;> linarith

/-! A channel of one interval: velocity prescribed at the left end, outflow at the right. -/

/-- The left end. -/
def exEnd : Pt ℚ where
  wt := 1
  nor := fun _ => -1
  s1 := ⟨fun i => if i = 0 then 1 else 0, fun i _ => if i = 1 then 1 else -1, fun _ _ => 1, 1, .one, 0, 1⟩
  s2 := ⟨fun _ => 0, fun _ _ => 0, fun _ _ => 1, 1, .one, 0, 1⟩

/-- Stiffness, and `DGVectorDiffusionIntegrator` with `kappa = 4` at the left end. -/
def exVisc (sigma : ℚ) : MatArr ℚ :=
  ⟨1, 1, fun _ _ => match vecFace ⟨1, 2, 0⟩ sigma 4 [exEnd] with
    | .ok b => some (two (1 + b.val 0 0) (-1 + b.val 0 1) (-1 + b.val 1 0) (1 + b.val 1 1))
    | .error _ => none⟩

/-- Divergence and normal flux at the left end. -/
def exDiv : MatArr ℚ := ⟨1, 1, fun _ _ => some ⟨1, 2, [((0, 1), -1)]⟩⟩

theorem exVisc_vals (sigma : ℚ) (h : sigma = 1 ∨ sigma = -1) : (exVisc sigma).at_ 0 0 =
    some (two (sigma + 4) 0 (-1 - sigma) 1) := by
  rcases h with rfl | rfl <;> decide +kernel

theorem exVisc_ok (sigma : ℚ) (h : sigma = 1 ∨ sigma = -1) : MatsOk (exVisc sigma) 1 (fun _ => 2) (fun _ => 2) :=
  ⟨rfl, rfl, fun a b ha hb => by
    obtain rfl : a = 0 := by omega
    obtain rfl : b = 0 := by omega
    exact ⟨_, exVisc_vals sigma h, rfl, rfl⟩⟩

theorem exDiv_ok : MatsOk exDiv 1 (fun _ => 1) (fun _ => 2) := ⟨rfl, rfl, fun _ _ _ _ => ⟨_, rfl, rfl, rfl⟩⟩

/-- The saddle-point matrix. -/
def exS (sigma : ℚ) (r c : Nat) : ℚ := ve [sigma + 4, 0, 0, -1 - sigma, 1, -1, 0, -1, 0] (3 * r + c)

theorem exS_eq {sigma : ℚ} (h : sigma = 1 ∨ sigma = -1) {v v' k l : Nat} (hv : v < 2) (hv' : v' < 2)
    (hk : k < dofs (fun _ => 2) (fun _ => 1) 0 v) (hl : l < dofs (fun _ => 2) (fun _ => 1) 0 v') :
    saddle (exVisc sigma) exDiv 0 0 v v' k l = exS sigma (2 * v + k) (2 * v' + l) := by
  unfold dofs at hk hl
  unfold saddle mget exS
  rw [exVisc_vals sigma h]
  interval_cases v <;> interval_cases v' <;> simp only [if_true, if_false, Nat.one_ne_zero] at hk hl <;>
    interval_cases k <;> interval_cases l <;> rfl

theorem exS_lhs {sigma : ℚ} (h : sigma = 1 ∨ sigma = -1) (z : Nat → ℚ) {v k : Nat} (hv : v < 2)
    (hk : k < dofs (fun _ => 2) (fun _ => 1) 0 v) :
    stokesLhs 1 (fun _ => 2) (fun _ => 1) (exVisc sigma) exDiv z 0 v k =
      ∑ c ∈ range 3, exS sigma (2 * v + k) c * z c := by
  unfold stokesLhs
  rw [sum_range_one, sum_congr rfl fun v' hv' => sum_congr rfl fun l hl => by
    rw [exS_eq h hv (mem_range.1 hv') hk (mem_range.1 hl)]]
  simp [sum_range_succ, dofs, at_, first]

theorem exS_solves {sigma : ℚ} (h : sigma = 1 ∨ sigma = -1) (b z : Nat → ℚ) :
    StokesSolves 1 (fun _ => 2) (fun _ => 1) (exVisc sigma) exDiv b z ↔
      ∀ r, r < 3 → ∑ c ∈ range 3, exS sigma r c * z c = b r := by
  constructor
  · intro hs r hr
    by_cases h2 : r < 2
    · have := hs 0 0 r (by omega) (by omega) h2
      rw [exS_lhs h z (by omega) h2] at this
      simpa [at_, first] using this
    · obtain rfl : r = 2 := by omega
      have h1 : 0 < dofs (fun _ => 2) (fun _ => 1) 0 1 := Nat.one_pos
      have := hs 0 1 0 (by omega) (by omega) h1
      rw [exS_lhs h z (by omega) h1] at this
      simpa [at_, first] using this
  · intro hs m v k hm hv hk
    obtain rfl : m = 0 := by omega
    rw [exS_lhs h z hv hk, hs _ (by unfold dofs at hk; dsimp only at hk; split at hk <;> omega)]
    unfold dofs at hk
    interval_cases v <;> simp [at_, first]

theorem one_offsets (w : Nat) : IsOffsets [0, w] ((List.range 1).map fun _ => w) :=
  ⟨rfl, rfl, fun i s h => by
    match i, h with
    | 0, h => cases h; exact ⟨0, rfl, by simp⟩⟩

theorem ex_hasSizes (a b c : ℚ) : HasSizes (⟨[a, b, c], [0, 2, 3]⟩ : BlockVector ℚ)
    ((List.range 1).flatMap fun _ => [2, 1]) := ⟨two_offsets 2 1, rfl⟩

/-- **C95, negation.** The same for Stokes (and the full-order time steps, which use the same mode). -/
theorem stokes_direct_wrong {x : Ext ℚ} (hd : Direct x.direct) :
    (∃ z, StokesSolves 1 (fun _ => 2) (fun _ => 1) (exVisc 1) exDiv (ve [1, 0, 1]) z) ∧
      ∃ st', runStokes x ⟨true, false, false⟩ true 1 [0, 2] [0, 1] [0, 2, 3] (exVisc 1) exDiv
          ⟨[1, 0, 1], [0, 2, 3]⟩ true ⟨⟨[0, 0, 0], [0, 2, 3]⟩, []⟩ = .ok (true, st') ∧ st'.saved = [st'.U] ∧
        ¬ StokesSolves 1 (fun _ => 2) (fun _ => 1) (exVisc 1) exDiv (ve [1, 0, 1]) (ve st'.U.data) := by
  have h1 : (1 : ℚ) = 1 ∨ (1 : ℚ) = -1 := .inl rfl
  refine ⟨⟨ve [1 / 5, -1, -7 / 5], (exS_solves h1 _ _).2 fun r hr => by
    interval_cases r <;> (simp only [sum_range_succ, sum_range_zero, exS]; norm_num [ve])⟩, ?_⟩
  obtain ⟨s, e, _, _, _, h4, h5, h6⟩ := assembleStokes_ok x ⟨true, false, false⟩ (one_offsets 2) (one_offsets 1)
    (exVisc_ok 1 h1) exDiv_ok
  have hA : ∀ r c, r < 3 → c < 3 → (mono s).val r c = exS 1 r c := by
    intro r c hr hc
    have := h6 0 0 (r / 2) (c / 2) (r % 2) (c % 2) (by omega) (by omega) (by omega) (by omega)
      (by unfold dofs; dsimp only; split <;> omega) (by unfold dofs; dsimp only; split <;> omega)
    rw [exS_eq h1 (by omega) (by omega) (by unfold dofs; dsimp only; split <;> omega) (by unfold dofs; dsimp only; split <;> omega)] at this
    rw [show 2 * (r / 2) + r % 2 = r by omega, show 2 * (c / 2) + c % 2 = c by omega] at this
    rw [← this]
    congr 1
    · unfold byVarAt; simp only [first, sum_const, card_range, smul_eq_mul]; split <;> omega
    · unfold byVarAt; simp only [first, sum_const, card_range, smul_eq_mul]; split <;> omega
  have hS : ∀ r c, r < 3 → c < 3 → (seen x.lower stokesType (mono s)).val r c =
      if x.lower then exS 1 (max r c) (min r c) else exS 1 (min r c) (max r c) := by
    intro r c hr hc
    rw [← hA _ _ (max_lt hr hc) (min_lt_of_left_lt hr), ← hA _ _ (min_lt_of_left_lt hr) (max_lt hr hc)]
    rfl
  obtain ⟨b, lb, hb, _, hok⟩ := solveStokes_ok x ⟨true, false, false⟩ true (one_offsets 2) (one_offsets 1)
    ⟨s, some (seen x.lower stokesType (mono s)), false⟩ (ex_hasSizes 1 0 1) true
    (st := ⟨⟨[0, 0, 0], [0, 2, 3]⟩, []⟩) (ex_hasSizes 0 0 0)
  have hN : first (fun _ => 2) 1 + first (fun _ => 1) 1 = 3 := rfl
  have lb3 : b.length = 3 := lb
  have hbv : ∀ r, r < 3 → ve b r = ve [1, 0, 1] r := by
    intro r hr
    have := hb 0 (r / 2) (r % 2) (by omega) (by omega) (by unfold dofs; dsimp only; split <;> omega)
    rw [show byVarAt 1 (fun _ => 2) (fun _ => 1) 0 (r / 2) (r % 2) = r by
        unfold byVarAt; simp only [first, sum_const, card_range, smul_eq_mul]; split <;> omega,
      show at_ (fun _ => 2) (fun _ => 1) 0 (r / 2) (r % 2) = r by
        unfold at_; simp only [first, sum_range_zero]; split <;> omega] at this
    exact this
  obtain ⟨u, e2, l2, h2⟩ := hd (seen x.lower stokesType (mono s)) b (h4.trans lb.symm) (h5.trans lb.symm)
    ⟨if x.lower then ve [-1 / 5, -1, -3 / 5] else ve [1 / 5, -1, -1], by
    intro r hr
    rw [lb3] at hr ⊢
    rw [sum_congr rfl fun c hc => by rw [hS r c hr (mem_range.1 hc)], hbv r hr]
    cases x.lower <;> interval_cases r <;>
      (simp only [sum_range_succ, sum_range_zero, exS]; norm_num [ve])⟩
  rw [lb3] at l2 h2
  obtain ⟨U, e3, _, hUv⟩ := hok u true (by
    unfold solveSaddle
    simp only [if_true, nonNull, ok_bind, e2]
    rfl) l2
  refine ⟨⟨U, [U]⟩, ?_, rfl, fun hsol => ?_⟩
  · unfold runStokes
    rw [show [0, 2, 3] = [0, first (fun _ => 2) 1, first (fun _ => 2) 1 + first (fun _ => 1) 1] from rfl, e, ok_bind]
    exact e3
  · have hu : ∀ r, r < 3 → ve U.data r = ve u r := by
      intro r hr
      have := hUv 0 (r / 2) (r % 2) (by omega) (by omega) (by unfold dofs; dsimp only; split <;> omega)
      rw [show byVarAt 1 (fun _ => 2) (fun _ => 1) 0 (r / 2) (r % 2) = r by
          unfold byVarAt; simp only [first, sum_const, card_range, smul_eq_mul]; split <;> omega,
        show at_ (fun _ => 2) (fun _ => 1) 0 (r / 2) (r % 2) = r by
          unfold at_; simp only [first, sum_range_zero]; split <;> omega] at this
      simpa using this
    have hT := (exS_solves h1 _ _).1 hsol
    have t0 := hT 0 (by omega)
    have t1 := hT 1 (by omega)
    have t2 := hT 2 (by omega)
    have k0 := h2 0 (by omega)
    have k1 := h2 1 (by omega)
    have k2 := h2 2 (by omega)
    rw [sum_congr rfl fun c hc => by rw [hS _ c (by omega) (mem_range.1 hc)], hbv _ (by omega)] at k0 k1 k2
    rw [sum_congr rfl fun c hc => by rw [hu c (mem_range.1 hc)]] at t0 t1 t2
    cases hl : x.lower <;> rw [hl] at k0 k1 k2 <;>
      simp only [sum_range_succ, sum_range_zero, exS] at t0 t1 t2 k0 k1 k2 <;>
      norm_num [ve] at t0 t1 t2 k0 k1 k2 <;> linarith

/-! ### The hypotheses can be met -/

open Classical in
/-- An iterative solver by choice. -/
noncomputable def exKrylov : Krylov ℚ := fun op _ b x0 =>
  if h : ∃ x, x.length = x0.length ∧ op x = .ok b then .ok (h.choose, true) else .ok (x0, false)

/-- The external solvers by choice. -/
noncomputable def exExt (lower : Bool) : Ext ℚ := ⟨lower, Unsteady.exact, exKrylov, exKrylov, exKrylov⟩

/-- The contract of the iterative solvers, with "small" meaning zero. -/
theorem exKrylov_sound (sym : Bool) : Sound sym exKrylov fun _ _ r => ∀ t, ve r t = 0 := by
  intro op prec N A b x0 x conv hop _ hb h0 e
  unfold exKrylov at e
  split at e
  · rename_i h
    cases e
    obtain ⟨hl, hx⟩ := h.choose_spec
    refine ⟨hl.trans h0, fun _ t => ?_⟩
    obtain ⟨y, ey, ly, hy⟩ := hop _ (hl.trans h0)
    rw [hx] at ey
    cases ey
    by_cases ht : t < N
    · unfold resid; rw [ve_vecOf _ _ ht, hy t ht, sub_self]
    · unfold resid ve vecOf; rw [List.getElem?_eq_none (by simp; omega)]; rfl
  · cases e; exact ⟨h0, fun hc => by cases hc⟩

/-- It converges when there is a solution. -/
theorem exKrylov_converges {op : List ℚ → Outcome (List ℚ)} {N : Nat} {A : Nat → Nat → ℚ} (hop : IsMatrix op N A)
    (prec : Prec) {b x0 : List ℚ} (hb : b.length = N) (h0 : x0.length = N)
    (hs : ∃ z : Nat → ℚ, ∀ t, t < N → ∑ c ∈ range N, A t c * z c = ve b t) :
    ∃ x, exKrylov op prec b x0 = .ok (x, true) := by
  obtain ⟨z, hz⟩ := hs
  have h : ∃ x, x.length = x0.length ∧ op x = .ok b := by
    obtain ⟨y, ey, ly, hy⟩ := hop (vecOf N z) (by simp [vecOf])
    refine ⟨_, by simp [vecOf, h0], ey.trans ?_⟩
    congr 1
    refine List.ext_getElem (ly.trans hb.symm) fun t h1 h2 => ?_
    have := hy t (ly ▸ h1)
    rw [sum_congr rfl fun c hc => by rw [ve_vecOf _ _ (mem_range.1 hc)], hz t (ly ▸ h1)] at this
    unfold ve at this
    rw [List.getElem?_eq_getElem h1, List.getElem?_eq_getElem h2] at this
    exact this
  exact ⟨h.choose, by unfold exKrylov; rw [dif_pos h]⟩

/-- With the default `sigma = -1`, the two intervals meet the hypotheses of `assembled_symmetric`, hence those of
`direct_solve_partial`. -/
theorem exSymmetric : ∃ M, (exForm (-1)).assemble (exBase (-1)) = .ok M ∧ MatsOk M 2 (fun _ => 2) (fun _ => 2) ∧
    Spec.Symmetric 2 (fun _ => 2) M := by
  obtain ⟨M, e, h1, h2⟩ := assembled_symmetric (exForm_ok (-1)) rfl (mats := exBase (-1))
    (matsOk_congr (fun m hm => (exForm_size (-1) hm).symm) (exBase_ok (-1))) (exForm_integs (-1))
    (fun m m' k l hm hm' hk hl => by
      have hm : m < 2 := hm
      have hm' : m' < 2 := hm'
      rw [exForm_size _ hm] at hk
      rw [exForm_size _ hm'] at hl
      interval_cases m <;> interval_cases m' <;> interval_cases k <;> interval_cases l <;> decide +kernel)
    (fun g hg => by
      have : g = exInteg (-1) := by simpa [exForm] using hg
      subst this
      have hreg : Regular [exPt] := by
        intro p hp
        rw [List.mem_singleton.1 hp]
        decide +kernel
      refine ⟨4, fun _ _ => (⟨1, 2, 2⟩, [exPt]), fun _ _ => hreg, .inl fun t1 t2 => ?_⟩
      obtain ⟨m, e, hs, _⟩ := diffusion_form (d := ⟨1, 2, 2⟩) (sigma := -1) (kappa := 4) hreg
      refine ⟨m, e, fun i j hi hj => ?_⟩
      have hmat : (exInteg (-1)).mat t1 t2 i j = ⟨2, 2, [(blk m (decide (i = 1)) (decide (j = 1))).val 0 0,
          (blk m (decide (i = 1)) (decide (j = 1))).val 1 0, (blk m (decide (i = 1)) (decide (j = 1))).val 0 1,
          (blk m (decide (i = 1)) (decide (j = 1))).val 1 1]⟩ := by
        unfold exInteg; dsimp only; rw [e]
      rw [hmat]
      refine ⟨?_, ?_, fun r c hr hc => ?_⟩
      · rw [(hs _ _).1]; cases decide (i = 1) <;> rfl
      · rw [(hs _ _).2]; cases decide (j = 1) <;> rfl
      · have hr : r < 2 := hr
        have hc : c < 2 := hc
        interval_cases r <;> interval_cases c <;> rfl)
  exact ⟨M, e, matsOk_congr (fun m hm => exForm_size (-1) hm) h1,
    fun m m' k l hm hm' hk hl => h2 m m' k l hm hm' (by rw [exForm_size _ hm]; exact hk)
      (by rw [exForm_size _ hm']; exact hl)⟩

example (lower : Bool) : ∃ M, (exForm (-1)).assemble (exBase (-1)) = .ok M ∧
    ∃ st', run .poisson (exExt lower) ⟨true, false, false⟩ 2 [0, 2, 4] M ⟨[3, 1, 1, 3], [0, 2, 4]⟩ true
      ⟨⟨[0, 0, 0, 0], [0, 2, 4]⟩, []⟩ = .ok (true, st') ∧
      Solves 2 (fun _ => 2) M (ve [3, 1, 1, 3]) (ve st'.U.data) := by
  obtain ⟨M, e, hM, hs⟩ := exSymmetric
  refine ⟨M, e, ?_⟩
  have hv := show (((exForm (-1)).assemble (exBase (-1))).map entries) = .ok [3, 1 / 2, -1 / 2, 0, 1 / 2, 4, -3,
    -1 / 2, -1 / 2, -3, 4, 1 / 2, 0, -1 / 2, 1 / 2, 3] by decide +kernel
  rw [e] at hv
  have hv := Except.ok.inj hv
  have hsol : ∃ z, Solves 2 (fun _ => 2) M (ve [3, 1, 1, 3]) z := by
    refine ⟨ve [1, 1, 1, 1], fun m k hm hk => ?_⟩
    have hk : k < 2 := hk
    simp only [entries, List.range_succ, List.range_zero, List.nil_append, List.flatMap_cons, List.flatMap_nil,
      List.map_cons, List.map_nil, List.cons_append, List.append_nil, List.cons.injEq] at hv
    obtain ⟨a1, a2, a3, a4, a5, a6, a7, a8, a9, a10, a11, a12, a13, a14, a15, a16, _⟩ := hv
    interval_cases m <;> interval_cases k <;>
      (simp only [lhs, sum_range_succ, sum_range_zero, first, a1, a2, a3, a4, a5, a6, a7, a8, a9, a10, a11, a12, a13,
        a14, a15, a16]; norm_num [ve])
  obtain ⟨st', h1, _, h2, _⟩ := direct_solve_partial .poisson (x := exExt lower) Unsteady.exact_direct
    (o := ⟨true, false, false⟩) rfl (ones_offsets 2) hM (.inr hs) (rhs := ⟨[3, 1, 1, 3], [0, 2, 4]⟩)
    ⟨ones_offsets 2, rfl⟩ true (st := ⟨⟨[0, 0, 0, 0], [0, 2, 4]⟩, []⟩) ⟨ones_offsets 2, rfl⟩ hsol
  exact ⟨st', h1, h2⟩

/-- The hypotheses of `iterative_solve` are met by a run that converges, here with the non-symmetric operator. -/
example (lower : Bool) : Sound false (Physics.krylov .poisson (exExt lower)) (fun _ _ r => ∀ t, ve r t = 0) ∧
    ∃ M, (exForm 1).assemble (exBase 1) = .ok M ∧ MatsOk M 2 (fun _ => 2) (fun _ => 2) ∧
    ∃ st', run .poisson (exExt lower) ⟨false, true, false⟩ 2 [0, 2, 4] M ⟨[0, 1, 0, 0], [0, 2, 4]⟩ true
      ⟨⟨[0, 0, 0, 0], [0, 2, 4]⟩, []⟩ = .ok (true, st') ∧ st'.saved = [st'.U] := by
  refine ⟨exKrylov_sound false, ?_⟩
  obtain ⟨M, e, hM⟩ := exAssemble 1
  refine ⟨M, e, hM, ?_⟩
  obtain ⟨b, e1, _, _, _, h4, h5, h6⟩ := assembleGlobal_ok .poisson (exExt lower) ⟨false, true, false⟩ (ones_offsets 2) hM
  obtain ⟨u, hu⟩ := exKrylov_converges (apply_isMatrix h4 h5) .amg (b := [0, 1, 0, 0]) (x0 := [0, 0, 0, 0]) rfl rfl
    ⟨ve [1 / 88, 49 / 88, 39 / 88, -1 / 88], fun t ht => by
      obtain ⟨m, k, hm, hk, rfl⟩ := locate 2 (fun _ => 2) ht
      rw [row_lhs h6 _ hm hk]
      exact exSolvable e m k hm hk⟩
  refine ⟨⟨⟨u, [0, 2, 4]⟩, [⟨u, [0, 2, 4]⟩]⟩, ?_, rfl⟩
  unfold run solve solveSystem
  rw [show [0, 2, 4] = [0, 2, 2 + 2] from rfl, e1, ok_bind]
  show (do let r ← exKrylov (apply (mono b)) .amg [0, 1, 0, 0] [0, 0, 0, 0]; _) = _
  rw [hu]
  rfl

/-- The hypotheses of `iterative_solve_method` are met by a run with a non-symmetric operator that converges. -/
example (lower : Bool) : Sound true (exExt lower).cg (fun _ _ r => ∀ t, ve r t = 0) ∧
    Sound false (exExt lower).gmres (fun _ _ r => ∀ t, ve r t = 0) ∧
    ∃ M, (exForm 1).assemble (exBase 1) = .ok M ∧ MatsOk M 2 (fun _ => 2) (fun _ => 2) ∧
    ∃ st', run .advdiff (exExt lower) ⟨false, true, false⟩ 2 [0, 2, 4] M ⟨[0, 1, 0, 0], [0, 2, 4]⟩ true
      ⟨⟨[0, 0, 0, 0], [0, 2, 4]⟩, []⟩ = .ok (true, st') ∧ st'.saved = [st'.U] := by
  refine ⟨exKrylov_sound true, exKrylov_sound false, ?_⟩
  obtain ⟨M, e, hM⟩ := exAssemble 1
  refine ⟨M, e, hM, ?_⟩
  obtain ⟨b, e1, _, _, _, h4, h5, h6⟩ := assembleGlobal_ok .advdiff (exExt lower) ⟨false, true, false⟩ (ones_offsets 2) hM
  obtain ⟨u, hu⟩ := exKrylov_converges (apply_isMatrix h4 h5) .amg (b := [0, 1, 0, 0]) (x0 := [0, 0, 0, 0]) rfl rfl
    ⟨ve [1 / 88, 49 / 88, 39 / 88, -1 / 88], fun t ht => by
      obtain ⟨m, k, hm, hk, rfl⟩ := locate 2 (fun _ => 2) ht
      rw [row_lhs h6 _ hm hk]
      exact exSolvable e m k hm hk⟩
  refine ⟨⟨⟨u, [0, 2, 4]⟩, [⟨u, [0, 2, 4]⟩]⟩, ?_, rfl⟩
  unfold run solve solveSystem
  rw [show [0, 2, 4] = [0, 2, 2 + 2] from rfl, e1, ok_bind]
  show (do let r ← exKrylov (apply (mono b)) .amg [0, 1, 0, 0] [0, 0, 0, 0]; _) = _
  rw [hu]
  rfl

/-- The channel with the default `sigma = -1` meets the hypotheses of `stokes_direct_partial`. -/
example (lower : Bool) : ∃ st', runStokes (exExt lower) ⟨true, false, false⟩ true 1 [0, 2] [0, 1] [0, 2, 3] (exVisc (-1))
      exDiv ⟨[1, 0, 1], [0, 2, 3]⟩ true ⟨⟨[0, 0, 0], [0, 2, 3]⟩, []⟩ = .ok (true, st') ∧
    StokesSolves 1 (fun _ => 2) (fun _ => 1) (exVisc (-1)) exDiv (ve [1, 0, 1]) (ve st'.U.data) := by
  have h1 : (-1 : ℚ) = 1 ∨ (-1 : ℚ) = -1 := .inr rfl
  obtain ⟨st', e, _, h, _⟩ := stokes_direct_partial (x := exExt lower) Unsteady.exact_direct
    (o := ⟨true, false, false⟩) rfl true (one_offsets 2) (one_offsets 1) (exVisc_ok (-1) h1) exDiv_ok
    (fun m m' k l hm hm' hk hl => by
      obtain rfl : m = 0 := by omega
      obtain rfl : m' = 0 := by omega
      unfold mget; rw [exVisc_vals _ h1]
      interval_cases k <;> interval_cases l <;> decide +kernel)
    (.inl rfl) (ex_hasSizes 1 0 1) true (st := ⟨⟨[0, 0, 0], [0, 2, 3]⟩, []⟩) (ex_hasSizes 0 0 0)
    ⟨ve [1 / 3, -1, -1], (exS_solves h1 _ _).2 fun r hr => by
      interval_cases r <;> (simp only [sum_range_succ, sum_range_zero, exS]; norm_num [ve])⟩
  exact ⟨st', e, h⟩

/-- A closed box: one velocity unknown, two pressures of which only the difference matters. -/
def boxM : MatArr ℚ := ⟨1, 1, fun _ _ => some ⟨1, 1, [((0, 0), 1)]⟩⟩
def boxB : MatArr ℚ := ⟨1, 1, fun _ _ => some ⟨2, 1, [((0, 0), 1), ((1, 0), -1)]⟩⟩

theorem box_solves : StokesSolves 1 (fun _ => 1) (fun _ => 2) boxM boxB (ve [3, 1, -1]) (ve [1, 2, 0]) := by
  intro m v k hm hv hk
  obtain rfl : m = 0 := by omega
  unfold dofs at hk
  interval_cases v <;> simp only [if_true, if_false, Nat.one_ne_zero] at hk <;> interval_cases k <;> decide +kernel

theorem box_noForce : NoForce 1 (fun _ => 1) (fun _ => 2) boxB := by
  intro m k hm hk
  obtain rfl : m = 0 := by omega
  obtain rfl : k = 0 := Nat.lt_one_iff.1 hk
  decide +kernel

theorem box_symm : Spec.Symmetric 1 (fun _ => 1) boxM := by
  intro m m' k l hm hm' hk hl
  obtain rfl : k = 0 := Nat.lt_one_iff.1 hk
  obtain rfl : l = 0 := Nat.lt_one_iff.1 hl
  rfl

/-- The pressure that `stokes_direct_partial` speaks about when none is prescribed. -/
example (lower : Bool) : ∃ st', runStokes (exExt lower) ⟨true, false, false⟩ false 1 [0, 1] [0, 2] [0, 1, 3] boxM boxB
      ⟨[3, 1, -1], [0, 1, 3]⟩ true ⟨⟨[0, 0, 0], [0, 1, 3]⟩, []⟩ = .ok (true, st') ∧
    StokesSolves 1 (fun _ => 1) (fun _ => 2) boxM boxB (ve [3, 1, -1]) (ve st'.U.data) ∧
    ZeroMean 1 (fun _ => 1) (fun _ => 2) (ve st'.U.data) := by
  obtain ⟨st', e, _, h, hz, _⟩ := stokes_direct_partial (x := exExt lower) Unsteady.exact_direct
    (o := ⟨true, false, false⟩) rfl false (one_offsets 1) (one_offsets 2) (M := boxM) (B := boxB)
    ⟨rfl, rfl, fun _ _ _ _ => ⟨_, rfl, rfl, rfl⟩⟩ ⟨rfl, rfl, fun _ _ _ _ => ⟨_, rfl, rfl, rfl⟩⟩ box_symm
    (.inr box_noForce) (rhs := ⟨[3, 1, -1], [0, 1, 3]⟩) ⟨two_offsets 1 2, rfl⟩ true
    (st := ⟨⟨[0, 0, 0], [0, 1, 3]⟩, []⟩) ⟨two_offsets 1 2, rfl⟩ ⟨_, box_solves⟩
  exact ⟨st', e, h, hz rfl⟩

/-- The hypotheses of `stokes_iterative_partial` are met by a run that converges. -/
example (lower : Bool) : Sound true (exExt lower).minres (fun _ _ r => ∀ t, ve r t = 0) ∧
    ∃ st', runStokes (exExt lower) ⟨false, true, false⟩ false 1 [0, 1] [0, 2] [0, 1, 3] boxM boxB
      ⟨[3, 1, -1], [0, 1, 3]⟩ true ⟨⟨[0, 0, 0], [0, 1, 3]⟩, []⟩ = .ok (true, st') := by
  refine ⟨exKrylov_sound true, ?_⟩
  obtain ⟨s, e, hro, hco, hsh, h4, h5, h6⟩ := assembleStokes_ok (exExt lower) ⟨false, true, false⟩ (one_offsets 1)
    (one_offsets 2) (M := boxM) (B := boxB) ⟨rfl, rfl, fun _ _ _ _ => ⟨_, rfl, rfl, rfl⟩⟩
    ⟨rfl, rfl, fun _ _ _ _ => ⟨_, rfl, rfl, rfl⟩⟩
  obtain ⟨b, lb, hb, _, hok⟩ := solveStokes_ok (exExt lower) ⟨false, true, false⟩ false (one_offsets 1) (one_offsets 2)
    ⟨s, none, true⟩ (rhs := ⟨[3, 1, -1], [0, 1, 3]⟩) ⟨two_offsets 1 2, rfl⟩ true
    (st := ⟨⟨[0, 0, 0], [0, 1, 3]⟩, []⟩) ⟨two_offsets 1 2, rfl⟩
  have hM := addMult_isMatrix hro hco hsh (N := 3) (by simp [first])
  obtain ⟨y, hy⟩ := exKrylov_converges hM (.stokes true) (b := b) (x0 := [0, 0, 0]) lb rfl ⟨ve [1, 2, 0], fun t ht => by
    have hd : t - (if t = 0 then 0 else 1) < dofs (fun _ => 1) (fun _ => 2) 0 (if t = 0 then 0 else 1) := by
      unfold dofs; split <;> simp <;> omega
    have hat : at_ (fun _ => 1) (fun _ => 2) 0 (if t = 0 then 0 else 1) (t - (if t = 0 then 0 else 1)) = t := by
      unfold at_; simp only [first, sum_range_zero]; split <;> simp <;> omega
    have hbv : ∀ m v k, m < 1 → v < 2 → byVarAt 1 (fun _ => 1) (fun _ => 2) m v k =
        at_ (fun _ => 1) (fun _ => 2) m v k := by
      intro m v k hm _
      obtain rfl : m = 0 := by omega
      unfold byVarAt at_; simp only [first, sum_const, card_range, smul_eq_mul]; split <;> simp
    have hv : (if t = 0 then 0 else 1) < 2 := by split <;> omega
    have h1 := row_stokes h6 (x := ve [1, 2, 0]) (z := ve [1, 2, 0]) (fun m v k hm hv _ => by rw [hbv m v k hm hv])
      (m := 0) (by omega) hv hd
    have h2 := hb 0 _ _ (by omega) hv hd
    rw [hbv 0 _ _ (by omega) hv, hat] at h1 h2
    rw [h2]
    refine h1.trans ((box_solves 0 _ _ (by omega) hv hd).trans ?_)
    rw [hat]⟩
  have ly := ((exKrylov_sound false) _ _ _ _ _ _ _ _ hM (by simp) lb rfl hy).1
  obtain ⟨U, e2, _⟩ := hok y true hy ly
  refine ⟨⟨U, [U]⟩, ?_⟩
  · unfold runStokes
    rw [show [0, 1, 3] = [0, first (fun _ => 1) 1, first (fun _ => 1) 1 + first (fun _ => 2) 1] from rfl, e, ok_bind]
    exact e2

end Example

end Verif.FomSolve
