import Verif.Proofs.Online

/-! # Properties of the online phase -/

namespace Verif.Online

open Verif Verif.LinAlg Verif.LinAlg.Spec Verif.Online.Spec Finset
open Verif.RomAssembly
open Verif.RomAssembly.Spec (galerkin)
open Verif.Blocks (BlockVector)
open Verif.Blocks.Spec (IsOffsets HasSizes)
open Verif.RomHandler (Handler bent_eq bent_ext romBlock_lt romBlock_inj romBlock_surj numBlocks_eq fomBlock_surj
  project_spec solve_spec)
open Verif.RomHandler.Spec
open Verif.Unsteady (mono mono_dims)

variable {R : Type} [Field R]

/-- Block vectors whose entries agree are equal. -/
theorem fom_ext {h : Handler R} {zr zf : List Nat} (hr : Ready h zr zf) {a b : BlockVector R}
    (ha : HasSizes a zf) (hb : HasSizes b zf)
    (he : ∀ m v k, m < h.numSub → v < vars h → k < (V h m v).h →
      bent a (fomBlock h m v) k = bent b (fomBlock h m v) k) : a = b := by
  refine bent_ext ha hb fun i s k hs hk => ?_
  have hi : i < h.numBlocks := by
    rw [numBlocks_eq, ← hr.lenF]; exact (List.getElem?_eq_some_iff.1 hs).1
  obtain ⟨m, v, hm, hv, rfl⟩ := fomBlock_surj h hi
  rw [hr.szF m v hm hv] at hs
  cases hs
  exact he m v k hm hv hk

/-- In the span of the bases there is at most one vector whose residual is orthogonal to the bases. -/
theorem galerkin_unique {h : Handler R} {zr zf : List Nat} (hr : Ready h zr zf)
    {A : Nat → Nat → Nat → Nat → Nat → Nat → R} (hreg : Regular h A) {b a a' : BlockVector R}
    (ha : HasSizes a zf) (ha' : HasSizes a' zf) (h1 : InSpan h a) (h1' : InSpan h a')
    (h2 : Orthogonal h A b a) (h2' : Orthogonal h A b a') : a = a' := by
  obtain ⟨c, hc⟩ := h1
  obtain ⟨c', hc'⟩ := h1'
  have e := (orthogonal_iff A hc).1 h2
  have e' := (orthogonal_iff A hc').1 h2'
  have key := hreg (fun m v p => c m v p - c' m v p) (by
    intro m v p hm hv hp
    have := (e m v p hm hv hp).trans (e' m v p hm hv hp).symm
    rw [← sub_eq_zero, ← sum_sub_distrib] at this
    rw [← this]
    refine sum_congr rfl fun m' _ => ?_
    rw [← sum_sub_distrib]
    refine sum_congr rfl fun w _ => ?_
    rw [← sum_sub_distrib]
    exact sum_congr rfl fun q _ => by rw [mul_sub]; rfl)
  refine fom_ext hr ha ha' fun m v k hm hv hk => ?_
  rw [hc m v k hm hv hk, hc' m v k hm hv hk]
  exact sum_congr rfl fun p hp => by rw [sub_eq_zero.1 (key m v p hm hv (mem_range.1 hp))]

/-- A solution of the full-order system has a residual orthogonal to the bases. -/
theorem solves_orthogonal {h : Handler R} {A : Nat → Nat → Nat → Nat → Nat → Nat → R}
    {b u : BlockVector R} (hu : Solves h A b u) : Orthogonal h A b u := by
  intro m v p hm hv _
  exact sum_eq_zero fun k hk => by rw [hu m v k hm hv (mem_range.1 hk), sub_self, mul_zero]

/-- The online phase with a reduced operator that projects `A`: its result is the one vector in the span of
the bases whose residual is orthogonal to them. -/
theorem online_galerkin {h : Handler R} {zr zf : List Nat} (hr : Ready h zr zf)
    {A : Nat → Nat → Nat → Nat → Nat → Nat → R} {rom : BlockMat R} (hp : Projects h zr A rom)
    (hreg : Regular h A) {solver : Blk R → List R → List R → List R} (hs : Exact solver)
    {varOffs domOffs : List Nat} {RHS U : List R} (hR : HasSizes (view h varOffs domOffs RHS) zf)
    (hU : HasSizes (view h varOffs domOffs U) zf) (junk : Nat → R) :
    ∃ u, online h rom solver varOffs domOffs RHS U junk = .ok u ∧
      HasSizes (view h varOffs domOffs u) zf ∧ InSpan h (view h varOffs domOffs u) ∧
      Orthogonal h A (view h varOffs domOffs RHS) (view h varOffs domOffs u) := by
  obtain ⟨r, e1, hrs, hro, hrv⟩ := project_spec hr _ hR junk
  have hlen : r.data.length = zr.sum := hrs.2
  have hdim := mono_dims (b := rom) (zr := zr) (zc := zr) (by rw [hp.roffs]; exact hr.offs)
    (by rw [hp.coffs]; exact hr.offs)
  have hrow : ∀ (x : Nat → R) m v p, m < h.numSub → v < vars h → p < (V h m v).w →
      ∑ c ∈ range zr.sum, (mono rom).val (pos h zr m v p) c * x c =
        ∑ m' ∈ range h.numSub, ∑ w ∈ range (vars h), ∑ q ∈ range (V h m' w).w,
          galerkin (V h m v) (V h m' w) (A m m' v w) p q * x (pos h zr m' w q) := by
    intro x m v p hm hv hpp
    rw [sum_pos hr]
    refine sum_congr rfl fun m' hm' => sum_congr rfl fun w hw => sum_congr rfl fun q hq => ?_
    rw [mono_projects hr hp hm (mem_range.1 hm') hv (mem_range.1 hw) hpp (mem_range.1 hq)]
  have hex : ∃ x : Nat → R, ∀ r', r' < r.data.length →
      ∑ c ∈ range r.data.length, (mono rom).val r' c * x c = ve r.data r' := by
    rw [hlen]
    refine solvable _ _ _ fun x hx => ?_
    have := hreg (fun m v p => x (pos h zr m v p)) (fun m v p hm hv hpp => by
      rw [← hx _ (pos_lt hr hm hv hpp), hrow x m v p hm hv hpp]; rfl)
    intro t ht
    obtain ⟨m, v, p, hm, hv, hpp, rfl⟩ := pos_surj hr ht
    exact this m v p hm hv hpp
  obtain ⟨s1, s2⟩ := hs (mono rom) r.data (List.replicate zr.sum 0) (by rw [hdim.1, hlen])
    (by rw [hdim.2, hlen]) (by rw [List.length_replicate, hlen]) hex
  obtain ⟨u, e2, hus, huv⟩ := solve_spec hr (solver (mono rom)) r _ hU (by rw [s1, hlen])
  have hxs : HasSizes (⟨solver (mono rom) r.data (List.replicate zr.sum 0), h.romOffs⟩ : BlockVector R) zr :=
    ⟨hr.offs, s1.trans hlen⟩
  have hview : view h varOffs domOffs u.data = u := by
    have h1 : IsOffsets (view h varOffs domOffs U).offsets zf := hU.1
    have h2 := h1.unique hus.1
    unfold view at h2 ⊢
    split at h2 <;> rename_i hh
    · rw [if_pos hh]; exact congrArg (BlockVector.mk u.data) h2
    · rw [if_neg hh]; exact congrArg (BlockVector.mk u.data) h2
  refine ⟨u.data, ?_, by rw [hview]; exact hus, ?_, ?_⟩
  · unfold online projectRHS solveROM
    rw [e1, ok_bind, e2, ok_bind]; rfl
  · rw [hview]
    exact ⟨fun m v p => bent _ (romBlock h m v) p, fun m v k hm hv hk => huv m v k hm hv hk⟩
  · rw [hview]
    refine (orthogonal_iff A (c := fun m v p => bent _ (romBlock h m v) p)
      fun m v k hm hv hk => huv m v k hm hv hk).2 fun m v p hm hv hpp => ?_
    rw [← hrv m v p hm hv hpp, bent_pos hr hrs hm hv hpp,
      ← s2 _ (by rw [hlen]; exact pos_lt hr hm hv hpp), hlen, hrow _ m v p hm hv hpp]
    refine sum_congr rfl fun m' hm' => sum_congr rfl fun w hw => sum_congr rfl fun q hq => ?_
    rw [bent_pos hr hxs (mem_range.1 hm') (mem_range.1 hw) (mem_range.1 hq)]

/-- The online phase reproduces full-order solutions that lie in the span of the bases, whatever `U` held
before. -/
theorem online_reproduces {h : Handler R} {zr zf : List Nat} (hr : Ready h zr zf)
    {A : Nat → Nat → Nat → Nat → Nat → Nat → R} {rom : BlockMat R} (hp : Projects h zr A rom)
    (hreg : Regular h A) {solver : Blk R → List R → List R → List R} (hs : Exact solver)
    {varOffs domOffs : List Nat} {RHS U : List R} (hR : HasSizes (view h varOffs domOffs RHS) zf)
    (hU : HasSizes (view h varOffs domOffs U) zf) (junk : Nat → R) {u : List R}
    (hu : HasSizes (view h varOffs domOffs u) zf) (hspan : InSpan h (view h varOffs domOffs u))
    (hsol : Solves h A (view h varOffs domOffs RHS) (view h varOffs domOffs u)) :
    online h rom solver varOffs domOffs RHS U junk = .ok u := by
  obtain ⟨u', e, h1, h2, h3⟩ := online_galerkin hr hp hreg hs hR hU junk
  have := galerkin_unique hr hreg h1 hu h2 hspan h3 (solves_orthogonal hsol)
  unfold view at this
  have hd : u' = u := by
    split at this <;> exact congrArg BlockVector.data this
  rw [e, hd]

/-! ## Poisson and Stokes -/

section
open Verif.InterfaceForm (MatArr)
open Verif.InterfaceForm.Spec (mget sizeIn)
open Verif.CompSetup (Comp PortRow Topo BdrRow)
open Verif.CompSetup.Spec (usedPorts)
open Verif.Ports (PortData InterfaceInfo)
open Verif.Boundary (BC)
open Verif.RomAssembly.Spec (Setting FormsOk BasesOk refB saddle varPos blockLen)

variable {δ F : Type} {h : Handler R} {comps : List Comp} {bdr : List BdrRow} {ports : List PortRow}
  {refPorts : List PortData} {refItfs : List (List InterfaceInfo)} {t : Topo} {bc : BC F}
  {mks : List (List Int)} {zr zf : List Nat}

/-- Both ways of building the ROM give the Galerkin solution. -/
theorem run_galerkin (hr : Ready h zr zf) {A : Nat → Nat → Nat → Nat → Nat → Nat → R} {el : RomElems R}
    {rom rom' : BlockMat R} {l : LocalOf R} {L : Nat → Nat → Outcome (Local R)}
    {c2g : List (List Int)} {rows : List PortRow}
    (e1 : buildElems h comps refPorts l = .ok el) (e2 : assembleROM h bc c2g rows el = .ok rom)
    (e3 : projectFom h L = .ok rom')
    (hval : ∀ m m' v w p q, m < h.numSub → m' < h.numSub → v < vars h → w < vars h →
      p < (V h m v).w → q < (V h m' w).w →
      bval rom (romBlock h m v) (romBlock h m' w) p q = bval rom' (romBlock h m v) (romBlock h m' w) p q ∧
      bval rom (romBlock h m v) (romBlock h m' w) p q = galerkin (V h m v) (V h m' w) (A m m' v w) p q)
    (hreg : Regular h A) {solver : Blk R → List R → List R → List R} (hs : Exact solver)
    {varOffs domOffs : List Nat} {RHS U : List R} (hR : HasSizes (view h varOffs domOffs RHS) zf)
    (hU : HasSizes (view h varOffs domOffs U) zf) (junk : Nat → R) :
    ∃ u, componentRun h bc c2g comps rows refPorts l solver varOffs domOffs RHS U junk = .ok u ∧
      projectedRun h L solver varOffs domOffs RHS U junk = .ok u ∧
      HasSizes (view h varOffs domOffs u) zf ∧ InSpan h (view h varOffs domOffs u) ∧
      Orthogonal h A (view h varOffs domOffs RHS) (view h varOffs domOffs u) ∧
      ∀ u' : List R, HasSizes (view h varOffs domOffs u') zf → InSpan h (view h varOffs domOffs u') →
        Solves h A (view h varOffs domOffs RHS) (view h varOffs domOffs u') → u = u' := by
  obtain ⟨s1, s2, s3⟩ := assembleROM_shapes hr.offs e2
  obtain ⟨t1, t2, t3⟩ := projectFom_shapes hr e3
  have p1 : Projects h zr A rom := ⟨s2.unique hr.offs, s3.unique hr.offs, s1,
    fun m m' v w p q a b c d e f => (hval m m' v w p q a b c d e f).2⟩
  have p2 : Projects h zr A rom' := ⟨t2, t3, t1, fun m m' v w p q a b c d e f => by
    rw [← (hval m m' v w p q a b c d e f).1, (hval m m' v w p q a b c d e f).2]⟩
  obtain ⟨u, g1, g2, g3, g4⟩ := online_galerkin hr p1 hreg hs hR hU junk
  obtain ⟨u', g1', g2', g3', g4'⟩ := online_galerkin hr p2 hreg hs hR hU junk
  have hdata : ∀ x y : List R, view h varOffs domOffs x = view h varOffs domOffs y → x = y := by
    intro x y e
    unfold view at e
    split at e <;> exact congrArg BlockVector.data e
  have huu := hdata _ _ (galerkin_unique hr hreg g2 g2' g3 g3' g4 g4')
  subst huu
  refine ⟨u, ?_, ?_, g2, g3, g4, ?_⟩
  · unfold componentRun; rw [e1, ok_bind, e2, ok_bind, g1]
  · unfold projectedRun; rw [e3, ok_bind, g1']
  · intro u' k1 k2 k3
    exact hdata _ _ (galerkin_unique hr hreg g2 k1 g3 k2 g4 (solves_orthogonal k3))

/-- **C75** for Poisson problems.  Whenever the reduced system is regular, a ROM run returns the one state
in the span of the bases whose full-order residual is orthogonal to the bases, whether the operator was
assembled from component elements or projected, and whatever the solution vector held before; a full-order
solution in the span is returned exactly. -/
theorem poisson_online (S : Setting h comps bdr ports refPorts refItfs t bc mks)
    (hr : Ready h zr zf) (hv : vars h = 1) (hb : BasesOk h comps.length) {f : Forms R δ}
    (hf : FormsOk f h.meshType comps (usedPorts ports refPorts) t.infos refPorts refItfs)
    (hz : ∀ c, c < comps.length → (refB h c 0).h = sizeIn f.ctest c ∧
      (refB h c 0).h = sizeIn f.ctrial c) :
    ∃ M, fomMats bc mks t.mesh f.sub f.itf = .ok M ∧
      (Regular h (fun m m' _ _ => mget M m m') →
        ∀ (solver : Blk R → List R → List R → List R), Exact solver →
        ∀ (varOffs domOffs : List Nat) (RHS U : List R), HasSizes (view h varOffs domOffs RHS) zf →
        HasSizes (view h varOffs domOffs U) zf → ∀ junk,
        ∃ u, componentRun h bc t.c2g comps (usedPorts ports refPorts) refPorts
            (poissonLocals f comps refPorts refItfs) solver varOffs domOffs RHS U junk = .ok u ∧
          projectedRun h (poissonFom M) solver varOffs domOffs RHS U junk = .ok u ∧
          HasSizes (view h varOffs domOffs u) zf ∧ InSpan h (view h varOffs domOffs u) ∧
          Orthogonal h (fun m m' _ _ => mget M m m') (view h varOffs domOffs RHS)
            (view h varOffs domOffs u) ∧
          ∀ u' : List R, HasSizes (view h varOffs domOffs u') zf → InSpan h (view h varOffs domOffs u') →
            Solves h (fun m m' _ _ => mget M m m') (view h varOffs domOffs RHS)
              (view h varOffs domOffs u') → u = u') := by
  obtain ⟨M, el, rom, rom', eM, e1, e2, e3, e4⟩ := poisson_assembly S hr hv hb hf hz
  refine ⟨M, eM, fun hreg solver hs varOffs domOffs RHS U hR hU junk => ?_⟩
  refine run_galerkin hr e1 e2 e3 (fun m m' v w p q hm hm' hvv hww hp hq => ?_) hreg hs hR hU junk
  have hv0 : v = 0 := by omega
  have hw0 : w = 0 := by omega
  subst hv0 hw0
  exact e4 m m' p q hm hm' hp hq

/-- The saddle-point system of Stokes flow, for the blocks of the handler. -/
def stokesA (h : Handler R) (sz : Nat → Nat) (M B : MatArr R) (m m' v w k l : Nat) : R :=
  saddle M B m m' (varPos h.separate (sz m) v k).1 (varPos h.separate (sz m') w l).1
    (varPos h.separate (sz m) v k).2 (varPos h.separate (sz m') w l).2

/-- **C75** for Stokes problems, with separate or common bases. -/
theorem stokes_online (S : Setting h comps bdr ports refPorts refItfs t bc mks)
    (hr : Ready h zr zf) (hv : vars h = if h.separate then 2 else 1) (hb : BasesOk h comps.length)
    {fm fb : Forms R δ}
    (hm : FormsOk fm h.meshType comps (usedPorts ports refPorts) t.infos refPorts refItfs)
    (hd : FormsOk fb h.meshType comps (usedPorts ports refPorts) t.infos refPorts refItfs)
    (hz : ∀ c, c < comps.length → sizeIn fm.ctrial c = sizeIn fm.ctest c ∧
      sizeIn fb.ctrial c = sizeIn fm.ctest c ∧ ∀ v, v < vars h → (refB h c v).h =
        blockLen h.separate (sizeIn fm.ctest c) (sizeIn fb.ctest c) v) :
    ∃ M B, fomMats bc mks t.mesh fm.sub fm.itf = .ok M ∧ fomMixed bc mks t.mesh fb.sub fb.itf = .ok B ∧
      (Regular h (stokesA h (sizeIn fm.itf.test) M B) →
        ∀ (solver : Blk R → List R → List R → List R), Exact solver →
        ∀ (varOffs domOffs : List Nat) (RHS U : List R), HasSizes (view h varOffs domOffs RHS) zf →
        HasSizes (view h varOffs domOffs U) zf → ∀ junk,
        ∃ u, componentRun h bc t.c2g comps (usedPorts ports refPorts) refPorts
            (stokesLocals h.separate fm fb comps refPorts refItfs) solver varOffs domOffs RHS U junk
              = .ok u ∧
          projectedRun h (stokesFom h.separate M B) solver varOffs domOffs RHS U junk = .ok u ∧
          HasSizes (view h varOffs domOffs u) zf ∧ InSpan h (view h varOffs domOffs u) ∧
          Orthogonal h (stokesA h (sizeIn fm.itf.test) M B) (view h varOffs domOffs RHS)
            (view h varOffs domOffs u) ∧
          ∀ u' : List R, HasSizes (view h varOffs domOffs u') zf → InSpan h (view h varOffs domOffs u') →
            Solves h (stokesA h (sizeIn fm.itf.test) M B) (view h varOffs domOffs RHS)
              (view h varOffs domOffs u') → u = u') := by
  obtain ⟨M, B, el, rom, rom', eM, eB, e1, e2, e3, e4⟩ := stokes_assembly S hr hv hb hm hd hz
  exact ⟨M, B, eM, eB, fun hreg solver hs varOffs domOffs RHS U hR hU junk =>
    run_galerkin hr e1 e2 e3 e4 hreg hs hR hU junk⟩

end

/-! ## A concrete case -/

section Example

open Verif.RomAssembly.Spec
open Verif.InterfaceForm (exMesh exSpace MatArr)
open Verif.InterfaceForm.Spec (mget sizeIn SpaceOk)
open Verif.CompSetup (exComps exRef exBdr exTopo)
open Verif.CompSetup.Spec (usedPorts)

open Classical in
/-- A solver that meets the contract, by choice. -/
noncomputable def exact (A : Blk R) (b _x0 : List R) : List R :=
  if h : ∃ x : Nat → R, ∀ r, r < b.length → ∑ c ∈ range b.length, A.val r c * x c = ve b r then
    tab b.length h.choose else []

theorem exact_exact : Exact (exact (R := R)) := by
  intro A b x0 _ _ _ h
  unfold exact
  rw [dif_pos h]
  refine ⟨length_tab _ _, fun r hr => ?_⟩
  rw [← h.choose_spec r hr]
  exact sum_congr rfl fun c hc => by rw [ve_tab (mem_range.1 hc)]

/-- Two copies of the component of `exTopo`, one basis vector. -/
def exHQ : Handler ℚ :=
  ⟨false, .domain, 1, [0, 0], [0, 1, 2], [⟨2, 1, [1, 3]⟩], [⟨2, 1, [1, 3]⟩, ⟨2, 1, [1, 3]⟩], true⟩

/-- The same with separate bases for two velocities and one pressure. -/
def exH2Q : Handler ℚ :=
  ⟨true, .variable, 2, [0, 0], [0, 1, 2, 3, 4], [⟨2, 1, [1, 3]⟩, ⟨1, 1, [2]⟩],
    [⟨2, 1, [1, 3]⟩, ⟨2, 1, [1, 3]⟩, ⟨1, 1, [2]⟩, ⟨1, 1, [2]⟩], true⟩

def exPQ : Forms ℚ Nat :=
  exF exSpace [0, -2] ⟨2, 2, [((0, 0), 4), ((0, 1), 1), ((1, 1), 3)]⟩ ⟨2, 2, [1, 0, 2, 5]⟩
    ⟨2, 2, [7, 1, 0, 2]⟩ ⟨2, 2, [-1, 0, 3, 0]⟩

def exDQ : Forms ℚ Nat :=
  exF ⟨1, [[0]]⟩ [0] ⟨1, 2, [((0, 0), 2), ((0, 1), -3)]⟩ ⟨1, 2, [1, 4]⟩ ⟨1, 2, [7, 1]⟩ ⟨1, 2, [0, -5]⟩

theorem exPQ_ok : FormsOk exPQ [0, 0] exComps
    (usedPorts [⟨0, 1, 2, 1, 0⟩] exRef) exTopo.infos exRef [[⟨1, 0, 0, 1⟩]] :=
  exF_ok rfl (by unfold SpaceOk exSpace; decide) rfl rfl ⟨rfl, rfl, Nat.le_refl _⟩ ⟨rfl, rfl, Nat.le_refl _⟩
    ⟨rfl, rfl, Nat.le_refl _⟩

theorem exDQ_ok : FormsOk exDQ [0, 0] exComps
    (usedPorts [⟨0, 1, 2, 1, 0⟩] exRef) exTopo.infos exRef [[⟨1, 0, 0, 1⟩]] :=
  exF_ok rfl (by unfold SpaceOk; decide) rfl rfl ⟨rfl, rfl, Nat.le_refl _⟩ ⟨rfl, rfl, Nat.le_refl _⟩
    ⟨rfl, rfl, Nat.le_refl _⟩

theorem exOffs2 : IsOffsets [0, 2, 4] [2, 2] := by
  refine ⟨rfl, rfl, ?_⟩
  intro i s hs
  have : i < 2 := (List.getElem?_eq_some_iff.1 hs).1
  interval_cases i <;> simp at hs <;> subst hs <;> exact ⟨_, rfl, rfl⟩

theorem exOffs4 : IsOffsets [0, 2, 3, 5, 6] [2, 1, 2, 1] := by
  refine ⟨rfl, rfl, ?_⟩
  intro i s hs
  have : i < 4 := (List.getElem?_eq_some_iff.1 hs).1
  interval_cases i <;> simp at hs <;> subst hs <;> exact ⟨_, rfl, rfl⟩

theorem exHQ_ready : Ready exHQ [1, 1] [2, 2] where
  loaded := rfl
  basis m v hm hv := by
    have hm2 : m < 2 := hm
    have hv1 : v < 1 := hv
    interval_cases m <;> interval_cases v <;> rfl
  offs := exH_ready.offs
  lenR := rfl
  lenF := rfl
  szR m v hm hv := by
    have hm2 : m < 2 := hm
    have hv1 : v < 1 := hv
    interval_cases m <;> interval_cases v <;> rfl
  szF m v hm hv := by
    have hm2 : m < 2 := hm
    have hv1 : v < 1 := hv
    interval_cases m <;> interval_cases v <;> rfl

theorem exH2Q_ready : Ready exH2Q [1, 1, 1, 1] [2, 1, 2, 1] where
  loaded := rfl
  basis m v hm hv := by
    have hm2 : m < 2 := hm
    have hv1 : v < 2 := hv
    interval_cases m <;> interval_cases v <;> rfl
  offs := exH2_ready.offs
  lenR := rfl
  lenF := rfl
  szR m v hm hv := by
    have hm2 : m < 2 := hm
    have hv1 : v < 2 := hv
    interval_cases m <;> interval_cases v <;> rfl
  szF m v hm hv := by
    have hm2 : m < 2 := hm
    have hv1 : v < 2 := hv
    interval_cases m <;> interval_cases v <;> rfl

theorem exHQ_bases : BasesOk exHQ exComps.length := ⟨rfl, rfl, by
  intro b hb
  simp [exHQ] at hb
  subst hb; exact Nat.le_refl _, by decide⟩

theorem exH2Q_bases : BasesOk exH2Q exComps.length := ⟨rfl, rfl, by
  intro b hb
  simp [exH2Q] at hb
  rcases hb with rfl | rfl <;> exact Nat.le_refl _, by decide⟩

/-- The full-order matrices. -/
def exM : MatArr ℚ := match fomMats exBC exMks exTopo.mesh exPQ.sub exPQ.itf with
  | .ok M => M
  | .error _ => ⟨0, 0, fun _ _ => none⟩

def exB : MatArr ℚ := match fomMixed exBC exMks exTopo.mesh exDQ.sub exDQ.itf with
  | .ok M => M
  | .error _ => ⟨0, 0, fun _ _ => none⟩

/-- The reduced matrix of the Poisson problem. -/
theorem ex_entries : (List.range 2).map (fun m => (List.range 2).map fun m' =>
      galerkin (V exHQ m 0) (V exHQ m' 0) (mget exM m m') 0 0) = [[118, -10], [-10, 56]] := by
  decide +kernel

theorem ex_regular : Regular exHQ (fun m m' _ _ => mget exM m m') := by
  intro c hc
  have hc : ∀ m v p, m < 2 → v < 1 → p < (V exHQ m v).w →
      ∑ m' ∈ range 2, ∑ w ∈ range 1, ∑ q ∈ range (V exHQ m' w).w,
        galerkin (V exHQ m v) (V exHQ m' w) (mget exM m m') p q * c m' w q = 0 := hc
  have hw : ∀ m, m < 2 → (V exHQ m 0).w = 1 := by
    intro m hm; interval_cases m <;> rfl
  have e := ex_entries
  simp only [List.range, List.range.loop, List.map, List.cons.injEq, and_true] at e
  obtain ⟨⟨a00, a01⟩, a10, a11⟩ := e
  have h0 := hc 0 0 0 (by decide) (by decide) (by decide)
  have h1 := hc 1 0 0 (by decide) (by decide) (by decide)
  simp only [sum_range_succ, sum_range_zero, zero_add, hw 0 (by decide), hw 1 (by decide), a00, a01, a10,
    a11] at h0 h1
  have z0 : c 0 0 0 = 0 := by linarith
  have z1 : c 1 0 0 = 0 := by linarith
  intro m v p hm hv hp
  have hm2 : m < 2 := hm
  have hv1 : v < 1 := hv
  have hv0 : v = 0 := by omega
  subst hv0
  rw [hw m hm2] at hp
  have hp0 : p = 0 := by omega
  subst hp0
  interval_cases m
  · exact z0
  · exact z1

/-- A Poisson run that returns a full-order solution lying in the span. -/
example : fomMats exBC exMks exTopo.mesh exPQ.sub exPQ.itf = .ok exM ∧
    componentRun exHQ exBC exTopo.c2g exComps [⟨0, 1, 2, 1, 0⟩] exRef
      (poissonLocals exPQ exComps exRef [[⟨1, 0, 0, 1⟩]]) exact [] [0, 2, 4] [-4, 34, 18, 28] [9, 9, 9, 9]
      (fun _ => 7) = .ok [1, 3, 2, 6] := by
  obtain ⟨M, e, h⟩ := poisson_online (exSetting exHQ rfl) exHQ_ready rfl exHQ_bases exPQ_ok (by
      intro c hc
      have : c < 1 := hc
      interval_cases c; exact ⟨rfl, rfl⟩)
  have hM : exM = M := by unfold exM; rw [e]
  subst hM
  obtain ⟨u, h1, -, -, -, -, h2⟩ := h ex_regular exact exact_exact [] [0, 2, 4] [-4, 34, 18, 28] [9, 9, 9, 9]
    ⟨exOffs2, rfl⟩ ⟨exOffs2, rfl⟩ (fun _ => 7)
  have := h2 [1, 3, 2, 6] ⟨exOffs2, rfl⟩ ⟨fun m _ _ => m + 1, by
    intro m v k hm hv hk
    have hm2 : m < 2 := hm
    have hv1 : v < 1 := hv
    have hv0 : v = 0 := by omega
    subst hv0
    interval_cases m
    · have hk2 : k < 2 := hk
      interval_cases k <;> decide +kernel
    · have hk2 : k < 2 := hk
      interval_cases k <;> decide +kernel⟩ (by
    intro m v k hm hv hk
    have hm2 : m < 2 := hm
    have hv1 : v < 1 := hv
    have hv0 : v = 0 := by omega
    subst hv0
    interval_cases m
    · have hk2 : k < 2 := hk
      interval_cases k <;> decide +kernel
    · have hk2 : k < 2 := hk
      interval_cases k <;> decide +kernel)
  subst this
  exact ⟨e, h1⟩

/-- The same run with Cramer's rule in place of the solver. -/
example : componentRun exHQ exBC exTopo.c2g exComps [⟨0, 1, 2, 1, 0⟩] exRef
      (poissonLocals exPQ exComps exRef [[⟨1, 0, 0, 1⟩]])
      (fun A b _ => [(ve b 0 * A.val 1 1 - ve b 1 * A.val 0 1) / (A.val 0 0 * A.val 1 1 - A.val 0 1 * A.val 1 0),
        (ve b 1 * A.val 0 0 - ve b 0 * A.val 1 0) / (A.val 0 0 * A.val 1 1 - A.val 0 1 * A.val 1 0)])
      [] [0, 2, 4] [-4, 34, 18, 28] [9, 9, 9, 9] (fun _ => 7) = .ok [1, 3, 2, 6] := by
  decide +kernel

/-- The reduced saddle-point matrix. -/
theorem ex2_entries : (List.range 2).map (fun v => (List.range 2).map fun w =>
      (List.range 2).map (fun m => (List.range 2).map fun m' =>
      galerkin (V exH2Q m v) (V exH2Q m' w) (stokesA exH2Q (sizeIn exPQ.itf.test) exM exB m m' v w) 0 0)) =
    [[[[118, -10], [-10, 56]], [[-20, 30], [30, -6]]], [[[-20, 30], [30, -6]], [[0, 0], [0, 0]]]] := by
  decide +kernel

theorem ex2_regular : Regular exH2Q (stokesA exH2Q (sizeIn exPQ.itf.test) exM exB) := by
  intro c hc
  have hc : ∀ m v p, m < 2 → v < 2 → p < (V exH2Q m v).w →
      ∑ m' ∈ range 2, ∑ w ∈ range 2, ∑ q ∈ range (V exH2Q m' w).w,
        galerkin (V exH2Q m v) (V exH2Q m' w)
          (stokesA exH2Q (sizeIn exPQ.itf.test) exM exB m m' v w) p q * c m' w q = 0 := hc
  have hw : ∀ m v, m < 2 → v < 2 → (V exH2Q m v).w = 1 := by
    intro m v hm hv; interval_cases m <;> interval_cases v <;> rfl
  have e := ex2_entries
  simp only [List.range, List.range.loop, List.map, List.cons.injEq, and_true] at e
  obtain ⟨⟨⟨⟨a1, a2⟩, a3, a4⟩, ⟨b1, b2⟩, b3, b4⟩, ⟨⟨c1, c2⟩, c3, c4⟩, ⟨d1, d2⟩, d3, d4⟩ := e
  have h00 := hc 0 0 0 (by decide) (by decide) (by decide)
  have h10 := hc 1 0 0 (by decide) (by decide) (by decide)
  have h01 := hc 0 1 0 (by decide) (by decide) (by decide)
  have h11 := hc 1 1 0 (by decide) (by decide) (by decide)
  simp only [sum_range_succ, sum_range_zero, zero_add, hw 0 0 (by decide) (by decide),
    hw 1 0 (by decide) (by decide), hw 0 1 (by decide) (by decide), hw 1 1 (by decide) (by decide), a1, a2, a3,
    a4, b1, b2, b3, b4, c1, c2, c3, c4, d1, d2, d3, d4] at h00 h10 h01 h11
  have z1 : c 0 0 0 = 0 := by linarith
  have z2 : c 1 0 0 = 0 := by linarith
  rw [z1, z2] at h00 h10
  have z3 : c 0 1 0 = 0 := by linarith
  have z4 : c 1 1 0 = 0 := by linarith
  intro m v p hm hv hp
  have hm2 : m < 2 := hm
  have hv2 : v < 2 := hv
  rw [hw m v hm2 hv2] at hp
  have hp0 : p = 0 := by omega
  subst hp0
  interval_cases m <;> interval_cases v
  · exact z1
  · exact z3
  · exact z2
  · exact z4

/-- A Stokes run. -/
example : ∃ u, componentRun exH2Q exBC exTopo.c2g exComps [⟨0, 1, 2, 1, 0⟩] exRef
      (stokesLocals true exPQ exDQ exComps exRef [[⟨1, 0, 0, 1⟩]]) exact [0, 2, 3, 5, 6] [] [1, 2, 3, 4, 5, 6]
      [9, 9, 9, 9, 9, 9] (fun _ => 7) = .ok u ∧
    Orthogonal exH2Q (stokesA exH2Q (sizeIn exPQ.itf.test) exM exB)
      (view exH2Q [0, 2, 3, 5, 6] [] [1, 2, 3, 4, 5, 6]) (view exH2Q [0, 2, 3, 5, 6] [] u) := by
  obtain ⟨M, B, eM, eB, h⟩ := stokes_online (exSetting exH2Q rfl)
    exH2Q_ready rfl exH2Q_bases exPQ_ok exDQ_ok (by
      intro c hc
      have : c < 1 := hc
      interval_cases c
      refine ⟨rfl, rfl, fun v hv => ?_⟩
      have hv2 : v < 2 := hv
      interval_cases v <;> rfl)
  have hM : exM = M := by unfold exM; rw [eM]
  have hB : exB = B := by unfold exB; rw [eB]
  subst hM hB
  obtain ⟨u, h1, -, -, -, h2, -⟩ := h ex2_regular exact exact_exact [0, 2, 3, 5, 6] [] [1, 2, 3, 4, 5, 6]
    [9, 9, 9, 9, 9, 9] ⟨exOffs4, rfl⟩ ⟨exOffs4, rfl⟩ (fun _ => 7)
  exact ⟨u, h1, h2⟩

end Example

end Verif.Online
