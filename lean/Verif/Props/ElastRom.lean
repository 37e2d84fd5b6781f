import Verif.Proofs.ElastRom

/-! # Property C99: the material in the ROM of an elasticity problem -/

namespace Verif.ElastRom

open Verif Verif.LinAlg Verif.RomAssembly Verif.Hdf5 Spec
open Verif.InterfaceForm (MatArr)
open Verif.InterfaceForm.Spec (mget)
open Verif.Ports (InterfaceInfo)
open Verif.Options (Node Conv)
open Verif.Pipeline (Prob Disk buildROM singleRun reducedOperator projected buildComponent)
open Verif.Pipeline.Spec (Asks AsksNone Finalizes Knows SameForms Serves Galerkin Poisson)
open Verif.Online.Spec (Regular Exact)

variable {R F δ α : Type} [Field R]

/-- The same problem with the local systems of a scalar problem with the forms of a uniform body. -/
def scalar (P : Prob R F) (ph : Parts R δ α) (l u : α) (refItfs : List (List InterfaceInfo)) (M : MatArr R) :
    Prob R F :=
  { P with
    locals := poissonLocals (uniform ph l u) P.comps P.refPorts refItfs
    fom := .ok (poissonFom M) }

theorem elastic_scalar {P : Prob R F} {ph : Parts R δ α} {l u : α} {refItfs : List (List InterfaceInfo)}
    {zf : List Nat} {M : MatArr R} (h : Elastic P ph l u refItfs zf M) :
    Poisson (scalar P ph l u refItfs M) (uniform ph l u) refItfs zf M := by
  obtain ⟨bdr, ports, t, mks, zr, mat, S, hr, hf, c2g, rows, hm, hl, hfom, hM⟩ := h.setting
  exact ⟨h.lib, h.one, h.bases, h.sizes, ⟨bdr, ports, t, mks, zr, S, hr, hf, c2g, rows,
    (mats_uniform hm S.bcs.1 h.typed hM).2⟩, rfl, rfl, h.rhs, h.U⟩

theorem elastic_fom {P : Prob R F} {ph : Parts R δ α} {l u : α} {refItfs : List (List InterfaceInfo)}
    {zf : List Nat} {M : MatArr R} (h : Elastic P ph l u refItfs zf M) : P.fom = .ok (poissonFom M) := by
  obtain ⟨bdr, ports, t, mks, zr, mat, S, hr, hf, c2g, rows, hm, hl, hfom, hM⟩ := h.setting
  rw [hfom]
  unfold fom
  rw [hM]
  rfl

theorem elastic_elems {P : Prob R F} {ph : Parts R δ α} {l u : α} {refItfs : List (List InterfaceInfo)}
    {zf : List Nat} {M : MatArr R} (h : Elastic P ph l u refItfs zf M) (hn : P.comps.length ≤ P.h.numSub) :
    buildElems P.h P.comps P.refPorts P.locals = buildElems P.h P.comps P.refPorts (scalar P ph l u refItfs M).locals := by
  obtain ⟨bdr, ports, t, mks, zr, mat, S, hr, hf, c2g, rows, hm, hl, hfom, hM⟩ := h.setting
  rw [hl]
  exact buildElems_uniform hm ph hn (mats_uniform hm S.bcs.1 h.typed hM).1 _ _

/-- What is built does not depend on how the local systems were obtained. -/
theorem buildROM_scalar {P : Prob R F} {ph : Parts R δ α} {l u : α} {refItfs : List (List InterfaceInfo)}
    {zf : List Nat} {M : MatArr R} (h : Elastic P ph l u refItfs zf M) (c : Conv) (cfg : Node)
    (fin : Blk R → Csr R) (hl : P.comps.length ≤ P.h.numSub ∨ ∃ pre, Asks c cfg "global" pre) (d : Disk R) :
    buildROM c cfg fin P d = buildROM c cfg fin (scalar P ph l u refItfs M) d := by
  have e2 : projected P = projected (scalar P ph l u refItfs M) := by
    unfold projected
    rw [elastic_fom h]
    rfl
  rcases hl with hn | ⟨pre, ha⟩
  · have e1 : buildComponent fin P = buildComponent fin (scalar P ph l u refItfs M) := by
      unfold buildComponent
      rw [elastic_elems h hn]
      rfl
    unfold buildROM
    rw [e1, e2]
    rfl
  · unfold buildROM
    rw [Pipeline.readLevel_global ha, ok_bind, ok_bind]
    dsimp only
    rw [e2]

theorem singleRun_scalar {P : Prob R F} {ph : Parts R δ α} {l u : α} {refItfs : List (List InterfaceInfo)}
    {zf : List Nat} {M : MatArr R} (h : Elastic P ph l u refItfs zf M) (c : Conv) (cfg : Node)
    (solver : Blk R → List R → List R → List R) (junk : Nat → R) (d : Disk R) :
    singleRun c cfg P solver junk d = singleRun c cfg (scalar P ph l u refItfs M) solver junk d := by
  have e2 : projected P = projected (scalar P ph l u refItfs M) := by
    unfold projected
    rw [elastic_fom h]
    rfl
  unfold singleRun reducedOperator
  rw [e2]
  rfl

theorem galerkin_of {P P' : Prob R F} {zf : List Nat} {A : Nat → Nat → Nat → Nat → Nat → Nat → R} {u : List R}
    (g : Galerkin P zf A u) (hh : P.h = P'.h) (h1 : P.varOffs = P'.varOffs) (h2 : P.domOffs = P'.domOffs)
    (h3 : P.rhs = P'.rhs) : Galerkin P' zf A u := by
  obtain ⟨a, b, c, d⟩ := g
  rw [hh, h1, h2] at a b
  rw [hh, h1, h2, h3] at c
  simp only [hh, h1, h2, h3] at d
  exact ⟨a, b, c, d⟩

theorem serves_of {P P' : Prob R F} {ph ph' : Parts R δ α} {l u l' u' : α}
    {refItfs refItfs' : List (List InterfaceInfo)} {zf zf' : List Nat} {M M' : MatArr R}
    (h : Elastic P ph l u refItfs zf M) (h' : Elastic P' ph' l' u' refItfs' zf' M') {c : Conv} {cfg cfg' : Node}
    {pre : String} {fin : Blk R → Csr R} (hl : P.comps.length ≤ P.h.numSub ∨ ∃ pre, Asks c cfg "global" pre)
    {A : Nat → Nat → Nat → Nat → Nat → Nat → R}
    (s : Serves c cfg cfg' pre fin (scalar P ph l u refItfs M) (scalar P' ph' l' u' refItfs' M') zf' A) :
    Serves c cfg cfg' pre fin P P' zf' A := by
  intro d
  obtain ⟨d', b1, b2, b3⟩ := s d
  refine ⟨d', by rw [buildROM_scalar h c cfg fin hl]; exact b1, b2, fun e he hreg solver hs junk => ?_⟩
  obtain ⟨v, r1, r2, r3⟩ := b3 e he hreg solver hs junk
  refine ⟨v, by rw [singleRun_scalar h']; exact r1, galerkin_of r2 rfl rfl rfl rfl, fun cfg0 h0 junk0 e0 => ?_⟩
  rw [singleRun_scalar h']
  exact r3 cfg0 h0 junk0 e0

/-- **C99.** The full-order operator is that of a body made of the material of the problem: every subdomain, its
Dirichlet boundaries and the interfaces have the two coefficients of the problem. -/
theorem full_order {ph : Parts R δ α} {n : Nat} {l u : α} {mat : Material α} (hm : setProblem n [l, u] = .ok mat)
    {bc : Boundary.BC F} (hw : Boundary.Wf bc) (ht : Typed bc) (mks : List (List Int))
    (mesh : List (List Int × List Int)) (hn : ph.sub.length = n) (h0 : 0 < n) :
    mats true ph mat bc mks mesh = fomMats bc mks mesh (uniform ph l u).sub (uniform ph l u).itf := by
  unfold mats
  rw [subForms_uniform hm ph (by omega), ok_bind, itfForm_uniform hm ph h0, ok_bind]
  have hstep : domainStep true bc mks mesh = RomAssembly.domainStep (R := R) bc mks mesh := by
    funext forms m acc
    unfold domainStep RomAssembly.domainStep domainMatrix RomAssembly.domainMatrix
    simp only [lhsElast_eq hw ht]
  rw [hstep]
  unfold fomMats fomArray
  rw [bind_assoc]
  rfl

/-- **C99.** A ROM built from components and stored serves every later run with the same material, if there are at
most as many components as subdomains in the run that builds it. -/
theorem component_partial {P P' : Prob R F} {ph ph' : Parts R δ α} {l u : α}
    {refItfs refItfs' : List (List InterfaceInfo)} {zf zf' : List Nat} {M M' : MatArr R}
    (h : Elastic P ph l u refItfs zf M) (h' : Elastic P' ph' l u refItfs' zf' M')
    (hn : P.comps.length ≤ P.h.numSub) (hk : Knows P P' refItfs refItfs')
    (hs : SameForms P P' (uniform ph l u) (uniform ph' l u)) {fin : Blk R → Csr R} (hf : Finalizes fin) {c : Conv}
    {cfg cfg' : Node} {pre : String} (ha : Asks c cfg "component" pre) (ha' : Asks c cfg' "component" pre) :
    Serves c cfg cfg' pre fin P P' zf' (fun m m' _ _ => mget M' m m') :=
  serves_of h h' (.inl hn) (Pipeline.poisson_component (elastic_scalar h) (elastic_scalar h')
    ⟨hk.separate, hk.vars, hk.names, hk.comp, hk.ports, hk.itfs⟩ ⟨hs.integs, hs.comp⟩ hf ha ha')

/-- **C99.** The same at global level, for the same operator and bases. -/
theorem global {P P' : Prob R F} {ph ph' : Parts R δ α} {l u : α}
    {refItfs refItfs' : List (List InterfaceInfo)} {zf zf' : List Nat} {M : MatArr R}
    (h : Elastic P ph l u refItfs zf M) (h' : Elastic P' ph' l u refItfs' zf' M) (hh : P.h = P'.h)
    (h0 : 0 < P.h.numSub) {fin : Blk R → Csr R} (hf : Finalizes fin) {c : Conv} {cfg cfg' : Node} {pre : String}
    (ha : Asks c cfg "global" pre) (ha' : Asks c cfg' "global" pre) :
    Serves c cfg cfg' pre fin P P' zf' (fun m m' _ _ => mget M m m') :=
  serves_of h h' (.inr ⟨pre, ha⟩) (Pipeline.poisson_global (elastic_scalar h) (elastic_scalar h') hh h0 hf ha ha')

/-- A run at component or global level does not look at the operators of its own problem. -/
theorem stored_only {c : Conv} {cfg : Node} {pre lvl : String} (hl : lvl = "component" ∨ lvl = "global")
    (ha : Asks c cfg lvl pre) (P : Prob R F) (x : LocalOf R) (y : Outcome (Nat → Nat → Outcome (Local R)))
    (solver : Blk R → List R → List R → List R) (junk : Nat → R) (d : Disk R) :
    singleRun c cfg { P with locals := x, fom := y } solver junk d = singleRun c cfg P solver junk d := by
  unfold singleRun reducedOperator
  rcases hl with rfl | rfl
  · rw [Pipeline.readLevel_component ha, ok_bind, ok_bind]
    rfl
  · rw [Pipeline.readLevel_global ha, ok_bind, ok_bind]

/-- **C99.** The stored ROM keeps the material it was built with: a later run whose problem has the material `l'`,
`u'` returns the Galerkin solution for a body made of `l`, `u` (`M''` is the full-order matrix of that body). -/
theorem stored_material {P P' : Prob R F} {ph ph' : Parts R δ α} {l u l' u' : α}
    {refItfs refItfs' : List (List InterfaceInfo)} {zf zf' : List Nat} {M M' M'' : MatArr R}
    (h : Elastic P ph l u refItfs zf M) (_h' : Elastic P' ph' l' u' refItfs' zf' M')
    {x : LocalOf R} {y : Outcome (Nat → Nat → Outcome (Local R))}
    (h'' : Elastic { P' with locals := x, fom := y } ph' l u refItfs' zf' M'')
    (hn : P.comps.length ≤ P.h.numSub) (hk : Knows P P' refItfs refItfs')
    (hs : SameForms P P' (uniform ph l u) (uniform ph' l u)) {fin : Blk R → Csr R} (hf : Finalizes fin) {c : Conv}
    {cfg cfg' : Node} {pre : String} (ha : Asks c cfg "component" pre) (ha' : Asks c cfg' "component" pre)
    (hreg : Regular P'.h (fun m m' _ _ => mget M'' m m')) {solver : Blk R → List R → List R → List R}
    (hex : Exact solver) (junk : Nat → R) (d : Disk R) :
    ∃ d' v, buildROM c cfg fin P d = .ok d' ∧ singleRun c cfg' P' solver junk d' = .ok v ∧
      Galerkin P' zf' (fun m m' _ _ => mget M'' m m') v := by
  obtain ⟨d', b1, -, b3⟩ := component_partial h h'' hn ⟨hk.separate, hk.vars, hk.names, hk.comp, hk.ports, hk.itfs⟩
    ⟨hs.integs, hs.comp⟩ hf ha ha' d
  obtain ⟨v, r1, r2, -⟩ := b3 d' rfl hreg solver hex junk
  exact ⟨d', v, b1, by rw [← stored_only (.inl rfl) ha' P' x y]; exact r1, galerkin_of r2 rfl rfl rfl rfl⟩

/-- **C99.** With more components than subdomains the building program reads past the end of the coefficients. -/
theorem unused_component {h : RomHandler.Handler R} {n : Nat} {l u : α} {mat : Material α}
    (hm : setProblem n [l, u] = .ok mat) (ph : Parts R δ α) {comps : List CompSetup.Comp} (hn : n < comps.length)
    (refPorts : List Ports.PortData) (refItfs : List (List InterfaceInfo)) {g : List (α → α → BForm R)}
    (hg : ph.comp = g) (hgl : n ≤ g.length)
    (hp : ∀ c x, c < n → g[c]? = some x → ∃ e, compElem h c (oneLocal (spOp (x l u).base)) = .ok e) :
    buildElems h comps refPorts (locals ph mat comps refPorts refItfs) = .error .ub := by
  subst hg
  have e : buildComp h comps (locals ph mat comps refPorts refItfs) = .error .ub := by
    unfold buildComp
    refine Visual.loop_fault .ub (fun _ => True) trivial (fun k s hk _ => ?_) ⟨n, hn, fun s _ => ?_⟩
    · by_cases hkn : k < n
      · obtain ⟨e, he⟩ := hp k _ hkn (List.getElem?_eq_getElem (by omega))
        refine .inl ⟨s ++ [e], ?_, trivial⟩
        unfold locals
        dsimp only
        rw [at_uniform hm hkn, ok_bind, rd_of_lt (by omega), ok_bind]
        show (do let e ← compElem h k (oneLocal (spOp (ph.comp[k] l u).base)); _) = _
        rw [he]
        rfl
      · right
        unfold locals
        dsimp only
        rw [at_outside hm (by omega)]
        rfl
    · unfold locals
      dsimp only
      rw [at_outside hm le_rfl]
      rfl
  unfold buildElems
  rw [e]
  rfl

section Example

open Verif.CompSetup.Spec (usedPorts)
open Verif.RomAssembly.Spec (Setting FormsOk BasesOk refB)
open Verif.RomAssembly (exF exF_ok exG exBC exMks exSetting BForm)
open Verif.CompSetup (exTopo exComps exRef)
open Verif.InterfaceForm (exMesh exSpace)
open Verif.Online (exHQ exHQ_ready exHQ_bases exPQ exM ex_regular exact exact_exact exOffs2)
open Verif.Pipeline (exH1Q exH1Q_ready exH1Q_bases exTopo1 exBC1 exSetting1 exProb1 exProb2 exLibs exSizes exOffs1
  exKnows exOne exConf exAsks dense dense_ok)

/-- The form of a component of stiffness `k`. -/
def exB (k : ℚ) : BForm ℚ :=
  ⟨⟨2, 2, [((0, 0), 4 * k), ((0, 1), k), ((1, 1), 3 * k)]⟩,
    [some ⟨[0, -2], [0, -2], ⟨2, 2, [k, 0, 2 * k, 5 * k]⟩⟩, none,
      some ⟨[0, -2], [0, -2], ⟨2, 2, [7 * k, k, 0, 2 * k]⟩⟩, none]⟩

/-- The parts of a body of two copies, with stiffness the mean of the two coefficients. -/
def exParts2 : Parts ℚ Nat ℚ where
  comp := [fun l u => exB ((l + u) / 2)]
  sub := [fun l u => exB ((l + u) / 2), fun l u => exB ((l + u) / 2)]
  integ l u := exG ⟨2, 2, [7 * ((l + u) / 2), (l + u) / 2, 0, 2 * ((l + u) / 2)]⟩
    ⟨2, 2, [-((l + u) / 2), 0, 3 * ((l + u) / 2), 0]⟩
  itf := exPQ.itf
  cmeshes := exPQ.cmeshes
  ctest := exPQ.ctest
  ctrial := exPQ.ctrial

/-- The parts of one copy. -/
def exParts1 : Parts ℚ Nat ℚ :=
  { exParts2 with
    sub := exParts2.comp
    itf := ⟨[exMesh], [exSpace], [exSpace], [], []⟩ }

theorem exUniform : uniform exParts2 1 1 = exPQ := by
  have e : ((1 : ℚ) + 1) / 2 = 1 := by norm_num
  simp only [uniform, exParts2, exB, e, exPQ, exF, List.map_cons, List.map_nil, mul_one]

theorem exOk2 (l u : ℚ) : FormsOk (uniform exParts2 l u) [0, 0] exComps
    (usedPorts [⟨0, 1, 2, 1, 0⟩] exRef) exTopo.infos exRef [[⟨1, 0, 0, 1⟩]] :=
  exF_ok (s := exSpace) (d := [0, -2]) rfl (by unfold InterfaceForm.Spec.SpaceOk exSpace; decide) rfl rfl
    ⟨rfl, rfl, Nat.le_refl _⟩ ⟨rfl, rfl, Nat.le_refl _⟩ ⟨rfl, rfl, Nat.le_refl _⟩

theorem exOk1 (l u : ℚ) : FormsOk (uniform exParts1 l u) [0] exComps (usedPorts [] exRef) exTopo1.infos exRef
    [[⟨1, 0, 0, 1⟩]] where
  forms := rfl
  copy m c hm := by
    match m, hm with
    | 0, hm => simp at hm; subst hm; exact ⟨rfl, rfl, rfl⟩
    | m + 1, hm => simp at hm
  counts := (exOk2 l u).counts
  comp := (exOk2 l u).comp
  itf := ⟨rfl, ⟨rfl, rfl, fun p hp => by simp [uniform, exParts1] at hp⟩,
    fun p hp => by simp [uniform, exParts1] at hp⟩
  ports := rfl
  refs := (exOk2 l u).refs
  faces r hr := by simp [usedPorts] at hr

/-- The coefficients of the subdomains. -/
def exMat (n : Nat) (l u : ℚ) : Material ℚ := ⟨List.replicate n (some l), List.replicate n (some u)⟩

/-- The full-order matrices. -/
def exK1 (l u : ℚ) : MatArr ℚ :=
  match mats true exParts1 (exMat 1 l u) exBC1 [[0, 0, 0, 0, 1, 0], [0, 0, 0, 0, 0, 1]] exTopo1.mesh with
  | .ok M => M
  | .error _ => ⟨0, 0, fun _ _ => none⟩

def exK2 (l u : ℚ) : MatArr ℚ := match mats true exParts2 (exMat 2 l u) exBC exMks exTopo.mesh with
  | .ok M => M
  | .error _ => ⟨0, 0, fun _ _ => none⟩

/-- The program that builds the ROM, and the one that uses it. -/
def exE1 (l u : ℚ) : Prob ℚ Int :=
  { exProb1 with
    locals := locals exParts1 (exMat 1 l u) exComps exRef [[⟨1, 0, 0, 1⟩]]
    fom := fom true exParts1 (exMat 1 l u) exBC1 [[0, 0, 0, 0, 1, 0], [0, 0, 0, 0, 0, 1]] exTopo1.mesh }

def exE2 (l u : ℚ) : Prob ℚ Int :=
  { exProb2 with
    locals := locals exParts2 (exMat 2 l u) exComps exRef [[⟨1, 0, 0, 1⟩]]
    fom := fom true exParts2 (exMat 2 l u) exBC exMks exTopo.mesh }

theorem exTyped1 : Typed exBC1 := by
  intro b f hb
  have : b < 2 := (List.getElem?_eq_some_iff.1 hb).1
  interval_cases b
  · exact .inl rfl
  · exact .inl rfl

theorem exTyped2 : Typed exBC := by
  intro b f hb
  have : b < exBC.coeffs.length := (List.getElem?_eq_some_iff.1 hb).1
  have : b < 3 := this
  interval_cases b
  · exact .inl rfl
  · exact .inl rfl
  · exact .inr rfl

theorem exElastic1 (l u : ℚ) : Elastic (exE1 l u) exParts1 l u [[⟨1, 0, 0, 1⟩]] [2] (exK1 l u) where
  lib := ⟨rfl, exLibs.1, exLibs.2.1⟩
  one := rfl
  bases := exH1Q_bases
  sizes := exSizes exH1Q exPQ ⟨rfl, rfl⟩
  typed := exTyped1
  setting := by
    obtain ⟨M, _, _, _, eM, -⟩ := poisson_assembly exSetting1 exH1Q_ready rfl exH1Q_bases (exOk1 l u)
      (exSizes exH1Q exPQ ⟨rfl, rfl⟩)
    refine ⟨_, _, _, _, _, exMat 1 l u, exSetting1, exH1Q_ready, exOk1 l u, rfl, rfl, rfl, rfl, rfl, ?_⟩
    have e := full_order (ph := exParts1) (n := 1) (l := l) (u := u) (mat := exMat 1 l u) rfl exSetting1.bcs.1
      exTyped1 [[0, 0, 0, 0, 1, 0], [0, 0, 0, 0, 0, 1]] exTopo1.mesh rfl Nat.one_pos
    rw [eM] at e
    have : exK1 l u = M := by unfold exK1; rw [e]
    rw [this]; exact e
  rhs := ⟨exOffs1 2, rfl⟩
  U := ⟨exOffs1 2, rfl⟩

theorem exMats2 (l u : ℚ) : mats true exParts2 (exMat 2 l u) exBC exMks exTopo.mesh = .ok (exK2 l u) ∧
    fomMats exBC exMks exTopo.mesh (uniform exParts2 l u).sub (uniform exParts2 l u).itf = .ok (exK2 l u) := by
  obtain ⟨M, _, _, _, eM, -⟩ := poisson_assembly (exSetting exHQ rfl) exHQ_ready rfl exHQ_bases (exOk2 l u)
    (exSizes exHQ exPQ ⟨rfl, rfl⟩)
  have e := full_order (ph := exParts2) (n := 2) (l := l) (u := u) (mat := exMat 2 l u) rfl
    (exSetting exHQ rfl).bcs.1 exTyped2 exMks exTopo.mesh rfl Nat.two_pos
  rw [eM] at e
  have : exK2 l u = M := by unfold exK2; rw [e]
  rw [this]; exact ⟨e, eM⟩

theorem exElastic2 (l u : ℚ) : Elastic (exE2 l u) exParts2 l u [[⟨1, 0, 0, 1⟩]] [2, 2] (exK2 l u) where
  lib := ⟨rfl, exLibs.2.2.1, exLibs.2.2.2⟩
  one := rfl
  bases := exHQ_bases
  sizes := exSizes exHQ exPQ ⟨rfl, rfl⟩
  typed := exTyped2
  setting := ⟨_, _, _, _, _, exMat 2 l u, exSetting exHQ rfl, exHQ_ready, exOk2 l u, rfl, rfl, rfl, rfl, rfl,
    (exMats2 l u).1⟩
  rhs := ⟨exOffs2, rfl⟩
  U := ⟨exOffs2, rfl⟩

theorem exSameE (l u : ℚ) (P P' : Prob ℚ Int) (h : P.names = ["c"]) (h' : P'.names = ["c"]) :
    SameForms P P' (uniform exParts1 l u) (uniform exParts2 l u) where
  integs := rfl
  comp c c' n h1 h2 := by
    rw [h] at h1
    rw [h'] at h2
    have e1 := exOne h1
    have e2 := exOne h2
    subst e1 e2
    exact ⟨rfl, rfl, rfl, rfl⟩

theorem exKnowsE (l u l' u' : ℚ) : Knows (exE1 l u) (exE2 l' u') [[⟨1, 0, 0, 1⟩]] [[⟨1, 0, 0, 1⟩]] :=
  ⟨exKnows.separate, exKnows.vars, exKnows.names, exKnows.comp, exKnows.ports, exKnows.itfs⟩

theorem exK2_one : exK2 1 1 = exM := by
  have e := (exMats2 1 1).2
  rw [exUniform] at e
  unfold exM
  rw [e]

theorem exSolution1 {v : List ℚ} (g : Galerkin (exE2 3 1) [2, 2] (fun m m' _ _ => mget (exK2 1 1) m m') v) :
    v = [1, 3, 2, 6] := by
  rw [exK2_one] at g
  refine g.exact [1, 3, 2, 6] ⟨exOffs2, rfl⟩ ⟨fun m _ _ => m + 1, ?_⟩ ?_
  all_goals
    intro m v k hm hv hk
    have hm2 : m < 2 := hm
    have hv1 : v < 1 := hv
    have hv0 : v = 0 := by omega
    subst hv0
    interval_cases m
    · have hk2 : k < 2 := hk
      interval_cases k <;> decide +kernel
    · have hk2 : k < 2 := hk
      interval_cases k <;> decide +kernel

theorem exSolution2 {v : List ℚ} (g : Galerkin (exE2 3 1) [2, 2] (fun m m' _ _ => mget (exK2 3 1) m m') v) :
    v = [1 / 2, 3 / 2, 1, 3] := by
  refine g.exact [1 / 2, 3 / 2, 1, 3] ⟨exOffs2, rfl⟩ ⟨fun m _ _ => (m + 1) / 2, ?_⟩ ?_
  all_goals
    intro m v k hm hv hk
    have hm2 : m < 2 := hm
    have hv1 : v < 1 := hv
    have hv0 : v = 0 := by omega
    subst hv0
    interval_cases m
    · have hk2 : k < 2 := hk
      interval_cases k <;> decide +kernel
    · have hk2 : k < 2 := hk
      interval_cases k <;> decide +kernel

/-- **C99 fails** for a ROM stored with another material: the file is built with the material (1, 1) and used for the
material (3, 1), twice as stiff.  The run ends without any message with twice the displacement of the Galerkin
solution of its problem. -/
theorem material_ignored : ∃ d', buildROM Options.exConv (exConf "component") dense (exE1 1 1) (fun _ => none) = .ok d' ∧
    singleRun Options.exConv (exConf "component") (exE2 3 1) exact (fun _ => 7) d' = .ok [1, 3, 2, 6] ∧
    Elastic (exE2 3 1) exParts2 3 1 [[⟨1, 0, 0, 1⟩]] [2, 2] (exK2 3 1) ∧
    ∀ v, Galerkin (exE2 3 1) [2, 2] (fun m m' _ _ => mget (exK2 3 1) m m') v → v = [1 / 2, 3 / 2, 1, 3] := by
  obtain ⟨d', v, h1, h2, h3⟩ := stored_material (exElastic1 1 1) (exElastic2 3 1)
    (x := (exE2 1 1).locals) (y := (exE2 1 1).fom) (exElastic2 1 1) (le_refl 1) (exKnowsE 1 1 3 1)
    (exSameE 1 1 _ _ rfl rfl) dense_ok (exAsks "component") (exAsks "component")
    (by rw [exK2_one]; exact ex_regular) exact_exact (fun _ => 7) (fun _ => none)
  rw [exSolution1 h3] at h2
  exact ⟨d', h1, h2, exElastic2 3 1, fun v => exSolution2⟩

/-- The hypotheses of `component_partial` hold, and of `global`. -/
example : Serves Options.exConv (exConf "component") (exConf "component") "rom" dense (exE1 1 1) (exE2 1 1) [2, 2]
      (fun m m' _ _ => mget (exK2 1 1) m m') ∧
    Serves Options.exConv (exConf "global") (exConf "global") "rom" dense (exE2 3 1)
      { exE2 3 1 with rhs := [1, 2, 3, 4] } [2, 2] (fun m m' _ _ => mget (exK2 3 1) m m') ∧
    Regular exHQ (fun m m' _ _ => mget (exK2 1 1) m m') := by
  have h2 : Elastic { exE2 3 1 with rhs := [1, 2, 3, 4] } exParts2 3 1 [[⟨1, 0, 0, 1⟩]] [2, 2] (exK2 3 1) :=
    { exElastic2 3 1 with rhs := ⟨exOffs2, rfl⟩ }
  exact ⟨component_partial (exElastic1 1 1) (exElastic2 1 1) (le_refl 1) (exKnowsE 1 1 1 1) (exSameE 1 1 _ _ rfl rfl)
      dense_ok (exAsks "component") (exAsks "component"),
    global (exElastic2 3 1) h2 rfl Nat.two_pos dense_ok (exAsks "global") (exAsks "global"),
    by rw [exK2_one]; exact ex_regular⟩

/-- The hypotheses of `full_order` hold, for materials that are not the default one. -/
example : mats true exParts2 (exMat 2 3 1) exBC exMks exTopo.mesh = .ok (exK2 3 1) ∧
    mget (exK2 3 1) 0 1 0 0 = 2 * mget (exK2 1 1) 0 1 0 0 ∧ mget (exK2 3 1) 0 0 0 0 ≠ mget (exK2 1 1) 0 0 0 0 :=
  ⟨(exMats2 3 1).1, by decide +kernel, by decide +kernel⟩

/-- Two listed components and one subdomain. -/
example : buildElems exH1Q (exComps ++ exComps) exRef
    (locals exParts1 (exMat 1 1 1) (exComps ++ exComps) exRef [[⟨1, 0, 0, 1⟩]]) = .error .ub :=
  unused_component (n := 1) (l := 1) (u := 1) rfl exParts1 (by decide) exRef _ rfl (by decide) (by
    intro c x hc hx
    interval_cases c
    cases hx
    exact ⟨_, rfl⟩)

end Example

end Verif.ElastRom
