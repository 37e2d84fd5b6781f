import Verif.Spec.PrintEqp
import Verif.Props.EqpPipeline
import Verif.Props.EqpCoords

/-! # C123: the printed coordinates are those of the trained samples -/

namespace Verif.PrintEqp

open Verif Verif.LinAlg Verif.Hdf5 Verif.Hdf5.Spec Verif.EqpComp Verif.EqpPipeline Verif.EqpPipeline.Spec
open Verif.PrintEqp.Spec
open Verif.EqpComp.Spec (count)
open Verif.Pipeline (Level Disk readLevel)
open Verif.Options (Node Conv key option required)
open Verif.Snapshots (Store)

variable {P Q R δ X : Type}

section
variable [Field R] [LinearOrder R]

/-- What a later run reads for an integrator is what was trained. -/
theorem loaded_latest {T : Trainer P Q R δ} (hT : TrainerOk T) {tols : R × R} {st : Store (List R)}
    {f : File R} (hold : Holds T tols st f) {L : Runner} (hL : Suits T L) {c2 c1 : Nat} {k : Comp}
    {g : Eqp.Form P R} (hn : L.setup.names[c2]? = some k.name) (hk : T.comps[c1]? = some k)
    (hg : trainComp T tols.1 st c1 = .ok g) (ty : IntegType) (i : Nat)
    (hi : i < count T.setup k.attrs.length ty) :
    EqpComp.Spec.Exists L.setup c2 ty i ∧
      EqpComp.Spec.latest L.setup [.load f] c2 ty i = samplesAt g ty i := by
  obtain ⟨ops, s, f1, hops, hs, hsave, hlater⟩ := hold.comps
  have hS : T.setup.nbdr.length = T.setup.names.length := by simp [Trainer.setup]
  obtain ⟨f1', e1, -, -, -, hst⟩ := EqpComp.save_stores hS hT.names hs
    (fun c ty k hex => compOps_set hops hex) (emptyCanWrite "components")
  rw [hsave] at e1
  cases e1
  obtain ⟨-, -, hst⟩ := hst f hlater
  obtain ⟨c1', k', hk', hn', hb⟩ := hL.comps c2 (List.getElem?_eq_some_iff.1 hn).1
  have hnn : k.name = k'.name := by rw [hn] at hn'; exact Option.some.inj hn'
  have hlt := (List.getElem?_eq_some_iff.1 hk).1
  have hcc : c1 = c1' := by
    refine (List.getElem?_inj (by simpa using hlt) hT.names).1 ?_
    rw [List.getElem?_map, List.getElem?_map, hk, hk', Option.map_some, Option.map_some, hnn]
  subst hcc
  rw [hk] at hk'
  cases hk'
  have hcount : count L.setup k.attrs.length ty = count T.setup k.attrs.length ty := by
    have e1 : L.setup.oper = T.setup.oper := hL.oper
    have e2 : L.setup.fullDg = T.setup.fullDg := hL.fullDg
    cases ty <;> simp only [count, e1, e2]
  refine ⟨⟨_, (List.getElem?_eq_some_iff.1 hn).1, hb, by rw [hcount]; exact hi⟩, ?_⟩
  show EqpComp.Spec.stored L.setup f c2 ty i = _
  have := hst c1 ty i (exists_setup.2 ⟨k, hk, hi⟩)
  rw [compOps_latest hops hlt hg] at this
  rw [← this]
  unfold EqpComp.Spec.stored
  rw [show T.setup.names[c1]? = some k.name by simp [Trainer.setup, hk],
    show T.setup.nbdr[c1]? = some k.attrs.length by simp [Trainer.setup, hk], hn, hb]
  dsimp only
  rw [hcount, if_pos hi]

/-- **C123.** The coordinates a run prints are those of the samples an earlier run trained: with the same
operator and prefix and any order of components, the run ends normally and writes one file, which has for
every component a table with one row per sample trained for the component of that name, in the order of
training; its first columns are the coordinates, in the printing run, of the trained point. -/
theorem trained_coords_printed {c : Conv} {num : Node → Outcome R} {cfg : Node} {T : Trainer P Q R δ}
    (hT : TrainerOk T) {st : Store (List R)} {d d' : Disk R} (htr : trainEQP c num cfg T st d = .ok d')
    (hnl : T.nonlinear = true) {tol : R}
    (htol : option num (key "model_reduction/eqp/relative_tolerance") (1 / 100) cfg = .ok tol)
    {cfg2 : Node} {V : Printer R X} {dim : Nat} (hV : Matches dim T V) {d2 : Disk R}
    (hpre : readLevel c cfg2 = readLevel c cfg)
    (hmode : option c.str (key "model_reduction/nonlinear_handling") "none" cfg2 = .ok "eqp")
    {out : String} (hout : required c.str (key "model_reduction/eqp/save_coords") cfg2 = .ok out)
    (hfile : ∀ pre, readLevel c cfg = .ok (.component, pre) → d2 (pre ++ ".eqp.h5") = d' (pre ++ ".eqp.h5"))
    (hfit : ∀ (c2 c1 : Nat) k f v, V.setup.names[c2]? = some k.name → T.comps[c1]? = some k →
      trainComp T tol st c1 = .ok f → samplesAt f .domain 0 = some v →
      v ≠ [] ∧ ∀ s ∈ v, ∃ x, PointAt V c2 s.el s.qp x) (junk : Nat → Nat → Nat → R) :
    ∃ d3 g, printEQP c cfg2 V junk d2 = .ok d3 ∧ d3 out = some g ∧ (∀ n, n ≠ out → d3 n = d2 n) ∧
      readAttr g ["components"] "number_of_components" = .ok V.setup.names.length ∧
      ∀ (c2 c1 : Nat) k, V.setup.names[c2]? = some k.name → T.comps[c1]? = some k →
        ∃ f v entry, trainComp T tol st c1 = .ok f ∧ samplesAt f .domain 0 = some v ∧
          EqpCoords.Spec.HoldsTable g k.name v.length entry ∧
          ∀ i s x, v[i]? = some s → PointAt V c2 s.el s.qp x →
            ∀ j y, x[j]? = some y → j < 3 → entry i j = y := by
  obtain ⟨-, ⟨hc, -⟩ | ⟨-, -, -, pre, f, hlev, hf, hd, -⟩⟩ := train_cases htr
  · rw [hnl] at hc; cases hc
  obtain ⟨⟨tol', tolI⟩, htol', hold⟩ := trainElems_holds hT hf
  obtain ⟨ht1, -⟩ := tolerances_eq htol'
  obtain rfl : tol = tol' := Except.ok.inj (htol.symm.trans ht1)
  -- the samples are loaded
  obtain ⟨_, _, r, -, -, hrun, -⟩ := trained_samples_used hT htr hnl hV.suits (d2 := d2) hpre hfile
  obtain ⟨hsub, pre', f', hlev', hf', hload, -⟩ := run_cases hrun
  rw [hpre, hlev] at hlev'
  cases hlev'
  rw [hfile _ hlev, hd] at hf'
  cases hf'
  have hcomps : EqpComp.run V.setup [.load f] = .ok r.comps := by
    unfold loadEqp at hload
    obtain ⟨s0, h0, hload⟩ := bind_eq_ok.1 hload
    obtain ⟨s1, h1, hload⟩ := bind_eq_ok.1 hload
    have : s1 = r.comps := by
      cases ho : V.setup.oper with
      | base =>
        rw [show (loader V).setup.oper = .base from ho] at hload
        exact (congrArg Prod.fst (Except.ok.inj hload))
      | lf =>
        rw [show (loader V).setup.oper = .lf from ho] at hload
        obtain ⟨i, -, hload⟩ := bind_eq_ok.1 hload
        exact (congrArg Prod.fst (Except.ok.inj hload))
    unfold EqpComp.run
    rw [show allocate V.setup = .ok s0 from h0, ok_bind]
    show (EqpComp.step V.setup s0 (.load f) >>= fun s => pure s) = _
    rw [show EqpComp.step V.setup s0 (.load f) = .ok s1 from h1, this]
    rfl
  have hnbdr : V.setup.nbdr.length = V.setup.names.length := hV.suits.nbdr
  have hok := EqpComp.run_inv hnbdr hcomps
  have hflen : r.comps.forms.length = V.setup.names.length := hok.len
  -- each component
  have hcomp : ∀ c2 < V.setup.names.length, ∃ (c1 : Nat) (k : Comp) (g : Eqp.Form P R) (v : List (Sample R)) (F : EqpCoords.Form R X),
      V.setup.names[c2]? = some k.name ∧ T.comps[c1]? = some k ∧ trainComp T tol st c1 = .ok g ∧
      samplesAt g .domain 0 = some v ∧ formOf V r.comps c2 = .ok F ∧ EqpCoords.Spec.Ready dim F v ∧
      ∀ s x, EqpCoords.Spec.IsAt F s x ↔ PointAt V c2 s.el s.qp x := by
    intro c2 hc2
    obtain ⟨c1, k, hk, hn, hb⟩ := hV.suits.comps c2 hc2
    obtain ⟨ops, s, f1, hops, -⟩ := hold.comps
    obtain ⟨g, hg, hgs⟩ := (compOps_mem hops).1 c1 (List.getElem?_eq_some_iff.1 hk).1
    have hone : 0 < count T.setup k.attrs.length .domain := Nat.one_pos
    obtain ⟨hex, hlat⟩ := loaded_latest hT hold hV.suits hn hk hg .domain 0 hone
    have hsome : (samplesAt g .domain 0).isSome := by
      have := compOps_set hops (exists_setup.2 ⟨k, hk, hone⟩)
      rwa [compOps_latest hops (List.getElem?_eq_some_iff.1 hk).1 hg] at this
    obtain ⟨v, hv⟩ := Option.isSome_iff_exists.1 hsome
    have hseen := EqpComp.seen_latest hnbdr hcomps hex
    rw [show EqpComp.Spec.latest V.setup [.load f] c2 .domain 0 = some v from hlat.trans hv] at hseen
    have hcf : c2 < r.comps.forms.length := by rw [hflen]; exact hc2
    have hel : c2 < V.elems.length := by rw [hV.meshes]; exact hc2
    have hdom : (r.comps.forms[c2]).dom.length = 1 := hok.size c2 _ _ (List.getElem?_eq_getElem hcf) hb (ty := .domain)
    have hiff : ∀ s x, EqpCoords.Spec.IsAt (⟨(r.comps.forms[c2]).dom.length, some V.rule, some v,
        V.elems[c2]⟩ : EqpCoords.Form R X) s x ↔ PointAt V c2 s.el s.qp x := by
      intro s x
      constructor
      · rintro ⟨e, q, t, ir, ip, h1, h2, h3, h4, h5, h6⟩
        cases h4
        exact ⟨e, q, _, t, ip, h1, h2, List.getElem?_eq_getElem hel, h3, h5, h6⟩
      · rintro ⟨e, q, els, t, p, h1, h2, h3, h4, h5, h6⟩
        rw [List.getElem?_eq_getElem hel] at h3
        cases h3
        exact ⟨e, q, t, _, p, h1, h2, h4, rfl, h5, h6⟩
    obtain ⟨hne, hat⟩ := hfit c2 c1 k g v hn hk hg hv
    refine ⟨c1, k, g, v, _, hn, hk, hg, hv, ?_, ⟨?_, rfl, hne, ?_⟩, hiff⟩
    · unfold formOf
      rw [rd_of_lt hcf, ok_bind, show seen r.comps c2 .domain 0 = .ok (some v) from hseen, ok_bind,
        rd_of_lt hel, ok_bind]
      rfl
    · show 0 < (r.comps.forms[c2]).dom.length
      omega
    · intro s hs
      obtain ⟨x, hx⟩ := hat s hs
      exact ⟨x, (hiff s x).2 hx, hV.dim _ _ _ _ hx⟩
  -- the forms
  have hforms : ∃ l, formsOf V r.comps = .ok l ∧ l.length = V.setup.names.length ∧
      ∀ c2 < V.setup.names.length, ∃ F, formOf V r.comps c2 = .ok F ∧ l[c2]? = some (some F) := by
    unfold formsOf
    rw [hflen]
    refine loop_total (Inv := fun q (l : List (Option (EqpCoords.Form R X))) => l.length = q ∧
      ∀ c2 < q, ∃ F, formOf V r.comps c2 = .ok F ∧ l[c2]? = some (some F)) ⟨rfl, by simp⟩ ?_
    rintro q l hq ⟨hl, h⟩
    obtain ⟨_, _, _, _, F, _, _, _, _, hF, _⟩ := hcomp q hq
    refine ⟨l ++ [some F], by rw [hF]; rfl, by rw [List.length_append, hl]; rfl, ?_⟩
    intro c2 hc2
    by_cases hcq : c2 = q
    · subst hcq
      exact ⟨F, hF, by rw [← hl, List.getElem?_concat_length]⟩
    · obtain ⟨F', h1, h2⟩ := h c2 (by omega)
      exact ⟨F', h1, by rw [List.getElem?_append_left (by omega)]; exact h2⟩
  obtain ⟨forms, hfo, hfl, hform⟩ := hforms
  -- the samples, listed
  have hsam : ∃ samples : List (List (Sample R)), samples.length = V.setup.names.length ∧
      ∀ c2 < V.setup.names.length, ∃ F v, formOf V r.comps c2 = .ok F ∧ F.samples = some v ∧ samples[c2]? = some v := by
    refine ⟨forms.map fun F => (F.bind fun F => F.samples).getD [], by rw [List.length_map, hfl], ?_⟩
    intro c2 hc2
    obtain ⟨F, h1, h2⟩ := hform c2 hc2
    obtain ⟨_, _, _, v, F', _, _, _, _, h3, h4, _⟩ := hcomp c2 hc2
    rw [h1] at h3
    cases h3
    exact ⟨F, v, h1, h4.samples, by rw [List.getElem?_map, h2, Option.map_some, Option.bind_some, h4.samples]; rfl⟩
  obtain ⟨samples, hsl, hsm⟩ := hsam
  have hlib : EqpCoords.Spec.Library dim V.setup.names forms samples := by
    refine ⟨hV.distinct, hfl, hsl, ?_⟩
    intro c2 form l h1 h2
    have hc2 : c2 < V.setup.names.length := by rw [← hfl]; exact (List.getElem?_eq_some_iff.1 h1).1
    obtain ⟨F, h3, h4⟩ := hform c2 hc2
    obtain ⟨F1, v1, h5, h6, h7⟩ := hsm c2 hc2
    obtain ⟨_, _, _, v, F', _, _, _, _, h8, h9, _⟩ := hcomp c2 hc2
    rw [h3] at h5 h8
    cases h5; cases h8
    rw [h4] at h1; cases h1
    rw [h7] at h2; cases h2
    rw [h9.samples] at h6; cases h6
    exact ⟨F, rfl, h9⟩
  obtain ⟨g, hg1, hg2, hg3⟩ := EqpCoords.coords_saved_partial hlib (lf := decide (V.setup.oper = .lf))
    (fullDg := V.setup.fullDg) (fun h => hV.lf (of_decide_eq_true h)) junk
  refine ⟨d2.put out g, g, ?_, ?_, ?_, hg2, ?_⟩
  · have hget : d2.get (pre ++ ".eqp.h5") = .ok f := by
      unfold Pipeline.Disk.get
      rw [hfile pre hlev, hd]
    have hs : V.submesh = false := hsub
    unfold printEQP
    rw [hV.useRom, require_true, ok_bind, if_neg (by rw [hV.nonlinear]; decide), hmode, ok_bind, hpre, hlev, ok_bind]
    dsimp only
    rw [hs, show (!false) = true from rfl, require_true, ok_bind, show ("eqp" == "eqp") = true from rfl,
      require_true, ok_bind, hget, ok_bind, show loadEqp V.setup V.topo f = .ok (r.comps, r.itf) from hload,
      ok_bind, hout, ok_bind, hfo, ok_bind, hg1, ok_bind]
    rfl
  · show (if _ then _ else _) = _
    rw [if_pos rfl]
  · intro n hne
    show (if _ then _ else _) = _
    rw [if_neg hne]
  · intro c2 c1 k hn hk
    have hc2 := (List.getElem?_eq_some_iff.1 hn).1
    obtain ⟨c1', k', f0, v, F, a1, a2, a3, a4, a5, a6, a7⟩ := hcomp c2 hc2
    have hnn : k.name = k'.name := by rw [hn] at a1; exact Option.some.inj a1
    have hcc : c1 = c1' := by
      have hlt := (List.getElem?_eq_some_iff.1 hk).1
      refine (List.getElem?_inj (by simpa using hlt) hT.names).1 ?_
      rw [List.getElem?_map, List.getElem?_map, hk, a2, Option.map_some, Option.map_some, hnn]
    subst hcc
    obtain ⟨F1, b1, b2⟩ := hform c2 hc2
    rw [a5] at b1; cases b1
    obtain ⟨F2, v2, e1, e2, e3⟩ := hsm c2 hc2
    rw [a5] at e1; cases e1
    rw [a6.samples] at e2; cases e2
    obtain ⟨entry, t1, t2⟩ := hg3 c2 k.name F v hn b2 e3
    refine ⟨f0, v, entry, a3, a4, t1, ?_⟩
    intro i s x hs hx j y hy hj
    exact (t2 i s x hs ((a7 s x).2 hx)).1 j y hy hj

omit [LinearOrder R] in
/-- A printing run with a linear solver writes nothing. -/
theorem linear_prints_nothing {c : Conv} {cfg : Node} {V : Printer R X} (hu : V.useRom = true)
    (hn : V.nonlinear = false) (junk : Nat → Nat → Nat → R) (d : Disk R) :
    printEQP c cfg V junk d = .ok d := by
  unfold printEQP
  rw [hu, require_true, ok_bind, if_pos hn]
  rfl

omit [LinearOrder R] in
/-- A printing run that ends normally had a linear solver and wrote nothing, or loaded the samples under its
prefix and wrote one file. -/
theorem print_cases {c : Conv} {cfg : Node} {V : Printer R X} {junk : Nat → Nat → Nat → R} {d d' : Disk R}
    (h : printEQP c cfg V junk d = .ok d') :
    (V.nonlinear = false ∧ d' = d) ∨
      (V.nonlinear = true ∧ V.submesh = false ∧
        option c.str (key "model_reduction/nonlinear_handling") "none" cfg = .ok "eqp" ∧
        ∃ pre f out g, readLevel c cfg = .ok (.component, pre) ∧ d (pre ++ ".eqp.h5") = some f ∧
          required c.str (key "model_reduction/eqp/save_coords") cfg = .ok out ∧ d' out = some g ∧
          ∀ n, n ≠ out → d' n = d n) := by
  unfold printEQP at h
  obtain ⟨⟨⟩, -, h⟩ := bind_eq_ok.1 h
  cases hn : V.nonlinear with
  | false =>
    rw [if_pos hn] at h
    exact Or.inl ⟨rfl, (Except.ok.inj h).symm⟩
  | true =>
    rw [if_neg (by rw [hn]; decide)] at h
    obtain ⟨s, hs, h⟩ := bind_eq_ok.1 h
    obtain ⟨⟨lv, pre⟩, hl, h⟩ := bind_eq_ok.1 h
    cases lv with
    | none => cases h
    | global => cases h
    | component =>
      obtain ⟨⟨⟩, hm, h⟩ := bind_eq_ok.1 h
      obtain ⟨⟨⟩, he, h⟩ := bind_eq_ok.1 h
      obtain ⟨f, hf, h⟩ := bind_eq_ok.1 h
      obtain ⟨si, -, h⟩ := bind_eq_ok.1 h
      obtain ⟨out, ho, h⟩ := bind_eq_ok.1 h
      obtain ⟨forms, -, h⟩ := bind_eq_ok.1 h
      obtain ⟨g, -, h⟩ := bind_eq_ok.1 h
      obtain rfl := Except.ok.inj h
      have hsub : V.submesh = false := by
        cases hc : V.submesh with
        | true => rw [hc] at hm; cases hm
        | false => rfl
      have hse : s = "eqp" := by
        by_contra hc
        rw [show (s == "eqp") = false by simpa using hc] at he
        cases he
      refine Or.inr ⟨rfl, hsub, hse ▸ hs, pre, f, out, g, hl, ?_, ho, ?_, ?_⟩
      · unfold Pipeline.Disk.get at hf
        cases hd : d (pre ++ ".eqp.h5") with
        | none => rw [hd] at hf; cases hf
        | some x => rw [hd] at hf; obtain rfl := Except.ok.inj hf; rfl
      · show (if _ then _ else _) = _
        rw [if_pos rfl]
      · intro n hne
        show (if _ then _ else _) = _
        rw [if_neg hne]

end

/-! ## A concrete case -/

/-- A run that prints the components B and A, in that order, in the plane. -/
def exV : Printer ℚ Nat where
  nonlinear := true
  useRom := true
  submesh := false
  setup := ⟨["B", "A"], [2, 2], .base, true⟩
  topo := ⟨["B", "A"], [⟨1, 0, 1, 2⟩], [0, 0]⟩
  rule := [3, 5]
  elems := [[fun p => [p, 10], fun p => [p, 20]], [fun p => [p, 30], fun p => [p, 40]]]

/-- The configuration of the printing run. -/
def exPrint (handling lvl : String) : Node :=
  .map [(key "model_reduction", .map [(key "nonlinear_handling", .scalar handling.toList),
    (key "save_operator", .map [(key "level", .scalar lvl.toList), (key "prefix", .scalar (key "rom"))]),
    (key "eqp", .map [(key "save_coords", .scalar (key "xy.h5"))])])]

theorem exV_point {c : Nat} {el qp : Int} {x : List ℚ} (h : PointAt exV c el qp x) : x.length = 2 := by
  obtain ⟨e, q, els, t, p, -, -, h1, h2, -, rfl⟩ := h
  match c, e with
  | 0, 0 => cases h1; cases h2; rfl
  | 0, 1 => cases h1; cases h2; rfl
  | 1, 0 => cases h1; cases h2; rfl
  | 1, 1 => cases h1; cases h2; rfl
  | 0, e + 2 => cases h1; cases h2
  | 1, e + 2 => cases h1; cases h2
  | c + 2, _ => cases h1

theorem exV_matches : Matches 2 (exT .base) exV where
  nonlinear := rfl
  useRom := rfl
  suits := {
    oper := rfl
    fullDg := rfl
    submesh := rfl
    nbdr := rfl
    fewer := by decide
    comps := (exL_suits .base).comps
    bdr := ⟨by simp [loader], rfl, by simp [loader], rfl, by simp [loader]⟩
    ports := fun h => by cases h }
  distinct := by decide
  meshes := rfl
  lf h := by cases h
  dim _ _ _ _ h := exV_point h

/-- What is trained for the two components. -/
theorem exTrained (c : Nat) (hc : c < 2) :
    ((trainComp (exT .base) (1 / 100) exStore c).map fun f => samplesAt f .domain 0) =
      .ok (some (if c = 0 then [⟨0, 0, 82⟩, ⟨1, 0, 82⟩] else [⟨0, 0, 42⟩, ⟨1, 0, 42⟩])) := by
  match c, hc with
  | 0, _ => decide +kernel
  | 1, _ => decide +kernel

theorem exV_fit (c2 c1 : Nat) (k : Comp) (f : Eqp.Form Unit ℚ) (v : List (Sample ℚ))
    (hn : exV.setup.names[c2]? = some k.name) (hk : (exT .base).comps[c1]? = some k)
    (hf : trainComp (exT .base) (1 / 100) exStore c1 = .ok f) (hv : samplesAt f .domain 0 = some v) :
    v ≠ [] ∧ ∀ s ∈ v, ∃ x, PointAt exV c2 s.el s.qp x := by
  have hc1 : c1 < 2 := (List.getElem?_eq_some_iff.1 hk).1
  have ht := exTrained c1 hc1
  rw [hf] at ht
  have hv' := Except.ok.inj ht
  dsimp only at hv'
  rw [hv] at hv'
  have hvv := Option.some.inj hv'
  have hc2 : c2 < 2 := (List.getElem?_eq_some_iff.1 hn).1
  have hp : ∀ e : Nat, e < 2 → ∃ x, PointAt exV c2 e 0 x := by
    intro e he
    match c2, hc2, e, he with
    | 0, _, 0, _ => exact ⟨_, 0, 0, _, _, _, rfl, rfl, rfl, rfl, rfl, rfl⟩
    | 0, _, 1, _ => exact ⟨_, 1, 0, _, _, _, rfl, rfl, rfl, rfl, rfl, rfl⟩
    | 1, _, 0, _ => exact ⟨_, 0, 0, _, _, _, rfl, rfl, rfl, rfl, rfl, rfl⟩
    | 1, _, 1, _ => exact ⟨_, 1, 0, _, _, _, rfl, rfl, rfl, rfl, rfl, rfl⟩
  match c1, hc1 with
  | 0, _ =>
    rw [if_pos rfl] at hvv
    subst hvv
    refine ⟨by simp, fun s hs => ?_⟩
    simp only [List.mem_cons, List.not_mem_nil, or_false] at hs
    rcases hs with rfl | rfl
    · exact hp 0 (by decide)
    · exact hp 1 (by decide)
  | 1, _ =>
    rw [if_neg (by decide)] at hvv
    subst hvv
    refine ⟨by simp, fun s hs => ?_⟩
    simp only [List.mem_cons, List.not_mem_nil, or_false] at hs
    rcases hs with rfl | rfl
    · exact hp 0 (by decide)
    · exact hp 1 (by decide)

/-- The hypotheses of `trained_coords_printed` are met. -/
example (d' : Disk ℚ) (h : exTrain .base (exCfg "eqp" "component") = .ok d') :=
  trained_coords_printed (exT_ok .base) h rfl (tol := 1 / 100) (by decide +kernel) (cfg2 := exPrint "eqp" "component")
    exV_matches (d2 := d') (by decide +kernel) (by decide +kernel) (out := "xy.h5") (by decide +kernel)
    (fun _ _ => rfl) exV_fit (fun _ _ _ => 77)

/-- The tables of B and A after training and printing, the third column being what memory held. -/
example : (do
    let d ← exTrain .base (exCfg "eqp" "component")
    let d ← printEQP Options.exConv (exPrint "eqp" "component") exV (fun _ _ _ => 77) d
    let g ← d.get "xy.h5"
    let b ← readDense g ["B_integ0", "components"] "coords" ⟨0, 0, []⟩
    let a ← readDense g ["A_integ0", "components"] "coords" ⟨0, 0, []⟩
    return (b.data, a.data)) = .ok ([3, 3, 10, 20, 77, 77], [3, 3, 30, 40, 77, 77]) := by decide +kernel

/-- Printing stops without trained samples, with another handling, or at another level. -/
example : ((printEQP Options.exConv (exPrint "eqp" "component") exV (fun _ _ _ => 77) (fun _ => none)).map fun _ => ()) =
      .error .abort ∧
    ((do
      let d ← exTrain .base (exCfg "eqp" "component")
      printEQP Options.exConv (exPrint "tensor" "component") exV (fun _ _ _ => 77) d) >>= fun _ => pure ()) =
      .error .abort ∧
    ((do
      let d ← exTrain .base (exCfg "eqp" "component")
      printEQP Options.exConv (exPrint "eqp" "global") exV (fun _ _ _ => 77) d) >>= fun _ => pure ()) =
      .error .abort := by decide +kernel

end Verif.PrintEqp
