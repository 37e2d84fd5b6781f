import Verif.Proofs.Visual

/-!
# C97: visualisation files show the solution

* `individual_history`, `unified_history`: whatever a program computes, compares and saves.
* `skipped_null`: saving with cycle and time while some subdomain is not asked for.
* `advdiff_shows`, `advdiff_skipped`: the flow beside the concentration.
* `error_signed`: the error field has a sign.
* `basis_shows`, `basis_separate_wrong`: the basis vectors.
-/

namespace Verif.Visual

open Verif Verif.LinAlg Verif.LinAlg.Spec Verif.Visual.Spec

variable {R T : Type}

theorem init_individual {su : Setup} {o : Opts} {path : String} {junk : Nat → Nat → R} {s : St R T}
    (hs : Sensible o su.numSub) (hsave : o.save = true) (hu : o.unified = false) (hn : Named o path) :
    init su o path junk s = .ok { s with
      err := if o.saveError then fresh s.us.length (fun k => (nth s.us k).length) junk else s.err
      colls := collsOf su o (prefixOf o path) none fun _ => [] } := by
  unfold init
  rw [hsave, if_pos rfl, hu]
  have : (path != "" || (o.pre != "" && o.dir != "")) = true := by
    rcases hn with h | ⟨h, h'⟩
    · simp [h]
    · simp [h, h']
  have hp : (if path != "" then path else o.dir ++ "/" ++ o.pre) = prefixOf o path := by
    unfold prefixOf
    by_cases h : path = "" <;> simp [h]
  rw [this, require_true, ok_bind]
  simp only [Bool.false_eq_true, if_false, hp]
  exact initIndividual_ok hs _ junk s

theorem run_individual [Sub R] {su : Setup} {o : Opts} (hs : Sensible o su.numSub) (hsave : o.save = true)
    (hu : o.unified = false) (pre : String) :
    ∀ (es : List (Event R T)) (st : Option (Int × T)) (s : St R T) (err : List (List R)),
    (∀ e ∈ es, EventOk (Complete su) e) → (Timed es → ∀ m, m < su.numSub → Selected o m) →
    s.colls = collsOf su o pre st (fun _ => []) → Complete su s.us →
    (o.saveError = true → s.err = err ∧ Complete su s.err) →
    ∃ s' out, run su o es s = .ok s' ∧ s'.out = s.out ++ out ∧
      Pictures (fun st us err fs => fs = subFiles su o pre st us err) es st s.us err out := by
  intro es
  induction es with
  | nil => intro st s err _ _ _ _ _; exact ⟨s, [], rfl, by simp, rfl⟩
  | cons e es ih =>
    intro st s err hev ht hc hus herr
    have hev' : ∀ e ∈ es, EventOk (Complete su) e := fun e h => hev e (List.mem_cons_of_mem _ h)
    have he := hev e List.mem_cons_self
    have hsav : ∀ (st : Option (Int × T)) (s : St R T), s.colls = collsOf su o pre st (fun _ => []) →
        Complete su s.us → (o.saveError = true → s.err = err ∧ Complete su s.err) →
        saveVis su o s = .ok { s with out := s.out ++ subFiles su o pre st s.us err } := by
      intro st s hc hus herr
      rw [saveVis_ok hs hsave hu hc hus (fun h => (herr h).2) (by simp), ← subFiles_congr fun h => (herr h).1]
      unfold subFiles
      simp
    cases e with
    | solve us =>
      obtain ⟨s', out, h1, h2, h3⟩ := ih st { s with us := us } err hev' ht hc he herr
      exact ⟨s', out, h1, h2, h3⟩
    | compare test =>
      have hcmp := compare_ok (o := o) he hus fun h => (herr h).2
      obtain ⟨s', out, h1, h2, h3⟩ := ih st { s with err := if o.saveError then diff test s.us else s.err }
        (diff test s.us) hev' ht hc hus (fun h => ⟨by simp [h], by
          have he : Complete su test := he
          unfold Complete diff at *
          simp only [h, if_true, List.length_zipWith]
          omega⟩)
      refine ⟨s', out, ?_, h2, h3⟩
      show (Verif.Visual.compare o test s >>= _) = _
      rw [hcmp, ok_bind, h1]
    | save =>
      obtain ⟨s', out, h1, h2, h3⟩ := ih st { s with out := s.out ++ subFiles su o pre st s.us err } err hev' ht hc hus
        herr
      refine ⟨s', subFiles su o pre st s.us err ++ out, ?_, ?_, _, _, rfl, rfl, h3⟩
      · show (saveVis su o s >>= _) = _
        rw [hsav st s hc hus herr, ok_bind, h1]
      · rw [h2, List.append_assoc]
    | saveAt n t =>
      have hall := ht trivial
      have hstep : saveVisAt su o n t s = .ok { s with
          colls := collsOf su o pre (some (n, t)) fun _ => []
          out := s.out ++ subFiles su o pre (some (n, t)) s.us err } := by
        unfold saveVisAt
        rw [hsave, if_pos rfl, hc, stamp_ok hall, ok_bind, hsav (some (n, t)) { s with colls := collsOf su o pre (some (n, t)) fun _ => [] } rfl hus herr]
      obtain ⟨s', out, h1, h2, h3⟩ := ih (some (n, t)) { s with
          colls := collsOf su o pre (some (n, t)) fun _ => []
          out := s.out ++ subFiles su o pre (some (n, t)) s.us err } err hev' (fun _ => hall) rfl hus herr
      refine ⟨s', subFiles su o pre (some (n, t)) s.us err ++ out, ?_, ?_, _, _, rfl, rfl, h3⟩
      · show (saveVisAt su o n t s >>= _) = _
        rw [hstep, ok_bind, h1]
      · rw [h2, List.append_assoc]

/-- The individual view.  After setting up, whatever is solved, compared and saved: every save writes one file for
each subdomain asked for, holding the values the variables have then and, if asked for, the difference to the solution
compared with last (before the first comparison: whatever was in memory). -/
theorem individual_history_partial [Sub R] {su : Setup} {o : Opts} {path : String} {junk : Nat → Nat → R} {s : St R T}
    (es : List (Event R T)) (hs : Sensible o su.numSub) (hsave : o.save = true) (hu : o.unified = false)
    (hn : Named o path) (hus : Complete su s.us) (hev : ∀ e ∈ es, EventOk (Complete su) e)
    (ht : Timed es → ∀ m, m < su.numSub → Selected o m) :
    ∃ s1 s2 out, init su o path junk s = .ok s1 ∧ run su o es s1 = .ok s2 ∧ s2.out = s.out ++ out ∧
      Pictures (fun st us err fs => fs = subFiles su o (prefixOf o path) st us err) es none s.us
        (fresh s.us.length (fun k => (nth s.us k).length) junk) out := by
  obtain ⟨s2, out, h1, h2, h3⟩ := run_individual hs hsave hu (prefixOf o path) es none { s with
      err := if o.saveError then fresh s.us.length (fun k => (nth s.us k).length) junk else s.err
      colls := collsOf su o (prefixOf o path) none fun _ => [] }
      (fresh s.us.length (fun k => (nth s.us k).length) junk) hev ht rfl hus
      (fun h => ⟨by simp [h], by simpa [h, Complete, fresh] using hus⟩)
  exact ⟨_, s2, out, init_individual hs hsave hu hn, h1, h2, h3⟩

/-- VIOLATION: with cycle and time, while some subdomain is not asked for, the collection that was never made is
dereferenced. -/
theorem skipped_null {su : Setup} {o : Opts} {path : String} {junk : Nat → Nat → R} {s s1 : St R T} {n : Int} {t : T}
    (hs : Sensible o su.numSub) (hsave : o.save = true) (hu : o.unified = false) (hn : Named o path)
    (hskip : ∃ m, m < su.numSub ∧ ¬ Selected o m) (h : init su o path junk s = .ok s1) :
    saveVisAt su o n t s1 = .error .ub := by
  rw [init_individual hs hsave hu hn] at h
  injection h with h
  subst h
  unfold saveVisAt
  rw [hsave, if_pos rfl]
  dsimp only
  have hl : (collsOf (T := T) su o (prefixOf o path) none fun _ => []).length = su.numSub := by simp [collsOf]
  rw [hl, loop_fault .ub (fun cs => cs.length = su.numSub ∧ ∀ m : Nat, m < su.numSub → ¬ Selected o m →
    cs[m]? = some none)]
  · rfl
  · refine ⟨hl, fun m hm hsel => ?_⟩
    unfold collsOf
    rw [List.getElem?_map, List.getElem?_range hm]
    simp [hsel]
  · rintro k u hk ⟨h1, h2⟩
    rw [rd_of_lt (by omega), ok_bind]
    cases hc : u[k] with
    | none => right; rfl
    | some c =>
      left
      refine ⟨u.set k (some { c with stamp := some (n, t) }), ?_, by simpa using h1, fun m hm hsel => ?_⟩
      · show (Except.ok c >>= _) = _
        rw [ok_bind, wr_of_lt (by omega)]
      · rw [List.getElem?_set_ne]
        · exact h2 m hm hsel
        · rintro rfl
          have := h2 k hm hsel
          rw [List.getElem?_eq_getElem (by omega), hc] at this
          exact absurd this (by simp)
  · obtain ⟨m, hm, hsel⟩ := hskip
    refine ⟨m, hm, ?_⟩
    rintro u ⟨h1, h2⟩
    have := h2 m hm hsel
    rw [rd_eq_ok.2 this, ok_bind]
    rfl

/-! ### The unified view -/

/-- The collection of the unified view. -/
def unifiedColl (su : Setup) (o : Opts) (pre : String) (st : Option (Int × T)) (extra : List (String × Ref)) : Coll T :=
  ⟨pre, none, refs su.names o.saveError .global .globalErr ++ extra, st⟩

/-- The fields of the parent mesh have the sizes of its spaces. -/
def GlobalOk (su : Setup) (g : List (List R)) : Prop :=
  g.length = su.names.length ∧ ∀ v, v < su.names.length → (nth g v).length = su.globalSize v

theorem init_unified {su : Setup} {o : Opts} {path : String} {junk : Nat → Nat → R} {s : St R T}
    (hsave : o.save = true) (hu : o.unified = true) (hc : o.component = false) (hn : Named o path) :
    init su o path junk s = .ok { s with
      err := if o.saveError then fresh s.us.length (fun k => (nth s.us k).length) junk else s.err
      global := fresh su.names.length su.globalSize junk
      globalErr := if o.saveError then fresh su.names.length su.globalSize junk else s.globalErr
      colls := [some (unifiedColl su o (prefixOf o path) none [])] } := by
  unfold init
  rw [hsave, if_pos rfl, hu]
  have : (path != "" || (o.pre != "" && o.dir != "")) = true := by
    rcases hn with h | ⟨h, h'⟩
    · simp [h]
    · simp [h, h']
  have hp : (if path != "" then path else o.dir ++ "/" ++ o.pre) = prefixOf o path := by
    unfold prefixOf
    by_cases h : path = "" <;> simp [h]
  rw [this, require_true, ok_bind]
  simp only [if_true, hp]
  unfold initUnified
  rw [hc, fieldsOf_ok]
  unfold unifiedColl
  rw [List.append_nil]
  rfl

theorem saveVis_unified {su : Setup} {o : Opts} (hpl : Placed su) (hsave : o.save = true) (hu : o.unified = true)
    {pre : String} {st : Option (Int × T)} {extra : List (String × Ref)} {s : St R T}
    (hc : s.colls = [some (unifiedColl su o pre st extra)]) (hus : Sized su s.us)
    (hg : GlobalOk su s.global) (herr : o.saveError = true → Sized su s.err ∧ GlobalOk su s.globalErr)
    (hex : extra = [] ∨ extra = [("flow", .globalFlow)] ∧ s.globalFlow.isSome = true) :
    ∃ g ge, saveVis su o s = .ok { s with global := g, globalErr := ge, out := s.out ++
        [⟨pre, none, st, fieldsFor su.names o.saveError (nth g) (nth ge) ++ extra.map fun x => (x.1, val s x.2)⟩] } ∧
      GlobalOk su g ∧ ShowsAll su s.us g ∧ (o.saveError = true → GlobalOk su ge ∧ ShowsAll su s.err ge) := by
  obtain ⟨g, h1, h2, h3⟩ := transferToGlobal_ok hpl hus hg.1 hg.2
  obtain ⟨ge, h4, h5⟩ : ∃ ge, (if o.saveError then transferToGlobal su.numSub su.names.length su.map s.err s.globalErr
      else .ok s.globalErr) = .ok ge ∧ (o.saveError = true → GlobalOk su ge ∧ ShowsAll su s.err ge) := by
    cases he : o.saveError
    · exact ⟨s.globalErr, rfl, by simp⟩
    · obtain ⟨ge, a, b, c⟩ := transferToGlobal_ok hpl (herr he).1 (herr he).2.1 (herr he).2.2
      exact ⟨ge, a, fun _ => ⟨⟨b, fun v hv => (c v hv).1⟩, c⟩⟩
  refine ⟨g, ge, ?_, ⟨h2, fun v hv => (h3 v hv).1⟩, h3, h5⟩
  unfold saveVis
  rw [hsave, if_pos rfl, hu]
  simp only [if_true, h1, ok_bind, h4, Bool.not_true, Bool.false_and, Bool.false_eq_true, if_false]
  show (Except.ok _ >>= _) = _
  rw [ok_bind]
  simp only [hc, List.length_singleton]
  show (loopFrom _ 0 1 _) = _
  rw [loopFrom]
  have hw : ({ s with global := g, globalErr := ge } : St R T).write (unifiedColl su o pre st extra) =
      .ok { s with global := g, globalErr := ge, out := s.out ++ [⟨pre, none, st,
        fieldsFor su.names o.saveError (nth g) (nth ge) ++ extra.map fun x => (x.1, val s x.2)⟩] } := by
    have hv : ∀ v, v < su.names.length → ({ s with global := g, globalErr := ge } : St R T).read (.global v) =
        .ok (nth g v) := fun v hv => rd_nth (by rw [h2]; exact hv)
    have hve : o.saveError = true → ∀ v, v < su.names.length →
        ({ s with global := g, globalErr := ge } : St R T).read (.globalErr v) = .ok (nth ge v) :=
      fun e v hv => rd_nth (by rw [(h5 e).1.1]; exact hv)
    rw [write_ok (x := val { s with global := g, globalErr := ge })]
    · unfold unifiedColl
      dsimp only
      rw [List.map_append, map_refs, fieldsFor_congr (v' := nth g) (w' := nth ge)]
      · rcases hex with rfl | ⟨rfl, _⟩ <;> rfl
      · intro v hv'
        unfold val; rw [hv v hv']
      · intro e v hv'
        unfold val; rw [hve e v hv']
    · intro f hf
      refine read_val ?_
      rcases List.mem_append.1 hf with hf | hf
      · obtain ⟨v, hv', h | ⟨e, h⟩⟩ := mem_refs hf
        · rw [h]; exact ⟨_, hv v hv'⟩
        · rw [h]; exact ⟨_, hve e v hv'⟩
      · rcases hex with rfl | ⟨rfl, hs⟩
        · simp at hf
        · simp at hf
          subst hf
          obtain ⟨x, hx⟩ := Option.isSome_iff_exists.1 hs
          refine ⟨x, ?_⟩
          show deref s.globalFlow = _
          rw [hx]; rfl
  have : (rd ([some (unifiedColl su o pre st extra)] : List (Option (Coll T))) 0) =
      .ok (some (unifiedColl su o pre st extra)) := rfl
  rw [hc] at hw
  simp only [this, ok_bind, nonNull, hw]
  rfl

theorem run_unified [Sub R] {su : Setup} {o : Opts} (hpl : Placed su) (hsave : o.save = true)
    (hu : o.unified = true) (pre : String) :
    ∀ (es : List (Event R T)) (st : Option (Int × T)) (s : St R T) (err : List (List R)),
    (∀ e ∈ es, EventOk (Sized su) e) →
    s.colls = [some (unifiedColl su o pre st [])] → Sized su s.us → GlobalOk su s.global →
    (o.saveError = true → s.err = err ∧ Sized su s.err ∧ GlobalOk su s.globalErr) →
    ∃ s' out, run su o es s = .ok s' ∧ s'.out = s.out ++ out ∧
      Pictures (fun st us err fs => ∃ f, fs = [f] ∧ UnifiedFile su o pre st us err f) es st s.us err out := by
  intro es
  induction es with
  | nil => intro st s err _ _ _ _ _; exact ⟨s, [], rfl, by simp, rfl⟩
  | cons e es ih =>
    intro st s err hev hc hus hg herr
    have hev' : ∀ e ∈ es, EventOk (Sized su) e := fun e h => hev e (List.mem_cons_of_mem _ h)
    have he := hev e List.mem_cons_self
    have hsav : ∀ (st : Option (Int × T)) (s : St R T), s.colls = [some (unifiedColl su o pre st [])] →
        Sized su s.us → GlobalOk su s.global →
        (o.saveError = true → s.err = err ∧ Sized su s.err ∧ GlobalOk su s.globalErr) →
        ∃ s' f, saveVis su o s = .ok s' ∧ s'.out = s.out ++ [f] ∧ UnifiedFile su o pre st s.us err f ∧
          s'.colls = s.colls ∧ s'.us = s.us ∧ s'.err = s.err ∧ GlobalOk su s'.global ∧
          (o.saveError = true → GlobalOk su s'.globalErr) := by
      intro st s hc hus hg herr
      obtain ⟨g, ge, h1, h2, h3, h4⟩ := saveVis_unified hpl hsave hu hc hus hg (fun h => (herr h).2) (.inl rfl)
      refine ⟨_, _, h1, rfl, ⟨rfl, rfl, rfl, g, ge, by simp, h3, fun e => ?_⟩, rfl, rfl, rfl, h2, fun e => (h4 e).1⟩
      have := (h4 e).2
      rwa [(herr e).1] at this
    cases e with
    | solve us =>
      obtain ⟨s', out, h1, h2, h3⟩ := ih st { s with us := us } err hev' hc he hg herr
      exact ⟨s', out, h1, h2, h3⟩
    | compare test =>
      have hcmp := compare_ok (o := o) (show Sized su test from he).1 hus.1 fun h => (herr h).2.1.1
      obtain ⟨s', out, h1, h2, h3⟩ := ih st { s with err := if o.saveError then diff test s.us else s.err }
        (diff test s.us) hev' hc hus hg (fun h => ⟨by simp [h], by
          simp only [h, if_true]; exact diff_sized he hus, (herr h).2.2⟩)
      refine ⟨s', out, ?_, h2, h3⟩
      show (Verif.Visual.compare o test s >>= _) = _
      rw [hcmp, ok_bind, h1]
    | save =>
      obtain ⟨s1, f, a1, a2, a3, a4, a5, a6, a7, a8⟩ := hsav st s hc hus hg herr
      obtain ⟨s', out, h1, h2, h3⟩ := ih st s1 err hev' (a4.trans hc) (a5 ▸ hus) a7
        (fun e => by rw [a6]; exact ⟨(herr e).1, (herr e).2.1, a8 e⟩)
      rw [a5] at h3
      refine ⟨s', [f] ++ out, ?_, ?_, _, _, rfl, ⟨f, rfl, a3⟩, h3⟩
      · show (saveVis su o s >>= _) = _
        rw [a1, ok_bind, h1]
      · rw [h2, a2, List.append_assoc]
    | saveAt n t =>
      obtain ⟨s1, f, a1, a2, a3, a4, a5, a6, a7, a8⟩ := hsav (some (n, t))
        { s with colls := [some (unifiedColl su o pre (some (n, t)) [])] } rfl hus hg herr
      obtain ⟨s', out, h1, h2, h3⟩ := ih (some (n, t)) s1 err hev' a4 (a5 ▸ hus) a7
        (fun e => by rw [a6]; exact ⟨(herr e).1, (herr e).2.1, a8 e⟩)
      rw [a5] at h3
      refine ⟨s', [f] ++ out, ?_, ?_, _, _, rfl, ⟨f, rfl, a3⟩, h3⟩
      · show (saveVisAt su o n t s >>= _) = _
        unfold saveVisAt
        rw [hsave, if_pos rfl, hc]
        show ((saveVis su o { s with colls := [some (unifiedColl su o pre (some (n, t)) [])] }) >>= _) = _
        rw [a1, ok_bind, h1]
      · rw [h2, a2, List.append_assoc]

/-- The unified view: every save writes one file, the fields of which show on the parent mesh the values the variables
have then and, if asked for, the difference to the solution compared with last. -/
theorem unified_history [Sub R] {su : Setup} {o : Opts} {path : String} {junk : Nat → Nat → R} {s : St R T}
    (es : List (Event R T)) (hpl : Placed su) (hsave : o.save = true) (hu : o.unified = true)
    (hc : o.component = false) (hn : Named o path) (hus : Sized su s.us) (hev : ∀ e ∈ es, EventOk (Sized su) e) :
    ∃ s1 s2 out, init su o path junk s = .ok s1 ∧ run su o es s1 = .ok s2 ∧ s2.out = s.out ++ out ∧
      Pictures (fun st us err fs => ∃ f, fs = [f] ∧ UnifiedFile su o (prefixOf o path) st us err f) es none s.us
        (fresh s.us.length (fun k => (nth s.us k).length) junk) out := by
  have hf : ∀ junk' : Nat → Nat → R, GlobalOk su (fresh su.names.length su.globalSize junk') :=
    fun junk' => ⟨by simp [fresh], fun v hv => nth_fresh hv⟩
  obtain ⟨s2, out, h1, h2, h3⟩ := run_unified hpl hsave hu (prefixOf o path) es none { s with
      err := if o.saveError then fresh s.us.length (fun k => (nth s.us k).length) junk else s.err
      global := fresh su.names.length su.globalSize junk
      globalErr := if o.saveError then fresh su.names.length su.globalSize junk else s.globalErr
      colls := [some (unifiedColl su o (prefixOf o path) none [])] }
      (fresh s.us.length (fun k => (nth s.us k).length) junk) hev rfl hus (hf junk)
      (fun h => ⟨by simp [h], by
        simp only [h, if_true]
        refine ⟨by simpa [Complete, fresh] using hus.1, fun m v hm hv => ?_⟩
        rw [nth_fresh (by rw [hus.1]; exact idx_lt hv hm)]
        exact hus.2 m v hm hv, by simp only [h, if_true]; exact hf junk⟩)
  exact ⟨_, s2, out, init_unified hsave hu hc hn, h1, h2, h3⟩

/-- Subdomains that are components have no parent mesh: the program stops. -/
theorem unified_component {su : Setup} {o : Opts} {path : String} {junk : Nat → Nat → R} {s : St R T}
    (hsave : o.save = true) (hu : o.unified = true) (hc : o.component = true) :
    init su o path junk s = .error .abort := by
  unfold init
  rw [hsave, if_pos rfl, hu]
  by_cases h : (path != "" || (o.pre != "" && o.dir != "")) = true
  · rw [h, require_true, ok_bind]
    simp only [if_true]
    unfold initUnified
    rw [hc]
    rfl
  · rw [Bool.not_eq_true] at h
    rw [h]
    rfl

/-- Without a file name the program stops. -/
theorem unnamed_stops {su : Setup} {o : Opts} {path : String} {junk : Nat → Nat → R} {s : St R T}
    (hsave : o.save = true) (hn : ¬ Named o path) : init su o path junk s = .error .abort := by
  unfold init
  rw [hsave, if_pos rfl]
  unfold Named at hn
  have : (path != "" || (o.pre != "" && o.dir != "")) = false := by
    rw [← Bool.not_eq_true]
    intro h
    apply hn
    simpa using h
  rw [this]
  rfl

/-- A choice of subdomains that makes no sense stops the program. -/
theorem insensible_stops {su : Setup} {o : Opts} {path : String} {junk : Nat → Nat → R} {s : St R T}
    (hsave : o.save = true) (hu : o.unified = false) (hs : ¬ Sensible o su.numSub) :
    init su o path junk s = .error .abort := by
  unfold init
  rw [hsave, if_pos rfl, hu]
  by_cases h : (path != "" || (o.pre != "" && o.dir != "")) = true
  · rw [h, require_true, ok_bind]
    simp only [Bool.false_eq_true, if_false]
    unfold initIndividual selection
    by_cases h1 : 0 ≤ o.offset ∧ o.offset < su.numSub
    · have h2 : ¬ (0 < o.interval ∧ o.interval ≤ su.numSub) := fun h2 => hs ⟨h1.1, h1.2, h2.1, h2.2⟩
      rw [decide_eq_true h1, decide_eq_false h2]
      rfl
    · rw [decide_eq_false h1]
      rfl
  · rw [Bool.not_eq_true] at h
    rw [h]
    rfl

/-- Nothing is written when visualisation is off. -/
theorem off_nothing [Sub R] {su : Setup} {o : Opts} {path : String} {junk : Nat → Nat → R} {s : St R T} {n : Int} {t : T}
    (hsave : o.save = false) : init su o path junk s = .ok s ∧ saveVis su o s = .ok s ∧
      saveVisAt su o n t s = .ok s := by
  unfold init saveVis saveVisAt
  rw [hsave]
  exact ⟨rfl, rfl, rfl⟩

/-! ### The flow beside the concentration -/

theorem flows_ok (n : Nat) (flow : Nat → List R) :
    (loop n (fun m fl => do
      let f ← nonNull (some (flow m))
      return fl ++ [f]) [] : Outcome (List (List R))) = .ok ((List.range n).map flow) := by
  rw [loop_flatMap (fun m => [flow m]) []]
  · simp [← List.map_eq_flatMap]
  · intro k acc _
    rfl

/-- The individual view of the advection-diffusion solver: the files of the solution, with the flow beside it. -/
theorem advdiff_shows_partial {su : Setup} {o : Opts} {path : String} {junk : Nat → Nat → R} {s s1 : St R T}
    {us : List (List R)} {flow : Nat → List R} {size : Nat} {junk' : Nat → R} (hs : Sensible o su.numSub)
    (hsave : o.save = true) (hu : o.unified = false) (hn : Named o path) (hus0 : Complete su s.us)
    (hus : Complete su us) (hall : ∀ m, m < su.numSub → Selected o m) (h : init su o path junk s = .ok s1) :
    ∃ s2, saveAdvDiff su o (fun m => some (flow m)) size junk' { s1 with us := us } = .ok s2 ∧ s2.out = s.out ++
      (List.range su.numSub).map fun m =>
        let f := subFile su o (prefixOf o path) none us s1.err m
        { f with fields := f.fields ++ [("flow", flow m)] } := by
  rw [init_individual hs hsave hu hn] at h
  injection h with h
  subst h
  unfold saveAdvDiff
  rw [hsave, if_pos rfl]
  dsimp only
  have hl : (collsOf (T := T) su o (prefixOf o path) none fun _ => []).length = su.numSub := by simp [collsOf]
  have hpos : 0 < su.numSub := by have := hs.1; have := hs.2.1; omega
  have hsome : (collsOf (T := T) su o (prefixOf o path) none fun _ => []).all Option.isSome = true := by
    rw [List.all_eq_true]
    intro c hc
    unfold collsOf at hc
    obtain ⟨m, hm, rfl⟩ := List.mem_map.1 hc
    rw [if_pos (hall m (List.mem_range.1 hm))]
    rfl
  rw [hl, decide_eq_true hpos, require_true, ok_bind, hsome, require_true, ok_bind, flows_ok, ok_bind, hu]
  simp only [Bool.false_eq_true, if_false]
  rw [register_ok hall fun m => ("flow", .flow m), ok_bind]
  have hfl : ∀ m, m < su.numSub → rd ((List.range su.numSub).map flow) m = .ok (flow m) := by
    intro m hm
    rw [rd_of_lt (by simpa using hm)]
    simp
  rw [saveVis_ok (pre := prefixOf o path) (st := none) (extra := fun m => [("flow", .flow m)]) hs hsave hu rfl hus]
  · refine ⟨_, rfl, ?_⟩
    dsimp only
    congr 1
    rw [List.filter_eq_self.2 fun m hm => decide_eq_true (hall m (List.mem_range.1 hm))]
    refine List.map_congr_left fun m hm => ?_
    simp only [List.map_cons, List.map_nil]
    have : val (⟨us, if o.saveError then fresh s.us.length (fun k => (nth s.us k).length) junk else s.err,
        s.global, s.globalErr, (List.range su.numSub).map flow, s.globalFlow,
        collsOf su o (prefixOf o path) none fun m => [("flow", .flow m)], s.out⟩ : St R T) (.flow m) = flow m := by
      unfold val St.read
      dsimp only
      rw [hfl m (List.mem_range.1 hm)]
    rw [this]
  · intro e
    simp only [e, if_true]
    simpa [Complete, fresh] using hus0
  · intro m f hm _ hf
    rw [List.mem_singleton] at hf
    subst hf
    exact ⟨_, hfl m hm⟩

/-- VIOLATION: if some subdomain is not asked for, the advection-diffusion solver stops instead of writing the files
of the others. -/
theorem advdiff_skipped {su : Setup} {o : Opts} {path : String} {junk : Nat → Nat → R} {s s1 : St R T}
    {flow : Nat → Option (List R)} {size : Nat} {junk' : Nat → R} (hs : Sensible o su.numSub)
    (hsave : o.save = true) (hu : o.unified = false) (hn : Named o path)
    (hskip : ∃ m, m < su.numSub ∧ ¬ Selected o m) (h : init su o path junk s = .ok s1) :
    saveAdvDiff su o flow size junk' s1 = .error .abort := by
  rw [init_individual hs hsave hu hn] at h
  injection h with h
  subst h
  unfold saveAdvDiff
  rw [hsave, if_pos rfl]
  dsimp only
  have hl : (collsOf (T := T) su o (prefixOf o path) none fun _ => []).length = su.numSub := by simp [collsOf]
  have hpos : 0 < su.numSub := by have := hs.1; have := hs.2.1; omega
  have hsome : (collsOf (T := T) su o (prefixOf o path) none fun _ => []).all Option.isSome = false := by
    rw [← Bool.not_eq_true, List.all_eq_true]
    intro hall
    obtain ⟨m, hm, hsel⟩ := hskip
    have := hall none (by
      unfold collsOf
      refine List.mem_map.2 ⟨m, List.mem_range.2 hm, ?_⟩
      rw [if_neg hsel])
    simp at this
  rw [hl, decide_eq_true hpos, require_true, ok_bind, hsome]
  rfl

/-- The unified view of the advection-diffusion solver. -/
theorem advdiff_unified {su : Setup} {o : Opts} {path : String} {junk : Nat → Nat → R} {s s1 : St R T}
    {us : List (List R)} {flow : Nat → List R} {size : Nat} {junk' : Nat → R} (hpl : Placed su)
    (hsave : o.save = true) (hu : o.unified = true) (hc : o.component = false) (hn : Named o path)
    (hus0 : Sized su s.us) (hus : Sized su us)
    (hfl : ∀ m, m < su.numSub → (flow m).length = (su.flowMap m).length ∧ (su.flowMap m).Nodup ∧
      ∀ p ∈ su.flowMap m, p < size) (h : init su o path junk s = .ok s1) :
    ∃ s2 f fl, saveAdvDiff su o (fun m => some (flow m)) size junk' { s1 with us := us } = .ok s2 ∧
      s2.out = s.out ++ [{ f with fields := f.fields ++ [("flow", fl)] }] ∧
      UnifiedFile su o (prefixOf o path) none us s1.err f ∧ Shows su.numSub su.flowMap size flow fl := by
  rw [init_unified hsave hu hc hn] at h
  injection h with h
  subst h
  have hf : ∀ junk' : Nat → Nat → R, GlobalOk su (fresh su.names.length su.globalSize junk') :=
    fun junk' => ⟨by simp [fresh], fun v hv => nth_fresh hv⟩
  obtain ⟨gs, g1, g2, g3⟩ := transferToGlobal_ok
    (su := ⟨su.numSub, ["flow"], fun _ => size, fun m _ => su.flowMap m, su.flowMap⟩)
    (us := (List.range su.numSub).map flow) (g := [(List.range size).map junk'])
    ⟨fun m v p hm _ hp => (hfl m hm).2.2 p hp, fun m v hm _ => (hfl m hm).2.1⟩
    ⟨by simp [Complete], fun m v hm hv => by
      have : v = 0 := by simpa using hv
      subst this
      have hm : m < su.numSub := hm
      have hnth : nth ((List.range su.numSub).map flow) m = flow m := by
        unfold nth; rw [List.getElem?_map, List.getElem?_range hm]; rfl
      simp only [List.length_singleton, Nat.mul_one, Nat.add_zero, hnth]
      exact (hfl m hm).1⟩ rfl
    (fun v hv => by
      have : v = 0 := by simpa using hv
      subst this
      simp [nth])
  have hshow := g3 0 (by simp)
  have hshow : Shows su.numSub su.flowMap size flow (nth gs 0) := by
    refine ⟨hshow.1, fun m k p hm hk hlast => ?_⟩
    have := hshow.2 m k p hm hk hlast
    have hnth : nth ((List.range su.numSub).map flow) m = flow m := by
      unfold nth; rw [List.getElem?_map, List.getElem?_range hm]; rfl
    simp only [List.length_singleton, Nat.mul_one, Nat.add_zero, hnth] at this
    exact this
  unfold saveAdvDiff
  rw [hsave, if_pos rfl]
  dsimp only
  rw [decide_eq_true (by simp), require_true, ok_bind]
  simp only [List.all_cons, Option.isSome_some, List.all_nil, Bool.and_self]
  rw [require_true, ok_bind, flows_ok, ok_bind, hu]
  simp only [if_true]
  have g1' : transferToGlobal su.numSub 1 (fun m _ => su.flowMap m) ((List.range su.numSub).map flow)
      [(List.range size).map junk'] = .ok gs := g1
  rw [g1', ok_bind, rd_nth (by rw [g2]; simp), ok_bind]
  show ∃ s2 f fl, saveVis su o _ = .ok s2 ∧ _
  obtain ⟨g, ge, h1, h2, h3, h4⟩ := saveVis_unified (pre := prefixOf o path) (st := none)
    (extra := [("flow", .globalFlow)]) (s := (⟨us, if o.saveError then fresh s.us.length (fun k => (nth s.us k).length) junk else s.err,
      fresh su.names.length su.globalSize junk,
      if o.saveError then fresh su.names.length su.globalSize junk else s.globalErr,
      (List.range su.numSub).map flow, some (nth gs 0),
      [some (unifiedColl su o (prefixOf o path) none [("flow", .globalFlow)])], s.out⟩ : St R T)) hpl hsave hu rfl hus (hf junk) (fun h => by
        simp only [h, if_true]
        refine ⟨⟨by simpa [Complete, fresh] using hus0.1, fun m v hm hv => ?_⟩, hf junk⟩
        rw [nth_fresh (by rw [hus0.1]; exact idx_lt hv hm)]
        exact hus0.2 m v hm hv) (.inr ⟨rfl, rfl⟩)
  have hcoll : unifiedColl (T := T) su o (prefixOf o path) none [("flow", .globalFlow)] =
      { unifiedColl su o (prefixOf o path) none [] with
        fields := (unifiedColl (T := T) su o (prefixOf o path) none []).fields ++ [("flow", .globalFlow)] } := by
    simp [unifiedColl]
  rw [hcoll] at h1
  refine ⟨_, ⟨prefixOf o path, none, none, fieldsFor su.names o.saveError (nth g) (nth ge)⟩, nth gs 0, h1, rfl,
    ⟨rfl, rfl, rfl, g, ge, rfl, h3, fun e => (h4 e).2⟩, hshow⟩

/-! ### The error field -/

/-- VIOLATION: the field called `_abs_error` is the difference, with its sign. -/
theorem error_signed : ∃ (su : Setup) (o : Opts) (s1 s2 : St Int Unit) (f : File Int Unit) (x : List Int),
    init su o "" (fun _ _ => 0) ⟨[[2]], [], [], [], [], none, [], []⟩ = .ok s1 ∧
    run su o [.compare [[1]], .save] s1 = .ok s2 ∧ s2.out = [f] ∧ ("u_abs_error", x) ∈ f.fields ∧ x = [-1] := by
  refine ⟨⟨1, ["u"], fun _ => 1, fun _ _ => [0], fun _ => [0]⟩, ⟨true, false, true, "d", "p", 0, 1, false⟩,
    _, _, _, _, rfl, rfl, rfl, ?_, rfl⟩
  simp

/-! ### Basis vectors -/

theorem sum_take_le (z : List Nat) (v x : Nat) (h : z[v]? = some x) : (z.take v).sum + x ≤ z.sum := by
  obtain ⟨hv, rfl⟩ := List.getElem?_eq_some_iff.1 h
  have := List.sum_take_add_sum_drop z (v + 1)
  rw [List.take_succ_eq_append_getElem hv, List.sum_append] at this
  simp at this
  omega

theorem basisFields_ok {names : List String} {z : List Nat} {b : Mat R} (hz : z.length = names.length)
    (hb : b.data.length = z.sum * b.w) :
    basisFields names z b = .ok ((List.range (b.w * names.length)).map fun i =>
      ((names[i % names.length]?).getD "" ++ "_basis_" ++ toString (i / names.length),
        (b.data.drop (i / names.length * z.sum + (z.take (i % names.length)).sum)).take
          ((z[i % names.length]?).getD 0))) := by
  unfold basisFields
  set G := fun i => ((names[i % names.length]?).getD "" ++ "_basis_" ++ toString (i / names.length),
        (b.data.drop (i / names.length * z.sum + (z.take (i % names.length)).sum)).take
          ((z[i % names.length]?).getD 0)) with hG
  refine loop_spec (n := b.w) (fun k => (List.range (k * names.length)).map G) (by simp) fun k hk => ?_
  have := loop_spec (n := names.length) (s := (List.range (k * names.length)).map G)
    (body := fun v (fs : List (String × List R)) => do
      let n ← rd names v
      let zz ← rd z v
      let x ← part b.data (k * z.sum + (z.take v).sum) zz
      return fs ++ [(n ++ "_basis_" ++ toString k, x)])
    (fun v => (List.range (k * names.length + v)).map G) (by simp) fun v hv => by
      have h1 : (k * names.length + v) / names.length = k := by
        rw [Nat.mul_comm, Nat.mul_add_div (by omega), Nat.div_eq_of_lt hv, Nat.add_zero]
      have h2 : (k * names.length + v) % names.length = v := by
        rw [Nat.mul_comm, Nat.mul_add_mod, Nat.mod_eq_of_lt hv]
      have hzv : z[v]? = some (z[v]'(by omega)) := List.getElem?_eq_getElem (by omega)
      have hle := sum_take_le z v _ hzv
      rw [rd_of_lt hv, ok_bind, rd_of_lt (by omega), ok_bind]
      unfold part
      rw [if_pos, ok_bind, ← Nat.add_assoc, List.range_succ, List.map_append]
      · simp only [List.map_cons, List.map_nil, hG, h1, h2, hzv, List.getElem?_eq_getElem hv]
        rfl
      · rw [hb]
        calc k * z.sum + (z.take v).sum + z[v] ≤ k * z.sum + z.sum := by omega
          _ = z.sum * (k + 1) := by ring
          _ ≤ z.sum * b.w := Nat.mul_le_mul_left _ hk
  rw [this, Nat.succ_mul]

theorem firstOf_some {types : List Nat} {c : Nat} (h : c ∈ types) :
    ∃ m, firstOf types c = some m ∧ types[m]? = some c := by
  unfold firstOf
  obtain ⟨m, hm, rfl⟩ := List.getElem_of_mem h
  obtain ⟨m', hm'⟩ := Option.isSome_iff_exists.1 (show ((List.range types.length).find? fun k =>
    types[k]? == some types[m]).isSome = true by
      rw [List.find?_isSome]
      exact ⟨m, List.mem_range.2 hm, by simp [hm]⟩)
  exact ⟨m', hm', by have := List.find?_some hm'; simpa using this⟩

/-- The basis visualisation: one file for each component, on the mesh of a subdomain of that component, with a field for
each variable of each basis vector holding its entries. -/
theorem basis_shows_partial {p : String} {names : List String} {types sizes : List Nat} {bases : List (Mat R)}
    (hz : sizes.length = names.length * types.length) (hocc : ∀ c, c < bases.length → c ∈ types)
    (hb : ∀ (c m : Nat) b, bases[c]? = some b → types[m]? = some c →
      b.data.length = ((sizes.drop (m * names.length)).take names.length).sum * b.w) :
    ∃ out : List (File R T), saveBasis true true (.ok p) names types sizes bases = .ok out ∧
      out.length = bases.length ∧ ∀ (c : Nat) b, bases[c]? = some b → ∃ f m, out[c]? = some f ∧
        types[m]? = some c ∧ f.mesh = some m ∧ f.name = p ++ "_" ++ toString c ∧
        f.fields.length = b.w * names.length ∧
        ∀ (k v : Nat) (n : String) (z : Nat), k < b.w → names[v]? = some n → sizes[m * names.length + v]? = some z →
          ∃ x, f.fields[k * names.length + v]? = some (n ++ "_basis_" ++ toString k, x) ∧ x.length = z ∧
            ∀ i, i < z → x[i]? = entry ((sizes.drop (m * names.length)).take names.length) b k v i := by
  unfold saveBasis
  rw [if_pos rfl, require_true, ok_bind, decide_eq_true hz, require_true, ok_bind, ok_bind]
  obtain ⟨out, h, h1, h2⟩ := loop_total (n := bases.length) (s := ([] : List (File R T))) (body := fun c out => do
      let m ← nonNull (firstOf types c)
      let b ← rd bases c
      let fs ← basisFields names ((sizes.drop (m * names.length)).take names.length) b
      return out ++ [⟨p ++ "_" ++ toString c, some m, none, fs⟩]) (fun n out => out.length = n ∧
      ∀ (c : Nat) b, c < n → bases[c]? = some b → ∃ f m, out[c]? = some f ∧
        types[m]? = some c ∧ f.mesh = some m ∧ f.name = p ++ "_" ++ toString c ∧
        f.fields.length = b.w * names.length ∧
        ∀ (k v : Nat) (n : String) (z : Nat), k < b.w → names[v]? = some n → sizes[m * names.length + v]? = some z →
          ∃ x, f.fields[k * names.length + v]? = some (n ++ "_basis_" ++ toString k, x) ∧ x.length = z ∧
            ∀ i, i < z → x[i]? = entry ((sizes.drop (m * names.length)).take names.length) b k v i) ⟨rfl, by simp⟩ (by
    rintro c out hc ⟨h1, h2⟩
    obtain ⟨m, hm, hm'⟩ := firstOf_some (hocc c hc)
    have hbc : bases[c]? = some bases[c] := List.getElem?_eq_getElem hc
    have hmt : m < types.length := (List.getElem?_eq_some_iff.1 hm').1
    have hzl : ((sizes.drop (m * names.length)).take names.length).length = names.length := by
      rw [List.length_take, List.length_drop, hz]
      have : (m + 1) * names.length ≤ types.length * names.length := Nat.mul_le_mul_right _ hmt
      have h3 : (m + 1) * names.length = m * names.length + names.length := by ring
      have h4 : types.length * names.length = names.length * types.length := Nat.mul_comm _ _
      omega
    have hdat := hb c m _ hbc hm'
    refine ⟨_, by rw [hm]; show (Except.ok m >>= _) = _; rw [ok_bind, rd_of_lt hc, ok_bind,
      basisFields_ok hzl hdat, ok_bind]; rfl, by simp [h1], ?_⟩
    intro c' b hc' hb'
    by_cases e : c' = c
    · subst e
      rw [hbc] at hb'
      injection hb' with hb'
      subst hb'
      refine ⟨_, m, by rw [List.getElem?_append_right (by omega), h1, Nat.sub_self]; rfl, hm', rfl, rfl, by simp, ?_⟩
      intro k v n z hk hn hzv
      have hv : v < names.length := (List.getElem?_eq_some_iff.1 hn).1
      have i1 : (k * names.length + v) / names.length = k := by
        rw [Nat.mul_comm, Nat.mul_add_div (by omega), Nat.div_eq_of_lt hv, Nat.add_zero]
      have i2 : (k * names.length + v) % names.length = v := by
        rw [Nat.mul_comm, Nat.mul_add_mod, Nat.mod_eq_of_lt hv]
      have hlt : k * names.length + v < bases[c'].w * names.length := by
        rw [Nat.mul_comm bases[c'].w]; exact idx_lt hv hk
      have hz' : ((sizes.drop (m * names.length)).take names.length)[v]? = some z := by
        rw [List.getElem?_take, if_pos hv, List.getElem?_drop, hzv]
      have hle := sum_take_le _ v z hz'
      refine ⟨_, by
        rw [List.getElem?_map, List.getElem?_range hlt, Option.map_some, i1, i2, hn, hz']
        rfl, ?_, ?_⟩
      · simp only [Option.getD_some, List.length_take, List.length_drop, hdat]
        have : (k + 1) * ((sizes.drop (m * names.length)).take names.length).sum ≤
            bases[c'].w * ((sizes.drop (m * names.length)).take names.length).sum := Nat.mul_le_mul_right _ hk
        rw [Nat.succ_mul] at this
        rw [Nat.mul_comm _ bases[c'].w]
        omega
      · intro i hi
        simp only [Option.getD_some]
        rw [List.getElem?_take, if_pos hi, List.getElem?_drop]
        rfl
    · obtain ⟨f, m', a1, a2⟩ := h2 c' b (by omega) hb'
      exact ⟨f, m', by rw [List.getElem?_append_left (by omega)]; exact a1, a2⟩)
  exact ⟨out, h, h1, fun c b hb => h2 c b (List.getElem?_eq_some_iff.1 hb).1 hb⟩

/-- VIOLATION: with a basis for each variable there are more bases than components, and the basis visualisation never
succeeds, whatever the bases and meshes. -/
theorem basis_separate_wrong {p : String} {names : List String} {types sizes : List Nat} {bases : List (Mat R)}
    {numComp : Nat} (hn : 2 ≤ names.length) (hc : 0 < numComp) (ht : ∀ t ∈ types, t < numComp)
    (hb : bases.length = numComp * names.length) (out : List (File R T)) :
    saveBasis true true (.ok p) names types sizes bases ≠ .ok out := by
  intro h
  unfold saveBasis at h
  rw [if_pos rfl, require_true, ok_bind] at h
  obtain ⟨_, _, h⟩ := bind_eq_ok.1 h
  rw [ok_bind] at h
  have := loop_inv (fun j _ => j ≤ numComp) (Nat.zero_le _) (fun j u v hj hinv hstep => by
    obtain ⟨m, hm, _⟩ := bind_eq_ok.1 hstep
    have hne : j ≠ numComp := by
      rintro rfl
      cases hf : firstOf types j with
      | none => rw [hf] at hm; cases hm
      | some m' =>
        unfold firstOf at hf
        have hs := List.find?_some hf
        have : types[m']? = some j := by simpa using hs
        exact absurd (ht j (List.mem_of_getElem? this)) (Nat.lt_irrefl _)
    omega) h
  rw [hb] at this
  have : numComp * 2 ≤ numComp * names.length := Nat.mul_le_mul_left _ hn
  omega

/-- Bases that were not loaded stop the program. -/
theorem basis_unloaded {pre : Outcome String} {names : List String} {types sizes : List Nat} {bases : List (Mat R)} :
    saveBasis (T := T) true false pre names types sizes bases = .error .abort := rfl

/-! ### Cases that meet the hypotheses -/

/-- Two subdomains sharing a dof of the parent mesh, two variables. -/
def exSetup : Setup := ⟨2, ["u", "p"], fun v => if v = 0 then 3 else 2,
  fun m v => if v = 0 then [m, m + 1] else [m], fun m => [m, m + 1]⟩

def exOpts : Opts := ⟨true, false, true, "d", "p", 0, 1, false⟩

def exUs : List (List Int) := [[1, 2], [3], [4, 5], [6]]

def exSt : St Int Int := ⟨exUs, [], [], [], [], none, [], []⟩

example : Sensible exOpts 2 ∧ Named exOpts "" ∧ Sized exSetup exUs ∧ Placed exSetup ∧
    ∀ m, m < 2 → Selected exOpts m := by
  have hv : ∀ {P : Nat → Prop} {n : Nat}, n = 2 → P 0 → P 1 → ∀ m, m < n → P m := by
    rintro P n rfl h0 h1 m hm
    have : m = 0 ∨ m = 1 := by omega
    rcases this with rfl | rfl
    · exact h0
    · exact h1
  refine ⟨by unfold Sensible; decide, by right; decide, ⟨rfl, fun m v hm hv' => ?_⟩, ⟨fun m v p hm hv' hp => ?_, fun m v hm hv' => ?_⟩,
    hv rfl (by decide) (by decide)⟩
  · revert v; revert m
    refine hv rfl ?_ ?_ <;> refine hv rfl ?_ ?_ <;> rfl
  · revert hp; revert p; revert v; revert m
    refine hv rfl ?_ ?_ <;> refine hv rfl ?_ ?_ <;> decide
  · revert v; revert m
    refine hv rfl ?_ ?_ <;> refine hv rfl ?_ ?_ <;> decide

/-- Two saves, individually. -/
example : (do
    let s ← init exSetup exOpts "" (fun _ _ => 0) exSt
    let s ← run exSetup exOpts [.compare exUs, .save, .solve [[7, 8], [9], [1, 0], [2]], .saveAt 3 5] s
    return s.out) = .ok
  [⟨"d/p_0", some 0, none, [("u", [1, 2]), ("u_abs_error", [0, 0]), ("p", [3]), ("p_abs_error", [0])]⟩,
   ⟨"d/p_1", some 1, none, [("u", [4, 5]), ("u_abs_error", [0, 0]), ("p", [6]), ("p_abs_error", [0])]⟩,
   ⟨"d/p_0", some 0, some (3, 5), [("u", [7, 8]), ("u_abs_error", [0, 0]), ("p", [9]), ("p_abs_error", [0])]⟩,
   ⟨"d/p_1", some 1, some (3, 5), [("u", [1, 0]), ("u_abs_error", [0, 0]), ("p", [2]), ("p_abs_error", [0])]⟩] := by
  decide +kernel

/-- The unified view: the shared dof has the value of the second subdomain. -/
example : (do
    let s ← init exSetup { exOpts with unified := true } "q" (fun _ _ => 0) exSt
    let s ← run exSetup { exOpts with unified := true } [.compare exUs, .saveAt 3 5] s
    return s.out) = .ok
  [⟨"q", none, some (3, 5),
    [("u", [1, 4, 5]), ("u_abs_error", [0, 0, 0]), ("p", [3, 6]), ("p_abs_error", [0, 0])]⟩] := by
  decide +kernel

/-- The flow, individually and unified. -/
example : (do
    let s ← init exSetup { exOpts with saveError := false } "q" (fun _ _ => 0) exSt
    let s ← saveAdvDiff exSetup { exOpts with saveError := false } (fun m => some [(m : Int), 9]) 3 (fun _ => 0) s
    return s.out) = .ok
  [⟨"q_0", some 0, none, [("u", [1, 2]), ("p", [3]), ("flow", [0, 9])]⟩,
   ⟨"q_1", some 1, none, [("u", [4, 5]), ("p", [6]), ("flow", [1, 9])]⟩] := by
  decide +kernel

example : (do
    let s ← init exSetup { exOpts with saveError := false, unified := true } "q" (fun _ _ => 0) exSt
    let s ← saveAdvDiff exSetup { exOpts with saveError := false, unified := true } (fun m => some [(m : Int), 9]) 3
      (fun _ => 0) s
    return s.out) = .ok [⟨"q", none, none, [("u", [1, 4, 5]), ("p", [3, 6]), ("flow", [0, 1, 9])]⟩] := by
  decide +kernel

/-- Every second subdomain asked for: subdomain 1 is skipped. -/
example : Sensible { exOpts with interval := 2 } 2 ∧ ∃ m, m < 2 ∧ ¬ Selected { exOpts with interval := 2 } m :=
  ⟨by unfold Sensible; decide, 1, by decide, by decide⟩

/-- One component, two subdomains, two basis vectors. -/
example : saveBasis (T := Unit) true true (.ok "b") ["u", "p"] [0, 0] [2, 1, 2, 1]
    [(⟨3, 2, [1, 2, 3, 4, 5, 6]⟩ : Mat Int)] = .ok [⟨"b_0", some 0, none,
      [("u_basis_0", [1, 2]), ("p_basis_0", [3]), ("u_basis_1", [4, 5]), ("p_basis_1", [6])]⟩] := by
  decide +kernel

end Verif.Visual
