import Verif.Spec.Supremizer
import Verif.Props.Options
import Mathlib.Algebra.BigOperators.Group.Finset.Basic

/-!
# C85: numbers and dimensions of the bases

The number of basis vectors of every component and variable is what the configuration says for its tag, else
the default; dimensions are those of the component's block; the number of supremizers follows its own
settings.
-/

namespace Verif.Supremizer

open Verif Verif.Supremizer.Spec
open Verif.Options (Node Conv Str key pieces lookUpValue option lookUp lookUp_first option_iff find_some_iff
  find_none_iff)
open Verif.Options.Spec (At Blocked FirstNamed NotNamed)
open Verif.Snapshots (BasisTag)

theorem option_setting (cv : Conv) (t : Node) (path : String) (dflt n : Int) :
    option cv.int (key path) dflt t = .ok n ↔ Setting cv t path dflt n := option_iff cv.int (key path) dflt t n

theorem lookUpValue_row (cv : Conv) (rows : List Node) (tag field : String) (dflt n : Int) :
    lookUpValue cv.str cv.int (key "name") tag (key field) dflt (.seq rows) = .ok n ↔
      RowValue cv rows tag field dflt n := by
  unfold lookUpValue
  rw [bind_eq_ok]
  constructor
  · rintro ⟨o, h1, h2⟩
    cases o with
    | none => cases h2; exact .inr ⟨(lookUp_first _ _ _ _).2.1 h1, rfl⟩
    | some e => exact .inl ⟨e, ((lookUp_first _ _ _ _).1 e).1 h1, (option_setting _ _ _ _ _).1 h2⟩
  · rintro (⟨e, h1, h2⟩ | ⟨h1, rfl⟩)
    · exact ⟨some e, ((lookUp_first _ _ _ _).1 e).2 h1, (option_setting _ _ _ _ _).2 h2⟩
    · exact ⟨none, (lookUp_first _ _ _ _).2.2 h1, rfl⟩

theorem lookUpValue_null (cv : Conv) (tag field : Str) (lval : String) (dflt : Int) :
    lookUpValue cv.str cv.int tag lval field dflt .null = lookUpValue cv.str cv.int tag lval field dflt (.seq []) :=
  rfl

theorem print_eq (name var : String) : (BasisTag.mk name var).print = tagText name var := by
  unfold BasisTag.print tagText
  by_cases h : var = "" <;> simp [h]

theorem firstOf_iff (meshType : List Nat) (c m : Nat) : firstOf meshType c = .ok m ↔ FirstSub meshType c m := by
  unfold firstOf FirstSub
  cases h : meshType.findIdx? (· == c) with
  | none =>
    rw [List.findIdx?_eq_none_iff] at h
    constructor
    · intro h'; cases h'
    · rintro ⟨h1, -⟩
      have := h c (List.mem_of_getElem? h1)
      simp at this
  | some i =>
    obtain ⟨hi, h1, h2⟩ := List.findIdx?_eq_some_iff_getElem.1 h
    have hic : meshType[i]? = some c := by rw [List.getElem?_eq_getElem hi]; simpa using h1
    constructor
    · intro e
      cases e
      refine ⟨hic, fun m' hm' e => ?_⟩
      obtain ⟨_, e⟩ := List.getElem?_eq_some_iff.1 e
      exact h2 m' hm' (by simpa using e)
    · rintro ⟨h3, h4⟩
      refine congrArg Except.ok ?_
      rcases Nat.lt_trichotomy i m with hlt | he | hgt
      · exact absurd hic (h4 i hlt)
      · exact he
      · obtain ⟨_, e⟩ := List.getElem?_eq_some_iff.1 h3
        exact absurd (by simpa using e) (h2 m hgt)

theorem blockLen_iff (offs : List Nat) (k n : Nat) : blockLen offs k = .ok n ↔ BlockSize offs k n := by
  unfold blockLen BlockSize
  simp only [bind_eq_ok, rd_eq_ok]
  constructor
  · rintro ⟨a, h1, b, h2, h3⟩; cases h3; exact ⟨a, b, h1, h2, rfl⟩
  · rintro ⟨a, b, h1, h2, rfl⟩; exact ⟨a, h1, b, h2, rfl⟩

theorem blockSize_unique {offs : List Nat} {k n n' : Nat} (h : BlockSize offs k n) (h' : BlockSize offs k n') :
    n = n' := by
  have := (blockLen_iff _ _ _).2 h
  rw [(blockLen_iff _ _ _).2 h'] at this
  exact (Except.ok.inj this).symm

theorem vdofs_iff (numVar : Nat) (offs : List Nat) (m n : Nat) : vdofs numVar offs m = .ok n ↔
    ∃ f : Nat → Nat, (∀ v, v < numVar → BlockSize offs (m * numVar + v) (f v)) ∧
      n = ∑ v ∈ Finset.range numVar, f v := by
  unfold vdofs
  constructor
  · intro h
    have := loop_inv (fun q s => ∃ f : Nat → Nat, (∀ v, v < q → BlockSize offs (m * numVar + v) (f v)) ∧
      s = ∑ v ∈ Finset.range q, f v) ⟨fun _ => 0, fun v hv => absurd hv (by omega), rfl⟩ (by
      rintro q s t hq ⟨f, h1, rfl⟩ e
      obtain ⟨x, e1, e2⟩ := bind_eq_ok.1 e
      cases e2
      refine ⟨Function.update f q x, fun v hv => ?_, ?_⟩
      · by_cases hvq : v = q
        · subst hvq; rw [Function.update_self]; exact (blockLen_iff _ _ _).1 e1
        · rw [Function.update_of_ne hvq]; exact h1 v (by omega)
      · rw [Finset.sum_range_succ, Function.update_self]
        congr 1
        refine Finset.sum_congr rfl fun v hv => ?_
        rw [Function.update_of_ne (by have := Finset.mem_range.1 hv; omega)]) h
    exact this
  · rintro ⟨f, h1, rfl⟩
    refine loop_spec (fun q => ∑ v ∈ Finset.range q, f v) rfl fun q hq => ?_
    rw [(blockLen_iff _ _ _).2 (h1 q hq), ok_bind, Finset.sum_range_succ]
    rfl

/-- A loop that appends one pair in each step. -/
theorem loop_pairs {n : Nat} {body : Nat → List Int × List Nat → Outcome (List Int × List Nat)}
    {P : Nat → Int → Nat → Prop}
    (h : ∀ b s t, b < n → (body b s = .ok t ↔ ∃ x y, P b x y ∧ t = (s.1 ++ [x], s.2 ++ [y])))
    (t : List Int × List Nat) : loop n body ([], []) = .ok t ↔
      t.1.length = n ∧ t.2.length = n ∧ ∀ b, b < n → ∃ x y, t.1[b]? = some x ∧ t.2[b]? = some y ∧ P b x y := by
  constructor
  · intro e
    exact loop_inv (fun q (t : List Int × List Nat) => t.1.length = q ∧ t.2.length = q ∧
      ∀ b, b < q → ∃ x y, t.1[b]? = some x ∧ t.2[b]? = some y ∧ P b x y)
      ⟨rfl, rfl, fun b hb => absurd hb (by omega)⟩ (by
      rintro q s t hq ⟨j1, j2, j3⟩ e
      obtain ⟨x, y, hp, rfl⟩ := (h q s t hq).1 e
      refine ⟨by simp [j1], by simp [j2], fun b hb => ?_⟩
      by_cases hbq : b = q
      · subst hbq
        exact ⟨x, y, by simp [← j1], by simp [← j2], hp⟩
      · obtain ⟨x', y', a1, a2, a3⟩ := j3 b (by omega)
        refine ⟨x', y', ?_, ?_, a3⟩
        · rw [List.getElem?_append_left (by omega)]; exact a1
        · rw [List.getElem?_append_left (by omega)]; exact a2) e
  · rintro ⟨h1, h2, h3⟩
    have := loop_spec (n := n) (body := body) (s := ([], [])) (fun q => (t.1.take q, t.2.take q)) (by simp) (by
      intro q hq
      obtain ⟨x, y, a1, a2, a3⟩ := h3 q hq
      refine (h q _ _ hq).2 ⟨x, y, a3, ?_⟩
      simp only [List.take_add_one, a1, a2, Option.toList_some])
    rw [this, List.take_of_length_le (by omega), List.take_of_length_le (by omega)]

/-- One pass. -/
theorem parseStep_iff (cv : Conv) (rows : List Node) (dflt : Int) (separate : Bool) (vars names : List String)
    (meshType offs : List Nat) (b : Nat) (s t : List Int × List Nat) :
    parseStep cv (.seq rows) dflt separate vars names meshType offs b s = .ok t ↔
      ∃ n d, (∃ tag, refTag separate vars names b = .ok tag ∧ RowValue cv rows tag.print "number_of_basis" dflt n ∧
        0 ≤ n ∧ refDim separate vars.length meshType offs b = .ok d) ∧ t = (s.1 ++ [n], s.2 ++ [d]) := by
  unfold parseStep
  simp only [bind_eq_ok]
  constructor
  · rintro ⟨tag, h1, n, h2, _, h3, d, h4, h5⟩
    cases h5
    exact ⟨n, d, ⟨tag, h1, (lookUpValue_row _ _ _ _ _ _).1 h2, by simpa using require_eq_ok.1 h3, h4⟩, rfl⟩
  · rintro ⟨n, d, ⟨tag, h1, h2, h3, h4⟩, rfl⟩
    exact ⟨tag, h1, n, (lookUpValue_row _ _ _ _ _ _).2 h2, (), require_eq_ok.2 (by simpa using h3), d, h4, rfl⟩

/-- The final checks. -/
theorem checks_iff (ns : List Int) (ds : List Nat) (h : ds.length = ns.length) :
    loop ns.length (fun k _ => do
      let n ← rd ns k
      let d ← rd ds k
      require (decide (0 < n))
      require (decide (0 < d))) () = .ok () ↔
    ∀ (b : Nat) n d, ns[b]? = some n → ds[b]? = some d → 0 < n ∧ 0 < d := by
  constructor
  · intro e
    have := loop_inv (fun q _ => ∀ (b : Nat) n d, b < q → ns[b]? = some n → ds[b]? = some d → 0 < n ∧ 0 < d)
      (fun b n d hb => absurd hb (by omega)) (by
      rintro q _ _ hq j e b n d hb h1 h2
      by_cases hbq : b = q
      · subst hbq
        simp only [bind_eq_ok, rd_eq_ok] at e
        obtain ⟨n', e1, d', e2, _, e3, e4⟩ := e
        cases Option.some.inj (h1.symm.trans e1)
        cases Option.some.inj (h2.symm.trans e2)
        exact ⟨by simpa using require_eq_ok.1 e3, by simpa using require_eq_ok.1 e4⟩
      · exact j b n d (by omega) h1 h2) e
    intro b n d h1 h2
    exact this b n d (List.getElem?_eq_some_iff.1 h1).1 h1 h2
  · intro hall
    refine loop_spec (fun _ => ()) rfl fun q hq => ?_
    obtain ⟨h1, h2⟩ := hall q ns[q] (ds[q]'(by omega)) (by simp [hq]) (by simp [h, hq])
    rw [rd_of_lt hq, ok_bind, rd_of_lt (by omega), ok_bind, require_eq_ok.2 (by simpa using h1), ok_bind,
      require_eq_ok.2 (by simpa using h2)]

/-- The list of tags that is found. -/
theorem find_rows {cfg : Node} {rows : List Node} (h : Rows cfg rows) :
    ∃ found, Options.find cfg (pieces '/' (key "basis/tags")) = .ok found ∧
      (found.isNone = true ↔ ¬ Options.Spec.Exists cfg (pieces '/' (key "basis/tags"))) ∧
      (found.getD .null = .seq rows ∨ found.getD .null = .null ∧ rows = []) := by
  rcases h with h | ⟨h1, h2, rfl⟩
  · exact ⟨some (.seq rows), (find_some_iff _ _ _).2 h, by simp [Options.Spec.Exists]; exact ⟨_, h⟩, .inl rfl⟩
  · exact ⟨none, (find_none_iff _ _).2 ⟨h1, h2⟩, by simp [h1], .inr ⟨rfl, rfl⟩⟩

/-- The whole of `parseInputs`, block by block. -/
theorem parseInputs_iff {cv : Conv} {cfg : Node} {rows : List Node} (hrows : Rows cfg rows) (separate : Bool)
    (vars names : List String) (meshType offs : List Nat) (t : List Int × List Nat) :
    parseInputs cv cfg separate vars names meshType offs = .ok t ↔
      0 < meshType.length ∧ 0 < (if separate then names.length * vars.length else names.length) ∧
      ∃ dflt, Setting cv cfg "basis/number_of_basis" (-1) dflt ∧
        (0 < dflt ∨ Options.Spec.Exists cfg (pieces '/' (key "basis/tags"))) ∧
        t.1.length = (if separate then names.length * vars.length else names.length) ∧
        t.2.length = (if separate then names.length * vars.length else names.length) ∧
        ∀ b, b < (if separate then names.length * vars.length else names.length) →
          ∃ n d tag, t.1[b]? = some n ∧ t.2[b]? = some d ∧ refTag separate vars names b = .ok tag ∧
            RowValue cv rows tag.print "number_of_basis" dflt n ∧
            refDim separate vars.length meshType offs b = .ok d ∧ 0 < n ∧ 0 < d := by
  obtain ⟨found, hf, hf1, hf2⟩ := find_rows hrows
  have hstep : ∀ dflt b s t, parseStep cv (found.getD .null) dflt separate vars names meshType offs b s = .ok t ↔
      ∃ n d, (∃ tag, refTag separate vars names b = .ok tag ∧ RowValue cv rows tag.print "number_of_basis" dflt n ∧
        0 ≤ n ∧ refDim separate vars.length meshType offs b = .ok d) ∧ t = (s.1 ++ [n], s.2 ++ [d]) := by
    intro dflt b s t
    rcases hf2 with h | ⟨h, rfl⟩
    · rw [h]; exact parseStep_iff ..
    · rw [h, ← parseStep_iff]; rfl
  have hcond : ∀ dflt : Int, require (!(found.isNone && decide (dflt ≤ 0))) = .ok () ↔
      (0 < dflt ∨ Options.Spec.Exists cfg (pieces '/' (key "basis/tags"))) := by
    intro dflt
    rw [require_eq_ok]
    by_cases hx : Options.Spec.Exists cfg (pieces '/' (key "basis/tags"))
    · have : found.isNone = false := by
        cases h : found.isNone
        · rfl
        · exact absurd hx (hf1.1 h)
      simp [this, hx]
    · simp [hf1.2 hx, hx]
  unfold parseInputs
  simp only [bind_eq_ok]
  constructor
  · rintro ⟨_, h1, dflt, h2, _, h3, f, h4, _, h5, s, h6, _, h7, h8⟩
    cases h8
    cases Except.ok.inj (hf.symm.trans h4)
    obtain ⟨l1, l2, l3⟩ := (loop_pairs (fun b s t _ => hstep dflt b s t) t).1 h6
    have h7' := (checks_iff t.1 t.2 (by omega)).1 h7
    refine ⟨by simpa using require_eq_ok.1 h1, of_decide_eq_true (require_eq_ok.1 h3), dflt,
      (option_setting _ _ _ _ _).1 h2, (hcond dflt).1 h5, l1, l2, fun b hb => ?_⟩
    obtain ⟨n, d, a1, a2, tag, a3, a4, a5, a6⟩ := l3 b hb
    obtain ⟨p1, p2⟩ := h7' b n d a1 a2
    exact ⟨n, d, tag, a1, a2, a3, a4, a6, p1, p2⟩
  · rintro ⟨h1, h3, dflt, h2, h5, l1, l2, l3⟩
    refine ⟨(), require_eq_ok.2 (by simpa using h1), dflt, (option_setting _ _ _ _ _).2 h2, (),
      require_eq_ok.2 (decide_eq_true h3), found, hf, (), (hcond dflt).2 h5, t, ?_, (), ?_, rfl⟩
    · refine (loop_pairs (fun b s t _ => hstep dflt b s t) t).2 ⟨l1, l2, fun b hb => ?_⟩
      obtain ⟨n, d, tag, a1, a2, a3, a4, a5, a6, a7⟩ := l3 b hb
      exact ⟨n, d, a1, a2, tag, a3, a4, by omega, a5⟩
    · refine (checks_iff t.1 t.2 (by omega)).2 fun b n d h1 h2 => ?_
      obtain ⟨n', d', tag, a1, a2, a3, a4, a5, a6, a7⟩ := l3 b (by
        have := (List.getElem?_eq_some_iff.1 h1).1; omega)
      cases Option.some.inj (h1.symm.trans a1)
      cases Option.some.inj (h2.symm.trans a2)
      exact ⟨a6, a7⟩

theorem refTag_separate {vars names : List String} {c v : Nat} (hv : v < vars.length) (tag : BasisTag) :
    refTag true vars names (c * vars.length + v) = .ok tag ↔
      ∃ name var, names[c]? = some name ∧ vars[v]? = some var ∧ tag = ⟨name, var⟩ := by
  unfold refTag tagFor
  rw [if_pos rfl, Nat.mul_comm, Nat.mul_add_mod, Nat.mod_eq_of_lt hv, Nat.mul_add_div (by omega),
    Nat.div_eq_of_lt hv, Nat.add_zero]
  simp only [bind_eq_ok, rd_eq_ok]
  constructor
  · rintro ⟨var, h1, name, h2, h3⟩; cases h3; exact ⟨name, var, h2, h1, rfl⟩
  · rintro ⟨name, var, h1, h2, rfl⟩; exact ⟨var, h2, name, h1, rfl⟩

theorem refDim_separate {numVar : Nat} {meshType offs : List Nat} {c v : Nat} (hv : v < numVar) (d : Nat) :
    refDim true numVar meshType offs (c * numVar + v) = .ok d ↔
      ∃ m, FirstSub meshType c m ∧ BlockSize offs (m * numVar + v) d := by
  unfold refDim
  have h1 : (c * numVar + v) % numVar = v := by rw [Nat.mul_comm, Nat.mul_add_mod, Nat.mod_eq_of_lt hv]
  have h2 : (c * numVar + v) / numVar = c := by
    rw [Nat.mul_comm, Nat.mul_add_div (by omega), Nat.div_eq_of_lt hv, Nat.add_zero]
  simp only [if_true, h1, h2, bind_eq_ok, firstOf_iff, blockLen_iff]

/-- **Numbers of basis vectors, separate variables.**  Setting up succeeds with numbers `ns` and dimensions
`ds` exactly if there is a component and a variable, tags or a positive default are given, and for every
component `c` and variable `v` the number is what the first row with its tag (or the default) says and is
positive, and the dimension is the size of variable `v` in the first subdomain of that component, positive
too. -/
theorem numbers_separate {cv : Conv} {cfg : Node} {rows : List Node} (hrows : Rows cfg rows)
    (vars names : List String) (meshType offs : List Nat) (ns : List Int) (ds : List Nat) :
    parseInputs cv cfg true vars names meshType offs = .ok (ns, ds) ↔
      0 < meshType.length ∧ 0 < names.length * vars.length ∧
      ∃ dflt, Setting cv cfg "basis/number_of_basis" (-1) dflt ∧
        (0 < dflt ∨ Options.Spec.Exists cfg (pieces '/' (key "basis/tags"))) ∧
        ns.length = names.length * vars.length ∧ ds.length = names.length * vars.length ∧
        ∀ c v name var, names[c]? = some name → vars[v]? = some var →
          ∃ n d m, ns[c * vars.length + v]? = some n ∧ ds[c * vars.length + v]? = some d ∧
            RowValue cv rows (tagText name var) "number_of_basis" dflt n ∧ 0 < n ∧
            FirstSub meshType c m ∧ BlockSize offs (m * vars.length + v) d ∧ 0 < d := by
  rw [parseInputs_iff hrows]
  simp only [if_true]
  refine and_congr_right fun _ => and_congr_right fun hpos => exists_congr fun dflt => and_congr_right fun _ =>
    and_congr_right fun _ => and_congr_right fun _ => and_congr_right fun _ => ?_
  constructor
  · intro h c v name var hc hv
    have hc' := (List.getElem?_eq_some_iff.1 hc).1
    have hv' := (List.getElem?_eq_some_iff.1 hv).1
    obtain ⟨n, d, tag, a1, a2, a3, a4, a5, a6, a7⟩ := h (c * vars.length + v) (by nlinarith)
    obtain ⟨name', var', b1, b2, rfl⟩ := (refTag_separate hv' tag).1 a3
    cases Option.some.inj (hc.symm.trans b1)
    cases Option.some.inj (hv.symm.trans b2)
    obtain ⟨m, m1, m2⟩ := (refDim_separate hv' d).1 a5
    rw [print_eq] at a4
    exact ⟨n, d, m, a1, a2, a4, a6, m1, m2, a7⟩
  · intro h b hb
    have hvl : 0 < vars.length := Nat.pos_of_ne_zero fun h0 => by simp [h0] at hpos
    have hc' : b / vars.length < names.length := Nat.div_lt_of_lt_mul (by rwa [Nat.mul_comm])
    have hv' : b % vars.length < vars.length := Nat.mod_lt _ hvl
    obtain ⟨n, d, m, a1, a2, a4, a6, m1, m2, a7⟩ := h (b / vars.length) (b % vars.length) _ _
      (List.getElem?_eq_getElem hc') (List.getElem?_eq_getElem hv')
    have hb' : b / vars.length * vars.length + b % vars.length = b := by
      rw [Nat.mul_comm]; exact Nat.div_add_mod _ _
    rw [← print_eq] at a4
    have t1 := (refTag_separate (names := names) (c := b / vars.length) hv' _).2
      ⟨_, _, List.getElem?_eq_getElem hc', List.getElem?_eq_getElem hv', rfl⟩
    have t2 := (refDim_separate hv' d).2 ⟨m, m1, m2⟩
    rw [hb'] at a1 a2 t1 t2
    exact ⟨n, d, _, a1, a2, t1, a4, t2, a6, a7⟩

/-- **Numbers of basis vectors, all variables together**: as above, with the component's name as tag and the
sum of the sizes of all variables. -/
theorem numbers_joint {cv : Conv} {cfg : Node} {rows : List Node} (hrows : Rows cfg rows)
    (vars names : List String) (meshType offs : List Nat) (ns : List Int) (ds : List Nat) :
    parseInputs cv cfg false vars names meshType offs = .ok (ns, ds) ↔
      0 < meshType.length ∧ 0 < names.length ∧
      ∃ dflt, Setting cv cfg "basis/number_of_basis" (-1) dflt ∧
        (0 < dflt ∨ Options.Spec.Exists cfg (pieces '/' (key "basis/tags"))) ∧
        ns.length = names.length ∧ ds.length = names.length ∧
        ∀ c name, names[c]? = some name →
          ∃ n d m, ns[c]? = some n ∧ ds[c]? = some d ∧ RowValue cv rows name "number_of_basis" dflt n ∧ 0 < n ∧
            FirstSub meshType c m ∧ 0 < d ∧ ∃ f : Nat → Nat,
              (∀ v, v < vars.length → BlockSize offs (m * vars.length + v) (f v)) ∧
              d = ∑ v ∈ Finset.range vars.length, f v := by
  rw [parseInputs_iff hrows]
  simp only [Bool.false_eq_true, if_false]
  refine and_congr_right fun _ => and_congr_right fun hpos => exists_congr fun dflt => and_congr_right fun _ =>
    and_congr_right fun _ => and_congr_right fun _ => and_congr_right fun _ => ?_
  have htag : ∀ c tag, refTag false vars names c = .ok tag ↔ ∃ name, names[c]? = some name ∧ tag = ⟨name, ""⟩ := by
    intro c tag
    unfold refTag tagFor
    rw [if_neg (by simp)]
    simp only [bind_eq_ok, rd_eq_ok]
    exact exists_congr fun name => and_congr_right fun _ => ⟨fun h => by cases h; rfl, fun h => by subst h; rfl⟩
  have hdim : ∀ c d, refDim false vars.length meshType offs c = .ok d ↔ ∃ m, FirstSub meshType c m ∧
      ∃ f : Nat → Nat, (∀ v, v < vars.length → BlockSize offs (m * vars.length + v) (f v)) ∧
        d = ∑ v ∈ Finset.range vars.length, f v := by
    intro c d
    unfold refDim
    simp only [Bool.false_eq_true, if_false, bind_eq_ok, firstOf_iff, vdofs_iff]
  constructor
  · intro h c name hc
    obtain ⟨n, d, tag, a1, a2, a3, a4, a5, a6, a7⟩ := h c (List.getElem?_eq_some_iff.1 hc).1
    obtain ⟨name', b1, rfl⟩ := (htag _ _).1 a3
    cases Option.some.inj (hc.symm.trans b1)
    obtain ⟨m, m1, m2⟩ := (hdim _ _).1 a5
    exact ⟨n, d, m, a1, a2, a4, a6, m1, a7, m2⟩
  · intro h b hb
    obtain ⟨n, d, m, a1, a2, a4, a6, m1, a7, m2⟩ := h b _ (List.getElem?_eq_getElem hb)
    exact ⟨n, d, _, a1, a2, (htag _ _).2 ⟨_, List.getElem?_eq_getElem hb, rfl⟩, a4, (hdim _ _).2 ⟨m, m1, m2⟩,
      a6, a7⟩

/-- A row's value is unique, so the configuration determines all numbers. -/
theorem rowValue_unique {cv : Conv} {rows : List Node} {tag field : String} {dflt n n' : Int}
    (h : RowValue cv rows tag field dflt n) (h' : RowValue cv rows tag field dflt n') : n = n' :=
  Except.ok.inj (((lookUpValue_row _ _ _ _ _ _).2 h).symm.trans ((lookUpValue_row _ _ _ _ _ _).2 h'))

/-- **Numbers of supremizers**: only for separate velocity and pressure.  The number is what the first row with
the tag of the component's pressure says; else `basis/number_of_supremizer` if positive; else the number of
pressure modes. -/
theorem numbers_supremizer {cv : Conv} {cfg : Node} {rows : List Node} (hrows : Rows cfg rows) (separate : Bool)
    (vars names : List String) (numRef : List Int) (l : List Int) :
    parseSupremizer cv cfg separate vars names numRef = .ok l ↔
      separate = true ∧ vars.length = 2 ∧ ∃ nsup, Setting cv cfg "basis/number_of_supremizer" (-1) nsup ∧
        l.length = names.length ∧
        ∀ c name, names[c]? = some name → ∃ pres np n, vars[1]? = some pres ∧ numRef[c * 2 + 1]? = some np ∧
          l[c]? = some n ∧
          RowValue cv rows (tagText name pres) "number_of_supremizer" (if 0 < nsup then nsup else np) n := by
  obtain ⟨found, hf, -, hf2⟩ := find_rows hrows
  have hlook : ∀ (tag field : String) (dflt n : Int),
      lookUpValue cv.str cv.int (key "name") tag (key field) dflt (found.getD .null) = .ok n ↔
        RowValue cv rows tag field dflt n := by
    intro tag field dflt n
    rcases hf2 with h | ⟨h, rfl⟩
    · rw [h]; exact lookUpValue_row ..
    · rw [h, lookUpValue_null]; exact lookUpValue_row ..
  unfold parseSupremizer tagList
  simp only [hf, ok_bind, bind_eq_ok]
  constructor
  · rintro ⟨_, h1, _, h2, list, h3, nsup, h4, h5⟩
    cases h3
    refine ⟨require_eq_ok.1 h1, by simpa using require_eq_ok.1 h2, nsup, (option_setting _ _ _ _ _).1 h4, ?_⟩
    have := loop_inv (fun q (l : List Int) => l.length = q ∧ ∀ c name, c < q → names[c]? = some name →
      ∃ pres np n, vars[1]? = some pres ∧ numRef[c * 2 + 1]? = some np ∧ l[c]? = some n ∧
        RowValue cv rows (tagText name pres) "number_of_supremizer" (if 0 < nsup then nsup else np) n)
      ⟨rfl, fun c name hc => absurd hc (by omega)⟩ (by
      rintro q l t hq ⟨j1, j2⟩ e
      simp only [rd_eq_ok, tagFor, bind_eq_ok] at e
      obtain ⟨pres, e1, tag, ⟨name, e2, e3⟩, np, e4, n, e5, e6⟩ := e
      cases e3; cases e6
      refine ⟨by simp [j1], fun c name' hc hn => ?_⟩
      by_cases hcq : c = q
      · subst hcq
        cases Option.some.inj (e2.symm.trans hn)
        rw [hlook, print_eq] at e5
        exact ⟨pres, np, n, e1, e4, by simp [← j1], e5⟩
      · obtain ⟨p', np', n', b1, b2, b3, b4⟩ := j2 c name' (by omega) hn
        refine ⟨p', np', n', b1, b2, ?_, b4⟩
        rw [List.getElem?_append_left (by omega)]; exact b3) h5
    exact ⟨this.1, fun c name hn => this.2 c name (List.getElem?_eq_some_iff.1 hn).1 hn⟩
  · rintro ⟨h1, h2, nsup, h4, h5, h6⟩
    refine ⟨(), require_eq_ok.2 h1, (), require_eq_ok.2 (by simpa using h2), _, rfl, nsup,
      (option_setting _ _ _ _ _).2 h4, ?_⟩
    have := loop_spec (n := names.length) (s := ([] : List Int)) (fun q => l.take q) (by simp) (body := fun b acc => do
      let v ← rd vars 1
      let tag ← tagFor names b v
      let np ← rd numRef (b * 2 + 1)
      let n ← lookUpValue cv.str cv.int (key "name") tag.print (key "number_of_supremizer")
        (if 0 < nsup then nsup else np) (found.getD .null)
      return acc ++ [n]) (by
      intro q hq
      obtain ⟨pres, np, n, b1, b2, b3, b4⟩ := h6 q _ (List.getElem?_eq_getElem hq)
      rw [rd_eq_ok.2 b1, ok_bind]
      unfold tagFor
      rw [rd_of_lt hq, ok_bind, show (pure (⟨names[q], pres⟩ : BasisTag) : Outcome BasisTag) = .ok ⟨names[q], pres⟩
        from rfl, ok_bind, rd_eq_ok.2 b2, ok_bind, (hlook _ _ _ _).2 (by rw [print_eq]; exact b4), ok_bind,
        List.take_add_one, b3]
      rfl)
    rw [← h5, List.take_length] at this
    rw [← h5]
    exact this

/-! ## Example -/

section Example

open Verif.Options (exConv)

/-- Two rows for component `a`, a default of 2. -/
def exNumbers : Node :=
  .map [(key "basis", .map [(key "number_of_basis", .scalar ['2']),
    (key "tags", .seq [.map [(key "name", .scalar ['a', '_', 'u']), (key "number_of_basis", .scalar ['5'])],
      .map [(key "name", .scalar ['b', '_', 'p']), (key "number_of_supremizer", .scalar ['1'])]])])]

/-- Components `a` and `b`, subdomains of types b, a, b; velocity sizes 6 and 4, pressure sizes 3 and 2. -/
example : parseInputs exConv exNumbers true ["u", "p"] ["a", "b"] [1, 0, 1] [0, 4, 6, 12, 15, 19, 21] =
      .ok ([5, 2, 2, 2], [6, 3, 4, 2]) ∧
    parseSupremizer exConv exNumbers true ["u", "p"] ["a", "b"] [5, 2, 2, 2] = .ok [2, 1] ∧
    parseInputs exConv exNumbers false ["u", "p"] ["a", "b"] [1, 0, 1] [0, 4, 6, 12, 15, 19, 21] =
      .ok ([2, 2], [9, 6]) := by decide +kernel

/-- The hypothesis on the tags holds. -/
example : ∃ rows, Rows exNumbers rows ∧ rows.length = 2 := by
  have h1 : pieces '/' (key "basis/tags") = [key "basis", key "tags"] := by decide +kernel
  unfold Rows
  rw [h1]
  exact ⟨_, .inl (.entry (pre := []) (by simp) (.entry (pre := [_]) (by decide) (.here _))), rfl⟩

/-- Failures: no tags and no default; a component without subdomain; a variable without a number. -/
example : parseInputs exConv (.map []) true ["u", "p"] ["a"] [0] [0, 4, 6] = .error .abort ∧
    parseInputs exConv exNumbers true ["u", "p"] ["a", "b"] [1, 1] [0, 4, 6, 10, 12] = .error .abort ∧
    parseSupremizer exConv exNumbers false ["u", "p"] ["a", "b"] [5, 2] = .error .abort := by decide +kernel

end Example

end Verif.Supremizer
