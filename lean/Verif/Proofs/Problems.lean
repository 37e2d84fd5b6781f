import Verif.Spec.Problems
import Verif.Props.Boundary

/-!
# The problems: auxiliary lemmas
-/

namespace Verif.Problems

open Verif Verif.Boundary Verif.Params

section
variable {F : Type}

/-- The type a new solver gives the boundary with attribute `a`. -/
def typeOf (p : Problem F) (a : Int) : BdrType :=
  match p.battr.findIdx? (· == a) with
  | some i => (p.types[i]?).getD .unset
  | none => .unset

/-- The function a new scalar or flow solver prescribes there. -/
def weakCond (zero : F) (p : Problem F) (a : Int) : Option F :=
  match Spec.lastFor (Spec.problemCalls zero p) a with
  | some f => if typeOf p a = .neumann then none else some f
  | none => none

theorem types_fresh {attrs : List Int} {p : Problem F} {b : Nat} {a : Int} (ha : attrs[b]? = some a) :
    (typesAfter attrs (List.replicate attrs.length .unset) p)[b]? = some (typeOf p a) := by
  have hb := (List.getElem?_eq_some_iff.1 ha).1
  simp only [typesAfter, getElem?_tab, hb, if_true, ha, typeOf]
  cases p.battr.findIdx? (· == a) with
  | none => simp [hb]
  | some i => rfl

/-- What a state with given functions and types prescribes. -/
theorem rhs_of {attrs : List Int} {zero : F} {p : Problem F} {s : BC F} (hw : Wf s) (hs : s.attrs = attrs)
    (hc : ∀ (b : Nat) (a : Int), attrs[b]? = some a → s.coeffs[b]? = some (Spec.lastFor (Spec.problemCalls zero p) a))
    (ht : ∀ (b : Nat) (a : Int), attrs[b]? = some a → s.types[b]? = some (typeOf p a)) (mesh : List Int) :
    ∃ r l, rhsBC s mesh = .ok r ∧ lhsBC s mesh = .ok l ∧ r.map Prod.fst = l.map Prod.fst ∧
      (r.map Prod.fst).Nodup ∧ ∀ b f, (b, f) ∈ r ↔
        ∃ a, attrs[b]? = some a ∧ a ∈ mesh ∧ weakCond zero p a = some f := by
  obtain ⟨r, l, h1, h2, h3, h4, h5⟩ := paired_of_wf hw mesh
  refine ⟨r, l, h1, h2, h3, h4, fun b f => ?_⟩
  rw [h5, Spec.WeakDirichlet, hs]
  constructor
  · rintro ⟨⟨a, ha, hm⟩, hf, hn⟩
    refine ⟨a, ha, hm, ?_⟩
    rw [hc b a ha, Option.some.injEq] at hf
    rw [ht b a ha] at hn
    rw [weakCond, hf]
    dsimp only
    rw [if_neg (fun e => hn (by rw [e]))]
  · rintro ⟨a, ha, hm, hf⟩
    refine ⟨⟨a, ha, hm⟩, ?_, ?_⟩
    · rw [hc b a ha]
      unfold weakCond at hf
      split at hf
      · rename_i g hg
        split at hf
        · cases hf
        · rw [hg, Option.some.inj hf]
      · cases hf
    · rw [ht b a ha]
      unfold weakCond at hf
      split at hf
      · split at hf
        · cases hf
        · rename_i hne
          exact fun e => hne (Option.some.inj e)
      · cases hf

theorem fresh_poisson {zero : F} {attrs : List Int} (hn : attrs ≠ []) (hnd : attrs.Nodup)
    {p : Problem F} (hp : p.Valid) :
    ∃ s, setProblemPoisson zero (setupBCVariables attrs) p = .ok s ∧ ∀ mesh : List Int,
      ∃ r l, rhsBC s mesh = .ok r ∧ lhsBC s mesh = .ok l ∧ r.map Prod.fst = l.map Prod.fst ∧
        (r.map Prod.fst).Nodup ∧ ∀ b f, (b, f) ∈ r ↔
          ∃ a, attrs[b]? = some a ∧ a ∈ mesh ∧ weakCond zero p a = some f := by
  have hw : Wf (setupBCVariables attrs : BC F) := wf_setup attrs
  have hst := setTypes_eq hw hp.1
  let v : BC F := ⟨attrs, List.replicate attrs.length none,
    typesAfter attrs (List.replicate attrs.length .unset) p, false⟩
  have hwv : Wf v := ⟨by simp [v], by simp [v, typesAfter]⟩
  obtain ⟨t, ht, hgt⟩ := applyProblem_ok (add := addBC) (zero := zero) (s := v) hp
    (fun w => Wf w ∧ w.attrs ≠ []) ⟨hwv, hn⟩ (by
      intro w f a hgood
      obtain ⟨h1, h2⟩ := hgood
      have he := addBC_eq h1 h2 f a
      have hk := addBC_keeps he
      exact ⟨_, he, hk.2 h1, by rw [hk.1]; exact h2⟩)
  have hrun := applyProblem_inv ht
  rw [runAdds_addBC hwv hn] at hrun
  simp only [Except.ok.injEq] at hrun
  refine ⟨t, ?_, rhs_of hgt.1 (by rw [← hrun]) ?_ ?_⟩
  · unfold setProblemPoisson
    rw [hst]
    simpa [setupBCVariables, v] using ht
  · intro b a ha
    have hb := (List.getElem?_eq_some_iff.1 ha).1
    have := assignAll_get hnd ha (Spec.problemCalls zero p) v.coeffs hwv.1
    rw [← hrun]
    dsimp only
    rw [show v.attrs = attrs from rfl, this]
    cases hl : Spec.lastFor (Spec.problemCalls zero p) a with
    | some f => rfl
    | none => simp [v, hb]
  · intro b a ha
    rw [← hrun]
    exact types_fresh ha

theorem assignAll_length (attrs : List Int) : ∀ (calls : List (F × Int)) (c : List (Option F)),
    c.length = attrs.length → (assignAll attrs c calls).length = attrs.length
  | [], _, hc => hc
  | x :: xs, c, hc => by simpa using hc

theorem fresh_stokes {zero : F} {attrs : List Int} (hn : attrs ≠ []) (hnd : attrs.Nodup)
    {p : Problem F} (hp : p.types.length = p.battr.length) {r : BC F × Option (List Bool)}
    (h : setProblemStokes zero (setupBCVariables attrs) p = .ok r) (mesh : List Int) :
    ∃ q l, rhsBC r.1 mesh = .ok q ∧ lhsBC r.1 mesh = .ok l ∧ q.map Prod.fst = l.map Prod.fst ∧
      (q.map Prod.fst).Nodup ∧ ∀ b f, (b, f) ∈ q ↔
        ∃ a, attrs[b]? = some a ∧ a ∈ mesh ∧ weakCond zero p a = some f := by
  have hw : Wf (setupBCVariables attrs : BC F) := wf_setup attrs
  obtain ⟨u, hu, hr, -⟩ := setProblemStokes_inv h
  rw [setTypes_eq hw hp] at hu
  have eu := Except.ok.inj hu
  let v : BC F := ⟨attrs, List.replicate attrs.length none,
    typesAfter attrs (List.replicate attrs.length .unset) p, false⟩
  have hwv : Wf v := ⟨by simp [v], by simp [v, typesAfter]⟩
  have hv : ({ u with coeffs := List.replicate u.coeffs.length none } : BC F) = v := by
    rw [← eu]; simp [setupBCVariables, v]
  rw [hv, runAdds_stokes hwv hn] at hr
  have er := Except.ok.inj hr
  refine rhs_of ?_ (by rw [← er]) ?_ ?_ mesh
  · rw [← er]
    refine ⟨?_, hwv.2⟩
    exact assignAll_length attrs _ _ (by simp [v])
  · intro b a ha
    have hb := (List.getElem?_eq_some_iff.1 ha).1
    have := assignAll_get hnd ha (Spec.problemCalls zero p) v.coeffs hwv.1
    rw [← er]
    dsimp only
    rw [show v.attrs = attrs from rfl, this]
    cases hl : Spec.lastFor (Spec.problemCalls zero p) a with
    | some f => rfl
    | none => simp [v, hb]
  · intro b a ha
    rw [← er]
    exact types_fresh ha

theorem assignAll_append (attrs : List Int) : ∀ (x y : List (F × Int)) (c : List (Option F)),
    assignAll attrs c (x ++ y) = assignAll attrs (assignAll attrs c x) y
  | [], _, _ => rfl
  | z :: zs, y, c => by simp only [List.cons_append, assignAll]; exact assignAll_append attrs zs y _

theorem nzGo_ok {p : Problem F} (hp : p.types.length = p.battr.length) :
    ∀ (k b : Nat) (nz : List Bool), b + k = p.battr.length → p.battr.length ≤ nz.length →
      ∃ r, nzGo p b k nz = .ok r ∧ r.length = nz.length
  | 0, _, nz, _, _ => ⟨nz, rfl, rfl⟩
  | k + 1, b, nz, hb, hl => by
    have hb1 : b < p.battr.length := by omega
    have hb2 : b < p.types.length := by omega
    unfold nzGo
    rw [rd_of_lt hb2, ok_bind]
    by_cases hz : p.types[b] = .zero
    · rw [if_pos hz, rd_of_lt hb1, ok_bind]
      by_cases ha : p.battr[b] = -1
      · rw [if_pos ha]
        exact ⟨_, rfl, by simp⟩
      · rw [if_neg ha, wr_of_lt (by omega), ok_bind]
        obtain ⟨r, hr, hl'⟩ := nzGo_ok hp k (b + 1) (nz.set b false) (by omega) (by simpa using hl)
        exact ⟨r, hr, by simpa using hl'⟩
    · rw [if_neg hz]
      exact nzGo_ok hp k (b + 1) nz (by omega) hl

/-- When a new flow solver accepts a problem. -/
theorem stokes_accepts {zero : F} {attrs : List Int} (hnd : attrs.Nodup) {p : Problem F} (hp : p.Valid)
    (hv : ∃ a ∈ attrs, (Spec.lastFor (Spec.problemCalls zero p) a).isSome)
    (hx : (∃ a ∈ attrs, Spec.lastFor (Spec.problemCalls zero p) a = none) ∨
      p.battr.length ≤ attrs.length) :
    ∃ r, setProblemStokes zero (setupBCVariables attrs) p = .ok r := by
  have hw : Wf (setupBCVariables attrs : BC F) := wf_setup attrs
  have hn : attrs ≠ [] := by
    obtain ⟨a, ha, -⟩ := hv
    rintro rfl
    cases ha
  have hst := setTypes_eq hw hp.1
  let v : BC F := ⟨attrs, List.replicate attrs.length none,
    typesAfter attrs (List.replicate attrs.length .unset) p, false⟩
  have hwv : Wf v := ⟨by simp [v], by simp [v, typesAfter]⟩
  obtain ⟨t, ht, hgt⟩ := applyProblem_ok (add := addBCStokes) (zero := zero) (s := v) hp
    (fun w => Wf w ∧ w.attrs ≠ []) ⟨hwv, hn⟩ (by
      intro w f a hgood
      obtain ⟨h1, h2⟩ := hgood
      have he := addBCStokes_eq h1 h2 f a
      exact ⟨_, he, ⟨by simpa using h1.1, h1.2⟩, h2⟩)
  have hrun := applyProblem_inv ht
  rw [runAdds_stokes hwv hn] at hrun
  have et := Except.ok.inj hrun
  have hget : ∀ (b : Nat) (a : Int), attrs[b]? = some a →
      t.coeffs[b]? = some (Spec.lastFor (Spec.problemCalls zero p) a) := by
    intro b a ha
    have hb := (List.getElem?_eq_some_iff.1 ha).1
    have := assignAll_get hnd ha (Spec.problemCalls zero p) v.coeffs hwv.1
    rw [← et]
    dsimp only
    rw [show v.attrs = attrs from rfl, this]
    cases hl : Spec.lastFor (Spec.problemCalls zero p) a with
    | some f => rfl
    | none => simp [v, hb]
  have htouch : (Spec.problemCalls zero p).any (fun c => touches attrs c.2) = true := by
    obtain ⟨a, ha, hs⟩ := hv
    rw [List.any_eq_true]
    unfold Spec.lastFor at hs
    rw [Option.isSome_map] at hs
    obtain ⟨c, hc⟩ := Option.isSome_iff_exists.1 hs
    have hm := List.mem_of_getLast? hc
    rw [List.mem_filter, decide_eq_true_eq] at hm
    refine ⟨c, hm.1, ?_⟩
    rcases hm.2 with h0 | h0
    · simp only [touches]
      simp [h0]
    · simp [touches, h0, ha]
  have hflag : t.presDbc = t.coeffs.any Option.isNone := by
    rw [← et]
    dsimp only
    rw [show v.attrs = attrs from rfl, htouch]
    rfl
  have hta : t.attrs = attrs := by rw [← et]
  have heq : setProblemStokes zero (setupBCVariables attrs) p = (do
      if t.presDbc then .ok (t, none)
      else do
        let nz ← nzDbcs t.attrs.length p
        require (nz.length == t.attrs.length)
        require (t.coeffs.length == t.attrs.length)
        loop t.attrs.length (fun k (_ : Unit) => do
          let c ← rd t.coeffs k
          require c.isSome) ()
        .ok (t, some nz)) := by
    unfold setProblemStokes
    rw [hst, ok_bind]
    have : ({ ({ (setupBCVariables attrs : BC F) with
        types := typesAfter (setupBCVariables attrs : BC F).attrs (setupBCVariables attrs : BC F).types p } : BC F)
        with coeffs := List.replicate ({ (setupBCVariables attrs : BC F) with
        types := typesAfter (setupBCVariables attrs : BC F).attrs (setupBCVariables attrs : BC F).types p } : BC F).coeffs.length none } : BC F) = v := by
      simp [setupBCVariables, v]
    dsimp only at this ⊢
    rw [this, ht, ok_bind]
  rw [heq]
  cases hfl : t.presDbc with
  | true => exact ⟨_, rfl⟩
  | false =>
    rw [hfl] at hflag
    have hall : ∀ c ∈ t.coeffs, c.isSome := by
      intro c hc
      cases c with
      | some f => rfl
      | none =>
        exfalso
        have : t.coeffs.any Option.isNone = true := List.any_eq_true.2 ⟨none, hc, rfl⟩
        rw [this] at hflag
        cases hflag
    have hlen : p.battr.length ≤ attrs.length := by
      rcases hx with ⟨a, ha, hl⟩ | hx
      · obtain ⟨b, hb⟩ := List.mem_iff_getElem?.1 ha
        have := hall none (by
          have := hget b a hb
          rw [hl] at this
          exact List.mem_of_getElem? this)
        cases this
      · exact hx
    obtain ⟨nz, hnz, hnl⟩ := nzGo_ok hp.1 p.battr.length 0 (List.replicate attrs.length true) (by omega)
      (by simpa using hlen)
    rw [List.length_replicate] at hnl
    have hloop : loop t.attrs.length (fun k (_ : Unit) => do
        let c ← rd t.coeffs k
        require c.isSome) () = .ok () := by
      obtain ⟨u, hu, -⟩ := loop_total (s := ()) (fun _ _ => True) trivial (n := t.attrs.length)
        (body := fun k (_ : Unit) => do
          let c ← rd t.coeffs k
          require c.isSome) (by
          intro k u hk _
          have hk' : k < t.coeffs.length := by rw [hgt.1.1]; exact hk
          rw [rd_of_lt hk', ok_bind, hall _ (List.getElem_mem hk')]
          exact ⟨(), rfl, trivial⟩)
      exact hu
    refine ⟨(t, some nz), ?_⟩
    simp only [Bool.false_eq_true, if_false]
    unfold nzDbcs
    rw [hta, hnz, ok_bind, hnl, beq_self_eq_true, require_true, ok_bind, hgt.1.1, hta, beq_self_eq_true,
      require_true, ok_bind]
    rw [hta] at hloop
    rw [hloop]
    rfl

/-- What the elasticity solver assigns for an entry. -/
def elastEntry (p : Problem F) (b : Nat) : List (F × Int) :=
  match p.battr[b]?, p.ptr[b]? with
  | some a, some (some f) => [(f, a)]
  | _, _ => []

/-- The assignments of the elasticity solver up to entry `j`. -/
def elastUpto (p : Problem F) (j : Nat) : List (F × Int) :=
  (List.range j).flatMap (elastEntry p)

/-- The condition a new elasticity solver prescribes. -/
def elastCond (p : Problem F) (a : Int) : Option (ElastRhs F) :=
  match typeOf p a, Spec.lastFor (elastUpto p p.battr.length) a with
  | .dirichlet, some f => some (.dirichlet f)
  | .neumann, some f => some (.traction f)
  | _, _ => none

theorem fresh_elast {attrs : List Int} (hn : attrs ≠ []) (hnd : attrs.Nodup) {p : Problem F}
    (hp : p.Valid) : ∃ s, setProblemLinElast (setupBCVariables attrs) p = .ok s ∧
      s.attrs = attrs ∧ Wf s ∧
      ∀ mesh : List Int, ∃ r, rhsElast s mesh = .ok r ∧ (r.map Prod.fst).Nodup ∧
        ∀ b x, (b, x) ∈ r ↔ ∃ a, attrs[b]? = some a ∧ a ∈ mesh ∧ elastCond p a = some x := by
  have hw : Wf (setupBCVariables attrs : BC F) := wf_setup attrs
  have hst := setTypes_eq hw hp.1
  let v : BC F := ⟨attrs, List.replicate attrs.length none,
    typesAfter attrs (List.replicate attrs.length .unset) p, false⟩
  have hwv : Wf v := ⟨by simp [v], by simp [v, typesAfter]⟩
  have hloop := loop_spec (n := p.battr.length) (body := fun b (s : BC F) => do
      let t ← rd p.types b
      let fo ← rd p.ptr b
      require (!decide (t = .dirichlet) || fo.isSome)
      match fo with
      | none => .ok s
      | some f => do
        let a ← rd p.battr b
        addBC s f a) (s := v)
    (fun j => { v with coeffs := assignAll attrs v.coeffs (elastUpto p j) }) (by
      simp [elastUpto, assignAll]) (by
      intro j hj
      have hjt : j < p.types.length := by rw [hp.1]; exact hj
      have hjp : j < p.ptr.length := by rw [hp.2.1]; exact hj
      have hwj : Wf { v with coeffs := assignAll attrs v.coeffs (elastUpto p j) } :=
        ⟨assignAll_length attrs _ _ hwv.1, hwv.2⟩
      have hsucc : elastUpto p (j + 1) = elastUpto p j ++ elastEntry p j := by
        simp [elastUpto, List.range_succ]
      rw [rd_of_lt hjt, ok_bind, rd_of_lt hjp, ok_bind]
      have hreq : (!decide (p.types[j] = .dirichlet) || (p.ptr[j]).isSome) = true := by
        by_cases hd : p.types[j] = .dirichlet
        · obtain ⟨f, hf⟩ := hp.2.2 j (by rw [List.getElem?_eq_getElem hjt, hd])
          rw [List.getElem?_eq_getElem hjp, Option.some.injEq] at hf
          simp [hf]
        · simp [hd]
      rw [hreq, require_true, ok_bind, hsucc, elastEntry, List.getElem?_eq_getElem hj,
        List.getElem?_eq_getElem hjp]
      cases hq : p.ptr[j] with
      | none => simp
      | some f =>
        dsimp only
        rw [rd_of_lt hj, ok_bind, addBC_eq hwj hn]
        rw [assignAll_append]; rfl)
  refine ⟨_, by
    unfold setProblemLinElast
    rw [hst, ok_bind]
    exact hloop, rfl, ?_, ?_⟩
  · refine ⟨?_, hwv.2⟩
    exact assignAll_length attrs _ _ hwv.1
  intro mesh
  let s : BC F := { v with coeffs := assignAll attrs v.coeffs (elastUpto p p.battr.length) }
  have hget : ∀ (b : Nat) (a : Int), attrs[b]? = some a →
      s.coeffs[b]? = some (Spec.lastFor (elastUpto p p.battr.length) a) := by
    intro b a ha
    have hb := (List.getElem?_eq_some_iff.1 ha).1
    have := assignAll_get hnd ha (elastUpto p p.battr.length) v.coeffs hwv.1
    dsimp only [s]
    rw [this]
    cases hl : Spec.lastFor (elastUpto p p.battr.length) a with
    | some f => rfl
    | none => simp [v, hb]
  have hcond : ∀ (b : Nat) (a : Int), attrs[b]? = some a → s.types[b]? = some (typeOf p a) :=
    fun b a ha => types_fresh ha
  have heq : rhsElast s mesh = .ok ((List.range attrs.length).filterMap fun b =>
      if (attrs[b]?).any (fun a => decide (a ∈ mesh))
      then ((attrs[b]?).bind (elastCond p)).map (fun x => (b, x)) else none) := by
    refine forBoundaries_eq (fun b => (attrs[b]?).bind (elastCond p)) ?_
    intro b a ha _
    have ha' : attrs[b]? = some a := ha
    have hb : b < attrs.length := (List.getElem?_eq_some_iff.1 ha).1
    have hws : Wf s := ⟨assignAll_length attrs _ _ hwv.1, hwv.2⟩
    rw [bcExists_eq hws hb, ok_bind, hget b a ha', ha', rd_eq_ok.2 (hcond b a ha'), rd_eq_ok.2 (hget b a ha')]
    simp only [ok_bind, Option.bind_some, elastCond]
    cases Spec.lastFor (elastUpto p p.battr.length) a <;> cases typeOf p a <;> simp
  refine ⟨_, heq, nodup_forBoundaries List.nodup_range, ?_⟩
  intro b x
  rw [mem_forBoundaries]
  constructor
  · rintro ⟨⟨a, ha, hm⟩, hx⟩
    rw [ha] at hx
    exact ⟨a, ha, hm, hx⟩
  · rintro ⟨a, ha, hm, hx⟩
    exact ⟨⟨a, ha, hm⟩, by rw [ha]; exact hx⟩

/-- An attribute a problem does not list has no condition. -/
theorem typeOf_outside {p : Problem F} {a : Int} (h : a ∉ p.battr) : typeOf p a = .unset := by
  have : p.battr.findIdx? (· == a) = none := by
    simp only [List.findIdx?_eq_none_iff, beq_eq_false_iff_ne]
    exact fun x hx e => h (e ▸ hx)
  rw [typeOf, this]

theorem lastFor_outside {calls : List (F × Int)} {a : Int} (h : ∀ c ∈ calls, 0 < c.2 ∧ c.2 ≠ a) :
    Spec.lastFor calls a = none := by
  have : calls.filter (fun c => decide (Spec.Addresses c.2 a)) = [] := by
    rw [List.filter_eq_nil_iff]
    intro c hc
    have := h c hc
    rw [decide_eq_true_eq]
    unfold Spec.Addresses
    omega
  rw [Spec.lastFor, this]
  rfl

theorem weakCond_outside {zero : F} {p : Problem F} {a : Int} (hpos : ∀ c ∈ p.battr, 0 < c)
    (h : a ∉ p.battr) : weakCond zero p a = none := by
  have : Spec.lastFor (Spec.problemCalls zero p) a = none := by
    refine lastFor_outside fun c hc => ?_
    rw [Spec.problemCalls, List.mem_flatMap] at hc
    obtain ⟨b, -, hc⟩ := hc
    have : c.2 ∈ p.battr := by
      split at hc
      · rename_i a' h1 _
        split at hc
        · simp only [List.mem_singleton] at hc; rw [hc]; exact List.mem_of_getElem? h1
        · cases hc
      · cases hc
      · simp only [List.mem_singleton] at hc
        rw [hc]
        exact List.mem_of_getElem? (by assumption)
      · cases hc
    exact ⟨hpos _ this, fun e => h (e ▸ this)⟩
  rw [weakCond, this]

theorem elastCond_outside {p : Problem F} {a : Int} (h : a ∉ p.battr) : elastCond p a = none := by
  rw [elastCond, typeOf_outside h]

end

end Verif.Problems
