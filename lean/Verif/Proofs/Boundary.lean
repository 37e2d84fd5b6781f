import Verif.Spec.Boundary
import Verif.Proofs.Basic
import Verif.Props.Topology

/-!
# Lemmas about boundary conditions
-/

namespace Verif.Boundary

open Verif.Topology

section
variable {F : Type}

theorem wf_setup (attrs : List Int) : Wf (setupBCVariables attrs : BC F) := by
  simp [Wf, setupBCVariables]

theorem wrI_length {α : Type} {l m : List α} {i : Int} {v : α} (h : wrI l i v = .ok m) :
    m.length = l.length := by
  unfold wrI at h
  split at h
  · unfold wr at h
    split at h
    · simp only [Except.ok.injEq] at h; subst h; simp
    · cases h
  · cases h

theorem wr_length {α : Type} {l m : List α} {i : Nat} {v : α} (h : wr l i v = .ok m) :
    m.length = l.length := by
  unfold wr at h
  split at h
  · simp only [Except.ok.injEq] at h; subst h; simp
  · cases h

theorem fill_all (l : List (Option F)) (f : F) :
    loop l.length (fun k c => wr c k (some f)) l = .ok (List.replicate l.length (some f)) := by
  have h := loop_spec (n := l.length) (body := fun k c => wr c k (some f)) (s := l)
    (fun i => List.replicate (min i l.length) (some f) ++ l.drop i) (by simp) (by
      intro i hi
      rw [wr_of_lt (by simp; omega)]
      congr 1
      apply List.ext_getElem?
      intro k
      rw [List.getElem?_set]
      rcases lt_trichotomy i k with h1 | h1 | h1
      · rw [if_neg (by omega), List.getElem?_append_right (by simp; omega),
          List.getElem?_append_right (by simp; omega)]
        simp only [List.length_replicate, List.getElem?_drop]
        congr 1; omega
      · subst h1
        rw [if_pos rfl, if_pos (by simp; omega),
          List.getElem?_append_left (by simp; omega)]
        rw [List.getElem?_replicate, if_pos (by omega)]
      · rw [if_neg (by omega), List.getElem?_append_left (by simp; omega),
          List.getElem?_append_left (by simp; omega)]
        rw [List.getElem?_replicate, List.getElem?_replicate, if_pos (by omega), if_pos (by omega)])
  rw [h]
  simp

/-- The pure effect of `AddBCFunction` on the coefficients. -/
def assign (attrs : List Int) (coeffs : List (Option F)) (f : F) (battr : Int) : List (Option F) :=
  if 0 < battr then
    match attrs.findIdx? (· == battr) with
    | some i => coeffs.set i (some f)
    | none => coeffs
  else List.replicate coeffs.length (some f)

@[simp] theorem length_assign (attrs : List Int) (coeffs : List (Option F)) (f : F) (battr : Int) :
    (assign attrs coeffs f battr).length = coeffs.length := by
  unfold assign
  split
  · split <;> simp
  · simp

theorem arrFind_none {l : List Int} {a : Int} (h : l.findIdx? (· == a) = none) :
    arrFind l a = -1 := by simp [arrFind, h]

theorem arrFind_some {l : List Int} {a : Int} {i : Nat} (h : l.findIdx? (· == a) = some i) :
    arrFind l a = i := by simp [arrFind, h]

theorem addBC_eq {s : BC F} (hw : Wf s) (hn : s.attrs ≠ []) (f : F) (a : Int) :
    addBC s f a = .ok { s with coeffs := assign s.attrs s.coeffs f a } := by
  have h0 : 0 < s.coeffs.length := by
    rw [hw.1]; exact List.length_pos_iff.2 hn
  unfold addBC assign
  simp only [h0, decide_true, require_true, ok_bind]
  by_cases ha : 0 < a
  · simp only [ha, if_true]
    rcases hf : s.attrs.findIdx? (· == a) with _ | i
    · rw [arrFind_none hf]; rfl
    · have hi : i < s.attrs.length := (List.findIdx?_eq_some_iff_getElem.1 hf).1
      rw [arrFind_some hf, if_neg (by omega), wrI_of_lt (by omega) (by rw [hw.1]; simpa using hi)]
      simp
  · simp only [ha, if_false, fill_all, ok_bind]

theorem determine_eq (coeffs : List (Option F)) : ∀ (k b : Nat), b + k ≤ coeffs.length →
    determinePressureGo coeffs b k = .ok (((coeffs.drop b).take k).any Option.isNone) := by
  intro k
  induction k with
  | zero => intro b _; simp [determinePressureGo]
  | succ k ih =>
    intro b hb
    have hlt : b < coeffs.length := by omega
    rw [List.drop_eq_getElem_cons hlt]
    simp only [determinePressureGo, rd_of_lt hlt, ok_bind, List.take_succ_cons, List.any_cons]
    cases h : coeffs[b] with
    | none => simp
    | some f => simp [ih (b + 1) (by omega)]

theorem determine_all {s : BC F} {c : List (Option F)} (h : c.length = s.attrs.length) :
    determinePressureGo c 0 s.attrs.length = .ok (c.any Option.isNone) := by
  rw [determine_eq _ _ _ (by omega), ← h]
  simp

/-- Whether `AddBCFunction` reaches the pressure flag. -/
def touches (attrs : List Int) (battr : Int) : Bool := decide (battr ≤ 0) || attrs.contains battr

theorem addBCStokes_eq {s : BC F} (hw : Wf s) (hn : s.attrs ≠ []) (f : F) (a : Int) :
    addBCStokes s f a = .ok { s with
      coeffs := assign s.attrs s.coeffs f a
      presDbc := if touches s.attrs a then (assign s.attrs s.coeffs f a).any Option.isNone
        else s.presDbc } := by
  have h0 : 0 < s.coeffs.length := by
    rw [hw.1]; exact List.length_pos_iff.2 hn
  unfold addBCStokes
  simp only [h0, decide_true, require_true, ok_bind]
  by_cases ha : 0 < a
  · have hle : ¬ a ≤ 0 := by omega
    simp only [ha, if_true, touches, hle, decide_false, Bool.false_or]
    rcases hf : s.attrs.findIdx? (· == a) with _ | i
    · have : a ∉ s.attrs := by
        intro hm
        simp only [List.findIdx?_eq_none_iff, beq_eq_false_iff_ne] at hf
        exact hf a hm rfl
      rw [arrFind_none hf]
      simp [assign, ha, hf, this]
    · obtain ⟨hi, hv, _⟩ := List.findIdx?_eq_some_iff_getElem.1 hf
      have hm : a ∈ s.attrs := by
        have := List.getElem_mem hi
        simp only [beq_iff_eq] at hv
        rwa [hv] at this
      rw [arrFind_some hf, if_neg (by omega),
        wrI_of_lt (by omega) (by rw [hw.1]; simpa using hi)]
      simp only [ok_bind]
      rw [determine_all (by simp [hw.1])]
      simp [assign, ha, hf, hm]
  · have hle : a ≤ 0 := by omega
    simp only [ha, if_false, fill_all, ok_bind, touches, hle, decide_true, Bool.true_or, if_true]
    rw [determine_all (by simp [hw.1])]
    simp [assign, ha]

/-- The coefficients after a list of calls. -/
def assignAll (attrs : List Int) (coeffs : List (Option F)) : List (F × Int) → List (Option F)
  | [] => coeffs
  | c :: cs => assignAll attrs (assign attrs coeffs c.1 c.2) cs

@[simp] theorem length_assignAll (attrs : List Int) : ∀ (calls : List (F × Int))
    (coeffs : List (Option F)), (assignAll attrs coeffs calls).length = coeffs.length
  | [], _ => rfl
  | c :: cs, coeffs => by simp [assignAll, length_assignAll attrs cs]

theorem assignAll_append (attrs : List Int) : ∀ (x y : List (F × Int)) (coeffs : List (Option F)),
    assignAll attrs coeffs (x ++ y) = assignAll attrs (assignAll attrs coeffs x) y
  | [], _, _ => rfl
  | _ :: cs, y, coeffs => by simp [assignAll, assignAll_append attrs cs y]

theorem lastFor_cons (c : F × Int) (cs : List (F × Int)) (a : Int) :
    Spec.lastFor (c :: cs) a =
      (Spec.lastFor cs a).or (if Spec.Addresses c.2 a then some c.1 else none) := by
  unfold Spec.lastFor
  by_cases h : Spec.Addresses c.2 a
  · rw [List.filter_cons_of_pos (by simpa using h), List.getLast?_cons, if_pos h]
    cases (List.filter (fun c => decide (Spec.Addresses c.2 a)) cs).getLast? <;> simp
  · rw [List.filter_cons_of_neg (by simpa using h), if_neg h]
    simp

theorem assign_get {attrs : List Int} (hnd : attrs.Nodup) {coeffs : List (Option F)}
    (hl : coeffs.length = attrs.length) (f : F) (battr : Int) {b : Nat} {a : Int}
    (ha : attrs[b]? = some a) :
    (assign attrs coeffs f battr)[b]? =
      if Spec.Addresses battr a then some (some f) else coeffs[b]? := by
  obtain ⟨hb, hba⟩ := List.getElem?_eq_some_iff.1 ha
  have hA : Spec.Addresses battr a ↔ battr ≤ 0 ∨ battr = a := Iff.rfl
  unfold assign
  simp only [hA]
  by_cases hp : 0 < battr
  · simp only [hp, if_true]
    cases hf : attrs.findIdx? (· == battr) with
    | none =>
      have : battr ≠ a := by
        rintro rfl
        simp only [List.findIdx?_eq_none_iff, beq_eq_false_iff_ne] at hf
        exact hf battr (hba ▸ List.getElem_mem hb) rfl
      dsimp only
      rw [if_neg (by omega)]
    | some i =>
      obtain ⟨hi, hv, _⟩ := List.findIdx?_eq_some_iff_getElem.1 hf
      simp only [beq_iff_eq] at hv
      dsimp only
      rw [List.getElem?_set]
      by_cases hib : i = b
      · subst hib
        rw [if_pos rfl, if_pos (by omega), if_pos (Or.inr (hv.symm.trans hba))]
      · rw [if_neg hib, if_neg]
        rintro (h | h)
        · omega
        · exact hib ((List.Nodup.getElem_inj_iff hnd).1 (by rw [hv, hba, h]))
  · simp only [hp, if_false]
    rw [if_pos (Or.inl (by omega)), List.getElem?_replicate, if_pos (by omega)]

theorem assignAll_get {attrs : List Int} (hnd : attrs.Nodup) {b : Nat} {a : Int}
    (ha : attrs[b]? = some a) : ∀ (calls : List (F × Int)) (coeffs : List (Option F)),
    coeffs.length = attrs.length →
    (assignAll attrs coeffs calls)[b]? =
      match Spec.lastFor calls a with
      | some f => some (some f)
      | none => coeffs[b]?
  | [], coeffs, _ => by simp [assignAll, Spec.lastFor]
  | c :: cs, coeffs, hl => by
    rw [assignAll, assignAll_get hnd ha cs _ (by simpa using hl), lastFor_cons]
    cases h : Spec.lastFor cs a with
    | some f => simp
    | none =>
      simp only [Option.none_or]
      rw [assign_get hnd hl _ _ ha]
      split <;> rfl

theorem runAdds_append (add : BC F → F → Int → Outcome (BC F)) :
    ∀ (x y : List (F × Int)) (s : BC F),
      runAdds add s (x ++ y) = (runAdds add s x >>= fun t => runAdds add t y)
  | [], _, _ => rfl
  | c :: cs, y, s => by
    simp only [List.cons_append, runAdds]
    cases h : add s c.1 c.2 with
    | error e => rfl
    | ok t => simp only [ok_bind]; exact runAdds_append add cs y t

theorem runAdds_addBC {s : BC F} (hw : Wf s) (hn : s.attrs ≠ [])
    (calls : List (F × Int)) :
    runAdds addBC s calls = .ok { s with coeffs := assignAll s.attrs s.coeffs calls } := by
  induction calls generalizing s with
  | nil => rfl
  | cons c cs ih =>
    rw [runAdds, addBC_eq hw hn]
    simp only [ok_bind]
    rw [ih (s := { s with coeffs := assign s.attrs s.coeffs c.1 c.2 })
      ⟨by simpa using hw.1, hw.2⟩ hn]
    rfl

theorem assignAll_untouched {attrs : List Int} : ∀ (cs : List (F × Int)) (co : List (Option F)),
    (∀ d ∈ cs, touches attrs d.2 = false) → assignAll attrs co cs = co
  | [], _, _ => rfl
  | d :: ds, co, hd => by
    have ht := hd d (by simp)
    have hd2 : 0 < d.2 ∧ d.2 ∉ attrs := by
      simpa [touches] using ht
    have hf : attrs.findIdx? (· == d.2) = none := by
      simp only [List.findIdx?_eq_none_iff, beq_eq_false_iff_ne]
      rintro x hx rfl; exact hd2.2 hx
    have : assign attrs co d.1 d.2 = co := by
      simp [assign, hf, hd2.1]
    rw [assignAll, this, assignAll_untouched ds _ (fun e he => hd e (by simp [he]))]

theorem runAdds_stokes {s : BC F} (hw : Wf s) (hn : s.attrs ≠ []) (calls : List (F × Int)) :
    runAdds addBCStokes s calls = .ok { s with
      coeffs := assignAll s.attrs s.coeffs calls
      presDbc := if calls.any (fun c => touches s.attrs c.2)
        then (assignAll s.attrs s.coeffs calls).any Option.isNone else s.presDbc } := by
  induction calls generalizing s with
  | nil => rfl
  | cons c cs ih =>
    rw [runAdds, addBCStokes_eq hw hn]
    simp only [ok_bind]
    rw [ih (s := { s with
      coeffs := assign s.attrs s.coeffs c.1 c.2
      presDbc := if touches s.attrs c.2 then (assign s.attrs s.coeffs c.1 c.2).any Option.isNone
        else s.presDbc }) ⟨by simpa using hw.1, hw.2⟩ hn]
    simp only [assignAll, List.any_cons]
    congr 2
    by_cases h1 : cs.any (fun c => touches s.attrs c.2) = true
    · simp [h1]
    · have h1' : cs.any (fun c => touches s.attrs c.2) = false := by simpa using h1
      simp only [h1', Bool.false_eq_true, if_false, Bool.or_false]
      by_cases h2 : touches s.attrs c.2 = true
      · simp only [h2, if_true]
        have hno : ∀ d ∈ cs, touches s.attrs d.2 = false := by
          intro d hd
          have := List.any_eq_false.1 h1' d hd
          simpa using this
        rw [assignAll_untouched cs _ hno]
      · simp [h2]

/-- The calls of the first `j` entries of a problem. -/
def callsUpto (zero : F) (p : Problem F) (j : Nat) : List (F × Int) :=
  (List.range j).flatMap fun b =>
    match p.battr[b]?, p.types[b]? with
    | some a, some .dirichlet =>
      match p.ptr[b]? with
      | some (some f) => [(f, a)]
      | _ => []
    | some _, some .neumann => []
    | some a, some _ => [(zero, a)]
    | _, _ => []

theorem applyProblem_inv {add : BC F → F → Int → Outcome (BC F)} {zero : F} {p : Problem F}
    {s t : BC F} (h : applyProblem add zero p s = .ok t) :
    runAdds add s (Spec.problemCalls zero p) = .ok t := by
  have := loop_inv (fun j u => runAdds add s (callsUpto zero p j) = .ok u)
    (s := s) (t := t) rfl (by
      intro j u v hj hu hb
      have hcons : callsUpto zero p (j + 1) = callsUpto zero p j ++
          (match p.battr[j]?, p.types[j]? with
          | some a, some .dirichlet =>
            match p.ptr[j]? with
            | some (some f) => [(f, a)]
            | _ => []
          | some _, some .neumann => []
          | some a, some _ => [(zero, a)]
          | _, _ => []) := by
        simp [callsUpto, List.range_succ]
      rw [hcons, runAdds_append, hu]
      simp only [ok_bind]
      rw [List.getElem?_eq_getElem hj]
      obtain ⟨ty, hty, hb⟩ := bind_eq_ok.1 hb
      rw [rd_eq_ok] at hty
      rw [hty]
      cases ty with
      | dirichlet =>
        dsimp only at hb ⊢
        obtain ⟨fo, hfo, hb⟩ := bind_eq_ok.1 hb
        rw [rd_eq_ok] at hfo
        rw [hfo]
        cases fo with
        | none => cases hb
        | some f =>
          dsimp only at hb ⊢
          rw [rd_of_lt hj] at hb
          simp only [ok_bind] at hb
          simp [runAdds, hb]
      | neumann =>
        simpa [runAdds] using hb
      | zero =>
        dsimp only at hb ⊢
        rw [rd_of_lt hj] at hb
        simp only [ok_bind] at hb
        simp [runAdds, hb]
      | unset =>
        dsimp only at hb ⊢
        rw [rd_of_lt hj] at hb
        simp only [ok_bind] at hb
        simp [runAdds, hb]) h
  exact this

theorem applyProblem_ok {add : BC F → F → Int → Outcome (BC F)} {zero : F} {p : Problem F}
    {s : BC F} (hp : p.Valid) (Good : BC F → Prop) (hs : Good s)
    (hadd : ∀ s f a, Good s → ∃ t, add s f a = .ok t ∧ Good t) :
    ∃ t, applyProblem add zero p s = .ok t ∧ Good t := by
  refine loop_total (fun _ u => Good u) hs ?_
  intro j u hj hu
  have hjt : j < p.types.length := by rw [hp.1]; exact hj
  rw [rd_of_lt hjt]
  simp only [ok_bind]
  cases hty : p.types[j] with
  | dirichlet =>
    obtain ⟨f, hf⟩ := hp.2.2 j (by rw [List.getElem?_eq_getElem hjt, hty])
    have hrd : rd p.ptr j = .ok (some f) := rd_eq_ok.2 hf
    dsimp only
    rw [hrd]
    simp only [ok_bind, rd_of_lt hj]
    exact hadd _ _ _ hu
  | neumann => exact ⟨u, rfl, hu⟩
  | zero => simp only [ok_bind, rd_of_lt hj]; exact hadd _ _ _ hu
  | unset => simp only [ok_bind, rd_of_lt hj]; exact hadd _ _ _ hu

/-- The boundary types after a problem has been set. -/
def typesAfter (attrs : List Int) (types : List BdrType) (p : Problem F) : List BdrType :=
  tab attrs.length fun b =>
    match attrs[b]? with
    | some a =>
      match p.battr.findIdx? (· == a) with
      | some i => (p.types[i]?).getD .unset
      | none => (types[b]?).getD .unset
    | none => .unset

theorem setTypes_eq {s : BC F} (hw : Wf s) {p : Problem F} (hp : p.types.length = p.battr.length) :
    setTypes s p = .ok { s with types := typesAfter s.attrs s.types p } := by
  unfold setTypes
  simp only [hw.2, beq_self_eq_true, require_true, ok_bind]
  have h := loop_spec (n := s.attrs.length) (body := fun b t => do
      let a ← rd s.attrs b
      let idx := arrFind p.battr a
      if idx < 0 then .ok t
      else do
        let ty ← rdI p.types idx
        wr t b ty) (s := s.types)
    (fun i => tab s.attrs.length fun b =>
      if b < i then (match s.attrs[b]? with
        | some a =>
          match p.battr.findIdx? (· == a) with
          | some i => (p.types[i]?).getD .unset
          | none => (s.types[b]?).getD .unset
        | none => .unset)
      else (s.types[b]?).getD .unset) (by
      simp only [Nat.not_lt_zero, if_false]
      rw [← hw.2, tab_getD]) (by
      intro i hi
      dsimp only
      rw [rd_of_lt hi]
      simp only [ok_bind]
      rcases hf : p.battr.findIdx? (· == s.attrs[i]) with _ | k
      · rw [arrFind_none hf]
        simp only [show (-1 : Int) < 0 by decide, if_true]
        congr 1
        apply tab_congr
        intro b hb
        by_cases hbi : b < i
        · simp [hbi, show b < i + 1 by omega]
        · by_cases hbe : b = i
          · subst hbe
            simp [hf, hi]
          · simp [hbi, show ¬ b < i + 1 by omega]
      · obtain ⟨hk, _, _⟩ := List.findIdx?_eq_some_iff_getElem.1 hf
        rw [arrFind_some hf, if_neg (by omega), rdI_of_lt (by omega) (by rw [hp]; simpa using hk)]
        simp only [ok_bind]
        rw [wr_tab hi]
        congr 1
        apply tab_congr
        intro b hb
        by_cases hbe : b = i
        · subst hbe
          have : k < p.types.length := by rw [hp]; exact hk
          simp [hf, hi, this]
        · rw [Function.update_of_ne hbe]
          by_cases hbi : b < i
          · simp [hbi, show b < i + 1 by omega]
          · simp [hbi, show ¬ b < i + 1 by omega])
  simp only [bind_eq_ok]
  refine ⟨_, h, ?_⟩
  congr 2
  apply tab_congr
  intro b hb
  simp [hb]

@[simp] theorem length_typesAfter (attrs : List Int) (types : List BdrType) (p : Problem F) :
    (typesAfter attrs types p).length = attrs.length := by simp [typesAfter]

theorem setTypes_inv {s t : BC F} {p : Problem F} (h : setTypes s p = .ok t) :
    t.attrs = s.attrs ∧ t.coeffs = s.coeffs ∧ t.presDbc = s.presDbc ∧
      t.types.length = s.attrs.length ∧ s.types.length = s.attrs.length := by
  unfold setTypes at h
  obtain ⟨_, hr, h⟩ := bind_eq_ok.1 h
  rw [require_eq_ok, beq_iff_eq] at hr
  obtain ⟨ty, hl, h⟩ := bind_eq_ok.1 h
  simp only [Except.ok.injEq] at h
  subst h
  refine ⟨rfl, rfl, rfl, ?_, hr⟩
  refine loop_inv (fun _ (u : List BdrType) => u.length = s.attrs.length) hr ?_ hl
  intro j u v hj hu hb
  dsimp only at hb
  obtain ⟨a, _, hb⟩ := bind_eq_ok.1 hb
  split at hb
  · simp only [Except.ok.injEq] at hb; subst hb; exact hu
  · obtain ⟨ty, _, hb⟩ := bind_eq_ok.1 hb
    rw [wr_length hb, hu]

/-- Nothing but types and coefficients changes, and the lengths are kept. -/
def Keeps (s t : BC F) : Prop := t.attrs = s.attrs ∧ (Wf s → Wf t)

theorem Keeps.refl (s : BC F) : Keeps s s := ⟨rfl, id⟩

theorem Keeps.trans {s t u : BC F} (h : Keeps s t) (h' : Keeps t u) : Keeps s u :=
  ⟨h'.1.trans h.1, h'.2 ∘ h.2⟩

theorem fill_length {n : Nat} {l c : List (Option F)} {f : F}
    (h : loop n (fun k c => wr c k (some f)) l = .ok c) : c.length = l.length := by
  refine loop_inv (fun _ (u : List (Option F)) => u.length = l.length) rfl ?_ h
  intro j u v _ hu hb
  rw [wr_length hb, hu]

theorem addBC_keeps {s t : BC F} {f : F} {a : Int} (h : addBC s f a = .ok t) : Keeps s t := by
  unfold addBC at h
  obtain ⟨_, _, h⟩ := bind_eq_ok.1 h
  split at h
  · dsimp only at h
    split at h
    · simp only [Except.ok.injEq] at h; subst h; exact .refl _
    · obtain ⟨c, hc, h⟩ := bind_eq_ok.1 h
      simp only [Except.ok.injEq] at h; subst h
      exact ⟨rfl, fun hw => ⟨(wrI_length hc).trans hw.1, hw.2⟩⟩
  · obtain ⟨c, hc, h⟩ := bind_eq_ok.1 h
    simp only [Except.ok.injEq] at h; subst h
    exact ⟨rfl, fun hw => ⟨(fill_length hc).trans hw.1, hw.2⟩⟩

theorem addBCStokes_keeps {s t : BC F} {f : F} {a : Int} (h : addBCStokes s f a = .ok t) :
    Keeps s t := by
  unfold addBCStokes at h
  obtain ⟨_, _, h⟩ := bind_eq_ok.1 h
  split at h
  · dsimp only at h
    split at h
    · simp only [Except.ok.injEq] at h; subst h; exact .refl _
    · obtain ⟨c, hc, h⟩ := bind_eq_ok.1 h
      obtain ⟨p, _, h⟩ := bind_eq_ok.1 h
      simp only [Except.ok.injEq] at h; subst h
      exact ⟨rfl, fun hw => ⟨(wrI_length hc).trans hw.1, hw.2⟩⟩
  · obtain ⟨c, hc, h⟩ := bind_eq_ok.1 h
    obtain ⟨p, _, h⟩ := bind_eq_ok.1 h
    simp only [Except.ok.injEq] at h; subst h
    exact ⟨rfl, fun hw => ⟨(fill_length hc).trans hw.1, hw.2⟩⟩

theorem setBdrType_keeps {s t : BC F} {ty : BdrType} {i : Int} (h : setBdrType s ty i = .ok t) :
    Keeps s t := by
  unfold setBdrType at h
  obtain ⟨_, _, h⟩ := bind_eq_ok.1 h
  split at h
  · simp only [Except.ok.injEq] at h; subst h
    exact ⟨rfl, fun hw => ⟨hw.1, by simpa using hw.2⟩⟩
  · obtain ⟨_, _, h⟩ := bind_eq_ok.1 h
    obtain ⟨c, hc, h⟩ := bind_eq_ok.1 h
    simp only [Except.ok.injEq] at h; subst h
    exact ⟨rfl, fun hw => ⟨hw.1, (wrI_length hc).trans hw.2⟩⟩

theorem setTypes_keeps {s t : BC F} {p : Problem F} (h : setTypes s p = .ok t) : Keeps s t := by
  obtain ⟨h1, h2, _, h4, _⟩ := setTypes_inv h
  exact ⟨h1, fun hw => ⟨by rw [h2, h1, hw.1], by rw [h4, h1]⟩⟩

theorem runAdds_keeps {add : BC F → F → Int → Outcome (BC F)}
    (ha : ∀ s f a t, add s f a = .ok t → Keeps s t) : ∀ (calls : List (F × Int)) (s t : BC F),
    runAdds add s calls = .ok t → Keeps s t
  | [], s, t, h => by
    simp only [runAdds, Except.ok.injEq] at h; subst h; exact .refl _
  | c :: cs, s, t, h => by
    obtain ⟨u, hu, h⟩ := bind_eq_ok.1 h
    exact (ha _ _ _ _ hu).trans (runAdds_keeps ha cs u t h)

theorem clear_keeps (s : BC F) :
    Keeps s { s with coeffs := List.replicate s.coeffs.length none } :=
  ⟨rfl, fun hw => ⟨by simpa using hw.1, hw.2⟩⟩

theorem setProblemPoisson_keeps {zero : F} {s t : BC F} {p : Problem F}
    (h : setProblemPoisson zero s p = .ok t) : Keeps s t := by
  obtain ⟨u, hu, h⟩ := bind_eq_ok.1 h
  exact ((setTypes_keeps hu).trans (clear_keeps u)).trans
    (runAdds_keeps (fun _ _ _ _ => addBC_keeps) _ _ _ (applyProblem_inv h))

theorem setProblemStokes_inv {zero : F} {s : BC F} {p : Problem F} {r : BC F × Option (List Bool)}
    (h : setProblemStokes zero s p = .ok r) : ∃ u, setTypes s p = .ok u ∧
      runAdds addBCStokes { u with coeffs := List.replicate u.coeffs.length none }
        (Spec.problemCalls zero p) = .ok r.1 ∧
      ((r.1.presDbc = true ∧ r.2 = none) ∨ (r.1.presDbc = false ∧
        ∃ nz, r.2 = some nz ∧ nzDbcs r.1.attrs.length p = .ok nz ∧
          (∀ c ∈ r.1.coeffs, c.isSome))) := by
  obtain ⟨u, hu, h⟩ := bind_eq_ok.1 h
  obtain ⟨v, hv, h⟩ := bind_eq_ok.1 h
  refine ⟨u, hu, ?_⟩
  have hv' := applyProblem_inv hv
  by_cases hp : v.presDbc = true
  · rw [if_pos hp] at h
    simp only [Except.ok.injEq] at h; subst h
    exact ⟨hv', Or.inl ⟨hp, rfl⟩⟩
  · rw [if_neg hp] at h
    obtain ⟨nz, hnz, h⟩ := bind_eq_ok.1 h
    obtain ⟨_, h1, h⟩ := bind_eq_ok.1 h
    obtain ⟨_, h2, h⟩ := bind_eq_ok.1 h
    obtain ⟨_, h3, h⟩ := bind_eq_ok.1 h
    simp only [Except.ok.injEq] at h; subst h
    rw [require_eq_ok, beq_iff_eq] at h2
    refine ⟨hv', Or.inr ⟨by simpa using hp, nz, rfl, hnz, ?_⟩⟩
    have := loop_inv (fun j (_ : Unit) => ∀ i < j, ∀ c, v.coeffs[i]? = some c → c.isSome)
      (by omega) (by
        intro j _ _ hj hinv hb i hi c hc
        rcases Nat.lt_succ_iff_lt_or_eq.1 hi with h' | h'
        · exact hinv i h' c hc
        · subst h'
          obtain ⟨c', hc', hb⟩ := bind_eq_ok.1 hb
          rw [rd_eq_ok, hc] at hc'
          have e : c = c' := by simpa using hc'
          subst e
          exact require_eq_ok.1 hb) h3
    intro c hc
    obtain ⟨i, hi, rfl⟩ := List.getElem_of_mem hc
    exact this i (by have : i < v.coeffs.length := hi
                     omega) _ (List.getElem?_eq_getElem hi)

theorem setProblemStokes_keeps {zero : F} {s : BC F} {p : Problem F}
    {r : BC F × Option (List Bool)} (h : setProblemStokes zero s p = .ok r) : Keeps s r.1 := by
  obtain ⟨u, hu, hr, _⟩ := setProblemStokes_inv h
  exact ((setTypes_keeps hu).trans (clear_keeps u)).trans
    (runAdds_keeps (fun _ _ _ _ => addBCStokes_keeps) _ _ _ hr)

theorem setProblemLinElast_keeps {s t : BC F} {p : Problem F}
    (h : setProblemLinElast s p = .ok t) : Keeps s t := by
  obtain ⟨u, hu, h⟩ := bind_eq_ok.1 h
  refine (setTypes_keeps hu).trans ?_
  refine loop_inv (fun _ v => Keeps u v) (.refl _) ?_ h
  intro j v w hj hv hb
  obtain ⟨ty, _, hb⟩ := bind_eq_ok.1 hb
  obtain ⟨fo, _, hb⟩ := bind_eq_ok.1 hb
  obtain ⟨_, _, hb⟩ := bind_eq_ok.1 hb
  cases fo with
  | none => simp only [Except.ok.injEq] at hb; subst hb; exact hv
  | some f =>
    obtain ⟨a, _, hb⟩ := bind_eq_ok.1 hb
    exact hv.trans (addBC_keeps hb)

theorem runCalls_keeps {step : BC F → Call F → Outcome (BC F)}
    (hstep : ∀ s c t, step s c = .ok t → Keeps s t) : ∀ (cs : List (Call F)) (s t : BC F),
    runCalls step s cs = .ok t → Keeps s t
  | [], s, t, h => by
    simp only [runCalls, Except.ok.injEq] at h; subst h; exact .refl _
  | c :: cs, s, t, h => by
    obtain ⟨u, hu, h⟩ := bind_eq_ok.1 h
    exact (hstep _ _ _ hu).trans (runCalls_keeps hstep cs u t h)

theorem stepPoisson_keeps {zero : F} (s : BC F) (c : Call F) (t : BC F)
    (h : stepPoisson zero s c = .ok t) : Keeps s t := by
  cases c with
  | add f a => exact addBC_keeps h
  | setType ty i => exact setBdrType_keeps h
  | problem p => exact setProblemPoisson_keeps h

theorem stepStokes_keeps {zero : F} (s : BC F) (c : Call F) (t : BC F)
    (h : stepStokes zero s c = .ok t) : Keeps s t := by
  cases c with
  | add f a => exact addBCStokes_keeps h
  | setType ty i => exact setBdrType_keeps h
  | problem p =>
    obtain ⟨r, hr, h⟩ := bind_eq_ok.1 h
    simp only [Except.ok.injEq] at h; subst h
    exact setProblemStokes_keeps hr

theorem stepElast_keeps (s : BC F) (c : Call F) (t : BC F)
    (h : stepElast s c = .ok t) : Keeps s t := by
  cases c with
  | add f a => exact addBC_keeps h
  | setType ty i => exact setBdrType_keeps h
  | problem p => exact setProblemLinElast_keeps h

/-- The integrators added by a loop over the boundaries. -/
theorem forBoundaries_eq {α : Type} {s : BC F} {mesh : List Int}
    {act : Nat → Outcome (Option α)} (r : Nat → Option α)
    (hact : ∀ b a, s.attrs[b]? = some a → a ∈ mesh → act b = .ok (r b)) :
    forBoundaries s mesh act = .ok ((List.range s.attrs.length).filterMap fun b =>
      if (s.attrs[b]?).any (fun a => decide (a ∈ mesh)) then (r b).map (fun x => (b, x)) else none) := by
  refine loop_spec (fun n => (List.range n).filterMap fun b =>
      if (s.attrs[b]?).any (fun a => decide (a ∈ mesh)) then (r b).map (fun x => (b, x)) else none) rfl ?_
  intro i hi
  rw [rd_of_lt hi]
  simp only [ok_bind, List.range_succ, List.filterMap_append, arrFind_neg]
  have hex : (s.attrs[i]?).any (fun a => decide (a ∈ mesh)) = decide (s.attrs[i] ∈ mesh) := by
    simp [List.getElem?_eq_getElem hi]
  by_cases hm : s.attrs[i] ∈ mesh
  · have := hact i _ (List.getElem?_eq_getElem hi) hm
    rw [if_neg (not_not.2 hm), this]
    simp only [ok_bind]
    cases hr : r i with
    | none => simp [hr]
    | some x => simp [hr, hex, hm]
  · rw [if_pos hm]
    simp [hex, hm]

end

end Verif.Boundary
