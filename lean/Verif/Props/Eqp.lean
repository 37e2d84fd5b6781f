import Verif.Proofs.Eqp

/-! # C45, C46: hyper-reduced nonlinear forms -/

namespace Verif.Eqp

open Verif Verif.LinAlg Verif.LinAlg.Spec Verif.Convection Verif.Convection.Spec Verif.Eqp.Spec Finset

variable {P R : Type} [CommRing R]

theorem sum_map_apply {α ι : Type} (l : List α) (t : α → ι → R) (c : ι) :
    (l.map fun s => fun i : ι => t s i).sum c = (l.map fun s => t s c).sum := by
  induction l with
  | nil => rfl
  | cons a l ih => simp only [List.map_cons, List.sum_cons, Pi.add_apply, ih]

theorem sum_entries (f : Form P R) (F : Kind × Entry P R → R) :
    ((entries f).map F).sum = (f.dnfi.map fun e => F (.domain, e)).sum +
      (f.fnfi.map fun e => F (.interior, e)).sum +
      (f.bfnfi.map fun e => F (.boundary e.2, e.1)).sum := by
  unfold entries
  simp only [List.map_append, List.sum_append, List.map_map, Function.comp_def]

theorem mem_entries_dom {f : Form P R} {e : Entry P R} (h : e ∈ f.dnfi) :
    (Kind.domain, e) ∈ entries f := by
  unfold entries
  simp only [List.mem_append, List.mem_map]
  exact Or.inl (Or.inl ⟨e, h, rfl⟩)

theorem mem_entries_int {f : Form P R} {e : Entry P R} (h : e ∈ f.fnfi) :
    (Kind.interior, e) ∈ entries f := by
  unfold entries
  simp only [List.mem_append, List.mem_map]
  exact Or.inl (Or.inr ⟨e, h, rfl⟩)

theorem mem_entries_bdr {f : Form P R} {e : Entry P R × Option (List Int)} (h : e ∈ f.bfnfi) :
    (Kind.boundary e.2, e.1) ∈ entries f := by
  unfold entries
  simp only [List.mem_append, List.mem_map]
  exact Or.inr ⟨e, h, rfl⟩

/-- Every sampled point of the form has its coefficients, if they are used. -/
def FormReady (f : Form P R) (b : Mat R) : Prop :=
  f.precompute = true → ∀ e ∈ entries f, ∀ s ∈ e.2.samples.getD [], Ready f.space e.1 b e.2.integ s

/-! ## Evaluation is the sum over the samples -/

/-- **C45.** `Mult` succeeds and gives, in each reduced equation, the sum over all samples of all
integrators of the quadrature contribution of the lifted field, tested with the basis vector; the
previous contents of `y` and of the scratch arrays play no role. -/
theorem mult_spec {f : Form P R} {b : Mat R} (hf : FormOk f b) (hp : FormReady f b) {x y : List R}
    (hx : x.length = f.width) (hy : y.length = f.height) (junk : Nat → R) :
    ∃ y', f.mult x y junk = .ok y' ∧ y'.length = f.height ∧
      ∀ c < f.height, ve y' c = formVec f b x c := by
  have hxb : x.length = b.w := by rw [hx, hf.width]
  unfold Form.mult
  simp only [hx, hy, hf.basis, nonNull, beq_self_eq_true, require_true, ok_bind]
  rw [show (b.w == f.height) = true by rw [hf.height]; simp, require_true, ok_bind]
  obtain ⟨y1, e1, l1, v1⟩ := loop_list_acc (l := f.dnfi) (body := fun k y => (do
      let e ← rd f.dnfi k
      multEntry f x junk .domain e y : Outcome (List R)))
    (fun y => y.length = b.w) (fun y => fun c : Fin b.w => ve y c)
    (fun e => ((e.samples.getD []).map fun s => fun c : Fin b.w =>
          vecTerm f.space .domain e.integ b x s c).sum)
    (s := vof f.height fun _ => 0) (by rw [vof_eq]; simp [hf.height]) (by
      intro k e y he hk hy
      rw [hk, ok_bind]
      exact multEntry_spec hf (hf.entries _ (mem_entries_dom he))
        (fun h => hp h _ (mem_entries_dom he)) hxb junk hy)
  obtain ⟨y2, e2, l2, v2⟩ := loop_list_acc (l := f.fnfi) (body := fun k y => (do
      let e ← rd f.fnfi k
      multEntry f x junk .interior e y : Outcome (List R)))
    (fun y => y.length = b.w) (fun y => fun c : Fin b.w => ve y c)
    (fun e => ((e.samples.getD []).map fun s => fun c : Fin b.w =>
          vecTerm f.space .interior e.integ b x s c).sum)
    (s := y1) l1 (by
      intro k e y he hk hy
      rw [hk, ok_bind]
      exact multEntry_spec hf (hf.entries _ (mem_entries_int he))
        (fun h => hp h _ (mem_entries_int he)) hxb junk hy)
  obtain ⟨y3, e3, l3, v3⟩ := loop_list_acc (l := f.bfnfi) (body := fun k y => (do
      let e ← rd f.bfnfi k
      multEntry f x junk (.boundary e.2) e.1 y : Outcome (List R)))
    (fun y => y.length = b.w) (fun y => fun c : Fin b.w => ve y c)
    (fun e => ((e.1.samples.getD []).map fun s => fun c : Fin b.w =>
          vecTerm f.space (.boundary e.2) e.1.integ b x s c).sum)
    (s := y2) l2 (by
      intro k e y he hk hy
      rw [hk, ok_bind]
      exact multEntry_spec hf (hf.entries _ (mem_entries_bdr he))
        (fun h => hp h _ (mem_entries_bdr he)) hxb junk hy)
  refine ⟨y3, by rw [e1, ok_bind, e2, ok_bind, e3], by rw [l3, hf.height], ?_⟩
  intro c hc
  rw [← hf.height] at hc
  have := congrFun v3 ⟨c, hc⟩
  rw [v2, v1] at this
  simp only [Pi.add_apply, sum_map_apply] at this
  rw [this, formVec, sum_entries]
  have h0 : ve (vof f.height fun _ => (0 : R)) c = 0 := by
    rw [vof_eq, ve_tab (by rw [← hf.height]; exact hc)]
  rw [h0, zero_add]

/-- **C45.** `GetGradient` gives the matrix of the samples' Jacobians restricted to the basis,
whatever the matrix of the previous call contained. -/
theorem getGradient_spec {f : Form P R} {b : Mat R} (hf : FormOk f b) (hp : FormReady f b)
    {x : List R} (hx : x.length = f.width) (junk : Nat → R) {old : Option (Mat R)}
    (ho : ∀ m, old = some m → m.h = f.height ∧ m.w = f.width) :
    ∃ m, f.getGradient x old junk = .ok m ∧ m.h = f.height ∧ m.w = f.width ∧ MatOk m ∧
      ∀ i j, i < f.height → j < f.width → ent m i j = formGrad f b x i j := by
  have hxb : x.length = b.w := by rw [hx, hf.width]
  have hg : f.gradInit old = Mat.of b.w b.w (fun _ _ => 0) := by
    cases old with
    | none => unfold Form.gradInit; rw [← hf.height, ← hf.width]
    | some m =>
      obtain ⟨h1, h2⟩ := ho m rfl
      unfold Form.gradInit
      dsimp only
      rw [h1, h2, ← hf.height, ← hf.width]
  unfold Form.getGradient
  simp only [hx, beq_self_eq_true, require_true, ok_bind, hg]
  obtain ⟨y1, e1, ⟨a1, b1, c1, d1⟩, v1⟩ := loop_list_acc (l := f.dnfi) (body := fun k y => (do
      let e ← rd f.dnfi k
      gradEntry f x junk .domain e y : Outcome (Mat R)))
    (fun m => m.h = b.w ∧ m.w = b.w ∧ MatOk m ∧ (f.precompute = true → m.data.length = b.w * b.w))
    (fun m => fun p : Fin b.w × Fin b.w => ent m p.1 p.2)
    (fun e => ((e.samples.getD []).map fun s => fun p : Fin b.w × Fin b.w =>
          gradTerm f.space .domain e.integ b x s p.1 p.2).sum)
    (s := Mat.of b.w b.w fun _ _ => 0) ⟨rfl, rfl, of_ok _ _ _, fun _ => of_length _ _ _⟩ (by
      rintro k e m he hk ⟨h1, h2, h3, h4⟩
      rw [hk, ok_bind]
      exact gradEntry_spec hf (hf.entries _ (mem_entries_dom he))
        (fun h => hp h _ (mem_entries_dom he)) hxb junk h1 h2 h3 h4)
  obtain ⟨y2, e2, ⟨a2, b2, c2, d2⟩, v2⟩ := loop_list_acc (l := f.fnfi) (body := fun k y => (do
      let e ← rd f.fnfi k
      gradEntry f x junk .interior e y : Outcome (Mat R)))
    (fun m => m.h = b.w ∧ m.w = b.w ∧ MatOk m ∧ (f.precompute = true → m.data.length = b.w * b.w))
    (fun m => fun p : Fin b.w × Fin b.w => ent m p.1 p.2)
    (fun e => ((e.samples.getD []).map fun s => fun p : Fin b.w × Fin b.w =>
          gradTerm f.space .interior e.integ b x s p.1 p.2).sum)
    (s := y1) ⟨a1, b1, c1, d1⟩ (by
      rintro k e m he hk ⟨h1, h2, h3, h4⟩
      rw [hk, ok_bind]
      exact gradEntry_spec hf (hf.entries _ (mem_entries_int he))
        (fun h => hp h _ (mem_entries_int he)) hxb junk h1 h2 h3 h4)
  obtain ⟨y3, e3, ⟨a3, b3, c3, d3⟩, v3⟩ := loop_list_acc (l := f.bfnfi) (body := fun k y => (do
      let e ← rd f.bfnfi k
      gradEntry f x junk (.boundary e.2) e.1 y : Outcome (Mat R)))
    (fun m => m.h = b.w ∧ m.w = b.w ∧ MatOk m ∧ (f.precompute = true → m.data.length = b.w * b.w))
    (fun m => fun p : Fin b.w × Fin b.w => ent m p.1 p.2)
    (fun e => ((e.1.samples.getD []).map fun s => fun p : Fin b.w × Fin b.w =>
          gradTerm f.space (.boundary e.2) e.1.integ b x s p.1 p.2).sum)
    (s := y2) ⟨a2, b2, c2, d2⟩ (by
      rintro k e m he hk ⟨h1, h2, h3, h4⟩
      rw [hk, ok_bind]
      exact gradEntry_spec hf (hf.entries _ (mem_entries_bdr he))
        (fun h => hp h _ (mem_entries_bdr he)) hxb junk h1 h2 h3 h4)
  refine ⟨y3, by rw [e1, ok_bind, e2, ok_bind, e3], by rw [a3, hf.height], by rw [b3, hf.width],
    c3, ?_⟩
  intro i j hi hj
  rw [← hf.height] at hi
  rw [← hf.width] at hj
  have := congrFun v3 (⟨i, hi⟩, ⟨j, hj⟩)
  rw [v2, v1] at this
  simp only [Pi.add_apply, sum_map_apply] at this
  rw [this, formGrad, sum_entries, ent_of (f := fun _ _ => (0 : R)) hi hj, zero_add]

/-! ## Sample order -/

theorem sum_forall₂ {α β : Type} {rel : α → β → Prop} {l : List α} {l' : List β}
    (h : List.Forall₂ rel l l') {F : α → R} {F' : β → R} (hF : ∀ a b, rel a b → F' b = F a) :
    (l'.map F').sum = (l.map F).sum := by
  induction h with
  | nil => rfl
  | cons hab _ ih => simp only [List.map_cons, List.sum_cons, hF _ _ hab, ih]

theorem mem_forall₂ {α β : Type} {rel : α → β → Prop} {l : List α} {l' : List β}
    (h : List.Forall₂ rel l l') {y : β} (hy : y ∈ l') : ∃ x ∈ l, rel x y := by
  induction h with
  | nil => cases hy
  | cons hab _ ih =>
    rcases List.mem_cons.1 hy with rfl | hy
    · exact ⟨_, List.mem_cons_self, hab⟩
    · obtain ⟨x, hx, hr⟩ := ih hy
      exact ⟨x, List.mem_cons_of_mem _ hx, hr⟩

theorem Spec.SamplesPerm.ok {f f' : Form P R} (h : SamplesPerm f f') {b : Mat R} (hf : FormOk f b) :
    FormOk f' b := by
  refine ⟨by rw [h.basis, hf.basis], hf.ok, hf.pos, by rw [h.height, hf.height],
    by rw [h.width, hf.width], ?_⟩
  intro e' he'
  obtain ⟨e, he, h1, h2, l, l', h3, h4, h5⟩ := mem_forall₂ h.entries he'
  obtain ⟨nq, l0, g1, g2, g3⟩ := hf.entries e he
  rw [h3] at g2
  cases g2
  refine ⟨nq, l', by rw [h2, g1], h4, ?_⟩
  intro s hs
  rw [h.space, h1, h2]
  exact g3 s (h5.mem_iff.2 hs)

theorem Spec.SamplesPerm.ready {f f' : Form P R} (h : SamplesPerm f f') {b : Mat R} (hf : FormReady f b) :
    FormReady f' b := by
  intro hp e' he' s hs
  obtain ⟨e, he, h1, h2, l, l', h3, h4, h5⟩ := mem_forall₂ h.entries he'
  rw [h4] at hs
  rw [h.space, h1, h2]
  exact hf (by rw [← h.precompute, hp]) e he s (by rw [h3]; exact h5.mem_iff.2 hs)

theorem Spec.SamplesPerm.formVec_eq {f f' : Form P R} (h : SamplesPerm f f') (b : Mat R) (x : List R)
    (c : Nat) : formVec f' b x c = formVec f b x c := by
  refine sum_forall₂ h.entries ?_
  rintro e e' ⟨h1, h2, l, l', h3, h4, h5⟩
  rw [h3, h4, h1, h2, h.space]
  exact ((h5.map _).sum_eq).symm

theorem Spec.SamplesPerm.formGrad_eq {f f' : Form P R} (h : SamplesPerm f f') (b : Mat R) (x : List R)
    (i j : Nat) : formGrad f' b x i j = formGrad f b x i j := by
  refine sum_forall₂ h.entries ?_
  rintro e e' ⟨h1, h2, l, l', h3, h4, h5⟩
  rw [h3, h4, h1, h2, h.space]
  exact ((h5.map _).sum_eq).symm

theorem eq_of_ve {u v : List R} {n : Nat} (hu : u.length = n) (hv : v.length = n)
    (h : ∀ c < n, ve u c = ve v c) : u = v := by
  rw [list_eq_tab u, list_eq_tab v, hu, hv]
  exact tab_congr h

/-- **C45.** Reordering the samples of each integrator in any way does not change the result of
`Mult`: nothing depends on which entity was visited before. -/
theorem mult_perm {f f' : Form P R} {b : Mat R} (hf : FormOk f b) (hp : FormReady f b)
    (h : SamplesPerm f f') {x y y2 : List R} (hx : x.length = f.width) (hy : y.length = f.height)
    (hy2 : y2.length = f.height) (junk junk' : Nat → R) :
    f'.mult x y2 junk' = f.mult x y junk := by
  obtain ⟨u, e1, l1, v1⟩ := mult_spec hf hp hx hy junk
  obtain ⟨v, e2, l2, v2⟩ := mult_spec (h.ok hf) (h.ready hp) (by rw [h.width, hx])
    (by rw [h.height, hy2]) junk'
  rw [e1, e2]
  rw [h.height] at l2 v2
  rw [eq_of_ve l1 l2 fun c hc => by rw [v1 c hc, v2 c hc, h.formVec_eq]]

/-- **C45.** Nor that of `GetGradient`. -/
theorem getGradient_perm {f f' : Form P R} {b : Mat R} (hf : FormOk f b) (hp : FormReady f b)
    (h : SamplesPerm f f') {x : List R} (hx : x.length = f.width) {old old' : Option (Mat R)}
    (ho : ∀ m, old = some m → m.h = f.height ∧ m.w = f.width)
    (ho' : ∀ m, old' = some m → m.h = f.height ∧ m.w = f.width) (junk junk' : Nat → R) :
    ∃ m m', f.getGradient x old junk = .ok m ∧ f'.getGradient x old' junk' = .ok m' ∧
      ∀ i j, i < f.height → j < f.width → ent m' i j = ent m i j := by
  obtain ⟨u, e1, _, _, _, v1⟩ := getGradient_spec hf hp hx junk ho
  obtain ⟨v, e2, _, _, _, v2⟩ := getGradient_spec (h.ok hf) (h.ready hp) (by rw [h.width, hx]) junk'
    (old := old') (by rw [h.width, h.height]; exact ho')
  refine ⟨u, v, e1, e2, fun i j hi hj => ?_⟩
  rw [v1 i j hi hj, v2 i j (by rw [h.height]; exact hi) (by rw [h.width]; exact hj), h.formGrad_eq]

/-! ## Precomputed coefficients -/

/-- A loop that pushes the image of each element of a list. -/
theorem loop_push {α β : Type} {l : List α} {g : α → Outcome β} {rel : α → β → Prop}
    (h : ∀ a ∈ l, ∃ c, g a = .ok c ∧ rel a c) :
    ∃ out, loop l.length (fun i out => (do
      let a ← rd l i
      let c ← g a
      return out ++ [c] : Outcome (List β))) [] = .ok out ∧ List.Forall₂ rel l out := by
  obtain ⟨out, e, hi⟩ := loop_total (n := l.length) (body := fun i out => (do
      let a ← rd l i
      let c ← g a
      return out ++ [c] : Outcome (List β)))
    (fun k out => List.Forall₂ rel (l.take k) out) (s := []) (by simp) (by
      intro k out hk ho
      obtain ⟨c, g1, g2⟩ := h l[k] (List.getElem_mem hk)
      refine ⟨out ++ [c], ?_, ?_⟩
      · rw [rd_of_lt hk, ok_bind, g1]; rfl
      · rw [List.take_succ, List.getElem?_eq_getElem hk]
        exact List.rel_append ho (by simpa using g2))
  refine ⟨out, e, ?_⟩
  simpa using hi

/-- The same sample with its coefficients. -/
def Filled (sp : Space) (kind : Kind) (b : Mat R) (g : Integ P R) (s s' : Sample P R) : Prop :=
  s'.el = s.el ∧ s'.qp = s.qp ∧ s'.qw = s.qw ∧ Ready sp kind b g s'

theorem preEntry_spec {sp : Space} {kind : Kind} {b : Mat R} {e : Entry P R} {h : Nat}
    (he : EntryOk sp h kind e) (hp : ∀ s ∈ e.samples.getD [], PreOk sp kind b e.integ s) :
    ∃ e', preEntry sp kind b e = .ok e' ∧ e'.integ = e.integ ∧ ∃ l l', e.samples = some l ∧
      e'.samples = some l' ∧ List.Forall₂ (Filled sp kind b e.integ) l l' := by
  obtain ⟨nq, l, h1, h2, h3⟩ := he
  obtain ⟨out, e1, e2⟩ := loop_push (l := l) (g := preSample sp kind b e.integ nq)
    (rel := Filled sp kind b e.integ) (by
      intro s hs
      obtain ⟨q1, q2, q3, q4, rows, q5, q6, _⟩ := h3 s hs
      obtain ⟨p, g1, g2⟩ := hp s (by rw [h2]; exact hs) rows q5
      refine ⟨{ s with pre := some p }, ?_, rfl, rfl, rfl, ?_⟩
      · unfold preSample
        rw [at_eq q1 q4 q5, ok_bind]
        show (do
          let qp ← intPoint nq s.qp
          let p ← e.integ.preFn b rows s.el.toNat qp
          return { s with pre := some p }) = _
        rw [intPoint_eq q2 q3, ok_bind, g1]; rfl
      · intro rows' hr
        dsimp only at hr
        rw [q5] at hr
        cases hr
        exact ⟨p, rfl, g2⟩)
  refine ⟨{ e with samples := some out }, ?_, rfl, l, out, h2, rfl, e2⟩
  unfold preEntry
  rw [h1, h2]
  simp only [nonNull, ok_bind]
  rw [e1]; rfl

/-- A sample on a face without transformation stops the precomputation with an error, before anything is read
through the null pointer. -/
theorem preEntry_null_face {sp : Space} {kind : Kind} {b : Mat R} {e : Entry P R} {nq : Nat} {s : Sample P R}
    {l : List (Sample P R)} (h1 : e.integ.rule = some nq) (h2 : e.samples = some (s :: l))
    (h3 : sp.at_ kind s.el = .ok none) : preEntry sp kind b e = .error .abort := by
  unfold preEntry
  rw [h1, h2]
  simp only [nonNull, ok_bind]
  have : loop (s :: l).length (fun i out => (do
      let s ← rd (s :: l) i
      let s ← preSample sp kind b e.integ nq s
      return out ++ [s] : Outcome (List (Sample P R)))) [] = .error .abort := by
    rw [List.length_cons, loop, loopFrom]
    have : preSample sp kind b e.integ nq s = .error .abort := by
      unfold preSample
      rw [h3]
      rfl
    simp only [show rd (s :: l) 0 = .ok s from rfl, ok_bind, this]
    rfl
  rw [this]
  rfl

/-- The same integrator, each sample with its coefficients. -/
def EntryFilled (sp : Space) (b : Mat R) (e e' : Kind × Entry P R) : Prop :=
  e'.1 = e.1 ∧ e'.2.integ = e.2.integ ∧ ∃ l l', e.2.samples = some l ∧ e'.2.samples = some l' ∧
    List.Forall₂ (Filled sp e.1 b e.2.integ) l l'

theorem precompute_filled {f : Form P R} {b : Mat R} (hf : FormOk f b)
    (hp : ∀ e ∈ entries f, ∀ s ∈ e.2.samples.getD [], PreOk f.space e.1 b e.2.integ s) :
    ∃ f', f.precomputeCoefficients = .ok f' ∧ f'.height = f.height ∧ f'.width = f.width ∧
      f'.basis = f.basis ∧ f'.precompute = f.precompute ∧ f'.space = f.space ∧
      List.Forall₂ (EntryFilled f.space b) (entries f) (entries f') := by
  obtain ⟨d, d1, d2⟩ := loop_push (l := f.dnfi) (g := preEntry f.space .domain b)
    (rel := fun e e' => EntryFilled f.space b (.domain, e) (.domain, e')) (by
      intro e he
      obtain ⟨e', h1, h2, h3⟩ := preEntry_spec (hf.entries _ (mem_entries_dom he))
        (hp _ (mem_entries_dom he))
      exact ⟨e', h1, rfl, h2, h3⟩)
  obtain ⟨i, i1, i2⟩ := loop_push (l := f.fnfi) (g := preEntry f.space .interior b)
    (rel := fun e e' => EntryFilled f.space b (.interior, e) (.interior, e')) (by
      intro e he
      obtain ⟨e', h1, h2, h3⟩ := preEntry_spec (hf.entries _ (mem_entries_int he))
        (hp _ (mem_entries_int he))
      exact ⟨e', h1, rfl, h2, h3⟩)
  obtain ⟨q, q1, q2⟩ := loop_push (l := f.bfnfi)
    (g := fun e => do
      let e' ← preEntry f.space (.boundary e.2) b e.1
      return (e', e.2))
    (rel := fun e e' => EntryFilled f.space b (.boundary e.2, e.1) (.boundary e'.2, e'.1)) (by
      intro e he
      obtain ⟨e', h1, h2, h3⟩ := preEntry_spec (hf.entries _ (mem_entries_bdr he))
        (hp _ (mem_entries_bdr he))
      exact ⟨(e', e.2), by rw [h1]; rfl, rfl, h2, h3⟩)
  refine ⟨{ f with dnfi := d, fnfi := i, bfnfi := q }, ?_, rfl, rfl, rfl, rfl, rfl, ?_⟩
  · unfold Form.precomputeCoefficients
    simp only [hf.basis, nonNull, ok_bind]
    rw [show (b.w == f.height) = true by rw [hf.height]; simp, require_true, ok_bind, d1, ok_bind,
      i1, ok_bind]
    simp only [bind_assoc, pure_bind] at q1
    rw [q1]; rfl
  · unfold entries
    refine List.rel_append (List.rel_append ?_ ?_) ?_
    · simpa using d2
    · simpa using i2
    · simpa using q2

/-- **C45.** `PrecomputeCoefficients` succeeds; afterwards every sample has its coefficients and
denotes the same quadrature point, so the fast evaluation gives the same residual and the same
Jacobian as the slow one. -/
theorem precompute_spec {f : Form P R} {b : Mat R} (hf : FormOk f b)
    (hp : ∀ e ∈ entries f, ∀ s ∈ e.2.samples.getD [], PreOk f.space e.1 b e.2.integ s) :
    ∃ f', f.precomputeCoefficients = .ok f' ∧ FormOk f' b ∧ FormReady f' b ∧
      (∀ x c, formVec f' b x c = formVec f b x c) ∧
      (∀ x i j, formGrad f' b x i j = formGrad f b x i j) ∧
      f'.height = f.height ∧ f'.width = f.width ∧ f'.precompute = f.precompute := by
  obtain ⟨f', h1, h2, h3, h4, h5, h6, h7⟩ := precompute_filled hf hp
  refine ⟨f', h1, ?_, ?_, ?_, ?_, h2, h3, h5⟩
  · refine ⟨by rw [h4, hf.basis], hf.ok, hf.pos, by rw [h2, hf.height], by rw [h3, hf.width], ?_⟩
    intro e' he'
    obtain ⟨e, he, a1, a2, l, l', a3, a4, a5⟩ := mem_forall₂ h7 he'
    obtain ⟨nq, l0, g1, g2, g3⟩ := hf.entries e he
    rw [a3] at g2
    cases g2
    refine ⟨nq, l', by rw [a2, g1], a4, ?_⟩
    intro s' hs'
    obtain ⟨s, hs, b1, b2, b3, _⟩ := mem_forall₂ a5 hs'
    have := g3 s hs
    unfold SampleOk at this ⊢
    rw [h6, a1, a2, b1, b2]
    exact this
  · intro _ e' he' s' hs'
    obtain ⟨e, he, a1, a2, l, l', a3, a4, a5⟩ := mem_forall₂ h7 he'
    rw [a4] at hs'
    obtain ⟨s, hs, b1, b2, b3, b4⟩ := mem_forall₂ a5 hs'
    rw [h6, a1, a2]
    exact b4
  · intro x c
    refine sum_forall₂ h7 ?_
    rintro e e' ⟨a1, a2, l, l', a3, a4, a5⟩
    rw [a3, a4]
    refine sum_forall₂ a5 ?_
    rintro s s' ⟨b1, b2, b3, _⟩
    unfold vecTerm
    rw [h6, a1, a2, b1, b2, b3]
  · intro x i j
    refine sum_forall₂ h7 ?_
    rintro e e' ⟨a1, a2, l, l', a3, a4, a5⟩
    rw [a3, a4]
    refine sum_forall₂ a5 ?_
    rintro s s' ⟨b1, b2, b3, _⟩
    unfold gradTerm
    rw [h6, a1, a2, b1, b2, b3]

/-- The form after `PrecomputeCoefficients`, in precompute mode. -/
theorem fast_ready {f f' : Form P R} {b : Mat R} (hf : FormOk f b)
    (hp : ∀ e ∈ entries f, ∀ s ∈ e.2.samples.getD [], PreOk f.space e.1 b e.2.integ s)
    (h : f.precomputeCoefficients = .ok f') :
    FormOk ({ f' with precompute := true } : Form P R) b ∧
    FormReady ({ f' with precompute := true } : Form P R) b := by
  obtain ⟨g, h1, h2, _⟩ := precompute_spec hf hp
  obtain ⟨g', e0, a1, a2, a3, a4, a5, a6⟩ := precompute_filled hf hp
  rw [h] at h1 e0
  cases h1
  cases e0
  refine ⟨⟨h2.basis, h2.ok, h2.pos, h2.height, h2.width, h2.entries⟩, ?_⟩
  intro _ e' he' s' hs'
  obtain ⟨e, he, b1, b2, l, l', b3, b4, b5⟩ := mem_forall₂ a6 he'
  rw [b4] at hs'
  obtain ⟨s, hs, c1, c2, c3, c4⟩ := mem_forall₂ b5 hs'
  show Ready f'.space _ _ _ _
  rw [a5, b1, b2]
  exact c4

/-- **C45.** Fast and slow evaluation agree: with `f'` the form after `PrecomputeCoefficients`,
`Mult` of `f'` in precompute mode returns the vector `Mult` of `f` returns without it. -/
theorem fast_eq_slow {f f' : Form P R} {b : Mat R} (hf : FormOk f b) (hs : f.precompute = false)
    (hp : ∀ e ∈ entries f, ∀ s ∈ e.2.samples.getD [], PreOk f.space e.1 b e.2.integ s)
    (h : f.precomputeCoefficients = .ok f') {x y y2 : List R} (hx : x.length = f.width)
    (hy : y.length = f.height) (hy2 : y2.length = f.height) (junk junk' : Nat → R) :
    ({ f' with precompute := true } : Form P R).mult x y2 junk' = f.mult x y junk := by
  obtain ⟨g, h1, h2, h3, h4, h5, h6, h7, h8⟩ := precompute_spec hf hp
  obtain ⟨hok, hr⟩ := fast_ready hf hp h
  rw [h] at h1
  cases h1
  obtain ⟨u, e1, l1, v1⟩ := mult_spec hf (fun h => by rw [hs] at h; cases h) hx hy junk
  obtain ⟨v, e2, l2, v2⟩ := mult_spec hok hr (x := x) (y := y2) (by rw [hx]; exact h7.symm)
    (by rw [hy2]; exact h6.symm) junk'
  rw [e1, e2]
  have l2' : v.length = f.height := l2.trans h6
  rw [eq_of_ve l1 l2' fun c hc => by
    rw [v1 c hc, v2 c (by show c < f'.height; rw [h6]; exact hc)]
    exact (h4 x c).symm]

/-- **C45.** The same for `GetGradient`. -/
theorem fast_grad_eq_slow {f f' : Form P R} {b : Mat R} (hf : FormOk f b) (hs : f.precompute = false)
    (hp : ∀ e ∈ entries f, ∀ s ∈ e.2.samples.getD [], PreOk f.space e.1 b e.2.integ s)
    (h : f.precomputeCoefficients = .ok f') {x : List R} (hx : x.length = f.width)
    {old old' : Option (Mat R)} (ho : ∀ m, old = some m → m.h = f.height ∧ m.w = f.width)
    (ho' : ∀ m, old' = some m → m.h = f.height ∧ m.w = f.width) (junk junk' : Nat → R) :
    ∃ m m', f.getGradient x old junk = .ok m ∧
      ({ f' with precompute := true } : Form P R).getGradient x old' junk' = .ok m' ∧
      ∀ i j, i < f.height → j < f.width → ent m' i j = ent m i j := by
  obtain ⟨g, h1, h2, h3, h4, h5, h6, h7, h8⟩ := precompute_spec hf hp
  obtain ⟨hok, hr⟩ := fast_ready hf hp h
  rw [h] at h1
  cases h1
  obtain ⟨u, e1, _, _, _, v1⟩ := getGradient_spec hf (fun h => by rw [hs] at h; cases h) hx junk ho
  obtain ⟨v, e2, _, _, _, v2⟩ := getGradient_spec hok hr (x := x) (by rw [hx]; exact h7.symm) junk'
    (old := old') (by
      show ∀ m, old' = some m → m.h = f'.height ∧ m.w = f'.width
      rw [h6, h7]; exact ho')
  refine ⟨u, v, e1, e2, fun i j hi hj => ?_⟩
  rw [v1 i j hi hj, v2 i j (by show i < f'.height; rw [h6]; exact hi)
    (by show j < f'.width; rw [h7]; exact hj)]
  exact h5 x i j

/-! ## The Jacobian is the derivative -/

/-- At a sample the integrator is quadratic with gradient `grad`. -/
def QuadraticAt (sp : Space) (kind : Kind) (g : Integ P R) (s : Sample P R) : Prop :=
  ∀ rows, rowsOf sp kind s.el.toNat = some rows → ∀ u h : List R, u.length = rows.length →
    ∀ t < rows.length, ve (g.vec s.el.toNat s.el.toNat s.qp.toNat s.qw (vadd u h)) t =
      ve (g.vec s.el.toNat s.el.toNat s.qp.toNat s.qw u) t +
      ∑ k ∈ range rows.length, ent (g.grad s.el.toNat s.el.toNat s.qp.toNat s.qw u) t k * ve h k +
      ve (g.vec s.el.toNat s.el.toNat s.qp.toNat s.qw h) t

theorem sum_map_three {α : Type} {l : List α} {f a c : α → R} {d : α → Nat → R} {n : Nat}
    {z : Nat → R} (h : ∀ e ∈ l, f e = a e + ∑ j ∈ range n, d e j * z j + c e) :
    (l.map f).sum = (l.map a).sum + ∑ j ∈ range n, (l.map fun e => d e j).sum * z j +
      (l.map c).sum := by
  induction l with
  | nil => simp
  | cons e l ih =>
    simp only [List.map_cons, List.sum_cons, add_mul, sum_add_distrib]
    rw [h e List.mem_cons_self, ih fun e he => h e (List.mem_cons_of_mem _ he)]
    ring

/-- **C45.** For integrators that are quadratic with exact gradient (as the convection integrators
are, C50), the reduced Jacobian is the exact derivative of the reduced residual. -/
theorem getGradient_exact {f : Form P R} {b : Mat R} (hf : FormOk f b) (hp : FormReady f b)
    (hq : ∀ e ∈ entries f, ∀ s ∈ e.2.samples.getD [], QuadraticAt f.space e.1 e.2.integ s)
    {x z y : List R} (hx : x.length = f.width) (hz : z.length = f.width) (hy : y.length = f.height)
    (junk : Nat → R) :
    ∃ yx yz yxz J, f.mult x y junk = .ok yx ∧ f.mult z y junk = .ok yz ∧
      f.mult (vadd x z) y junk = .ok yxz ∧ f.getGradient x none junk = .ok J ∧
      ∀ i < f.height, ve yxz i = ve yx i + ∑ j ∈ range f.width, ent J i j * ve z j + ve yz i := by
  obtain ⟨yx, a1, -, a3⟩ := mult_spec hf hp hx hy junk
  obtain ⟨yz, b1, -, b3⟩ := mult_spec hf hp hz hy junk
  obtain ⟨yxz, c1, -, c3⟩ := mult_spec hf hp (x := vadd x z) (by unfold vadd; simpa using hx) hy junk
  obtain ⟨J, d1, -, -, -, d5⟩ := getGradient_spec hf hp hx junk (old := none) (by simp)
  refine ⟨yx, yz, yxz, J, a1, b1, c1, d1, fun i hi => ?_⟩
  rw [a3 i hi, b3 i hi, c3 i hi, sum_congr rfl fun j hj => by rw [d5 i j hi (mem_range.1 hj)]]
  refine sum_map_three fun e he => ?_
  refine sum_map_three fun s hs => ?_
  obtain ⟨nq, l, h1, h2, h3⟩ := hf.entries e he
  have hs' := hs
  rw [h2] at hs'
  obtain ⟨q1, q2, q3, q4, rows, q5, q6, q7⟩ := h3 s hs'
  rw [vecTerm_eq q5, vecTerm_eq q5, vecTerm_eq q5, sum_congr rfl fun j _ => by rw [gradTerm_eq q5],
    ← hf.width]
  exact project_exact (F := fun u => e.2.integ.vec s.el.toNat s.el.toNat s.qp.toNat s.qw u)
    (by rw [hx, hf.width])
    (fun t ht => hq e he s hs rows q5 _ _ (lift_length ..) t ht) i

/-! ## C46: full quadrature -/

theorem sum_flatMap' {α : Type} (l : List α) (g : α → List R) :
    (l.flatMap g).sum = (l.map fun a => (g a).sum).sum := by
  induction l with
  | nil => rfl
  | cons a l ih => simp [ih]

open Classical in
theorem full_entry {sp : Space} {kind : Kind} {e : Entry P R} {w : Nat → R} {nq : Nat} {b : Mat R}
    (hs : FullySampled sp kind e w nq)
    (hr : ∀ el rows, Acts sp kind el → rowsOf sp kind el = some rows → RowsOk rows b.h)
    (x : List R) (c : Nat) :
    ((e.samples.getD []).map fun s => vecTerm sp kind e.integ b x s c).sum =
      ∑ r ∈ range b.h, ent b r c * fullVec sp kind e.integ w nq (liftAll b x) r := by
  obtain ⟨l, h1, h2⟩ := hs
  have key : (l.map fun s => vecTerm sp kind e.integ b x s c).sum =
      ((fullPoints sp kind w nq).map fun p =>
        vecTerm sp kind e.integ b x (⟨p.1, p.2.1, p.2.2, none⟩ : Sample P R) c).sum := by
    rw [← (h2.map _).sum_eq, List.map_map]
    rfl
  rw [h1, Option.getD_some, key]
  have hsum : ∀ (F : Int × Int × R → R), ((fullPoints sp kind w nq).map F).sum =
      ∑ el ∈ range (count sp kind), if Acts sp kind el ∧ rowsOf sp kind el ≠ none then
        ∑ q ∈ range nq, F ((el : Int), (q : Int), w q) else 0 := by
    intro F
    unfold fullPoints
    rw [List.map_flatMap, sum_flatMap']
    rw [show ∑ el ∈ range (count sp kind), (if Acts sp kind el ∧ rowsOf sp kind el ≠ none then
        ∑ q ∈ range nq, F ((el : Int), (q : Int), w q) else 0) =
      ((List.range (count sp kind)).map fun el =>
        if Acts sp kind el ∧ rowsOf sp kind el ≠ none then
        ∑ q ∈ range nq, F ((el : Int), (q : Int), w q) else 0).sum from rfl]
    congr 1
    refine List.map_congr_left fun el _ => ?_
    split
    · rw [List.map_map]; rfl
    · rfl
  rw [hsum]
  unfold fullVec
  simp only [mul_sum]
  rw [sum_comm]
  refine sum_congr rfl fun el _ => ?_
  by_cases ha : Acts sp kind el
  · cases hrow : rowsOf sp kind el with
    | none => simp
    | some rows =>
      simp only [ha, true_and, ne_eq, reduceCtorEq, not_false_eq_true, if_true]
      rw [project_scatter (hr el rows ha hrow)]
      unfold elemVec
      simp only [mul_sum]
      rw [sum_comm]
      refine sum_congr rfl fun q _ => ?_
      rw [vecTerm_eq (rows := rows) (by simpa using hrow)]
      unfold project
      refine sum_congr rfl fun k _ => ?_
      rw [restrict_lift]
      simp
  · simp [ha]

/-- **C46.** If every integrator is sampled at all the quadrature points of the entities it acts on,
with their weights, in any order, then `Mult(x)` is `V^T F(V x)`: `F` is the full-order residual,
which adds the element vectors computed with the full rule. -/
theorem full_quadrature_exact {f : Form P R} {b : Mat R} (hf : FormOk f b) (hp : FormReady f b)
    (w : Kind × Entry P R → Nat → R) (nq : Kind × Entry P R → Nat)
    (hs : ∀ e ∈ entries f, e.2.integ.rule = some (nq e) ∧ FullySampled f.space e.1 e.2 (w e) (nq e))
    (hr : ∀ e ∈ entries f, ∀ el rows, Acts f.space e.1 el → rowsOf f.space e.1 el = some rows →
      RowsOk rows b.h)
    {x y : List R} (hx : x.length = f.width) (hy : y.length = f.height) (junk : Nat → R) :
    ∃ y', f.mult x y junk = .ok y' ∧ y'.length = f.height ∧ ∀ c < f.height,
      ve y' c = ∑ r ∈ range b.h, ent b r c *
        ((entries f).map fun e =>
          fullVec f.space e.1 e.2.integ (w e) (nq e) (liftAll b x) r).sum := by
  obtain ⟨y', h1, h2, h3⟩ := mult_spec hf hp hx hy junk
  refine ⟨y', h1, h2, fun c hc => ?_⟩
  rw [h3 c hc]
  unfold formVec
  have : ∀ e ∈ entries f, ((e.2.samples.getD []).map fun s =>
      vecTerm f.space e.1 e.2.integ b x s c).sum = ∑ r ∈ range b.h, ent b r c *
        fullVec f.space e.1 e.2.integ (w e) (nq e) (liftAll b x) r :=
    fun e he => full_entry (hs e he).2 (hr e he) x c
  rw [List.map_congr_left this]
  generalize entries f = l
  induction l with
  | nil => simp
  | cons e l ih => simp only [List.map_cons, List.sum_cons, mul_add, sum_add_distrib, ih]

/-! ## Nothing is skipped silently -/

theorem loopFrom_each {σ : Type} {body : Nat → σ → Outcome σ} :
    ∀ (k i : Nat) (s t : σ), loopFrom body i k s = .ok t →
      ∀ j, i ≤ j → j < i + k → ∃ u v, body j u = .ok v := by
  intro k
  induction k with
  | zero => intro i s t _ j h1 h2; omega
  | succ k ih =>
    intro i s t h j h1 h2
    obtain ⟨u, e1, e2⟩ : ∃ u, body i s = .ok u ∧ loopFrom body (i + 1) k u = .ok t := by
      rw [loopFrom] at h
      cases hb : body i s with
      | error e => rw [hb] at h; cases h
      | ok u => rw [hb] at h; exact ⟨u, rfl, h⟩
    rcases Nat.eq_or_lt_of_le h1 with rfl | h1
    · exact ⟨s, u, e1⟩
    · exact ih (i + 1) u t e2 j h1 (by omega)

theorem loop_each {σ : Type} {n : Nat} {body : Nat → σ → Outcome σ} {s t : σ}
    (h : loop n body s = .ok t) {j : Nat} (hj : j < n) : ∃ u v, body j u = .ok v :=
  loopFrom_each n 0 s t h j (Nat.zero_le _) (by omega)

theorem loop_list_each {α σ : Type} {l : List α} {g : α → σ → Outcome σ} {s t : σ}
    (h : loop l.length (fun k s => do
      let a ← rd l k
      g a s) s = .ok t) {a : α} (ha : a ∈ l) : ∃ u v, g a u = .ok v := by
  obtain ⟨k, hk, rfl⟩ := List.getElem_of_mem ha
  obtain ⟨u, v, e⟩ := loop_each h hk
  rw [rd_of_lt hk, ok_bind] at e
  exact ⟨u, v, e⟩

/-- **C45.** If `Mult` returns, then a basis is set and every integrator has a rule and samples:
an untrained integrator makes it stop rather than drop its contribution. -/
theorem mult_ok_trained {f : Form P R} {x y y' : List R} {junk : Nat → R}
    (h : f.mult x y junk = .ok y') :
    x.length = f.width ∧ y.length = f.height ∧ (∃ b, f.basis = some b ∧ b.w = f.height) ∧
      ∀ e ∈ entries f, (∃ nq, e.2.integ.rule = some nq) ∧ ∃ l, e.2.samples = some l := by
  unfold Form.mult at h
  simp only [bind_eq_ok] at h
  obtain ⟨⟨⟩, h1, ⟨⟩, h2, b, h3, ⟨⟩, h4, y1, h5, y2, h6, h7⟩ := h
  have one : ∀ kind (e : Entry P R) u v, multEntry f x junk kind e u = .ok v →
      (∃ nq, e.integ.rule = some nq) ∧ ∃ l, e.samples = some l := by
    intro kind e u v h
    unfold multEntry at h
    simp only [bind_eq_ok] at h
    obtain ⟨nq, g1, l, g2, _⟩ := h
    constructor
    · cases hr : e.integ.rule with
      | none => rw [hr] at g1; cases g1
      | some n => exact ⟨n, rfl⟩
    · cases hr : e.samples with
      | none => rw [hr] at g2; cases g2
      | some n => exact ⟨n, rfl⟩
  refine ⟨by simpa [require_eq_ok] using h1, by simpa [require_eq_ok] using h2, ?_, ?_⟩
  · cases hb : f.basis with
    | none => rw [hb] at h3; cases h3
    | some b' =>
      rw [hb] at h3
      cases h3
      exact ⟨b, rfl, by simpa [require_eq_ok] using h4⟩
  · intro e he
    unfold entries at he
    simp only [List.mem_append, List.mem_map] at he
    rcases he with (⟨e', he, rfl⟩ | ⟨e', he, rfl⟩) | ⟨e', he, rfl⟩
    · obtain ⟨u, v, g⟩ := loop_list_each (g := fun e y => multEntry f x junk .domain e y) h5 he
      exact one _ _ _ _ g
    · obtain ⟨u, v, g⟩ := loop_list_each (g := fun e y => multEntry f x junk .interior e y) h6 he
      exact one _ _ _ _ g
    · obtain ⟨u, v, g⟩ := loop_list_each
        (g := fun (e : Entry P R × Option (List Int)) y => multEntry f x junk (.boundary e.2) e.1 y) h7 he
      exact one _ _ _ _ g

/-! ## The convection integrators -/

/-- The trilinear convection integrator as an integrator of the form: `pts fe tr qp` is the point `qp`
of element `fe` with the transformation of element `tr`. -/
def triInteg (pts : Nat → Nat → Nat → Pt R) (nq : Nat) : Integ (Pre R) R where
  rule := some nq
  vec fe tr qp w u := triVec (pts fe tr qp) w u
  grad fe tr qp w u := triGrad (pts fe tr qp) w u
  fastVec pre el qp qw x y := do
    let s ← deref pre
    triFastVec (pts el el qp) s qw x y
  fastGrad pre el qp qw x m := do
    let s ← deref pre
    triFastGrad (pts el el qp) s qw x m
  preFn b rows el qp := precompute (pts el el qp) b rows

/-- The inviscid flux integrator likewise. -/
def invInteg (pts : Nat → Nat → Nat → Pt R) (nq : Nat) : Integ (Pre R) R where
  rule := some nq
  vec fe tr qp w u := invVec (pts fe tr qp) w u
  grad fe tr qp w u := invGrad (pts fe tr qp) w u
  fastVec pre el qp qw x y := do
    let s ← deref pre
    invFastVec (pts el el qp) s qw x y
  fastGrad pre el qp qw x m := do
    let s ← deref pre
    invFastGrad (pts el el qp) s qw x m
  preFn b rows el qp := precompute (pts el el qp) b rows

theorem triFastGrad_length {p : Pt R} {s : Pre R} {qw : R} {x : List R} {jac m : Mat R} {n : Nat}
    (h1 : jac.h = n) (h2 : jac.w = n) (h3 : jac.data.length = n * n)
    (h : triFastGrad p s qw x jac = .ok m) : m.data.length = n * n := by
  unfold triFastGrad at h
  simp only [bind_eq_ok] at h
  obtain ⟨elv, -, h⟩ := h
  refine (loop_inv (fun _ (m : Mat R) => m.h = n ∧ m.w = n ∧ m.data.length = n * n) ⟨h1, h2, h3⟩ ?_ h).2.2
  rintro j u v _ ⟨a1, a2, a3⟩ hb
  simp only [bind_eq_ok] at hb
  obtain ⟨_, _, hb⟩ := hb
  cases hb
  exact ⟨a1, a2, by rw [of_length, a1, a2]⟩

/-- **C45, C49.** The coefficients computed for the convection integrators fulfil the contract the
form relies on, at every sampled point of a vector-valued element. -/
theorem triInteg_preOk {pts : Nat → Nat → Nat → Pt R} {nq : Nat} {sp : Space} {b : Mat R}
    (hb : MatOk b) {s : Sample (Pre R) R}
    (hp : PtOk (pts s.el.toNat s.el.toNat s.qp.toNat))
    (hv : (pts s.el.toNat s.el.toNat s.qp.toNat).vq = none)
    (hr : ∀ rows, rowsOf sp .domain s.el.toNat = some rows → RowsOk rows b.h ∧
      rows.length = (pts s.el.toNat s.el.toNat s.qp.toNat).nd *
        (pts s.el.toNat s.el.toNat s.qp.toNat).dim) :
    PreOk sp .domain b (triInteg pts nq) s := by
  intro rows hrow
  obtain ⟨r1, r2⟩ := hr rows hrow
  refine ⟨_, precompute_eq hb r1, ?_, ?_⟩
  · intro qw x y hx hy
    exact ⟨_, triFastVec_spec hp hv hb r1 r2 qw hx hy (precompute_eq hb r1), length_tab ..,
      fun _ hc => ve_tab hc⟩
  · intro qw x m hx h1 h2 h3
    obtain ⟨m', e1, e2, e3, e4, e5⟩ := triFastGrad_spec hp hb r1 r2 qw hx (jac := m)
      (by unfold MatOk; rw [h1, h2, h3]) h1 h2 (precompute_eq hb r1)
    exact ⟨m', e1, e2, e3, triFastGrad_length h1 h2 h3 e1, e5⟩

/-- **C45, C49.** The same for the inviscid flux integrator. -/
theorem invInteg_preOk {pts : Nat → Nat → Nat → Pt R} {nq : Nat} {sp : Space} {b : Mat R}
    (hb : MatOk b) {s : Sample (Pre R) R}
    (hp : PtOk (pts s.el.toNat s.el.toNat s.qp.toNat))
    (hr : ∀ rows, rowsOf sp .domain s.el.toNat = some rows → RowsOk rows b.h ∧
      rows.length = (pts s.el.toNat s.el.toNat s.qp.toNat).nd *
        (pts s.el.toNat s.el.toNat s.qp.toNat).dim) :
    PreOk sp .domain b (invInteg pts nq) s := by
  intro rows hrow
  obtain ⟨r1, r2⟩ := hr rows hrow
  refine ⟨_, precompute_eq hb r1, ?_, ?_⟩
  · intro qw x y hx hy
    exact ⟨_, invFastVec_spec hp hb r1 r2 qw hy (precompute_eq hb r1), length_tab ..,
      fun _ hc => ve_tab hc⟩
  · intro qw x m hx h1 h2 h3
    exact invFastGrad_spec hp hb r1 r2 qw h3 h1 h2 (precompute_eq hb r1)

/-- **C45, C50.** Both are quadratic with exact gradient at every sampled point. -/
theorem triInteg_quadratic {pts : Nat → Nat → Nat → Pt R} {nq : Nat} {sp : Space}
    {s : Sample (Pre R) R} (hp : PtOk (pts s.el.toNat s.el.toNat s.qp.toNat))
    (hv : (pts s.el.toNat s.el.toNat s.qp.toNat).vq = none)
    (hr : ∀ rows, rowsOf sp .domain s.el.toNat = some rows →
      rows.length = (pts s.el.toNat s.el.toNat s.qp.toNat).nd *
        (pts s.el.toNat s.el.toNat s.qp.toNat).dim) :
    QuadraticAt sp .domain (triInteg pts nq) s := by
  intro rows hrow u h hu t ht
  have r2 := hr rows hrow
  rw [r2]
  exact triGrad_exact hp hv s.qw (by rw [hu, r2]) (by rw [← r2]; exact ht)

theorem invInteg_quadratic {pts : Nat → Nat → Nat → Pt R} {nq : Nat} {sp : Space}
    {s : Sample (Pre R) R} (hp : PtOk (pts s.el.toNat s.el.toNat s.qp.toNat))
    (hr : ∀ rows, rowsOf sp .domain s.el.toNat = some rows →
      rows.length = (pts s.el.toNat s.el.toNat s.qp.toNat).nd *
        (pts s.el.toNat s.el.toNat s.qp.toNat).dim) :
    QuadraticAt sp .domain (invInteg pts nq) s := by
  intro rows hrow u h hu t ht
  have r2 := hr rows hrow
  rw [r2]
  exact invGrad_exact hp s.qw (by rw [hu, r2]) (by rw [← r2]; exact ht)

/-! ## A concrete form -/

/-- A quadratic integrator on entities with `n` degrees of freedom. -/
def sqInteg (n nq : Nat) : Integ (Pre Int) Int where
  rule := some nq
  vec _ _ qp w u := vof n fun k => w * (qp + 1) * (vget u k * vget u k)
  grad _ _ qp w u := Mat.of n n fun k l => if k = l then 2 * w * (qp + 1) * vget u k else 0
  fastVec _ _ _ _ _ y := .ok y
  fastGrad _ _ _ _ _ m := .ok m
  preFn _ _ _ _ := .error .abort

def exSpace : Space :=
  { elems := [[4, 0, 2, 1], [1, 3, 0, 2]], faces := [none, some (0, 1)],
    bdrs := [(2, some 0), (1, some 1), (1, none)] }

/-- A domain, an interior-face and a marked boundary integrator; the domain integrator returns to
element 0 after visiting element 1. -/
def exForm : Form (Pre Int) Int :=
  { height := 2, width := 2, basis := some ptBasis, precompute := false, space := exSpace,
    dnfi := [⟨triInteg (fun _ _ _ => pt) 2, some [⟨0, 1, 3, none⟩, ⟨1, 0, 2, none⟩, ⟨0, 0, 1, none⟩]⟩],
    fnfi := [⟨sqInteg 8 3, some [⟨1, 2, 5, none⟩, ⟨1, 0, 1, none⟩]⟩],
    bfnfi := [(⟨sqInteg 4 1, some [⟨0, 0, 7, none⟩]⟩, some [0, 1])] }

/-- A square matrix of size `n` with its storage. -/
def Sq (n : Nat) (m : Mat R) : Prop := m.h = n ∧ m.w = n ∧ MatOk m

theorem iter_inv {σ : Type} {n : Nat} {body : Nat → σ → σ} (Inv : σ → Prop) {s : σ} (h0 : Inv s)
    (h : ∀ k s, Inv s → Inv (body k s)) : Inv (iter n body s) := by
  induction n with
  | zero => exact h0
  | succ n ih => rw [iter_succ]; exact h _ _ ih

theorem Sq.addBlock {n : Nat} {m : Mat R} (h : Sq n m) (a : R) (blk : Mat R) (r c : Nat) :
    Sq n (m.addBlock a blk r c) := ⟨h.1, h.2.1, of_ok _ _ _⟩

theorem triGrad_dims (p : Pt R) (w : R) (u : List R) : Sq (p.nd * p.dim) (triGrad p w u) := by
  unfold triGrad triGradAdd
  refine iter_inv _ (iter_inv _ ⟨rfl, rfl, of_ok _ _ _⟩ fun _ _ h => h.addBlock _ _ _ _) ?_
  exact fun _ _ h => iter_inv _ h fun _ _ h => h.addBlock _ _ _ _

theorem invGrad_dims (p : Pt R) (w : R) (u : List R) : Sq (p.nd * p.dim) (invGrad p w u) := by
  unfold invGrad invGradAdd
  refine iter_inv _ (iter_inv _ ⟨rfl, rfl, of_ok _ _ _⟩ fun _ _ h => h.addBlock _ _ _ _) ?_
  exact fun _ _ h => iter_inv _ h fun _ _ h => h.addBlock _ _ _ _

/-- Samples of the convection integrators on vector-valued elements meet the hypotheses above. -/
theorem triInteg_sampleOk {pts : Nat → Nat → Nat → Pt R} {n nq h : Nat} {sp : Space}
    {s : Sample (Pre R) R} (h0 : 0 ≤ s.el) (h1 : 0 ≤ s.qp) (h2 : s.qp < nq)
    (hp : PtOk (pts s.el.toNat s.el.toNat s.qp.toNat)) {rows : List Int}
    (hr : rowsOf sp .domain s.el.toNat = some rows) (hk : RowsOk rows h)
    (hl : rows.length = (pts s.el.toNat s.el.toNat s.qp.toNat).nd *
        (pts s.el.toNat s.el.toNat s.qp.toNat).dim) :
    SampleOk sp .domain nq h (triInteg pts n) s := by
  refine ⟨h0, h1, h2, trivial, rows, hr, hk, fun w u => ?_⟩
  rw [hl]
  exact ⟨triVec_length hp w u, triGrad_dims _ w u⟩

theorem invInteg_sampleOk {pts : Nat → Nat → Nat → Pt R} {n nq h : Nat} {sp : Space}
    {s : Sample (Pre R) R} (h0 : 0 ≤ s.el) (h1 : 0 ≤ s.qp) (h2 : s.qp < nq) {rows : List Int}
    (hr : rowsOf sp .domain s.el.toNat = some rows) (hk : RowsOk rows h)
    (hl : rows.length = (pts s.el.toNat s.el.toNat s.qp.toNat).nd *
        (pts s.el.toNat s.el.toNat s.qp.toNat).dim) :
    SampleOk sp .domain nq h (invInteg pts n) s := by
  refine ⟨h0, h1, h2, trivial, rows, hr, hk, fun w u => ?_⟩
  rw [hl]
  exact ⟨invVec_length _ w u, invGrad_dims _ w u⟩

theorem exForm_dom {s : Sample (Pre Int) Int} (h0 : 0 ≤ s.el) (h1 : s.el < 2) :
    ∃ rows, rowsOf exSpace .domain s.el.toNat = some rows ∧ RowsOk rows ptBasis.h ∧
      rows.length = pt.nd * pt.dim := by
  obtain h | h : s.el = 0 ∨ s.el = 1 := by omega
  · rw [h]; exact ⟨_, rfl, ⟨by decide, by decide⟩, rfl⟩
  · rw [h]; exact ⟨_, rfl, ⟨by decide, by decide⟩, rfl⟩

theorem sqInteg_dims (n nq fe tr qp : Nat) (w : Int) (u : List Int) :
    ((sqInteg n nq).vec fe tr qp w u).length = n ∧ ((sqInteg n nq).grad fe tr qp w u).h = n ∧
    ((sqInteg n nq).grad fe tr qp w u).w = n ∧ MatOk ((sqInteg n nq).grad fe tr qp w u) :=
  ⟨by simp [sqInteg, vof], rfl, rfl, of_ok _ _ _⟩

theorem exForm_ok : FormOk exForm ptBasis := by
  refine ⟨rfl, ptBasis_ok, by decide, rfl, rfl, ?_⟩
  intro e he
  have : e = (.domain, exForm.dnfi[0]) ∨ e = (.interior, exForm.fnfi[0]) ∨
      e = (.boundary (some [0, 1]), exForm.bfnfi[0].1) := by
    simpa [entries, exForm] using he
  rcases this with rfl | rfl | rfl
  · refine ⟨2, _, rfl, rfl, ?_⟩
    intro s hs
    have hb : 0 ≤ s.el ∧ s.el < 2 ∧ 0 ≤ s.qp ∧ s.qp < 2 := by
      simp only [List.mem_cons, List.not_mem_nil, or_false] at hs
      rcases hs with rfl | rfl | rfl <;> decide
    obtain ⟨rows, r1, r2, r3⟩ := exForm_dom hb.1 hb.2.1
    exact triInteg_sampleOk hb.1 hb.2.2.1 hb.2.2.2 pt_ok r1 r2 r3
  · refine ⟨3, _, rfl, rfl, ?_⟩
    intro s hs
    simp only [List.mem_cons, List.not_mem_nil, or_false] at hs
    rcases hs with rfl | rfl
    · exact ⟨by decide, by decide, by decide, trivial, _, rfl, ⟨by decide, by decide⟩,
        fun w u => sqInteg_dims 8 3 1 1 2 w u⟩
    · exact ⟨by decide, by decide, by decide, trivial, _, rfl, ⟨by decide, by decide⟩,
        fun w u => sqInteg_dims 8 3 1 1 0 w u⟩
  · refine ⟨1, _, rfl, rfl, ?_⟩
    intro s hs
    simp only [List.mem_cons, List.not_mem_nil, or_false] at hs
    subst hs
    exact ⟨by decide, by decide, by decide, ⟨2, some 0, 1, rfl, by decide, rfl, by decide⟩, _, rfl,
      ⟨by decide, by decide⟩, fun w u => sqInteg_dims 4 1 0 0 0 w u⟩

/-- The same form with only the domain integrator. -/
def exDom : Form (Pre Int) Int := { exForm with fnfi := [], bfnfi := [] }

theorem exDom_mem {e : Kind × Entry (Pre Int) Int} (he : e ∈ entries exDom) :
    e = (.domain, exForm.dnfi[0]) := by
  simpa [entries, exForm, exDom] using he

/-- Its samples meet the hypotheses of the fast path and of the derivative. -/
theorem exDom_ok : FormOk exDom ptBasis ∧
    (∀ e ∈ entries exDom, ∀ s ∈ e.2.samples.getD [],
      PreOk exDom.space e.1 ptBasis e.2.integ s ∧ QuadraticAt exDom.space e.1 e.2.integ s) := by
  have hb : ∀ s ∈ (exForm.dnfi[0]).samples.getD [], 0 ≤ s.el ∧ s.el < 2 := by
    intro s hs
    have hs : s ∈ [(⟨0, 1, 3, none⟩ : Sample (Pre Int) Int), ⟨1, 0, 2, none⟩, ⟨0, 0, 1, none⟩] := hs
    simp only [List.mem_cons, List.not_mem_nil, or_false] at hs
    rcases hs with rfl | rfl | rfl <;> decide
  constructor
  · refine ⟨rfl, ptBasis_ok, by decide, rfl, rfl, ?_⟩
    intro e he
    rw [exDom_mem he]
    exact exForm_ok.entries _ (mem_entries_dom (by simp [exForm]))
  · intro e he s hs
    rw [exDom_mem he] at hs ⊢
    obtain ⟨b1, b2⟩ := hb s hs
    obtain ⟨rows, r1, r2, r3⟩ := exForm_dom b1 b2
    refine ⟨triInteg_preOk ptBasis_ok pt_ok rfl fun rows' hr => ?_,
      triInteg_quadratic pt_ok rfl fun rows' hr => ?_⟩
    · have : some rows = some rows' := r1.symm.trans hr
      cases this; exact ⟨r2, r3⟩
    · have : some rows = some rows' := r1.symm.trans hr
      cases this; exact r3

/-- The values are not trivial; the scratch contents are irrelevant; fast and slow agree. -/
example : exForm.mult [1, 2] [8, 9] (fun _ => 5) = exForm.mult [1, 2] [0, 0] (fun k => k) ∧
    (do
      let f ← exDom.precomputeCoefficients
      ({ f with precompute := true } : Form (Pre Int) Int).mult [1, 2] [3, 4] (fun _ => 0)) =
      exDom.mult [1, 2] [0, 0] (fun _ => 7) ∧
    (∃ v w : Int, exDom.mult [1, 2] [0, 0] (fun _ => 7) = .ok [v, w] ∧ v ≠ 0 ∧ w ≠ 0 ∧
      exForm.mult [1, 2] [0, 0] (fun _ => 7) ≠ .ok [v, w]) := by
  refine ⟨by decide +kernel, by decide +kernel, ?_⟩
  exact ⟨_, _, rfl, by decide +kernel, by decide +kernel, by decide +kernel⟩

/-- All the points of both elements, in an irregular order: the hypotheses of full quadrature. -/
def exFull : Form (Pre Int) Int :=
  { exDom with dnfi := [⟨triInteg (fun _ _ _ => pt) 2,
      some [⟨1, 1, 5, none⟩, ⟨0, 0, 3, none⟩, ⟨1, 0, 3, none⟩, ⟨0, 1, 5, none⟩]⟩] }

example : FullySampled exFull.space .domain exFull.dnfi[0] (fun q => 3 + 2 * q) 2 := by
  refine ⟨_, rfl, ?_⟩
  have : fullPoints (R := Int) exFull.space .domain (fun q => 3 + 2 * q) 2 =
      [(0, 0, 3), (0, 1, 5), (1, 0, 3), (1, 1, 5)] := by
    unfold fullPoints
    show (List.range 2).flatMap _ = _
    simp [List.range_succ, Acts, rowsOf, exFull, exDom, exForm, exSpace]
  rw [this]
  decide

/-! ## Misuse -/

/-- Without a basis `Mult` stops at its check; `GetGradient` has none and dereferences the null
pointer (src/rom_nonlinearform.cpp:347-392). -/
theorem null_basis (f : Form P R) (hb : f.basis = none) (x y : List R) (junk : Nat → R) :
    f.mult x y junk = .error .abort := by
  unfold Form.mult require
  rw [hb]
  split
  · split <;> rfl
  · rfl

theorem getGradient_null_basis_ub : ∃ (f : Form (Pre Int) Int), f.basis = none ∧
    f.getGradient [1, 2] none (fun _ => 0) = .error .ub :=
  ⟨{ exForm with basis := none }, rfl, by decide +kernel⟩

/-- A sample on a face without an interior transformation: the slow path stops at its check, the fast
path dereferences the null pointer (src/rom_nonlinearform.cpp:180-191). -/
theorem null_face_fast_ub : ∃ f : Form (Pre Int) Int, f.precompute = false ∧
    f.mult [1, 2] [0, 0] (fun _ => 0) = .error .abort ∧
    ({ f with precompute := true } : Form (Pre Int) Int).mult [1, 2] [0, 0] (fun _ => 0) = .error .ub :=
  ⟨{ exForm with dnfi := [], bfnfi := [], fnfi := [⟨sqInteg 8 3, some [⟨0, 2, 5, none⟩]⟩] }, rfl,
    by decide +kernel, by decide +kernel⟩

/-- A sample on a boundary element whose attribute is not marked stops the evaluation. -/
example : ({ exForm with bfnfi := [(⟨sqInteg 4 1, some [⟨1, 0, 7, none⟩]⟩, some [0, 1])] }).mult
    [1, 2] [0, 0] (fun _ => 0) = .error .abort := by decide +kernel

end Verif.Eqp
