import Verif.Proofs.EqpItf
import Verif.Props.Eqp
import Verif.Props.InterfaceForm

/-! # Properties of hyper-reduced interface forms: C45 -/

namespace Verif.EqpItf

open Verif Verif.LinAlg Verif.LinAlg.Spec Verif.Blocks Verif.Blocks.Spec Verif.EqpItf.Spec Finset
open Verif.InterfaceForm (Tr FMesh Space Port MatArr transformations allSet)
open Verif.InterfaceForm.Spec (Sides dofsOf trOf MatsOk mget)
open Verif.RomHandler.Spec (bent)
open Verif.Convection.Spec (lift project)
open Verif.Eqp (Sample sum_map_apply eq_of_ve)

variable {P R δ : Type} [CommRing R]

/-- The two outer loops: over integrators and ports. -/
theorem outer_ok {σ V : Type} [AddCommMonoid V] {f : Form P R δ} {z : List Nat} (hf : FormOk f z)
    {body : Integ P R δ → Nat → Nat → Nat → σ → Outcome σ} (Inv : σ → Prop) (val : σ → V)
    (term : Port → Integ P R δ → Sample P R → V) {s : σ} (h0 : Inv s)
    (hstep : ∀ k p g nq pt, f.fnfi[k]? = some (some g) → g.rule = some nq → f.ports[p]? = some pt →
      ∀ s, Inv s → ∃ s', body g nq k p s = .ok s' ∧ Inv s' ∧
        val s' = val s + ((samplesAt f k p).map (term pt g)).sum) :
    ∃ s', loop f.fnfi.length (fun k s => (do
        let g ← rd f.fnfi k
        let g ← nonNull g
        let nq ← nonNull g.rule
        loop f.ports.length (fun p s => body g nq k p s) s : Outcome σ)) s = .ok s' ∧ Inv s' ∧
      val s' = val s + ∑ k ∈ range f.fnfi.length, ∑ p ∈ range f.ports.length,
        match f.fnfi[k]?, f.ports[p]? with
        | some (some g), some pt => ((samplesAt f k p).map (term pt g)).sum
        | _, _ => 0 := by
  refine loop_acc Inv val _ h0 ?_
  intro k s hk hs
  obtain ⟨g, nq, h1, h2⟩ := hf.fnfi f.fnfi[k] (List.getElem_mem hk)
  have hg : f.fnfi[k]? = some (some g) := by rw [List.getElem?_eq_getElem hk, h1]
  rw [rd_of_lt hk, ok_bind, h1]
  simp only [nonNull, ok_bind]
  rw [h2]
  simp only [ok_bind]
  refine loop_acc Inv val _ hs ?_
  intro p s hp hs
  obtain ⟨s', e1, e2, e3⟩ := hstep k p g nq f.ports[p] hg h2 (List.getElem?_eq_getElem hp) s hs
  refine ⟨s', e1, e2, ?_⟩
  rw [e3, hg, List.getElem?_eq_getElem hp]

/-- A sample slot of a form. -/
theorem slot_ok {f : Form P R δ} {z : List Nat} (hf : FormOk f z) {k p : Nat}
    {g : Option (Integ P R δ)} {pt : Port} (hk : f.fnfi[k]? = some g) (hp : f.ports[p]? = some pt) :
    ∃ o, rd f.samples (p + k * f.ports.length) = .ok o ∧ samplesAt f k p = o.getD [] := by
  have lk := (List.getElem?_eq_some_iff.1 hk).1
  have lp := (List.getElem?_eq_some_iff.1 hp).1
  have : p + k * f.ports.length < f.samples.length := by
    rw [hf.slots]
    have := Nat.mul_le_mul_right f.ports.length (show k + 1 ≤ f.fnfi.length from lk)
    rw [Nat.add_mul] at this
    omega
  refine ⟨_, rd_of_lt this, ?_⟩
  unfold samplesAt
  rw [List.getElem?_eq_getElem this]; rfl

theorem sum_match {ι : Type} {f : Form P R δ} (T : Port → Integ P R δ → Sample P R → ι → R) (i : ι) :
    (∑ k ∈ range f.fnfi.length, ∑ p ∈ range f.ports.length,
      match f.fnfi[k]?, f.ports[p]? with
      | some (some g), some pt => ((samplesAt f k p).map fun s => fun i => T pt g s i).sum
      | _, _ => 0) i = total f fun pt g s => T pt g s i := by
  unfold total
  rw [Finset.sum_apply]
  refine sum_congr rfl fun k _ => ?_
  rw [Finset.sum_apply]
  refine sum_congr rfl fun p _ => ?_
  rcases f.fnfi[k]? with _ | _ | g
  · rfl
  · rfl
  · rcases f.ports[p]? with _ | pt
    · rfl
    · exact sum_map_apply _ _ i

/-- **C45.** `InterfaceAddMult` adds to each block of the result the sum, over all integrators, ports
and samples, of the sample's quadrature contribution tested with the basis of that block's subdomain;
nothing else. -/
theorem addMult_spec {f : Form P R δ} {z offs : List Nat} (hf : FormOk f z) (hr : FormReady f)
    (ho : f.offsets = some offs) {x y : List R} (hx : x.length = z.sum) (hy : y.length = z.sum)
    (junk : Nat → R) :
    ∃ y', f.addMult x y junk = .ok y' ∧ y'.length = z.sum ∧
      ∀ (m w c : Nat), z[m]? = some w → c < w →
        bent ⟨y', offs⟩ m c = bent ⟨y, offs⟩ m c + formVec f ⟨x, offs⟩ m c := by
  obtain ⟨offs', o1, o2⟩ := hf.offsets
  rw [ho] at o1
  cases o1
  have sx : HasSizes (⟨x, offs⟩ : BlockVector R) z := ⟨o2, hx⟩
  have sy : HasSizes (⟨y, offs⟩ : BlockVector R) z := ⟨o2, hy⟩
  have hlast : rd offs (offs.length - 1) = .ok z.sum := by
    rw [rd_eq_ok]
    have := o2.value (i := z.length) le_rfl
    rw [o2.1, Nat.add_sub_cancel]
    simpa using this
  obtain ⟨y', e, ⟨h1, h2⟩, h3⟩ := outer_ok hf
    (body := fun g nq k p y => f.portVec offs x junk g nq k p y)
    (fun y : BlockVector R => HasSizes y z ∧ y.offsets = offs) (vals z)
    (fun pt g s => fun q : Pos z => vecTerm f pt g ⟨x, offs⟩ s q.1.1 q.1.2)
    (s := (⟨y, offs⟩ : BlockVector R)) ⟨sy, rfl⟩ (by
      rintro k p g nq pt hg hnq hp y ⟨hy, hyo⟩
      obtain ⟨d, d1, d2⟩ := portData_ok hf sx hp
      obtain ⟨o, s1, s2⟩ := slot_ok hf hg hp
      unfold Form.portVec
      rw [d1, ok_bind, s1, ok_bind]
      cases o with
      | none => exact ⟨y, rfl, ⟨hy, hyo⟩, by rw [s2]; simp⟩
      | some l =>
        have hl : samplesAt f k p = l := s2
        obtain ⟨y', t1, ⟨t2, t3⟩, t4⟩ := vecSamples_ok hf (List.mem_of_getElem? hp) d2 junk (l := l)
          (fun s hs => hf.samples k p g nq pt hg hnq hp s (by rw [hl]; exact hs))
          (fun hpre s hs => hr hpre k p g pt hg hp s (by rw [hl]; exact hs)) hy
        exact ⟨y', t1, ⟨t2, by rw [t3, hyo]⟩, by rw [t4, hl]⟩)
  refine ⟨y'.data, ?_, h1.2, ?_⟩
  · unfold Form.addMult
    rw [ho]
    simp only [nonNull, ok_bind]
    rw [hlast, ok_bind, hx, hy, beq_self_eq_true, require_true, ok_bind, ok_bind]
    exact (congrArg (fun r => (do let y ← r; return y.data)) e).trans rfl
  · intro m w c hm hc
    have := congrFun h3 ⟨(m, c), w, hm, hc⟩
    rw [Pi.add_apply, sum_match (fun pt g s (q : Pos z) => vecTerm f pt g ⟨x, offs⟩ s q.1.1 q.1.2)]
      at this
    have hyy : (⟨y'.data, offs⟩ : BlockVector R) = y' := by cases y'; cases h2; rfl
    rw [hyy]
    exact this

/-- **C45.** `InterfaceGetGradient` adds to each entry of each block the sum, over all integrators,
ports and samples, of the sample's Jacobian between the two basis vectors. -/
theorem gradient_spec {f : Form P R δ} {z offs : List Nat} (hf : FormOk f z) (hr : FormReady f)
    (ho : f.offsets = some offs) {x : List R} (hx : x.length = z.sum) {mats : MatArr R}
    (hm : MatsOk mats z.length (fun m => z[m]?.getD 0) (fun m => z[m]?.getD 0)) (junk : Nat → R) :
    ∃ m', f.gradient x mats junk = .ok m' ∧
      MatsOk m' z.length (fun m => z[m]?.getD 0) (fun m => z[m]?.getD 0) ∧
      ∀ (a b v w r c : Nat), z[a]? = some v → z[b]? = some w → r < v → c < w →
        mget m' a b r c = mget mats a b r c + formGrad f ⟨x, offs⟩ a b r c := by
  obtain ⟨offs', o1, o2⟩ := hf.offsets
  rw [ho] at o1
  cases o1
  have sx : HasSizes (⟨x, offs⟩ : BlockVector R) z := ⟨o2, hx⟩
  obtain ⟨m', e, h1, h3⟩ := outer_ok hf
    (body := fun g nq k p y => f.portGrad offs x junk g nq k p y)
    (fun m : MatArr R => MatsOk m z.length (wz z) (wz z)) (mvals z)
    (fun pt g s => fun q : MPos z => gradTerm f pt g ⟨x, offs⟩ s q.1.1.1 q.1.1.2 q.1.2.1 q.1.2.2)
    (s := mats) hm (by
      rintro k p g nq pt hg hnq hp m hm
      obtain ⟨d, d1, d2⟩ := portData_ok hf sx hp
      obtain ⟨o, s1, s2⟩ := slot_ok hf hg hp
      obtain ⟨p1, p2, _⟩ := hf.ports pt (List.mem_of_getElem? hp)
      rw [← hf.count] at p1 p2
      have hv : m.view d.port.mesh1 d.port.mesh2 = .ok () := by
        rw [d2.port]; unfold MatArr.view
        rw [hm.1, hm.2.1, if_pos ⟨p1, p1, p2, p2⟩]
      unfold Form.portGrad
      rw [d1, ok_bind, hv, ok_bind, s1, ok_bind]
      cases o with
      | none => exact ⟨m, rfl, hm, by rw [s2]; simp⟩
      | some l =>
        have hl : samplesAt f k p = l := s2
        obtain ⟨y', t1, t2, t4⟩ := gradSamples_ok hf (List.mem_of_getElem? hp) d2 junk (l := l)
          (fun s hs => hf.samples k p g nq pt hg hnq hp s (by rw [hl]; exact hs))
          (fun hpre s hs => hr hpre k p g pt hg hp s (by rw [hl]; exact hs)) hm
        exact ⟨y', t1, t2, by rw [t4, hl]⟩)
  refine ⟨m', ?_, h1, ?_⟩
  · unfold Form.gradient
    rw [hm.1, hm.2.1, hf.count, beq_self_eq_true, require_true, ok_bind, ok_bind,
      InterfaceForm.allSet_ok hm, ok_bind, ho]
    exact e
  · intro a b v w r c ha hb hr hc
    have := congrFun h3 ⟨((a, b), r, c), v, w, ha, hb, hr, hc⟩
    rw [Pi.add_apply, sum_match (fun pt g s (q : MPos z) =>
      gradTerm f pt g ⟨x, offs⟩ s q.1.1.1 q.1.1.2 q.1.2.1 q.1.2.2)] at this
    exact this

/-! ## Sample order -/

theorem Spec.SamplesPerm.at_ {f f' : Form P R δ} (h : SamplesPerm f f') (m : Nat) :
    spaceOf f' m = spaceOf f m ∧ basisOf f' m = basisOf f m ∧ offOf f' m = offOf f m := by
  unfold spaceOf basisOf offOf
  rw [h.fes, h.basis]
  exact ⟨rfl, rfl, rfl⟩

theorem Spec.SamplesPerm.sides {f f' : Form P R δ} (h : SamplesPerm f f') (p : Port) :
    sidesOf f' p = sidesOf f p := by
  unfold sidesOf
  rw [h.meshes, (h.at_ _).1, (h.at_ _).1]

theorem Spec.SamplesPerm.funs {f f' : Form P R δ} (h : SamplesPerm f f') :
    (basisOf f' = basisOf f ∧ rowsOf f' = rowsOf f) ∧ faceOf f' = faceOf f ∧ spaceOf f' = spaceOf f ∧
    coeffs f' = coeffs f ∧ sampleVec f' = sampleVec f ∧ sampleGrad f' = sampleGrad f := by
  have hb : basisOf f' = basisOf f := funext fun m => (h.at_ m).2.1
  have hs : spaceOf f' = spaceOf f := funext fun m => (h.at_ m).1
  have ho : offOf f' = offOf f := funext fun m => (h.at_ m).2.2
  have hr : rowsOf f' = rowsOf f := by funext m t; unfold rowsOf; rw [hs, ho]
  have hc : coeffs f' = coeffs f := by funext x m; unfold coeffs; rw [hb]
  have hl : lifted f' = lifted f := by funext x m t; unfold lifted; rw [hb, hr, hc]
  refine ⟨⟨hb, hr⟩, ?_, hs, hc, ?_, ?_⟩
  · funext p i; unfold faceOf; rw [h.sides]
  · funext p g x s t1 t2; unfold sampleVec; rw [hl]
  · funext p g x s t1 t2; unfold sampleGrad; rw [hl]

theorem Spec.SamplesPerm.total_eq {f f' : Form P R δ} (h : SamplesPerm f f')
    (T : Port → Integ P R δ → Sample P R → R) : total f' T = total f T := by
  unfold total
  rw [h.fnfi, h.ports]
  refine sum_congr rfl fun k _ => sum_congr rfl fun p _ => ?_
  split
  · exact (((h.samples k p).map _).sum_eq).symm
  · rfl

theorem Spec.SamplesPerm.formVec_eq {f f' : Form P R δ} (h : SamplesPerm f f') (x : BlockVector R)
    (m c : Nat) : formVec f' x m c = formVec f x m c := by
  obtain ⟨⟨h1, h2⟩, h3, h4, h5, h6, h7⟩ := h.funs
  unfold formVec
  rw [h.total_eq]
  unfold vecTerm
  rw [h1, h2, h3, h6]

theorem Spec.SamplesPerm.formGrad_eq {f f' : Form P R δ} (h : SamplesPerm f f') (x : BlockVector R)
    (a b r c : Nat) : formGrad f' x a b r c = formGrad f x a b r c := by
  obtain ⟨⟨h1, h2⟩, h3, h4, h5, h6, h7⟩ := h.funs
  unfold formGrad
  rw [h.total_eq]
  unfold gradTerm
  rw [h1, h2, h3, h7]

theorem Spec.SamplesPerm.ok {f f' : Form P R δ} (h : SamplesPerm f f') {z : List Nat}
    (hf : FormOk f z) : FormOk f' z := by
  obtain ⟨⟨h1, h2⟩, h3, h4, h5, h6, h7⟩ := h.funs
  refine ⟨by rw [h.offsets]; exact hf.offsets, by rw [h.meshes]; exact hf.count,
    by rw [h.meshes, h.fes]; exact hf.fes, by rw [h.basis]; exact hf.basis,
    by rw [h.fnfi]; exact hf.fnfi, by rw [h.ports, h.meshes]; exact hf.ports,
    by rw [h.slots, h.fnfi, h.ports]; exact hf.slots, ?_⟩
  intro k p g nq pt hg hnq hp s hs
  rw [h.fnfi] at hg
  rw [h.ports] at hp
  have := hf.samples k p g nq pt hg hnq hp s ((h.samples k p).mem_iff.2 hs)
  unfold SampleOk at this ⊢
  rw [h1, h2, h3, h4]
  exact this

theorem Spec.SamplesPerm.ready {f f' : Form P R δ} (h : SamplesPerm f f') (hf : FormReady f) :
    FormReady f' := by
  obtain ⟨⟨h1, h2⟩, h3, h4, h5, h6, h7⟩ := h.funs
  intro hpre k p g pt hg hp s hs t1 t2 ht
  rw [h.fnfi] at hg
  rw [h.ports] at hp
  rw [h.precompute] at hpre
  rw [h3] at ht
  have := hf hpre k p g pt hg hp s ((h.samples k p).mem_iff.2 hs) t1 t2 ht
  constructor
  · rw [h1, h2, h5, h6]; exact this.vec
  · rw [h1, h2, h5, h7]; exact this.grad

/-- **C45.** Reordering the samples of each integrator at each port does not change the result of
`InterfaceAddMult`. -/
theorem addMult_perm {f f' : Form P R δ} {z : List Nat} (hf : FormOk f z) (hr : FormReady f)
    (h : SamplesPerm f f') {x y : List R} (hx : x.length = z.sum) (hy : y.length = z.sum)
    (junk junk' : Nat → R) : f'.addMult x y junk' = f.addMult x y junk := by
  obtain ⟨offs, o1, o2⟩ := hf.offsets
  obtain ⟨u, e1, l1, v1⟩ := addMult_spec hf hr o1 hx hy junk
  obtain ⟨v, e2, l2, v2⟩ := addMult_spec (h.ok hf) (h.ready hr) (by rw [h.offsets]; exact o1) hx hy junk'
  rw [e1, e2]
  have hu : HasSizes (⟨u, offs⟩ : BlockVector R) z := ⟨o2, l1⟩
  have hv : HasSizes (⟨v, offs⟩ : BlockVector R) z := ⟨o2, l2⟩
  have := RomHandler.bent_ext hv hu fun m w c hm hc => by
    rw [v1 m w c hm hc, v2 m w c hm hc, h.formVec_eq]
  cases this
  rfl

/-- **C45.** Nor that of `InterfaceGetGradient`. -/
theorem gradient_perm {f f' : Form P R δ} {z : List Nat} (hf : FormOk f z) (hr : FormReady f)
    (h : SamplesPerm f f') {x : List R} (hx : x.length = z.sum) {mats : MatArr R}
    (hm : MatsOk mats z.length (fun m => z[m]?.getD 0) (fun m => z[m]?.getD 0)) (junk junk' : Nat → R) :
    ∃ m m', f.gradient x mats junk = .ok m ∧ f'.gradient x mats junk' = .ok m' ∧
      ∀ (a b v w r c : Nat), z[a]? = some v → z[b]? = some w → r < v → c < w →
        mget m' a b r c = mget m a b r c := by
  obtain ⟨offs, o1, o2⟩ := hf.offsets
  obtain ⟨u, e1, _, v1⟩ := gradient_spec hf hr o1 hx hm junk
  obtain ⟨v, e2, _, v2⟩ := gradient_spec (h.ok hf) (h.ready hr) (by rw [h.offsets]; exact o1) hx hm junk'
  refine ⟨u, v, e1, e2, ?_⟩
  intro a b p q r c ha hb hr hc
  rw [v1 a b p q r c ha hb hr hc, v2 a b p q r c ha hb hr hc, h.formGrad_eq]

/-! ## Precomputed coefficients -/

/-- **C45.** When the coefficients fulfil their contract, the fast evaluation gives the same vector as
the slow one. -/
theorem fast_eq_slow {f : Form P R δ} {z : List Nat} (hf : FormOk f z) (hp : f.precompute = true)
    (hr : FormReady f) {x y : List R} (hx : x.length = z.sum) (hy : y.length = z.sum)
    (junk junk' : Nat → R) :
    f.addMult x y junk = ({ f with precompute := false } : Form P R δ).addMult x y junk' := by
  obtain ⟨offs, o1, o2⟩ := hf.offsets
  have hf' : FormOk ({ f with precompute := false } : Form P R δ) z :=
    ⟨hf.offsets, hf.count, hf.fes, hf.basis, hf.fnfi, hf.ports, hf.slots, hf.samples⟩
  obtain ⟨u, e1, l1, v1⟩ := addMult_spec hf hr o1 hx hy junk
  obtain ⟨v, e2, l2, v2⟩ := addMult_spec hf' (fun h => nomatch h) o1 hx hy junk'
  rw [e1, e2]
  have hu : HasSizes (⟨u, offs⟩ : BlockVector R) z := ⟨o2, l1⟩
  have hv : HasSizes (⟨v, offs⟩ : BlockVector R) z := ⟨o2, l2⟩
  have := RomHandler.bent_ext hu hv fun m w c hm hc => by
    rw [v1 m w c hm hc, v2 m w c hm hc]; rfl
  cases this
  rfl

/-! ## Setting up the form -/

/-- After `UpdateBlockOffsets` the blocks have the widths of the bases. -/
theorem updateBlockOffsets_spec {f f' : Form P R δ} (h : f.updateBlockOffsets = .ok f') :
    f'.basis = f.basis ∧ f.basis.length = f.meshes.length ∧
    ∃ offs z, f'.offsets = some offs ∧ IsOffsets offs z ∧ z.length = f.meshes.length ∧
      ∀ m, m < f.meshes.length → ∃ b off, f.basis[m]? = some (some (b, off)) ∧ z[m]? = some b.w := by
  unfold Form.updateBlockOffsets at h
  obtain ⟨⟨⟩, h1, h⟩ := bind_eq_ok.1 h
  obtain ⟨ws, h2, h⟩ := bind_eq_ok.1 h
  cases h
  have hl : f.basis.length = f.meshes.length := by simpa using require_eq_ok.1 h1
  have hinv := loop_inv (n := f.meshes.length) (body := fun m ws => (do
      let b ← rd f.basis m
      let b ← nonNull b
      return ws ++ [b.1.w] : Outcome (List Nat)))
    (fun k ws => ws.length = k ∧ ∀ m, m < k → ∃ b off, f.basis[m]? = some (some (b, off)) ∧
      ws[m]? = some b.w) (s := []) (by simp) (by
      rintro k ws ws' hk ⟨l1, l2⟩ hb
      obtain ⟨o, g1, hb⟩ := bind_eq_ok.1 hb
      obtain ⟨b, g2, hb⟩ := bind_eq_ok.1 hb
      cases hb
      rw [rd_eq_ok] at g1
      cases o with
      | none => cases g2
      | some b' =>
        cases g2
        refine ⟨by simp [l1], fun m hm => ?_⟩
        by_cases hmk : m < k
        · obtain ⟨b, off, e1, e2⟩ := l2 m hmk
          exact ⟨b, off, e1, by rw [List.getElem?_append_left (by omega), e2]⟩
        · have : m = k := by omega
          subst this
          exact ⟨b.1, b.2, g1, by rw [List.getElem?_append_right (by omega), l1]; simp⟩) h2
  obtain ⟨q1, q2⟩ := hinv
  refine ⟨rfl, hl, _, ws, rfl, ⟨by simp, by simp, ?_⟩, q1, q2⟩
  intro i s hs
  have li := (List.getElem?_eq_some_iff.1 hs).1
  refine ⟨(ws.take i).sum, by simp [List.getElem?_range (show i < ws.length + 1 by omega)], ?_⟩
  rw [List.getElem?_map, List.getElem?_range (show i + 1 < ws.length + 1 by omega)]
  simp only [Option.map_some, Option.some.injEq]
  rw [List.take_add_one, hs]
  simp

theorem setBasis_ok {f : Form P R δ} {types csize : List Nat} {c : Nat} {b : Mat R} {off : Int} {n : Nat}
    (ht : types.length = f.meshes.length) (hb : f.basis.length = f.meshes.length) (hc : csize[c]? = some n)
    (hn : (n : Int) + off ≤ b.h) :
    ∃ f', f.setBasisAtComponent types csize c b off = .ok f' ∧ f'.meshes = f.meshes ∧
      f'.basis.length = f.basis.length ∧
      ∀ m : Nat, m < f.meshes.length → f'.basis[m]? = if types[m]? = some c then some (some (b, off)) else f.basis[m]? := by
  obtain ⟨bs, e, h1, h2⟩ := loop_total (n := f.meshes.length) (body := fun m bs => (do
      let t ← rd types m
      if t ≠ c then .ok bs else wr bs m (some (b, off)) : Outcome (List (Option (Mat R × Int)))))
    (fun k bs => bs.length = f.basis.length ∧ ∀ m : Nat, m < f.meshes.length →
      bs[m]? = if m < k ∧ types[m]? = some c then some (some (b, off)) else f.basis[m]?) (s := f.basis)
    ⟨rfl, fun m _ => by simp⟩ (by
      rintro k bs hk ⟨l1, l2⟩
      rw [rd_of_lt (by omega : k < types.length), ok_bind]
      by_cases h : types[k] = c
      · rw [if_neg (by simpa using h), wr_of_lt (by omega)]
        refine ⟨_, rfl, by simp [l1], fun m hm => ?_⟩
        by_cases hmk : m = k
        · subst hmk
          rw [List.getElem?_set_self (by omega), if_pos ⟨by omega, by rw [List.getElem?_eq_getElem (by omega), h]⟩]
        · rw [List.getElem?_set_ne (fun h => hmk h.symm), l2 m hm]
          have : m < k + 1 ↔ m < k := by omega
          simp only [this]
      · rw [if_pos h]
        refine ⟨_, rfl, l1, fun m hm => ?_⟩
        rw [l2 m hm]
        by_cases hmk : m = k
        · subst hmk
          have : types[m]? ≠ some c := by rw [List.getElem?_eq_getElem (by omega)]; simpa using h
          simp [this]
        · have : m < k + 1 ↔ m < k := by omega
          simp only [this])
  refine ⟨{ f with basis := bs }, ?_, rfl, h1, fun m hm => ?_⟩
  · unfold Form.setBasisAtComponent
    rw [rd_eq_ok.2 hc, ok_bind, decide_eq_true hn, require_true, ok_bind, e]
    rfl
  · rw [h2 m hm]; simp [hm]

/-- **C45.** Setting up the form for evaluation gives every subdomain the basis of its own component, and blocks as
wide as that basis, whatever was set before. -/
theorem setBases_spec {f : Form P R δ} {types csize : List Nat} {bases : List (Mat R)}
    (ht : types.length = f.meshes.length) (hb : f.basis.length = f.meshes.length)
    (htc : ∀ t ∈ types, t < bases.length) (hc : csize.length = bases.length)
    (hn : ∀ (c : Nat) n b, csize[c]? = some n → bases[c]? = some b → n ≤ b.h) :
    ∃ f' offs z, f.setBases types csize bases = .ok f' ∧ f'.offsets = some offs ∧ IsOffsets offs z ∧
      z.length = f.meshes.length ∧
      ∀ (m : Nat) t b, types[m]? = some t → bases[t]? = some b →
        f'.basis[m]? = some (some (b, 0)) ∧ z[m]? = some b.w := by
  obtain ⟨g, e, ⟨h1, h2⟩, h3⟩ := loop_total (n := bases.length) (body := fun c f => (do
      let b ← rd bases c
      f.setBasisAtComponent types csize c b 0 : Outcome (Form P R δ)))
    (fun k g => (g.meshes = f.meshes ∧ g.basis.length = f.basis.length) ∧
      ∀ (m : Nat) t b, types[m]? = some t → bases[t]? = some b → t < k → g.basis[m]? = some (some (b, 0))) (s := f)
    ⟨⟨rfl, rfl⟩, fun m t b _ _ h => absurd h (Nat.not_lt_zero _)⟩ (by
      rintro k g hk ⟨⟨g1, g2⟩, g3⟩
      have hck : k < csize.length := by omega
      obtain ⟨g', e, q1, q2, q3⟩ := setBasis_ok (f := g) (types := types) (csize := csize) (c := k) (b := bases[k])
        (off := 0) (n := csize[k]) (by rw [g1, ht]) (by rw [g1, g2, hb]) (List.getElem?_eq_getElem hck)
        (by have := hn k _ _ (List.getElem?_eq_getElem hck) (List.getElem?_eq_getElem hk); omega)
      refine ⟨g', by rw [rd_of_lt hk, ok_bind, e], ⟨q1.trans g1, q2.trans g2⟩, fun m t b hm hb' hlt => ?_⟩
      have hml : m < g.meshes.length := by rw [g1, ← ht]; exact (List.getElem?_eq_some_iff.1 hm).1
      rw [q3 m hml, hm]
      by_cases htk : t = k
      · subst htk
        rw [if_pos rfl]
        rw [List.getElem?_eq_getElem hk] at hb'
        rw [Option.some.inj hb']
      · rw [if_neg (by simpa using htk)]
        exact g3 m t b hm hb' (by omega))
  have hset : ∀ m, m < f.meshes.length → ∃ b, g.basis[m]? = some (some (b, 0)) := by
    intro m hm
    have hlt := htc types[m] (List.getElem_mem (by omega))
    exact ⟨bases[types[m]], h3 m types[m] _ (List.getElem?_eq_getElem (by omega)) (List.getElem?_eq_getElem hlt) hlt⟩
  have hok : ∃ f', g.updateBlockOffsets = .ok f' := by
    obtain ⟨ws, e, _⟩ := loop_total (n := g.meshes.length) (body := fun m ws => (do
        let b ← rd g.basis m
        let b ← nonNull b
        return ws ++ [b.1.w] : Outcome (List Nat))) (fun _ _ => True) (s := []) trivial (by
        intro k ws hk _
        obtain ⟨b, hb'⟩ := hset k (by rw [← h1]; exact hk)
        exact ⟨ws ++ [b.w], by rw [rd_eq_ok.2 hb', ok_bind]; rfl, trivial⟩)
    unfold Form.updateBlockOffsets
    rw [h2, hb, h1, beq_self_eq_true, require_true, ok_bind]
    rw [h1] at e
    rw [e]
    exact ⟨_, rfl⟩
  obtain ⟨f', e'⟩ := hok
  obtain ⟨u1, u2, offs, z, u3, u4, u5, u6⟩ := updateBlockOffsets_spec e'
  refine ⟨f', offs, z, by rw [Form.setBases, e, ok_bind, e'], u3, u4, by rw [u5, h1], fun m t b hm hb' => ?_⟩
  have hml : m < f.meshes.length := by rw [← ht]; exact (List.getElem?_eq_some_iff.1 hm).1
  have hv := h3 m t b hm hb' (List.getElem?_eq_some_iff.1 hb').1
  obtain ⟨b', off, v1, v2⟩ := u6 m (by rw [h1]; exact hml)
  rw [hv] at v1
  cases v1
  exact ⟨by rw [u1, hv], v2⟩

/-- `InterfaceAddMult` before `UpdateBlockOffsets` stops with an error; `InterfaceGetGradient`, which
lacks the check, reads outside its arrays. -/
theorem no_offsets (f : Form P R δ) (x y : List R) (junk : Nat → R) (ho : f.offsets = none)
    {mats : MatArr R} {n : Nat} {rz : Nat → Nat} (hn : f.meshes.length = n) (hm : MatsOk mats n rz rz) :
    f.addMult x y junk = .error .abort ∧ f.gradient x mats junk = .error .ub := by
  constructor
  · unfold Form.addMult; rw [ho]; rfl
  · unfold Form.gradient
    rw [hm.1, hm.2.1, hn, beq_self_eq_true, require_true, ok_bind, ok_bind,
      InterfaceForm.allSet_ok hm, ok_bind, ho]
    rfl

/-! ## A concrete form -/

def exMesh : FMesh Unit := ⟨fun be => if be < 2 then some ⟨be, ()⟩ else none, fun _ => 0, fun t _ => t⟩

def exInteg : Integ Unit Int Unit where
  rule := some 2
  vec _ _ q w u1 u2 i := [w * (q + 1) * (ve u1 0 - ve u2 0), w * (ve u1 1 * ve u2 1) + i]
  grad _ _ _ _ q w u1 u2 i j := ⟨2, 2, [w * (q + 1), ve u1 0, ve u2 0 * w, i + 2 * j]⟩
  fastVec _ _ _ _ _ _ _ _ _ := .error .ub
  fastGrad _ _ _ _ _ _ _ _ _ _ := .error .ub

/-- Two subdomains with two elements each, joined by two faces; the basis of the first one has a
leading row that belongs to another variable. -/
def exForm : Form Unit Int Unit where
  meshes := [exMesh, exMesh]
  fes := [⟨4, [[0, 1], [2, 3]]⟩, ⟨4, [[0, 1], [2, 3]]⟩]
  basis := [some (⟨5, 1, [9, 1, 2, 3, 4]⟩, 1), some (⟨4, 2, [1, 0, 2, 0, 0, 5, 0, 7]⟩, 0)]
  offsets := some [0, 1, 3]
  precompute := false
  fnfi := [some exInteg]
  ports := [⟨0, 1, [⟨0, 1, 0, 0⟩, ⟨1, 0, 0, 0⟩]⟩]
  samples := [some [⟨1, 0, 3, none⟩, ⟨0, 1, 5, none⟩, ⟨1, 1, -2, none⟩]]

theorem exForm_ok : FormOk exForm [1, 2] where
  offsets := ⟨[0, 1, 3], rfl, by
    refine ⟨rfl, rfl, fun i s h => ?_⟩
    match i with
    | 0 => cases h; exact ⟨0, rfl, rfl⟩
    | 1 => cases h; exact ⟨1, rfl, rfl⟩
    | i + 2 => simp at h⟩
  count := rfl
  fes := rfl
  basis := by
    intro m w h
    match m with
    | 0 => cases h; exact ⟨_, _, rfl, by decide, by unfold MatOk; decide, by decide, rfl⟩
    | 1 => cases h; exact ⟨_, _, rfl, by decide, by unfold MatOk; decide, by decide, rfl⟩
    | m + 2 => simp at h
  fnfi := by
    intro g hg
    simp only [exForm, List.mem_singleton] at hg
    exact ⟨exInteg, 2, hg, rfl⟩
  ports := by decide
  slots := rfl
  samples := by
    intro k p g nq pt hg hnq hp s hs
    match k, p with
    | 0, 0 =>
      cases hg
      cases hnq
      cases hp
      have dims : ∀ (t1 t2 : Tr Unit) (q : Nat) w u1 u2, (exInteg.vec t1 t2 q w u1 u2 0).length = 2 ∧
          (exInteg.vec t1 t2 q w u1 u2 1).length = 2 ∧ ∀ i j, MatOk (exInteg.grad t1 t2 t1 t2 q w u1 u2 i j) ∧
            (exInteg.grad t1 t2 t1 t2 q w u1 u2 i j).h = 2 ∧
            (exInteg.grad t1 t2 t1 t2 q w u1 u2 i j).w = 2 := by
        intro t1 t2 q w u1 u2
        exact ⟨rfl, rfl, fun i j => ⟨by unfold MatOk; exact le_rfl, rfl, rfl⟩⟩
      have rows : ∀ m e, m < 2 → e < 2 → (rowsOf exForm m ⟨e, ()⟩).length = 2 ∧
          RowsOk (rowsOf exForm m ⟨e, ()⟩) (basisOf exForm m).h := by
        intro m e hm he
        have : m = 0 ∨ m = 1 := by omega
        have : e = 0 ∨ e = 1 := by omega
        rcases ‹m = 0 ∨ m = 1› with rfl | rfl <;> rcases ‹e = 0 ∨ e = 1› with rfl | rfl <;>
          exact ⟨rfl, by unfold RowsOk; decide⟩
      have all : ∀ (e1 e2 : Nat), e1 < 2 → e2 < 2 →
          faceOf exForm ⟨0, 1, [⟨0, 1, 0, 0⟩, ⟨1, 0, 0, 0⟩]⟩ s.el.toNat = some (⟨e1, ()⟩, ⟨e2, ()⟩) →
          0 ≤ s.el → 0 ≤ s.qp → s.qp < 2 →
          SampleOk exForm ⟨0, 1, [⟨0, 1, 0, 0⟩, ⟨1, 0, 0, 0⟩]⟩ 2 exInteg s := by
        intro e1 e2 h1 h2 hf a1 a2 a3
        refine ⟨a1, a2, a3, _, _, hf, h1, h2, (rows 0 e1 (by omega) h1).2, (rows 1 e2 (by omega) h2).2,
          fun w u1 u2 => ?_⟩
        obtain ⟨d1, d2, d3⟩ := dims ⟨e1, ()⟩ ⟨e2, ()⟩ s.qp.toNat w u1 u2
        refine ⟨by rw [d1, (rows 0 e1 (by omega) h1).1], by rw [d2, (rows 1 e2 (by omega) h2).1], ?_⟩
        intro i j hi hj
        obtain ⟨m1, m2, m3⟩ := d3 i j
        have side : ∀ i, (rowsOf exForm (sideOf ⟨0, 1, [⟨0, 1, 0, 0⟩, ⟨1, 0, 0, 0⟩]⟩ i)
            (trSide (⟨e1, ()⟩ : Tr Unit) ⟨e2, ()⟩ i)).length = 2 := by
          intro i
          unfold sideOf trSide
          split
          · exact (rows 0 e1 (by omega) h1).1
          · exact (rows 1 e2 (by omega) h2).1
        exact ⟨m1, by rw [m2, side i], by rw [m3, side j]⟩
      have hs' : s ∈ ([⟨1, 0, 3, none⟩, ⟨0, 1, 5, none⟩, ⟨1, 1, -2, none⟩] : List (Sample Unit Int)) := hs
      simp only [List.mem_cons, List.not_mem_nil, or_false] at hs'
      rcases hs' with rfl | rfl | rfl
      · exact all 1 0 (by omega) (by omega) rfl (by decide) (by decide) (by decide)
      · exact all 0 1 (by omega) (by omega) rfl (by decide) (by decide) (by decide)
      · exact all 1 0 (by omega) (by omega) rfl (by decide) (by decide) (by decide)
    | k + 1, _ => simp [exForm] at hg
    | 0, p + 1 => simp [exForm] at hp

/-- The hypotheses of the theorems hold for a form with two faces, visited in an order that leaves and
returns to the first one. -/
example (x y : List Int) (hx : x.length = 3) (hy : y.length = 3) (junk : Nat → Int) :
    ∃ y', exForm.addMult x y junk = .ok y' ∧ y'.length = 3 ∧
      ∀ (m w c : Nat), [1, 2][m]? = some w → c < w →
        bent ⟨y', [0, 1, 3]⟩ m c = bent ⟨y, [0, 1, 3]⟩ m c + formVec exForm ⟨x, [0, 1, 3]⟩ m c :=
  addMult_spec exForm_ok (fun h => nomatch h) rfl hx hy junk

example : exForm.addMult [1, 2, 3] [0, 0, 0] (fun _ => 0) ≠ .ok [0, 0, 0] := by decide +kernel

/-- Its samples in another order. -/
example : SamplesPerm exForm { exForm with
    samples := [some [⟨1, 0, 3, none⟩, ⟨1, 1, -2, none⟩, ⟨0, 1, 5, none⟩]] } :=
  ⟨rfl, rfl, rfl, rfl, rfl, rfl, rfl, rfl, fun k p => by
    unfold samplesAt
    show ((([some _] : List _)[p + k * 1]?).getD none).getD [] |>.Perm
      ((([some _] : List _)[p + k * 1]?).getD none |>.getD [])
    rcases p + k * 1 with _ | n
    · exact List.Perm.cons _ (List.Perm.swap _ _ _)
    · simp⟩

/-- Both subdomains of the example as instances of the second of two components, then of different ones. -/
example : ((exForm.setBases [1, 1] [4, 4] [⟨4, 1, [1, 2, 3, 4]⟩, ⟨4, 2, [1, 0, 2, 0, 0, 5, 0, 7]⟩]).map
      fun f => (f.basis.map (Option.map fun b => (b.1.w, b.2)), f.offsets)) =
        .ok ([some (2, 0), some (2, 0)], some [0, 2, 4]) ∧
    ((exForm.setBases [1, 0] [4, 4] [⟨4, 1, [1, 2, 3, 4]⟩, ⟨4, 2, [1, 0, 2, 0, 0, 5, 0, 7]⟩]).map
      fun f => (f.basis.map (Option.map fun b => (b.1.w, b.2)), f.offsets)) =
        .ok ([some (2, 0), some (1, 0)], some [0, 2, 3]) := by decide +kernel

end Verif.EqpItf
