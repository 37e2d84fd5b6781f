import Verif.Proofs.TrainItf
import Verif.Props.EqpItf
import Verif.Props.Supremizer
import Verif.Spec.PreItf

/-! # Properties of the coefficients of the samples of interface forms: C125 -/

namespace Verif.PreItf

open Verif Verif.LinAlg Verif.LinAlg.Spec Verif.PreItf.Spec
open Verif.Ports (InterfaceInfo)
open Verif.InterfaceForm (Tr FMesh Space Port transformations rd_dofs)
open Verif.InterfaceForm.Spec (dofsOf)
open Verif.Convection.Spec (lift project)
open Verif.Eqp (Sample intPoint intPoint_eq rdI_get)
open Verif.EqpItf (Integ Form both)
open Verif.EqpItf.Spec (spaceOf basisOf offOf faceOf samplesAt project2 FormOk FormReady FastOk rowsOf
  coeffs sideOf trSide sampleVec sampleGrad lifted)
open Verif.TrainItf (RefForm RefPort Side sideRec transformations_face compOk_mat compOk_height compOk_off)
open Verif.TrainItf.Spec (CompOk asForm asPort)

variable {P R δ : Type} [CommRing R]

theorem sideAt_eq {f : RefForm P R δ} {c : Nat} (h : CompOk f c) : sideAt f c = .ok (sideRec f c) := by
  obtain ⟨s, hs⟩ := h.fes
  obtain ⟨b, o, hb, -⟩ := h.basis
  unfold sideAt
  rw [rd_eq_ok.2 hb, ok_bind, show deref (some (b, o)) = .ok (b, o) from rfl, ok_bind, rd_eq_ok.2 hs, ok_bind,
    show deref (some s) = .ok s from rfl, ok_bind, rd_of_lt h.mesh, ok_bind]
  have e1 : spaceOf (asForm f) c = s := by
    unfold spaceOf asForm
    simp [hs]
  have e2 : basisOf (asForm f) c = b := by unfold basisOf asForm; rw [hb]; rfl
  have e3 : offOf (asForm f) c = o := by unfold offOf asForm; rw [hb]; rfl
  unfold sideRec
  rw [e1, e2, e3, List.getElem?_eq_getElem h.mesh]
  rfl

theorem rows_ok {f : RefForm P R δ} {c : Nat} (h : CompOk f c) {e : Nat}
    (he : e < (spaceOf (asForm f) c).vdofs.length) :
    RowsOk (dofsOf (spaceOf (asForm f) c) e) (basisOf (asForm f) c).h := by
  have hm : dofsOf (spaceOf (asForm f) c) e ∈ (spaceOf (asForm f) c).vdofs := by
    unfold dofsOf
    rw [List.getElem?_eq_getElem he]
    exact List.getElem_mem he
  obtain ⟨h1, h2⟩ := h.dofs _ hm
  have h3 := compOk_height h
  have h4 := compOk_off h
  refine ⟨h1, fun r hr => ⟨(h2 r hr).1, ?_⟩⟩
  have := (h2 r hr).2
  omega

theorem preSample_eq {pre : Pre P R δ} {f : RefForm P R δ} {rp : RefPort} {g : Integ P R δ} {nq : Nat}
    {s : Sample P R} {t1 t2 : Tr δ} (h0 : 0 ≤ s.el) (h1 : 0 ≤ s.qp) (h2 : s.qp < nq)
    (ht : faceOf (asForm f) (asPort rp) s.el.toNat = some (t1, t2))
    (l1 : t1.elem < (spaceOf (asForm f) rp.c1).vdofs.length)
    (l2 : t2.elem < (spaceOf (asForm f) rp.c2).vdofs.length) {c : P}
    (hc : pre g (basisOf (asForm f) rp.c1) (dofsOf (spaceOf (asForm f) rp.c1) t1.elem)
      (basisOf (asForm f) rp.c2) (dofsOf (spaceOf (asForm f) rp.c2) t2.elem) t1 t2 s.qp.toNat = .ok c) :
    preSample pre g nq (sideRec f rp.c1) (sideRec f rp.c2) rp.infos s = .ok { s with pre := some c } := by
  obtain ⟨i, e1, e2⟩ := transformations_face ht
  unfold preSample
  rw [rdI_get h0 e1, ok_bind, e2, ok_bind,
    show both (some t1, some t2) = .ok (t1, t2) from rfl, ok_bind]
  dsimp only
  rw [show (sideRec f rp.c1).space = spaceOf (asForm f) rp.c1 from rfl,
    show (sideRec f rp.c2).space = spaceOf (asForm f) rp.c2 from rfl, rd_dofs l1, ok_bind, rd_dofs l2,
    ok_bind, intPoint_eq h1 h2, ok_bind]
  rw [show (sideRec f rp.c1).basis = basisOf (asForm f) rp.c1 from rfl,
    show (sideRec f rp.c2).basis = basisOf (asForm f) rp.c2 from rfl, hc]
  rfl

/-- The result of a computation that succeeds. -/
def okOr {α : Type} (d : α) : Outcome α → α
  | .ok a => a
  | .error _ => d

theorem preList_eq {pre : Pre P R δ} {g : Integ P R δ} {nq : Nat} {s1 s2 : Side R δ}
    {infos : List InterfaceInfo} {l : List (Sample P R)}
    (h : ∀ s ∈ l, ∃ s', preSample pre g nq s1 s2 infos s = .ok s') :
    preList pre g nq s1 s2 infos l =
      .ok (l.map fun s => okOr s (preSample pre g nq s1 s2 infos s)) := by
  unfold preList
  rw [loop_spec (fun k => (l.take k).map fun s => okOr s (preSample pre g nq s1 s2 infos s)) (by simp)]
  · rw [List.take_length]
  intro i hi
  obtain ⟨s', hs'⟩ := h l[i] (List.getElem_mem hi)
  rw [rd_of_lt hi, ok_bind, hs', ok_bind, List.take_succ, List.getElem?_eq_getElem hi]
  rw [List.map_append]
  simp only [Option.toList_some, List.map_cons, List.map_nil, hs']
  rfl

/-- What the loops make of the samples of integrator `k` at reference port `p`. -/
def newList (pre : Pre P R δ) (f : RefForm P R δ) (k p : Nat) (l : List (Sample P R)) :
    List (Sample P R) :=
  match f.fnfi[k]?, f.ports[p]? with
  | some (some g), some rp =>
    l.map fun s => okOr s (preSample pre g (g.rule.getD 0) (sideRec f rp.c1) (sideRec f rp.c2) rp.infos s)
  | _, _ => l

/-- The slots when those before `b` have been visited. -/
def slotsAt (pre : Pre P R δ) (f : RefForm P R δ) (b : Nat) : List (Option (List (Sample P R))) :=
  tab f.refs.length fun i => if i < b then
    ((f.refs[i]?.getD none).map (newList pre f (i / f.ports.length) (i % f.ports.length)))
    else f.refs[i]?.getD none

theorem sample_pre {pre : Pre P R δ} {like : Tr δ → Tr δ → Prop} {f : RefForm P R δ} (hf : RefParts f)
    (hp : ∀ g, some g ∈ f.fnfi → PreOk like pre g) {k p : Nat} {g : Integ P R δ} {nq : Nat} {rp : RefPort}
    (hg : f.fnfi[k]? = some (some g)) (hn : g.rule = some nq) (hrp : f.ports[p]? = some rp)
    {s : Sample P R} (hs : s ∈ refSamples f.refs f k p) :
    ∃ t1 t2 c, faceOf (asForm f) (asPort rp) s.el.toNat = some (t1, t2) ∧
      t1.elem < (spaceOf (asForm f) rp.c1).vdofs.length ∧
      t2.elem < (spaceOf (asForm f) rp.c2).vdofs.length ∧
      (∀ w v1 v2, (g.vec t1 t2 s.qp.toNat w v1 v2 0).length =
          (dofsOf (spaceOf (asForm f) rp.c1) t1.elem).length ∧
        (g.vec t1 t2 s.qp.toNat w v1 v2 1).length = (dofsOf (spaceOf (asForm f) rp.c2) t2.elem).length) ∧
      pre g (basisOf (asForm f) rp.c1) (dofsOf (spaceOf (asForm f) rp.c1) t1.elem)
        (basisOf (asForm f) rp.c2) (dofsOf (spaceOf (asForm f) rp.c2) t2.elem) t1 t2 s.qp.toNat = .ok c ∧
      preSample pre g nq (sideRec f rp.c1) (sideRec f rp.c2) rp.infos s = .ok { s with pre := some c } := by
  obtain ⟨a1, a2, a3, t1, t2, ht, l1, l2, hw⟩ := hf.samples k p g nq rp hg hn hrp s hs
  obtain ⟨p1, p2⟩ := hf.ports rp (List.mem_of_getElem? hrp)
  obtain ⟨c, hc, -⟩ := hp g (List.mem_of_getElem? hg) _ _ _ _ t1 t2 s.qp.toNat (compOk_mat (hf.comps _ p1))
    (compOk_mat (hf.comps _ p2)) (rows_ok (hf.comps _ p1) l1) (rows_ok (hf.comps _ p2) l2) hw
  exact ⟨t1, t2, c, ht, l1, l2, hw, hc, preSample_eq a1 a2 a3 ht l1 l2 hc⟩

theorem slot_lt {n m k p : Nat} (hk : k < m) (hp : p < n) : p + k * n < m * n := by
  calc p + k * n < n + k * n := by omega
    _ = (k + 1) * n := by ring
    _ ≤ m * n := Nat.mul_le_mul_right n hk

theorem slot_div {n k p : Nat} (hp : p < n) : (p + k * n) / n = k ∧ (p + k * n) % n = p := by
  constructor
  · rw [Nat.add_mul_div_right _ _ (by omega), Nat.div_eq_of_lt hp, Nat.zero_add]
  · rw [Nat.add_mul_mod_self_right, Nat.mod_eq_of_lt hp]

theorem prePort_eq {pre : Pre P R δ} {like : Tr δ → Tr δ → Prop} {f : RefForm P R δ} (hf : RefParts f)
    (hp : ∀ g, some g ∈ f.fnfi → PreOk like pre g) {k p : Nat} {g : Integ P R δ} {nq : Nat}
    (hg : f.fnfi[k]? = some (some g)) (hn : g.rule = some nq) (hpl : p < f.ports.length)
    (hset : f.refs[p + k * f.ports.length]? ≠ some none) :
    prePort pre f g nq k p (slotsAt pre f (p + k * f.ports.length)) =
      .ok (slotsAt pre f (p + 1 + k * f.ports.length)) := by
  have hkl := (List.getElem?_eq_some_iff.1 hg).1
  have hb : p + k * f.ports.length < f.refs.length := by rw [hf.slots]; exact slot_lt hkl hpl
  obtain ⟨d1, d2⟩ := slot_div (k := k) hpl
  have hrp := List.getElem?_eq_getElem hpl
  obtain ⟨l, hl⟩ := Option.ne_none_iff_exists'.1
    (show f.refs[p + k * f.ports.length] ≠ none from fun h => hset (by rw [List.getElem?_eq_getElem hb, h]))
  have hl' : f.refs[p + k * f.ports.length]? = some (some l) := by rw [List.getElem?_eq_getElem hb, hl]
  have hs : refSamples f.refs f k p = l := by unfold refSamples; rw [hl']; rfl
  obtain ⟨p1, p2⟩ := hf.ports _ (List.mem_of_getElem? hrp)
  unfold prePort
  rw [rd_eq_ok.2 hrp, ok_bind]
  unfold slotsAt
  rw [rd_tab hb, ok_bind, if_neg (Nat.lt_irrefl _), hl', Option.getD_some,
    show nonNull (some l) = .ok l from rfl, ok_bind, sideAt_eq (hf.comps _ p1), ok_bind,
    sideAt_eq (hf.comps _ p2), ok_bind, preList_eq (fun s hs' => ?_), ok_bind, wr_tab hb]
  · congr 1
    apply tab_congr
    intro i hi
    by_cases he : i = p + k * f.ports.length
    · subst he
      rw [Function.update_self, if_pos (by omega), hl', Option.getD_some, d1, d2]
      unfold newList
      rw [hg, hrp, Option.map_some]
      dsimp only
      rw [hn, Option.getD_some]
    · rw [Function.update_of_ne he]
      by_cases h1 : i < p + k * f.ports.length
      · rw [if_pos h1, if_pos (by omega)]
      · rw [if_neg h1, if_neg (by omega)]
  · rw [← hs] at hs'
    obtain ⟨_, _, c, -, -, -, -, -, h⟩ := sample_pre hf hp hg hn hrp hs'
    exact ⟨_, h⟩

theorem ports_eq {pre : Pre P R δ} {like : Tr δ → Tr δ → Prop} {f : RefForm P R δ} (hf : RefParts f)
    (hp : ∀ g, some g ∈ f.fnfi → PreOk like pre g) {k : Nat} {g : Integ P R δ} {nq : Nat}
    (hg : f.fnfi[k]? = some (some g)) (hn : g.rule = some nq)
    (hset : ∀ p < f.ports.length, f.refs[p + k * f.ports.length]? ≠ some none) :
    loop f.ports.length (fun p refs => prePort pre f g nq k p refs) (slotsAt pre f (k * f.ports.length)) =
      .ok (slotsAt pre f ((k + 1) * f.ports.length)) := by
  rw [loop_spec (fun p => slotsAt pre f (p + k * f.ports.length)) (by rw [Nat.zero_add])
    (fun p hpl => prePort_eq hf hp hg hn hpl (hset p hpl))]
  congr 2
  ring

omit [CommRing R] in
theorem slotsAt_zero (pre : Pre P R δ) (f : RefForm P R δ) : f.refs = slotsAt pre f 0 := by
  unfold slotsAt
  simp only [Nat.not_lt_zero, if_false]
  exact (tab_getD f.refs none).symm

theorem bases_eq {f : RefForm P R δ} (hf : RefParts f) :
    loop f.meshes.length (fun c _ => do
      let b ← rd f.basis c
      let _ ← nonNull b
      return ()) () = .ok () := by
  refine loop_spec (fun _ => ()) rfl (fun c hc => ?_)
  obtain ⟨b, o, hb, -⟩ := (hf.comps c hc).basis
  rw [rd_eq_ok.2 hb]
  rfl

theorem precompute_eq {pre : Pre P R δ} {like : Tr δ → Tr δ → Prop} {f : RefForm P R δ} (hf : RefOk f)
    (hp : ∀ g, some g ∈ f.fnfi → PreOk like pre g) :
    precompute pre f = .ok (slotsAt pre f (f.fnfi.length * f.ports.length)) := by
  unfold precompute
  rw [show (f.basis.length == f.meshes.length) = true from by simp [hf.bases], require_true, ok_bind,
    bases_eq hf.toRefParts, ok_bind,
    loop_spec (fun k => slotsAt pre f (k * f.ports.length)) ?_ (fun k hk => ?_)]
  · rw [Nat.zero_mul]
    exact slotsAt_zero pre f
  · obtain ⟨g, nq, e1, e2⟩ := hf.fnfi _ (List.getElem_mem hk)
    have hg : f.fnfi[k]? = some (some g) := by rw [List.getElem?_eq_getElem hk, e1]
    rw [rd_eq_ok.2 hg, ok_bind, show deref (some g) = .ok g from rfl, ok_bind, e2,
      show nonNull (some nq) = .ok nq from rfl, ok_bind]
    exact ports_eq hf.toRefParts hp hg e2 fun p _ h => hf.set _ (List.mem_of_getElem? h) rfl

omit [CommRing R] in
theorem refSamples_new {pre : Pre P R δ} {f : RefForm P R δ} (hf : RefOk f) {k p : Nat}
    {g : Integ P R δ} {nq : Nat} {rp : RefPort} (hg : f.fnfi[k]? = some (some g)) (hn : g.rule = some nq)
    (hrp : f.ports[p]? = some rp) :
    refSamples (slotsAt pre f (f.fnfi.length * f.ports.length)) f k p =
      (refSamples f.refs f k p).map fun s => okOr s (preSample pre g nq (sideRec f rp.c1) (sideRec f rp.c2)
        rp.infos s) := by
  have hpl := (List.getElem?_eq_some_iff.1 hrp).1
  have hb := slot_lt (List.getElem?_eq_some_iff.1 hg).1 hpl
  obtain ⟨d1, d2⟩ := slot_div (k := k) hpl
  unfold refSamples slotsAt
  rw [getElem?_tab, if_pos (by rw [hf.slots]; exact hb), if_pos hb, Option.getD_some, d1, d2]
  unfold newList
  rw [hg, hrp]
  dsimp only
  rw [hn, Option.getD_some]
  cases f.refs[p + k * f.ports.length]?.getD none <;> rfl

/-- **C125.** Computing the coefficients succeeds; the samples of every integrator at every reference
port stay what and in the order they were, and all have coefficients. -/
theorem precompute_fills {pre : Pre P R δ} {like : Tr δ → Tr δ → Prop} {f : RefForm P R δ} (hf : RefOk f)
    (hp : ∀ g, some g ∈ f.fnfi → PreOk like pre g) :
    ∃ refs, precompute pre f = .ok refs ∧ refs.length = f.refs.length ∧
      ∀ k p, k < f.fnfi.length → p < f.ports.length →
        List.Forall₂ Filled (refSamples f.refs f k p) (refSamples refs f k p) := by
  refine ⟨_, precompute_eq hf hp, by unfold slotsAt; simp, fun k p hk hpl => ?_⟩
  obtain ⟨g, nq, e1, e2⟩ := hf.fnfi _ (List.getElem_mem hk)
  have hg : f.fnfi[k]? = some (some g) := by rw [List.getElem?_eq_getElem hk, e1]
  rw [refSamples_new hf hg e2 (List.getElem?_eq_getElem hpl), List.forall₂_map_right_iff,
    List.forall₂_same]
  intro s hs
  obtain ⟨_, _, c, -, -, -, -, -, h⟩ := sample_pre hf.toRefParts hp hg e2 (List.getElem?_eq_getElem hpl) hs
  rw [h]
  exact ⟨rfl, rfl, rfl, fun h => nomatch h⟩

/-- **C125**, the part that holds: where the space of the form starts at the first row of every basis,
the coefficients fulfil the contract of the fast evaluation, for every form put together from the
components. -/
theorem precompute_ready_partial {pre : Pre P R δ} {like : Tr δ → Tr δ → Prop} {f : RefForm P R δ}
    (hf : RefOk f) (hp : ∀ g, some g ∈ f.fnfi → PreOk like pre g)
    (h0 : ∀ c, offOf (asForm f) c = 0) {refs : List (Option (List (Sample P R)))}
    (hr : precompute pre f = .ok refs) {F : Form P R δ} (hF : Built like F f refs) : FormReady F := by
  rw [precompute_eq hf hp] at hr
  cases hr
  intro _ k p g pt hg hpt s hs t1 t2 ht
  obtain ⟨q, rp, hrp, c1, c2, hsm, hface⟩ := hF.port p pt hpt
  rw [hF.fnfi] at hg
  obtain ⟨g', nq, e1, e2⟩ := hf.fnfi _ (List.mem_of_getElem? hg)
  cases e1
  rw [hsm, refSamples_new hf hg e2 hrp, List.mem_map] at hs
  obtain ⟨s0, hs0, rfl⟩ := hs
  obtain ⟨u1, u2, c, hu, l1, l2, hw, hc, hps⟩ := sample_pre hf.toRefParts hp hg e2 hrp hs0
  rw [hps] at ht ⊢
  dsimp only [okOr] at ht ⊢
  obtain ⟨v1, v2, hv, k1, k2, m1, m2⟩ := hface _ _ _ ht
  rw [hu] at hv
  cases hv
  obtain ⟨p1, p2⟩ := hf.ports rp (List.mem_of_getElem? hrp)
  obtain ⟨c', hc', hfast⟩ := hp g (List.mem_of_getElem? hg) _ _ _ _ u1 u2 s0.qp.toNat
    (compOk_mat (hf.comps _ p1)) (compOk_mat (hf.comps _ p2)) (rows_ok (hf.comps _ p1) l1)
    (rows_ok (hf.comps _ p2) l2) hw
  rw [hc] at hc'
  cases hc'
  have r1 : rowsOf F pt.mesh1 t1 = dofsOf (spaceOf (asForm f) rp.c1) u1.elem := by
    unfold rowsOf; rw [c1.space, c1.off, h0, m1]; simp
  have r2 : rowsOf F pt.mesh2 t2 = dofsOf (spaceOf (asForm f) rp.c2) u2.elem := by
    unfold rowsOf; rw [c2.space, c2.off, h0, m2]; simp
  have hb : ∀ i, basisOf F (sideOf pt i) =
      if i = 0 then basisOf (asForm f) rp.c1 else basisOf (asForm f) rp.c2 := by
    intro i
    unfold sideOf
    split
    · exact c1.basis
    · exact c2.basis
  have hd : ∀ i, rowsOf F (sideOf pt i) (trSide t1 t2 i) =
      if i = 0 then dofsOf (spaceOf (asForm f) rp.c1) u1.elem
      else dofsOf (spaceOf (asForm f) rp.c2) u2.elem := by
    intro i
    unfold sideOf trSide
    split
    · exact r1
    · exact r2
  have w1 : ∀ x, (coeffs F x pt.mesh1).length = (basisOf (asForm f) rp.c1).w := by
    intro x; unfold coeffs; rw [List.length_map, List.length_range, c1.basis]
  have w2 : ∀ x, (coeffs F x pt.mesh2).length = (basisOf (asForm f) rp.c2).w := by
    intro x; unfold coeffs; rw [List.length_map, List.length_range, c2.basis]
  constructor
  · intro x i y hi hy
    obtain ⟨hv, -⟩ := hfast t1 t2 k1 k2 s0.qw _ _ (w1 x) (w2 x)
    unfold sampleVec lifted
    rw [hb] at hy
    rw [hb, hd, r1, r2, c1.basis, c2.basis]
    exact hv i y hi hy
  · intro x i j m hi hj h1 h2
    obtain ⟨-, hv⟩ := hfast t1 t2 k1 k2 s0.qw _ _ (w1 x) (w2 x)
    unfold sampleGrad lifted
    rw [hb] at h1 h2
    rw [hb, hb, hd, hd, r1, r2, c1.basis, c2.basis]
    exact hv i j m hi hj h1 h2

/-- **C125**, the part that holds, in terms of evaluation: with the computed coefficients the fast
evaluation gives the same vector as the slow one. -/
theorem precompute_fast_partial {pre : Pre P R δ} {like : Tr δ → Tr δ → Prop} {f : RefForm P R δ}
    (hf : RefOk f) (hp : ∀ g, some g ∈ f.fnfi → PreOk like pre g)
    (h0 : ∀ c, offOf (asForm f) c = 0) {refs : List (Option (List (Sample P R)))}
    (hr : precompute pre f = .ok refs) {F : Form P R δ} (hF : Built like F f refs) {z : List Nat}
    (hok : FormOk F z) (hpre : F.precompute = true) {x y : List R} (hx : x.length = z.sum)
    (hy : y.length = z.sum) (junk junk' : Nat → R) :
    F.addMult x y junk = ({ F with precompute := false } : Form P R δ).addMult x y junk' :=
  EqpItf.fast_eq_slow hok hpre (precompute_ready_partial hf hp h0 hr hF) hx hy junk junk'

/-- **C125.** Without a basis for every component the program is ended before any sample is touched. -/
theorem precompute_needs_bases (pre : Pre P R δ) (f : RefForm P R δ)
    (h : f.basis.length ≠ f.meshes.length ∨ none ∈ f.basis) : precompute pre f = .error .abort := by
  unfold precompute
  by_cases hl : f.basis.length = f.meshes.length
  · have hn : none ∈ f.basis := h.resolve_left fun h => h hl
    obtain ⟨c, hc, hb⟩ := List.mem_iff_getElem.1 hn
    rw [show (f.basis.length == f.meshes.length) = true from by simp [hl], require_true, ok_bind,
      Blocks.loop_error_of (fun _ => True) trivial (fun k u hk _ => ?_) ⟨c, by omega, fun u _ => ?_⟩]
    · rfl
    · rw [rd_of_lt (by omega), ok_bind]
      cases f.basis[k] with
      | none => exact .inr rfl
      | some b => exact .inl ⟨(), rfl, trivial⟩
    · rw [rd_of_lt hc, ok_bind, hb]
      rfl
  · rw [show (f.basis.length == f.meshes.length) = false from by simp [hl]]
    rfl

/-- **C125.** If an integrator has no samples at some reference port, the program is ended. -/
theorem precompute_needs_samples {pre : Pre P R δ} {like : Tr δ → Tr δ → Prop} {f : RefForm P R δ}
    (hf : RefParts f) (hp : ∀ g, some g ∈ f.fnfi → PreOk like pre g) (h : none ∈ f.refs) :
    precompute pre f = .error .abort := by
  classical
  have hex : ∃ b, f.refs[b]? = some none := List.mem_iff_getElem?.1 h
  obtain ⟨b, hb, hmin⟩ : ∃ b, f.refs[b]? = some none ∧ ∀ c < b, f.refs[c]? ≠ some none :=
    ⟨Nat.find hex, Nat.find_spec hex, fun c hc => Nat.find_min hex hc⟩
  have hbl := (List.getElem?_eq_some_iff.1 hb).1
  have hbl' := hbl
  rw [hf.slots] at hbl'
  have hn : 0 < f.ports.length := by
    rcases Nat.eq_zero_or_pos f.ports.length with h0 | h0
    · rw [h0, Nat.mul_zero] at hbl'; omega
    · exact h0
  have hk : b / f.ports.length < f.fnfi.length := (Nat.div_lt_iff_lt_mul hn).2 hbl'
  have hpl : b % f.ports.length < f.ports.length := Nat.mod_lt _ hn
  have hbk : b % f.ports.length + b / f.ports.length * f.ports.length = b := by
    rw [Nat.mul_comm]; exact Nat.mod_add_div _ _
  have step : ∀ k, k ≤ b / f.ports.length → k < f.fnfi.length →
      ∃ g nq, f.fnfi[k]? = some (some g) ∧ g.rule = some nq := by
    intro k _ hk
    obtain ⟨g, nq, e1, e2⟩ := hf.fnfi _ (List.getElem_mem hk)
    exact ⟨g, nq, by rw [List.getElem?_eq_getElem hk, e1], e2⟩
  unfold precompute
  rw [show (f.basis.length == f.meshes.length) = true from by simp [hf.bases], require_true, ok_bind,
    bases_eq hf, ok_bind]
  refine Supremizer.loop_fail (i := b / f.ports.length) (fun k s => s = slotsAt pre f (k * f.ports.length))
    (by rw [Nat.zero_mul]; exact slotsAt_zero pre f) hk ?_ ?_
  · rintro k t hkb rfl
    obtain ⟨g, nq, hg, e2⟩ := step k (by omega) (by omega)
    refine ⟨_, ?_, rfl⟩
    rw [rd_eq_ok.2 hg, ok_bind, show deref (some g) = .ok g from rfl, ok_bind, e2,
      show nonNull (some nq) = .ok nq from rfl, ok_bind]
    refine ports_eq hf hp hg e2 fun p hpl => hmin _ ?_
    have h1 := slot_lt hkb hpl
    omega
  · rintro t rfl
    obtain ⟨g, nq, hg, e2⟩ := step _ le_rfl hk
    rw [rd_eq_ok.2 hg, ok_bind, show deref (some g) = .ok g from rfl, ok_bind, e2,
      show nonNull (some nq) = .ok nq from rfl, ok_bind]
    refine Supremizer.loop_fail (i := b % f.ports.length)
      (fun p s => s = slotsAt pre f (p + b / f.ports.length * f.ports.length)) (by rw [Nat.zero_add]) hpl ?_ ?_
    · rintro p t hpb rfl
      exact ⟨_, prePort_eq hf hp hg e2 (by omega) (hmin _ (by omega)), rfl⟩
    · rintro t rfl
      unfold prePort
      rw [rd_of_lt hpl, ok_bind, hbk]
      unfold slotsAt
      rw [rd_tab hbl, ok_bind, if_neg (Nat.lt_irrefl _), hb]
      rfl

/-- **C125.** Without an integration rule of the first integrator, or samples for it at the first
reference port, the program is ended. -/
theorem precompute_needs_input {pre : Pre P R δ} {f : RefForm P R δ} (hb : f.basis.length = f.meshes.length)
    (hs : none ∉ f.basis) {g : Integ P R δ} {fs : List (Option (Integ P R δ))} (hg : f.fnfi = some g :: fs)
    {rp : RefPort} {rps : List RefPort} (hrp : f.ports = rp :: rps)
    {l : Option (List (Sample P R))} {ls : List (Option (List (Sample P R)))} (hl : f.refs = l :: ls)
    (h : g.rule = none ∨ l = none) : precompute pre f = .error .abort := by
  unfold precompute
  rw [show (f.basis.length == f.meshes.length) = true from by simp [hb], require_true, ok_bind,
    loop_spec (fun _ => ()) rfl (fun c hc => ?_), ok_bind,
    Supremizer.loop_fail (i := 0) (fun _ s => s = f.refs) rfl (by rw [hg]; simp) (fun j t hj => by omega)]
  · rintro t rfl
    rw [rd_eq_ok.2 (show f.fnfi[0]? = some (some g) by rw [hg]; rfl), ok_bind,
      show deref (some g) = .ok g from rfl, ok_bind]
    cases hr : g.rule with
    | none => rfl
    | some nq =>
      rw [show nonNull (some nq) = .ok nq from rfl, ok_bind,
        Supremizer.loop_fail (i := 0) (fun _ s => s = f.refs) rfl (by rw [hrp]; simp) (fun j t hj => by omega)]
      rintro t rfl
      have hn : l = none := h.resolve_left (by rw [hr]; exact fun h => nomatch h)
      unfold prePort
      rw [rd_eq_ok.2 (show f.ports[0]? = some rp by rw [hrp]; rfl), ok_bind, Nat.zero_mul,
        rd_eq_ok.2 (show f.refs[0 + 0]? = some none by rw [hl, hn]; rfl), ok_bind]
      rfl
  · rw [rd_of_lt (by omega), ok_bind]
    cases hc' : f.basis[c] with
    | none => exact absurd (hc' ▸ List.getElem_mem _) hs
    | some b => rfl

/-! ## A concrete case -/

abbrev ExP := Mat Int × List Int × Mat Int × List Int

/-- An integrator whose coefficients are the rows of the bases. -/
def exInteg : Integ ExP Int Unit where
  rule := some 2
  vec _ _ q w u1 u2 i := [w * (q + 1) * (ve u1 0 - ve u2 0), w * (ve u1 1 * ve u2 1) + i]
  grad _ _ _ _ _ _ _ _ _ _ := ⟨2, 2, [0, 0, 0, 0]⟩
  fastVec c _ _ q w x1 x2 i y := do
    let c ← deref c
    let u1 := lift c.1 c.2.1 x1
    let u2 := lift c.2.2.1 c.2.2.2 x2
    return tab y.length fun j => ve y j + project (if i = 0 then c.1 else c.2.2.1)
      (if i = 0 then c.2.1 else c.2.2.2) [w * (q + 1) * (ve u1 0 - ve u2 0), w * (ve u1 1 * ve u2 1) + i] j
  fastGrad _ _ _ _ _ _ _ _ _ m := return m

def exPre : Pre ExP Int Unit := fun _ b1 d1 b2 d2 _ _ _ => .ok (b1, d1, b2, d2)

theorem exPre_ok : PreOk (fun _ _ => True) exPre exInteg := by
  intro b1 d1 b2 d2 u1 u2 qp _ _ _ _ _
  refine ⟨_, rfl, fun t1 t2 _ _ qw x1 x2 _ _ => ⟨fun i y _ hy => ⟨_, rfl, by simp, fun j hj => ?_⟩,
    fun i j m _ _ _ _ => ⟨m, rfl, rfl, rfl, fun r s _ _ => ?_⟩⟩⟩
  · have hj' : j < y.length := by rw [hy]; exact hj
    rw [ve_tab hj']
    rfl
  · have : ∀ k l, ent (exInteg.grad t1 t2 t1 t2 qp qw (lift b1 d1 x1) (lift b2 d2 x2) i j) k l = 0 := by
      intro k l
      show ve [0, 0, 0, 0] (k + l * 2) = (0 : Int)
      unfold ve
      rcases h : k + l * 2 with _ | _ | _ | _ | n <;> simp
    unfold project2
    simp only [this, mul_zero, zero_mul, Finset.sum_const_zero, add_zero]

/-- Two components with two elements each and a reference port with two interfaces; the space of the
form starts at row `o` of the basis of the first component. -/
def exRef (o : Int) : RefForm ExP Int Unit where
  meshes := [EqpItf.exMesh, EqpItf.exMesh]
  fes := [some ⟨4, [[0, 1], [2, 3]]⟩, some ⟨4, [[0, 1], [2, 3]]⟩]
  basis := [some (⟨5, 1, [9, 1, 2, 3, 4]⟩, o), some (⟨4, 2, [1, 0, 2, 0, 0, 5, 0, 7]⟩, 0)]
  fnfi := [some exInteg]
  ports := [⟨0, 1, 0, 0, [⟨0, 1, 0, 0⟩, ⟨1, 0, 0, 0⟩]⟩]
  types := [0]
  refs := [some [⟨1, 0, 3, none⟩, ⟨0, 1, 5, none⟩]]
  views := [some [⟨1, 0, 3, none⟩, ⟨0, 1, 5, none⟩]]

/-- The form of one instance of each component, joined at one port. -/
def exForm (o : Int) (refs : List (Option (List (Sample ExP Int)))) : Form ExP Int Unit where
  meshes := [EqpItf.exMesh, EqpItf.exMesh]
  fes := [⟨4, [[0, 1], [2, 3]]⟩, ⟨4, [[0, 1], [2, 3]]⟩]
  basis := [some (⟨5, 1, [9, 1, 2, 3, 4]⟩, o), some (⟨4, 2, [1, 0, 2, 0, 0, 5, 0, 7]⟩, 0)]
  offsets := some [0, 1, 3]
  precompute := true
  fnfi := [some exInteg]
  ports := [⟨0, 1, [⟨0, 1, 0, 0⟩, ⟨1, 0, 0, 0⟩]⟩]
  samples := refs

theorem exRef_ok {o : Int} (h0 : 0 ≤ o) (h1 : o ≤ 1) : RefOk (exRef o) where
  bases := rfl
  comps := by
    intro c hc
    have hc : c < 2 := hc
    have : c = 0 ∨ c = 1 := by omega
    rcases this with rfl | rfl
    · exact ⟨by show (0 : Nat) < 2; decide, ⟨_, rfl⟩, ⟨_, _, rfl, h0, by unfold MatOk; decide, by
        show o + ((4 : Nat) : Int) ≤ ((5 : Nat) : Int); omega⟩, by
        show ∀ rows ∈ [[0, 1], [2, 3]], RowsOk rows 4
        unfold RowsOk; decide⟩
    · exact ⟨by show (1 : Nat) < 2; decide, ⟨_, rfl⟩, ⟨_, _, rfl, le_refl _, by unfold MatOk; decide, by
        show (0 : Int) + ((4 : Nat) : Int) ≤ ((4 : Nat) : Int); omega⟩, by
        show ∀ rows ∈ [[0, 1], [2, 3]], RowsOk rows 4
        unfold RowsOk; decide⟩
  ports := by
    intro rp h
    simp only [exRef, List.mem_singleton] at h
    subst h
    exact ⟨by show (0 : Nat) < 2; decide, by show (1 : Nat) < 2; decide⟩
  fnfi := by
    intro g hg
    simp only [exRef, List.mem_singleton] at hg
    exact ⟨exInteg, 2, hg, rfl⟩
  slots := rfl
  set := by
    intro l hl
    simp only [exRef, List.mem_singleton] at hl
    subst hl
    exact fun h => nomatch h
  samples := by
    intro k p g nq rp hg hnq hp s hs
    match k, p with
    | 0, 0 =>
      cases hg
      cases hnq
      cases hp
      have hs' : s ∈ ([⟨1, 0, 3, none⟩, ⟨0, 1, 5, none⟩] : List (Sample ExP Int)) := hs
      simp only [List.mem_cons, List.not_mem_nil, or_false] at hs'
      rcases hs' with rfl | rfl
      · exact ⟨by decide, by decide, by decide, ⟨1, ()⟩, ⟨0, ()⟩, rfl,
          by show (1 : Nat) < 2; decide, by show (0 : Nat) < 2; decide, fun _ _ _ => ⟨rfl, rfl⟩⟩
      · exact ⟨by decide, by decide, by decide, ⟨0, ()⟩, ⟨1, ()⟩, rfl,
          by show (0 : Nat) < 2; decide, by show (1 : Nat) < 2; decide, fun _ _ _ => ⟨rfl, rfl⟩⟩
    | k + 1, _ => simp [exRef] at hg
    | 0, p + 1 => simp [exRef] at hp

theorem ex_built (o : Int) (refs : List (Option (List (Sample ExP Int)))) :
    Built (fun _ _ => True) (exForm o refs) (exRef o) refs where
  fnfi := rfl
  port := by
    intro p pt h
    match p with
    | 0 =>
      cases h
      exact ⟨0, _, rfl, ⟨rfl, rfl, rfl⟩, ⟨rfl, rfl, rfl⟩, fun k => rfl,
        fun e t1 t2 h => ⟨t1, t2, h, trivial, trivial, rfl, rfl⟩⟩
    | p + 1 => simp [exForm] at h

theorem ex_pre : ∀ g, some g ∈ (exRef 0).fnfi → PreOk (fun _ _ => True) exPre g := by
  intro g hg
  simp only [exRef, List.mem_singleton, Option.some.injEq] at hg
  subst hg
  exact exPre_ok

/-- The hypotheses hold for two components joined by two interfaces. -/
example : ∃ refs, precompute exPre (exRef 0) = .ok refs ∧ FormReady (exForm 0 refs) := by
  obtain ⟨refs, h, -⟩ := precompute_fills (exRef_ok (le_refl 0) (by decide)) ex_pre
  refine ⟨refs, h, precompute_ready_partial (exRef_ok (le_refl 0) (by decide)) ex_pre (fun c => ?_) h
    (ex_built 0 refs)⟩
  match c with
  | 0 => rfl
  | 1 => rfl
  | c + 2 => rfl

example : precompute exPre { exRef 0 with basis := [none, some (⟨4, 2, [1, 0, 2, 0, 0, 5, 0, 7]⟩, 0)] } =
    .error .abort := precompute_needs_bases _ _ (.inr (by simp))

example : precompute exPre { exRef 0 with refs := [none] } = .error .abort :=
  precompute_needs_input rfl (by simp [exRef]) rfl rfl rfl (.inr rfl)

example : precompute exPre { exRef 0 with refs := [none] } = .error .abort :=
  precompute_needs_samples (like := fun _ _ => True)
    (f := { exRef 0 with refs := [none] }) ⟨rfl, fun c hc =>
        have h := (exRef_ok (le_refl 0) (by decide)).comps c hc
        ⟨h.mesh, h.fes, h.basis, h.dofs⟩,
      (exRef_ok (le_refl 0) (by decide)).ports, (exRef_ok (le_refl 0) (by decide)).fnfi, rfl,
      fun k p _ _ _ _ _ _ s hs => by
        have : refSamples ([none] : List (Option (List (Sample ExP Int)))) (exRef 0) k p = [] := by
          unfold refSamples
          rcases p + k * (exRef 0).ports.length with _ | n <;> simp
        exact absurd (this ▸ hs : s ∈ []) List.not_mem_nil⟩ ex_pre (by simp)

/-- **C125** fails for bases that hold another variable first: the coefficients are computed from the
wrong rows, although everything else is in order.  With them the fast evaluation returns another vector
than the slow one. -/
theorem precompute_ignores_offset :
    ∃ refs, RefOk (exRef 1) ∧ PreOk (fun _ _ => True) exPre exInteg ∧
      precompute exPre (exRef 1) = .ok refs ∧ Built (fun _ _ => True) (exForm 1 refs) (exRef 1) refs ∧
      ∃ y y', (exForm 1 refs).addMult [1, 2, 3] [0, 0, 0] (fun _ => 0) = .ok y ∧
        ({ exForm 1 refs with precompute := false } : Form ExP Int Unit).addMult [1, 2, 3] [0, 0, 0]
          (fun _ => 0) = .ok y' ∧ y ≠ y' := by
  obtain ⟨refs, h, -⟩ := precompute_fills (f := exRef 1) (exRef_ok (by decide) (le_refl 1)) ex_pre
  refine ⟨refs, exRef_ok (by decide) (le_refl 1), exPre_ok, h, ex_built 1 refs, ?_⟩
  have e : refs = [some [⟨1, 0, 3, some (⟨5, 1, [9, 1, 2, 3, 4]⟩, [2, 3],
      ⟨4, 2, [1, 0, 2, 0, 0, 5, 0, 7]⟩, [0, 1])⟩, ⟨0, 1, 5, some (⟨5, 1, [9, 1, 2, 3, 4]⟩, [0, 1],
      ⟨4, 2, [1, 0, 2, 0, 0, 5, 0, 7]⟩, [2, 3])⟩]] := by
    have : precompute exPre (exRef 1) = .ok _ := rfl
    rw [this] at h
    cases h
    rfl
  subst e
  exact ⟨[960, 100, 1422], [1119, -57, 2382], by decide +kernel, by decide +kernel, by decide⟩

end Verif.PreItf
