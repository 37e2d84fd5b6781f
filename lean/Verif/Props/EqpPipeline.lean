import Verif.Spec.EqpPipeline
import Verif.Props.EqpComp
import Verif.Props.EqpStore
import Verif.Props.Training
import Verif.Props.TrainPorts
import Verif.Props.Pipeline

/-! # C107: samples trained by one program are the ones later runs use -/

namespace Verif.EqpPipeline

open Verif Verif.LinAlg Verif.Hdf5 Verif.EqpComp Verif.EqpPipeline.Spec
open Verif.Hdf5.Spec
open Verif.EqpStore (Samples Topo Itf)
open Verif.EqpStore.Spec (TopoOk NamesOk SamePort)
open Verif.EqpComp.Spec (BdrOk expected count)
open Verif.Pipeline (Level Disk readLevel)
open Verif.Options (Node Conv key option)
open Verif.Snapshots (Store lookUpSnapshot)
open Verif.TrainItf (RefForm Names snapshotMatrix)

variable {P Q R δ : Type}

/-! ## The calls that store samples -/

/-- The integrators of one type. -/
def entriesAt (f : Eqp.Form P R) : IntegType → List (Eqp.Entry P R)
  | .domain => f.dnfi
  | .interiorFace => f.fnfi
  | .bdrFace => f.bfnfi.map Prod.fst
  | _ => []

theorem samplesAt_eq (f : Eqp.Form P R) (ty : IntegType) (k : Nat) :
    samplesAt f ty k = ((entriesAt f ty)[k]?.bind Eqp.Entry.samples).map (·.map plain) := by
  cases ty <;> simp [samplesAt, entriesAt, Option.bind_map, Function.comp_def]

theorem slotOps_mem {c : Nat} {ty : IntegType} {es : List (Eqp.Entry P R)} {l : List (EqpComp.Op R)}
    (h : slotOps c ty es = .ok l) : (∀ e ∈ es, e.samples.isSome) ∧
    ∀ op, op ∈ l ↔ ∃ (k : Nat) (e : Eqp.Entry P R) (v : List (Eqp.Sample P R)), es[k]? = some e ∧
      e.samples = some v ∧ op = .train c ty k (v.map plain) := by
  unfold slotOps at h
  have := loop_inv (n := es.length) (fun j l => (∀ (k : Nat) e, k < j → es[k]? = some e → e.samples.isSome) ∧
    ∀ op, op ∈ l ↔ ∃ (k : Nat) (e : Eqp.Entry P R) (v : List (Eqp.Sample P R)), k < j ∧ es[k]? = some e ∧
      e.samples = some v ∧ op = .train c ty k (v.map plain)) (by simp) ?_ h
  · obtain ⟨h1, h2⟩ := this
    refine ⟨fun e he => ?_, fun op => (h2 op).trans ?_⟩
    · obtain ⟨k, hk⟩ := List.mem_iff_getElem?.1 he
      exact h1 k e (List.getElem?_eq_some_iff.1 hk).1 hk
    · constructor
      · rintro ⟨k, e, v, -, r⟩; exact ⟨k, e, v, r⟩
      · rintro ⟨k, e, v, hk, r⟩; exact ⟨k, e, v, (List.getElem?_eq_some_iff.1 hk).1, hk, r⟩
  · rintro j l l' hj ⟨h1, h2⟩ hb
    rw [rd_of_lt hj, ok_bind] at hb
    obtain ⟨v, hv, hb⟩ := bind_eq_ok.1 hb
    have hs : es[j].samples = some v := by
      revert hv
      cases es[j].samples with
      | none => intro hv; cases hv
      | some w => intro hv; cases hv; rfl
    obtain rfl : l ++ [EqpComp.Op.train c ty j (v.map plain)] = l' := Except.ok.inj hb
    refine ⟨fun k e hk he => ?_, fun op => ?_⟩
    · rcases Nat.lt_succ_iff_lt_or_eq.1 hk with hk | rfl
      · exact h1 k e hk he
      · rw [List.getElem?_eq_getElem hj] at he
        cases he
        rw [hs]; rfl
    · rw [List.mem_append, h2, List.mem_singleton]
      constructor
      · rintro (⟨k, e, v, hk, r⟩ | rfl)
        · exact ⟨k, e, v, by omega, r⟩
        · exact ⟨j, _, v, by omega, List.getElem?_eq_getElem hj, hs, rfl⟩
      · rintro ⟨k, e, v', hk, he, hv', rfl⟩
        rcases Nat.lt_succ_iff_lt_or_eq.1 hk with hk | rfl
        · exact Or.inl ⟨k, e, v', hk, he, hv', rfl⟩
        · rw [List.getElem?_eq_getElem hj] at he
          cases he
          rw [hs] at hv'
          cases hv'
          exact Or.inr rfl

theorem formOps_mem {c : Nat} {f : Eqp.Form P R} {l : List (EqpComp.Op R)} (h : formOps c f = .ok l) :
    (∀ ty, ∀ e ∈ entriesAt f ty, e.samples.isSome) ∧
    ∀ op, op ∈ l ↔ ∃ (ty : IntegType) (k : Nat) (v : Samples R), samplesAt f ty k = some v ∧
      op = .train c ty k v := by
  unfold formOps at h
  obtain ⟨d, hd, h⟩ := bind_eq_ok.1 h
  obtain ⟨i, hi, h⟩ := bind_eq_ok.1 h
  obtain ⟨b, hb, h⟩ := bind_eq_ok.1 h
  obtain rfl := Except.ok.inj h
  obtain ⟨d1, d2⟩ := slotOps_mem hd
  obtain ⟨i1, i2⟩ := slotOps_mem hi
  obtain ⟨b1, b2⟩ := slotOps_mem hb
  refine ⟨fun ty e he => ?_, fun op => ?_⟩
  · cases ty
    all_goals first
      | exact d1 e he
      | exact i1 e he
      | exact b1 e he
      | (cases he)
  · rw [List.mem_append, List.mem_append, d2, i2, b2]
    have key : ∀ ty k v, samplesAt f ty k = some v ↔ ∃ e w, (entriesAt f ty)[k]? = some e ∧
        e.samples = some w ∧ v = w.map plain := by
      intro ty k v
      rw [samplesAt_eq, Option.map_eq_some_iff]
      constructor
      · rintro ⟨w, hw, rfl⟩
        obtain ⟨e, h1, h2⟩ := Option.bind_eq_some_iff.1 hw
        exact ⟨e, w, h1, h2, rfl⟩
      · rintro ⟨e, w, h1, h2, rfl⟩
        exact ⟨w, Option.bind_eq_some_iff.2 ⟨e, h1, h2⟩, rfl⟩
    constructor
    · rintro ((⟨k, e, v, h1, h2, rfl⟩ | ⟨k, e, v, h1, h2, rfl⟩) | ⟨k, e, v, h1, h2, rfl⟩)
      · exact ⟨.domain, k, _, (key _ _ _).2 ⟨e, v, h1, h2, rfl⟩, rfl⟩
      · exact ⟨.interiorFace, k, _, (key _ _ _).2 ⟨e, v, h1, h2, rfl⟩, rfl⟩
      · exact ⟨.bdrFace, k, _, (key _ _ _).2 ⟨e, v, h1, h2, rfl⟩, rfl⟩
    · rintro ⟨ty, k, v, hv, rfl⟩
      obtain ⟨e, w, h1, h2, rfl⟩ := (key _ _ _).1 hv
      cases ty with
      | domain => exact Or.inl (Or.inl ⟨k, e, w, h1, h2, rfl⟩)
      | interiorFace => exact Or.inl (Or.inr ⟨k, e, w, h1, h2, rfl⟩)
      | bdrFace => exact Or.inr ⟨k, e, w, h1, h2, rfl⟩
      | interface => simp [entriesAt] at h1
      | numIntegType => simp [entriesAt] at h1

/-- The latest samples after a history of training calls that agree. -/
theorem latest_of_calls {S : Setup} {c : Nat} {ty : IntegType} {k : Nat} {v : Option (Samples R)} :
    ∀ {ops : List (EqpComp.Op R)}, (∀ op ∈ ops, ∃ c ty k w, op = .train c ty k w) →
      (∀ w, EqpComp.Op.train c ty k w ∈ ops → v = some w) →
      (∀ w, v = some w → EqpComp.Op.train c ty k w ∈ ops) →
      EqpComp.Spec.latest S ops c ty k = v
  | [], _, _, h3 => by
    cases v with
    | none => rfl
    | some w => simpa using h3 w rfl
  | op :: ops, h1, h2, h3 => by
    obtain ⟨c', ty', k', w, rfl⟩ := h1 op (by simp)
    rw [EqpComp.Spec.latest]
    by_cases hex : ∃ w, EqpComp.Op.train c ty k w ∈ ops
    · obtain ⟨w', hw'⟩ := hex
      have hv := h2 w' (by simp [hw'])
      rw [latest_of_calls (v := v) (fun op ho => h1 op (by simp [ho])) (fun w hw => h2 w (by simp [hw]))
        (fun w hw => by rw [hv] at hw; cases hw; exact hw'), hv]
    · have hn : EqpComp.Spec.latest S ops c ty k = none :=
        latest_of_calls (fun op ho => h1 op (by simp [ho])) (fun w hw => absurd ⟨w, hw⟩ hex) (by simp)
      rw [hn]
      show EqpComp.Spec.assigned S (EqpComp.Op.train c' ty' k' w) c ty k = v
      unfold EqpComp.Spec.assigned
      dsimp only
      by_cases he : c' = c ∧ ty' = ty ∧ k' = k
      · rw [if_pos he]
        obtain ⟨rfl, rfl, rfl⟩ := he
        exact (h2 w (by simp)).symm
      · rw [if_neg he]
        cases v with
        | none => rfl
        | some w' =>
          rcases List.mem_cons.1 (h3 w' rfl) with hm | hm
          · cases hm
            exact absurd ⟨rfl, rfl, rfl⟩ he
          · exact absurd ⟨_, hm⟩ hex

theorem portOps_latest {t : Topo} {f : RefForm Q R δ} {l : List (EqpStore.Op R)} (h : portOps f = .ok l) :
    EqpStore.Spec.numInteg l = 1 ∧ (∀ r < f.ports.length, (samplesOn f r).isSome) ∧
    ∀ r, EqpStore.Spec.latest t l 0 r = if r < f.ports.length then samplesOn f r else none := by
  unfold portOps at h
  have happ : ∀ (a b : List (EqpStore.Op R)) k r, EqpStore.Spec.latest t (a ++ b) k r =
      match EqpStore.Spec.latest t b k r with
      | some v => some v
      | none => EqpStore.Spec.latest t a k r := by
    intro a b k r
    induction a with
    | nil => simp only [List.nil_append]; cases EqpStore.Spec.latest t b k r <;> rfl
    | cons op a ih =>
      rw [List.cons_append, EqpStore.Spec.latest, ih, EqpStore.Spec.latest]
      cases EqpStore.Spec.latest t b k r <;> rfl
  have hnum : ∀ (a b : List (EqpStore.Op R)), EqpStore.Spec.numInteg (a ++ b) =
      EqpStore.Spec.numInteg a + EqpStore.Spec.numInteg b := by
    intro a b
    induction a with
    | nil => simp [EqpStore.Spec.numInteg]
    | cons op a ih =>
      cases op <;> simp only [List.cons_append, EqpStore.Spec.numInteg, ih]
      omega
  refine loop_inv (n := f.ports.length) (fun j l => EqpStore.Spec.numInteg l = 1 ∧ (∀ r < j, (samplesOn f r).isSome) ∧
    ∀ r, EqpStore.Spec.latest t l 0 r = if r < j then samplesOn f r else none)
    ⟨rfl, by simp, fun r => by simp [EqpStore.Spec.latest, EqpStore.Spec.assigned]⟩ ?_ h
  rintro j l l' hj ⟨h1, h3, h2⟩ hb
  obtain ⟨v, hv, hb⟩ := bind_eq_ok.1 hb
  obtain ⟨w, hw, hb⟩ := bind_eq_ok.1 hb
  have hvw : v = some w := by
    cases v with
    | none => cases hw
    | some u => cases hw; rfl
  subst hvw
  obtain rfl := Except.ok.inj hb
  have hr := rd_eq_ok.1 hv
  refine ⟨by rw [hnum, h1]; rfl, fun r hr' => ?_, fun r => ?_⟩
  · rcases Nat.lt_succ_iff_lt_or_eq.1 hr' with hr' | rfl
    · exact h3 r hr'
    · unfold samplesOn
      rw [hr]; rfl
  rw [happ, h2]
  simp only [EqpStore.Spec.latest, EqpStore.Spec.assigned, Nat.cast_zero, true_and, Nat.cast_inj]
  by_cases hjr : j = r
  · subst hjr
    simp only [if_true, Nat.lt_succ_self]
    unfold samplesOn
    rw [hr]; rfl
  · rw [if_neg hjr]
    by_cases hlt : r < j
    · rw [if_pos hlt, if_pos (by omega)]
    · rw [if_neg hlt, if_neg (by omega)]

section
variable [Field R] [LinearOrder R]

theorem compOps_mem {T : Trainer P Q R δ} {tol : R} {st : Store (List R)} {l : List (EqpComp.Op R)}
    (h : compOps T tol st = .ok l) :
    (∀ c < T.comps.length, ∃ f, trainComp T tol st c = .ok f ∧ ∀ ty, ∀ e ∈ entriesAt f ty, e.samples.isSome) ∧
    ∀ op, op ∈ l ↔ ∃ (c : Nat) (f : Eqp.Form P R) (ty : IntegType) (k : Nat) (v : Samples R),
      c < T.comps.length ∧ trainComp T tol st c = .ok f ∧ samplesAt f ty k = some v ∧ op = .train c ty k v := by
  unfold compOps at h
  refine loop_inv (n := T.comps.length) (fun j l =>
    (∀ c < j, ∃ f, trainComp T tol st c = .ok f ∧ ∀ ty, ∀ e ∈ entriesAt f ty, e.samples.isSome) ∧
    ∀ op, op ∈ l ↔ ∃ (c : Nat) (f : Eqp.Form P R) (ty : IntegType) (k : Nat) (v : Samples R),
      c < j ∧ trainComp T tol st c = .ok f ∧ samplesAt f ty k = some v ∧ op = .train c ty k v)
    (by simp) ?_ h
  rintro j l l' hj ⟨h1, h2⟩ hb
  obtain ⟨f, hf, hb⟩ := bind_eq_ok.1 hb
  obtain ⟨o, ho, hb⟩ := bind_eq_ok.1 hb
  obtain rfl := Except.ok.inj hb
  obtain ⟨o1, o2⟩ := formOps_mem ho
  refine ⟨fun c hc => ?_, fun op => ?_⟩
  · rcases Nat.lt_succ_iff_lt_or_eq.1 hc with hc | rfl
    · exact h1 c hc
    · exact ⟨f, hf, o1⟩
  · rw [List.mem_append, h2, o2]
    constructor
    · rintro (⟨c, f, ty, k, v, hc, r⟩ | ⟨ty, k, v, hv, rfl⟩)
      · exact ⟨c, f, ty, k, v, by omega, r⟩
      · exact ⟨j, f, ty, k, v, by omega, hf, hv, rfl⟩
    · rintro ⟨c, f', ty, k, v, hc, h3, h4, rfl⟩
      rcases Nat.lt_succ_iff_lt_or_eq.1 hc with hc | rfl
      · exact Or.inl ⟨c, f', ty, k, v, hc, h3, h4, rfl⟩
      · rw [hf] at h3
        cases h3
        exact Or.inr ⟨ty, k, v, h4, rfl⟩

theorem compOps_latest {T : Trainer P Q R δ} {tol : R} {st : Store (List R)} {l : List (EqpComp.Op R)}
    (h : compOps T tol st = .ok l) {c : Nat} {f : Eqp.Form P R} (hc : c < T.comps.length)
    (hf : trainComp T tol st c = .ok f) (S : Setup) (ty : IntegType) (k : Nat) :
    EqpComp.Spec.latest S l c ty k = samplesAt f ty k := by
  obtain ⟨-, h2⟩ := compOps_mem h
  refine latest_of_calls (fun op ho => ?_) (fun w hw => ?_) fun w hw => ?_
  · obtain ⟨c, f, ty, k, v, -, -, -, rfl⟩ := (h2 op).1 ho
    exact ⟨_, _, _, _, rfl⟩
  · obtain ⟨c', f', ty', k', v, -, h3, h4, h5⟩ := (h2 _).1 hw
    injection h5 with a1 a2 a3 a4
    subst a1 a2 a4
    rw [hf] at h3
    cases h3
    rw [show k = k' by exact_mod_cast a3]
    exact h4
  · exact (h2 _).2 ⟨c, f, ty, k, w, hc, hf, hw, rfl⟩

/-! ## The number of integrators -/

theorem bdrEntries_length {T : Trainer P Q R δ} {attrs : List Int}
    {l : List (Eqp.Entry P R × Option (List Int))} (h : bdrEntries T attrs = .ok l) :
    l.length = 2 * attrs.length := by
  unfold bdrEntries at h
  refine loop_inv (n := attrs.length) (fun j (l : List (Eqp.Entry P R × Option (List Int))) => l.length = 2 * j)
    rfl ?_ h
  intro j l l' hj hl hb
  obtain ⟨a, -, hb⟩ := bind_eq_ok.1 hb
  obtain ⟨m, -, hb⟩ := bind_eq_ok.1 hb
  obtain rfl := Except.ok.inj hb
  simp [hl]; omega

theorem push_length {α β : Type} {l : List α} {g : α → Outcome β} {out : List β}
    (h : loop l.length (fun k out => do
      let e ← rd l k
      let e ← g e
      return out ++ [e]) [] = .ok out) : out.length = l.length := by
  refine loop_inv (n := l.length) (fun j (l : List β) => l.length = j) rfl ?_ h
  intro j l l' hj hl hb
  obtain ⟨a, -, hb⟩ := bind_eq_ok.1 hb
  obtain ⟨m, -, hb⟩ := bind_eq_ok.1 hb
  obtain rfl := Except.ok.inj hb
  simp [hl]

theorem trainForm_length {t : Training.Setting R} {w : Eqp.Integ P R → List R} {snaps : CMat R}
    {f f' : Eqp.Form P R} (h : Training.trainForm t w snaps f = .ok f') (ty : IntegType) :
    (entriesAt f' ty).length = (entriesAt f ty).length := by
  unfold Training.trainForm at h
  obtain ⟨b, -, h⟩ := bind_eq_ok.1 h
  obtain ⟨-, -, h⟩ := bind_eq_ok.1 h
  obtain ⟨d, hd, h⟩ := bind_eq_ok.1 h
  obtain ⟨i, hi, h⟩ := bind_eq_ok.1 h
  obtain ⟨bd, hbd, h⟩ := bind_eq_ok.1 h
  obtain rfl := Except.ok.inj h
  cases ty with
  | domain => exact push_length hd
  | interiorFace => exact push_length hi
  | bdrFace =>
    show (bd.map Prod.fst).length = (f.bfnfi.map Prod.fst).length
    rw [List.length_map, List.length_map]
    refine push_length (l := f.bfnfi) (g := fun e => (do
      let e' ← Training.trainEntry t f.space b snaps (w e.1.integ) (.boundary e.2) e.1
      return (e', e.2) : Outcome (Eqp.Entry P R × Option (List Int)))) ?_
    simp only [bind_assoc, pure_bind]
    exact hbd
  | interface => rfl
  | numIntegType => rfl

theorem trainComp_length {T : Trainer P Q R δ} {tol : R} {st : Store (List R)} {c : Nat} {f : Eqp.Form P R}
    (hf : trainComp T tol st c = .ok f) {k : Comp} (hk : T.comps[c]? = some k) (ty : IntegType) :
    (entriesAt f ty).length = count T.setup k.attrs.length ty := by
  unfold trainComp at hf
  obtain ⟨f0, h0, hf⟩ := bind_eq_ok.1 hf
  obtain ⟨k', -, hf⟩ := bind_eq_ok.1 hf
  obtain ⟨tag, -, hf⟩ := bind_eq_ok.1 hf
  obtain ⟨snaps, -, hf⟩ := bind_eq_ok.1 hf
  rw [trainForm_length hf]
  unfold allocForm at h0
  obtain ⟨b, -, h0⟩ := bind_eq_ok.1 h0
  obtain ⟨k', hk', h0⟩ := bind_eq_ok.1 h0
  rw [rd_eq_ok, hk] at hk'
  cases hk'
  cases ho : T.oper with
  | base =>
    rw [ho] at h0
    obtain rfl := Except.ok.inj h0
    cases ty <;> simp [entriesAt, count, Trainer.setup, ho]
  | lf =>
    rw [ho] at h0
    obtain ⟨bd, hbd, h0⟩ := bind_eq_ok.1 h0
    obtain rfl := Except.ok.inj h0
    have := bdrEntries_length hbd
    cases ty with
    | domain => simp [entriesAt, count]
    | interiorFace => cases hg : T.fullDg <;> simp [entriesAt, count, Trainer.setup, ho, hg]
    | bdrFace => simp [entriesAt, count, Trainer.setup, ho, this]
    | interface => simp [entriesAt, count]
    | numIntegType => simp [entriesAt, count]

/-- Training leaves the reference ports of the interface form as they are. -/
theorem trainPorts_ports {t : TrainItf.Setting R} {w : EqpItf.Integ Q R δ → List R} {n : Names}
    {st : Store (List R)} {f f' : RefForm Q R δ} (h : TrainItf.trainPorts t w n st f = .ok f') :
    f'.ports = f.ports := by
  unfold TrainItf.trainPorts at h
  refine loop_inv (n := f.ports.length) (fun _ (g : RefForm Q R δ) => g.ports = f.ports) rfl ?_ h
  intro j g g' hj hg hb
  obtain ⟨rp, -, hb⟩ := bind_eq_ok.1 hb
  obtain ⟨n1, -, hb⟩ := bind_eq_ok.1 hb
  obtain ⟨n2, -, hb⟩ := bind_eq_ok.1 hb
  obtain ⟨t1, -, hb⟩ := bind_eq_ok.1 hb
  obtain ⟨t2, -, hb⟩ := bind_eq_ok.1 hb
  obtain ⟨s1, -, hb⟩ := bind_eq_ok.1 hb
  obtain ⟨s2, -, hb⟩ := bind_eq_ok.1 hb
  obtain ⟨ps, -, hb⟩ := bind_eq_ok.1 hb
  unfold TrainItf.trainRefPort at hb
  obtain ⟨rp, -, hb⟩ := bind_eq_ok.1 hb
  obtain ⟨a1, -, hb⟩ := bind_eq_ok.1 hb
  obtain ⟨a2, -, hb⟩ := bind_eq_ok.1 hb
  obtain ⟨-, -, hb⟩ := bind_eq_ok.1 hb
  obtain ⟨-, -, hb⟩ := bind_eq_ok.1 hb
  obtain ⟨-, -, hb⟩ := bind_eq_ok.1 hb
  refine loop_inv (n := g.fnfi.length) (fun _ (g : RefForm Q R δ) => g.ports = f.ports) hg ?_ hb
  intro j g g' hj hg hb
  obtain ⟨i, -, hb⟩ := bind_eq_ok.1 hb
  obtain ⟨i, -, hb⟩ := bind_eq_ok.1 hb
  obtain ⟨nq, -, hb⟩ := bind_eq_ok.1 hb
  obtain ⟨sys, -, hb⟩ := bind_eq_ok.1 hb
  obtain ⟨sm, -, hb⟩ := bind_eq_ok.1 hb
  unfold TrainItf.RefForm.update at hb
  obtain ⟨-, -, hb⟩ := bind_eq_ok.1 hb
  obtain ⟨-, -, hb⟩ := bind_eq_ok.1 hb
  obtain ⟨-, -, hb⟩ := bind_eq_ok.1 hb
  obtain ⟨refs, -, hb⟩ := bind_eq_ok.1 hb
  obtain ⟨views, -, hb⟩ := bind_eq_ok.1 hb
  obtain rfl := Except.ok.inj hb
  exact hg

theorem trainedItf_ports {T : Trainer P Q R δ} {tol : R} {st : Store (List R)} {f : RefForm Q R δ}
    (h : trainedItf T tol st = .ok f) : f.ports = T.ports := by
  unfold trainedItf at h
  obtain ⟨f0, h0, h⟩ := bind_eq_ok.1 h
  rw [trainPorts_ports h]
  unfold allocItf at h0
  obtain ⟨bs, -, h0⟩ := bind_eq_ok.1 h0
  obtain rfl := Except.ok.inj h0
  rfl


/-! ## What training does -/

/-- What a training run that ends normally has done: with handling `eqp`, either the solver is linear and
nothing is written, or everything was trained at component level and one file written. -/
theorem train_cases {c : Conv} {num : Node → Outcome R} {cfg : Node} {T : Trainer P Q R δ}
    {st : Store (List R)} {d d' : Disk R} (h : trainEQP c num cfg T st d = .ok d') :
    option c.str (key "model_reduction/nonlinear_handling") "none" cfg = .ok "eqp" ∧
    ((T.nonlinear = false ∧ d' = d) ∨
      (T.nonlinear = true ∧ T.useRom = true ∧ T.submesh = false ∧ ∃ pre f,
        readLevel c cfg = .ok (.component, pre) ∧ trainElems num cfg T st = .ok f ∧
        d' (pre ++ ".eqp.h5") = some f ∧ ∀ name, name ≠ pre ++ ".eqp.h5" → d' name = d name)) := by
  unfold trainEQP at h
  obtain ⟨s, hs, h⟩ := bind_eq_ok.1 h
  obtain ⟨⟨⟩, hr, h⟩ := bind_eq_ok.1 h
  obtain ⟨⟨lv, pre⟩, hl, h⟩ := bind_eq_ok.1 h
  have hse : s = "eqp" := by
    by_contra hc
    rw [show (s == "eqp") = false by simpa using hc] at hr
    cases hr
  refine ⟨hse ▸ hs, ?_⟩
  cases hn : T.nonlinear with
  | false =>
    simp only [hn, if_true] at h
    exact Or.inl ⟨rfl, (Except.ok.inj h).symm⟩
  | true =>
    simp only [hn, Bool.true_eq_false, if_false] at h
    obtain ⟨⟨⟩, hu, h⟩ := bind_eq_ok.1 h
    have hu : T.useRom = true := by
      cases hc : T.useRom with
      | false => rw [hc] at hu; cases hu
      | true => rfl
    cases lv with
    | none => cases h
    | global => cases h
    | component =>
      obtain ⟨⟨⟩, hm, h⟩ := bind_eq_ok.1 h
      have hm : T.submesh = false := by
        cases hc : T.submesh with
        | true => rw [hc] at hm; cases hm
        | false => rfl
      obtain ⟨f, hf, h⟩ := bind_eq_ok.1 h
      obtain rfl := Except.ok.inj h
      refine Or.inr ⟨rfl, hu, hm, pre, f, hl, hf, ?_, fun name hne => ?_⟩
      · show (if _ then _ else _) = _
        rw [if_pos rfl]
      · show (if _ then _ else _) = _
        rw [if_neg hne]

/-- The tolerances: that of the components is the option or one per cent, that of the interfaces is its
option or the tolerance of the components. -/
theorem tolerances_eq {num : Node → Outcome R} {cfg : Node} {a b : R}
    (h : tolerances num cfg = .ok (a, b)) :
    option num (key "model_reduction/eqp/relative_tolerance") (1 / 100) cfg = .ok a ∧
    option num (key "model_reduction/eqp/interface/relative_tolerance") a cfg = .ok b := by
  unfold tolerances at h
  obtain ⟨t, ht, h⟩ := bind_eq_ok.1 h
  obtain ⟨ti, hti, h⟩ := bind_eq_ok.1 h
  cases Except.ok.inj h
  exact ⟨ht, hti⟩

theorem exists_setup {T : Trainer P Q R δ} {c : Nat} {ty : IntegType} {k : Nat} :
    EqpComp.Spec.Exists T.setup c ty k ↔ ∃ x, T.comps[c]? = some x ∧ k < count T.setup x.attrs.length ty := by
  unfold EqpComp.Spec.Exists Trainer.setup
  dsimp only
  constructor
  · rintro ⟨nb, h1, h2, h3⟩
    rw [List.getElem?_map] at h2
    obtain ⟨x, hx, rfl⟩ := Option.map_eq_some_iff.1 h2
    exact ⟨x, hx, h3⟩
  · rintro ⟨x, hx, h⟩
    refine ⟨x.attrs.length, ?_, by rw [List.getElem?_map, hx]; rfl, h⟩
    rw [List.length_map]
    exact (List.getElem?_eq_some_iff.1 hx).1

/-- After training every integrator has samples. -/
theorem compOps_set {T : Trainer P Q R δ} {tol : R} {st : Store (List R)} {l : List (EqpComp.Op R)}
    (h : compOps T tol st = .ok l) {c : Nat} {ty : IntegType} {k : Nat} (hex : EqpComp.Spec.Exists T.setup c ty k) :
    (EqpComp.Spec.latest T.setup l c ty k).isSome := by
  obtain ⟨x, hx, hk⟩ := exists_setup.1 hex
  have hc := (List.getElem?_eq_some_iff.1 hx).1
  obtain ⟨f, hf, hs⟩ := (compOps_mem h).1 c hc
  rw [compOps_latest h hc hf, samplesAt_eq]
  have hlt : k < (entriesAt f ty).length := by rw [trainComp_length hf hx]; exact hk
  rw [List.getElem?_eq_getElem hlt, Option.bind_some, Option.isSome_map]
  exact hs ty _ (List.getElem_mem hlt)

/-- What the file written by training holds. -/
structure Holds (T : Trainer P Q R δ) (tols : R × R) (st : Store (List R)) (f : File R) : Prop where
  comps : ∃ ops s f1, compOps T tols.1 st = .ok ops ∧ EqpComp.run T.setup ops = .ok s ∧
    saveComps T.setup s [] = .ok f1 ∧ Later f1 f
  itf : T.oper = .lf → ∃ fi ops i f1, trainedItf T tols.2 st = .ok fi ∧ portOps fi = .ok ops ∧
    EqpStore.run T.topo ops = .ok i ∧ CanWrite f1 [] "interface_integ0" ∧
    EqpStore.save T.topo i 0 f1 [] "interface_integ0" = .ok f

theorem emptyCanWrite (n : String) : CanWrite ([] : File R) [] n := ⟨fun k h => absurd rfl h, rfl, rfl⟩

theorem trainElems_holds {num : Node → Outcome R} {cfg : Node} {T : Trainer P Q R δ} (hT : TrainerOk T)
    {st : Store (List R)} {f : File R} (h : trainElems num cfg T st = .ok f) :
    ∃ tols, tolerances num cfg = .ok tols ∧ Holds T tols st f := by
  unfold trainElems at h
  obtain ⟨tols, htol, h⟩ := bind_eq_ok.1 h
  obtain ⟨ops, hops, h⟩ := bind_eq_ok.1 h
  obtain ⟨s, hs, h⟩ := bind_eq_ok.1 h
  refine ⟨tols, htol, ?_⟩
  have hS : T.setup.nbdr.length = T.setup.names.length := by simp [Trainer.setup]
  obtain ⟨f1, e1, v1, -, o1, -⟩ := EqpComp.save_stores hS hT.names hs
    (fun c ty k hex => compOps_set hops hex) (emptyCanWrite "components")
  cases ho : T.oper with
  | base =>
    rw [ho] at h
    unfold saveEqp at h
    rw [e1, ok_bind, show T.setup.oper = .base from ho] at h
    obtain rfl := Except.ok.inj h
    exact ⟨⟨ops, s, f1, hops, hs, e1, fun _ _ h => h⟩, fun hc => by rw [ho] at hc; cases hc⟩
  | lf =>
    rw [ho] at h
    obtain ⟨fi, hfi, h⟩ := bind_eq_ok.1 h
    obtain ⟨iops, hio, h⟩ := bind_eq_ok.1 h
    obtain ⟨i, hi, h⟩ := bind_eq_ok.1 h
    unfold saveEqp at h
    rw [e1, ok_bind, show T.setup.oper = .lf from ho] at h
    dsimp only at h
    have hcw : CanWrite f1 [] "interface_integ0" := by
      refine ⟨v1, rfl, ?_⟩
      rw [o1 ⟨[], "interface_integ0", false⟩ (by simp) (by simp)]
      rfl
    obtain ⟨t1, t2⟩ := hT.topo ho
    obtain ⟨n1, n3, n2⟩ := portOps_latest (t := T.topo) hio
    have hset : ∀ r, r < T.topo.refPorts.length → (EqpStore.Spec.latest T.topo iops 0 r).isSome := by
      intro r hr
      have hr : r < fi.ports.length := by rw [trainedItf_ports hfi]; simpa [Trainer.topo] using hr
      rw [n2, if_pos hr]
      exact n3 r hr
    obtain ⟨f', e', -, l', -⟩ := EqpStore.save_stores t1 t2 hi (k := 0) (by omega) hset hcw
    rw [show ((0 : Nat) : Int) = 0 from rfl, h] at e'
    cases e'
    exact ⟨⟨ops, s, f1, hops, hs, e1, l'⟩, fun _ => ⟨fi, iops, i, f1, hfi, hio, hi, hcw, h⟩⟩

/-- **C107.** The samples a training run writes are the ones a later run uses: with the same operator and the
same prefix, any layout and order of components and ports, every subdomain has, for each of its integrators,
the samples trained for the component of its name (on a boundary those of the attribute it comes from, and of
the homogeneous kind exactly there), and every port those trained for the reference port of the same
components and attributes. -/
theorem trained_samples_used {c : Conv} {num : Node → Outcome R} {cfg : Node} {T : Trainer P Q R δ}
    (hT : TrainerOk T) {st : Store (List R)} {d d' : Disk R} (htr : trainEQP c num cfg T st d = .ok d')
    (hnl : T.nonlinear = true) {cfg2 : Node} {L : Runner} (hL : Suits T L) {d2 : Disk R}
    (hpre : readLevel c cfg2 = readLevel c cfg)
    (hfile : ∀ pre, readLevel c cfg = .ok (.component, pre) → d2 (pre ++ ".eqp.h5") = d' (pre ++ ".eqp.h5")) :
    ∃ tol tolI r, option num (key "model_reduction/eqp/relative_tolerance") (1 / 100) cfg = .ok tol ∧
      option num (key "model_reduction/eqp/interface/relative_tolerance") tol cfg = .ok tolI ∧
      runEQP c cfg2 L d2 = .ok r ∧ r.subs.length = L.bdr.meshType.length ∧
      (∀ (m : Nat) (x : Sub) (c2 c1 : Nat) (k : Comp), r.subs[m]? = some x → L.bdr.meshType[m]? = some c2 →
        L.setup.names[c2]? = some k.name → T.comps[c1]? = some k →
        ∃ f, trainComp T tol st c1 = .ok f ∧
          x.dom.map (view r.comps.heap) = [.ok (samplesAt f .domain 0)] ∧
          x.face.map (view r.comps.heap) =
            (if T.oper = .lf ∧ T.fullDg = true then [.ok (samplesAt f .interiorFace 0)] else []) ∧
          (T.oper = .base → x.bdr = []) ∧
          (T.oper = .lf → ∃ row, L.bdr.c2g[m]? = some row ∧
            x.bdr.map (fun i => (i.marker, i.coeff, view r.comps.heap i.sample)) =
              (expected L.bdr row).map (fun i => (i.1, i.2.1, .ok (samplesAt f .bdrFace i.2.2))))) ∧
      (T.oper = .lf → ∃ fi, trainedItf T tolI st = .ok fi ∧
        ∀ (p ty2 q : Nat), L.topo.types[p]? = some (ty2 : Int) → q < T.ports.length →
          SamePort T.topo L.topo q ty2 →
          EqpStore.seen L.topo r.itf 0 p = .ok (samplesOn fi q)) := by
  obtain ⟨-, ⟨hc, -⟩ | ⟨-, -, -, pre, f, hlev, hf, hd, -⟩⟩ := train_cases htr
  · rw [hnl] at hc; cases hc
  obtain ⟨⟨tol, tolI⟩, htol, hold⟩ := trainElems_holds hT hf
  obtain ⟨ht1, ht2⟩ := tolerances_eq htol
  obtain ⟨ops, s, f1, hops, hs, hsave, hlater⟩ := hold.comps
  have hS : T.setup.nbdr.length = T.setup.names.length := by simp [Trainer.setup]
  have hset : ∀ c ty k, EqpComp.Spec.Exists T.setup c ty k → (EqpComp.Spec.latest T.setup ops c ty k).isSome :=
    fun c ty k hex => compOps_set hops hex
  have hlen : L.setup.names.length ≤ T.setup.names.length := by
    simpa [Trainer.setup] using hL.fewer
  -- the components of the later run
  obtain ⟨s2, hrun, -⟩ := EqpComp.save_load hS hT.names hs hset (emptyCanWrite "components") hsave hlater
    hL.nbdr (hL.oper.trans rfl) (hL.fullDg.trans rfl) hlen (fun c2 hc2 => by
      obtain ⟨c1, k, h1, h2, h3⟩ := hL.comps c2 hc2
      refine ⟨c1, ?_, ?_, ?_⟩
      · simpa [Trainer.setup] using (List.getElem?_eq_some_iff.1 h1).1
      · rw [h2]; simp [Trainer.setup, h1]
      · rw [h3]; simp [Trainer.setup, h1]) (ops2 := []) (by simp)
  rw [List.nil_append] at hrun
  obtain ⟨f1', e1, -, -, -, hst⟩ := EqpComp.save_stores hS hT.names hs hset (emptyCanWrite "components")
  rw [hsave] at e1
  cases e1
  obtain ⟨-, -, hst⟩ := hst f hlater
  obtain ⟨subs, hsubs⟩ := EqpComp.assemble_total hL.nbdr hrun hL.bdr
  obtain ⟨hsl, hsub⟩ := EqpComp.assemble_spec hL.nbdr hrun hsubs
  -- what the later run reads for an integrator
  have hlat : ∀ (c2 c1 : Nat) (k : Comp) (g : Eqp.Form P R), L.setup.names[c2]? = some k.name →
      T.comps[c1]? = some k → trainComp T tol st c1 = .ok g → ∀ ty i,
      EqpComp.Spec.latest L.setup [.load f] c2 ty i = samplesAt g ty i := by
    intro c2 c1 k g hn hk hg ty i
    obtain ⟨c1', k', hk', hn', hb⟩ := hL.comps c2 (List.getElem?_eq_some_iff.1 hn).1
    have hnn : k.name = k'.name := by rw [hn] at hn'; exact Option.some.inj hn'
    have hcc : c1 = c1' := by
      have hlt := (List.getElem?_eq_some_iff.1 hk).1
      refine (List.getElem?_inj (by simpa using hlt) hT.names).1 ?_
      rw [List.getElem?_map, List.getElem?_map, hk, hk', Option.map_some, Option.map_some, hnn]
    subst hcc
    rw [hk] at hk'
    cases hk'
    have hlt := (List.getElem?_eq_some_iff.1 hk).1
    show (match EqpComp.Spec.latest L.setup [] c2 ty i with
      | some v => some v
      | none => EqpComp.Spec.stored L.setup f c2 ty i) = _
    show EqpComp.Spec.stored L.setup f c2 ty i = _
    have hcount : count L.setup k.attrs.length ty = count T.setup k.attrs.length ty := by
      have e1 : L.setup.oper = T.setup.oper := hL.oper
      have e2 : L.setup.fullDg = T.setup.fullDg := hL.fullDg
      cases ty <;> simp only [count, e1, e2]
    unfold EqpComp.Spec.stored
    rw [hn, hb]
    dsimp only
    rw [hcount]
    by_cases hi : i < count T.setup k.attrs.length ty
    · rw [if_pos hi]
      have hex : EqpComp.Spec.Exists T.setup c1 ty i := exists_setup.2 ⟨k, hk, hi⟩
      have := hst c1 ty i hex
      rw [compOps_latest hops hlt hg] at this
      rw [← this]
      unfold EqpComp.Spec.stored
      rw [show T.setup.names[c1]? = some k.name by simp [Trainer.setup, hk],
        show T.setup.nbdr[c1]? = some k.attrs.length by simp [Trainer.setup, hk]]
      dsimp only
      rw [if_pos hi]
    · rw [if_neg hi, samplesAt_eq, List.getElem?_eq_none (by rw [trainComp_length hg hk]; omega)]
      rfl
  have hsubst : ∀ (m : Nat) (x : Sub) (c2 c1 : Nat) (k : Comp), subs[m]? = some x →
      L.bdr.meshType[m]? = some c2 → L.setup.names[c2]? = some k.name → T.comps[c1]? = some k →
      ∃ f, trainComp T tol st c1 = .ok f ∧ x.dom.map (view s2.heap) = [.ok (samplesAt f .domain 0)] ∧
        x.face.map (view s2.heap) =
          (if T.oper = .lf ∧ T.fullDg = true then [.ok (samplesAt f .interiorFace 0)] else []) ∧
        (T.oper = .base → x.bdr = []) ∧
        (T.oper = .lf → ∃ row, L.bdr.c2g[m]? = some row ∧
          x.bdr.map (fun i => (i.marker, i.coeff, view s2.heap i.sample)) =
            (expected L.bdr row).map (fun i => (i.1, i.2.1, .ok (samplesAt f .bdrFace i.2.2)))) := by
    intro m x c2 c1 k hx hm hn hk
    obtain ⟨g, hg, -⟩ := (compOps_mem hops).1 c1 (List.getElem?_eq_some_iff.1 hk).1
    obtain ⟨q1, q2, q3, q4⟩ := hsub m x c2 hx hm
    have hl := hlat c2 c1 k g hn hk hg
    simp only [hl, hL.oper, hL.fullDg] at q1 q2 q3 q4
    exact ⟨g, hg, q1, q2, q3, q4⟩
  have hget : d2.get (pre ++ ".eqp.h5") = .ok f := by
    unfold Pipeline.Disk.get
    rw [hfile pre hlev, hd]
  have hload : EqpComp.run L.setup [.load f] = (do
      let s ← allocate L.setup
      loadComps L.setup s f) := by
    unfold EqpComp.run
    simp [List.foldlM_cons, EqpComp.step]
  rw [hload] at hrun
  obtain ⟨s0, ha, hrun'⟩ := bind_eq_ok.1 hrun
  have hrunEq : ∀ i : Itf R, loadEqp L.setup L.topo f = .ok (s2, i) →
      runEQP c cfg2 L d2 = .ok ⟨s2, subs, i⟩ := by
    intro i hi
    unfold runEQP
    rw [hpre, hlev, ok_bind]
    dsimp only
    rw [hL.submesh, show (!false) = true from rfl, require_true, ok_bind, hget, ok_bind, hi, ok_bind, hsubs]
    rfl
  cases ho : T.oper with
  | base =>
    refine ⟨tol, tolI, ⟨s2, subs, {}⟩, ht1, ht2, hrunEq _ ?_, hsl, ?_, fun hc => by cases hc⟩
    · unfold loadEqp
      rw [ha, ok_bind, hrun', ok_bind, hL.oper, ho]
      rfl
    · rw [ho] at hsubst
      exact hsubst
  | lf =>
    obtain ⟨fi, iops, i, f0, hfi, hio, hi, hcw, hsv⟩ := hold.itf ho
    obtain ⟨t1, t2⟩ := hT.topo ho
    obtain ⟨n1, n3, n2⟩ := portOps_latest (t := T.topo) hio
    have hports : T.topo.refPorts.length = fi.ports.length := by
      rw [trainedItf_ports hfi]; simp [Trainer.topo]
    obtain ⟨l1, l2, l3, l4⟩ := hL.ports ho
    obtain ⟨i2, hi2, hseen⟩ := EqpStore.save_load t1 l1 t2 hi (k := 0) (by omega) (fun r hr => by
        rw [n2, if_pos (by omega)]; exact n3 r (by omega)) hcw hsv (fun _ _ h => h) l2 l3
      (fun r2 hr2 => by
        obtain ⟨r, hr, hsame⟩ := l4 r2 hr2
        exact ⟨r, by simpa [Trainer.topo] using hr, hsame⟩)
      (ops2 := [.add]) ⟨trivial, trivial⟩ (k2 := 0) Nat.one_pos
    have hload2 : EqpStore.load L.topo (EqpStore.addInteg L.topo {}) 0 f [] "interface_integ0" = .ok i2 := by
      rw [← hi2]
      unfold EqpStore.run
      simp [List.foldlM_cons, EqpStore.step]
    refine ⟨tol, tolI, ⟨s2, subs, i2⟩, ht1, ht2, hrunEq _ ?_, hsl, ?_, fun _ => ⟨fi, hfi, fun p ty2 q hp hq hsame => ?_⟩⟩
    · unfold loadEqp
      rw [ha, ok_bind, hrun', ok_bind, hL.oper, ho]
      dsimp only
      rw [hload2]
      rfl
    · rw [ho] at hsubst
      exact hsubst
    · rw [hseen p ty2 q hp (by simpa [Trainer.topo] using hq) hsame, n2, if_pos (by
        rw [trainedItf_ports hfi]; exact hq)]

/-- A run with hyper-reduction samples that ends normally was at component level with the file present. -/
theorem run_cases {c : Conv} {cfg : Node} {L : Runner} {d : Disk R} {r : Loaded R}
    (h : runEQP c cfg L d = .ok r) :
    L.submesh = false ∧ ∃ pre f, readLevel c cfg = .ok (.component, pre) ∧ d (pre ++ ".eqp.h5") = some f ∧
      loadEqp L.setup L.topo f = .ok (r.comps, r.itf) ∧ assemble L.setup L.bdr r.comps = .ok r.subs := by
  unfold runEQP at h
  obtain ⟨⟨lv, pre⟩, hl, h⟩ := bind_eq_ok.1 h
  cases lv with
  | none => cases h
  | global => cases h
  | component =>
    obtain ⟨⟨⟩, hm, h⟩ := bind_eq_ok.1 h
    have hm : L.submesh = false := by
      cases hc : L.submesh with
      | true => rw [hc] at hm; cases hm
      | false => rfl
    obtain ⟨f, hf, h⟩ := bind_eq_ok.1 h
    obtain ⟨⟨s, i⟩, hsi, h⟩ := bind_eq_ok.1 h
    obtain ⟨subs, hsub, h⟩ := bind_eq_ok.1 h
    obtain rfl := Except.ok.inj h
    refine ⟨hm, pre, f, hl, ?_, hsi, hsub⟩
    unfold Pipeline.Disk.get at hf
    cases hd : d (pre ++ ".eqp.h5") with
    | none => rw [hd] at hf; cases hf
    | some g => rw [hd] at hf; obtain rfl := Except.ok.inj hf; rfl

/-- Without the file the run stops. -/
theorem run_without_file {c : Conv} {cfg : Node} {L : Runner} {d : Disk R} {pre : String}
    (hl : readLevel c cfg = .ok (.component, pre)) (hd : d (pre ++ ".eqp.h5") = none) :
    runEQP c cfg L d = .error .abort := by
  unfold runEQP
  rw [hl, ok_bind]
  dsimp only
  cases L.submesh with
  | true => rfl
  | false =>
    rw [show (!false) = true from rfl, require_true, ok_bind]
    unfold Pipeline.Disk.get
    rw [hd]
    rfl

open Verif.LinAlg.Spec in
/-- Training a component with the configured tolerance succeeds and keeps the residual at every snapshot in
the span of the basis within what that tolerance allows. -/
theorem trained_within_tolerance [IsStrictOrderedRing R] {T : Trainer P Q R δ} {tol : R}
    {st : Store (List R)} {c : Nat} {f : Eqp.Form P R} {k : Comp} {b : Mat R} {tag : Snapshots.BasisTag}
    {cols : List (List R)} {snaps : CMat R} (hf : allocForm T c = .ok f) (hk : T.comps[c]? = some k)
    (hb : T.basis c = .ok b) (htag : T.names.tagOf c = .ok tag) (hst : lookUpSnapshot st tag = .ok cols)
    (hsn : snaps = snapshotMatrix (T.names.dim tag) cols) (hpre : T.precompute = false) (hpos : 0 < b.w)
    (ht : 0 ≤ tol) (hsol : Training.Spec.Solves T.solve) (hrow : k.vsize ≤ snaps.rows) (hmat : MatOk b)
    (h : ∀ e ∈ Eqp.Spec.entries f, ∃ nq,
      Training.Spec.Trainable ⟨k.vsize, T.split, tol, T.solve, T.junk⟩ f.space b snaps (T.w e.2.integ) e.1 e.2 nq ∧
      (∀ q < nq, 0 ≤ ve (T.w e.2.integ) q) ∧ Training.Spec.WeightLinear f.space e.1 e.2.integ ∧
      Training.Spec.GradOk f.space e.1 e.2.integ) :
    ∃ f', trainComp T tol st c = .ok f' ∧
      ∀ i < snaps.cols, ∀ x, x.length = b.w → (∀ r < k.vsize, cent snaps r i = Eqp.Spec.liftAll b x r) →
        ∀ y junk, y.length = b.w → ∃ y', f'.mult x y junk = .ok y' ∧ y'.length = b.w ∧
          ∀ j < b.w,
            |ve y' j - ((Eqp.Spec.entries f).map fun e => ∑ r ∈ Finset.range b.h, ent b r j *
              Eqp.Spec.fullVec f.space e.1 e.2.integ (ve (T.w e.2.integ)) (e.2.integ.rule.getD 0)
                (Eqp.Spec.liftAll b x) r).sum| ≤
            ((Eqp.Spec.entries f).map fun e => Training.Spec.allowed f.space e.1 e.2.integ b
              (e.2.integ.rule.getD 0) (Eqp.Spec.liftAll b x) tol (∑ r ∈ Finset.range b.h, ent b r j *
                Eqp.Spec.fullVec f.space e.1 e.2.integ (ve (T.w e.2.integ)) (e.2.integ.rule.getD 0)
                  (Eqp.Spec.liftAll b x) r) j).sum := by
  have hform : f.basis = some b ∧ b.w = f.height ∧ b.w = f.width ∧ f.precompute = false := by
    have hf' := hf
    unfold allocForm at hf'
    rw [hb, ok_bind, rd_eq_ok.2 hk, ok_bind] at hf'
    cases ho : T.oper with
    | base =>
      simp only [ho] at hf'
      obtain rfl := Except.ok.inj hf'
      exact ⟨rfl, rfl, rfl, hpre⟩
    | lf =>
      simp only [ho] at hf'
      obtain ⟨bd, -, hf'⟩ := bind_eq_ok.1 hf'
      obtain rfl := Except.ok.inj hf'
      exact ⟨rfl, rfl, rfl, hpre⟩
  obtain ⟨h1, h2, h3, h4⟩ := hform
  obtain ⟨f', e1, -, e2⟩ := Training.train_form_error (t := ⟨k.vsize, T.split, tol, T.solve, T.junk⟩) (w := T.w)
    h1 hpos h2 h3 h4 ht hsol hrow hmat h
  refine ⟨f', ?_, ?_⟩
  · unfold trainComp
    rw [hf, ok_bind, rd_eq_ok.2 hk, ok_bind, htag, ok_bind, hst, ok_bind, ← hsn]
    exact e1
  · rw [← h3, ← h2] at e2
    exact e2

end

/-! ## Concrete cases and unchecked corners -/

/-- Two elements joined by a face, with a boundary element each. -/
def exSpace : Eqp.Space := { elems := [[0, 1], [2, 3]], faces := [some (0, 1)], bdrs := [(1, some 0), (2, some 1)] }

/-- Components A and B, the port from boundary 1 of A to boundary 2 of B; the solver keeps every other point. -/
def exT (o : OperType) : Trainer Unit Unit ℚ Unit where
  oper := o
  fullDg := true
  submesh := false
  nonlinear := true
  useRom := true
  precompute := false
  comps := [⟨"A", exSpace, 4, [1, 2]⟩, ⟨"B", exSpace, 4, [1, 2]⟩]
  bases := [⟨4, 2, [1, 2, 3, 4, 0, 1, 0, 1]⟩, ⟨1, 1, [1]⟩, ⟨4, 2, [1, 0, 2, 0, 0, 5, 0, 7]⟩, ⟨1, 1, [1]⟩]
  dom := Training.exInteg 2 2
  face := Training.exInteg 4 2
  bdr := Training.exInteg 2 2
  zero := Training.exInteg 2 4
  itf := TrainItf.exInteg
  meshes := [EqpItf.exMesh, EqpItf.exMesh]
  fes := [⟨4, [[0, 1], [2, 3]]⟩, ⟨4, [[0, 1], [2, 3]]⟩]
  ports := [⟨0, 1, 1, 2, [⟨0, 1, 0, 0⟩, ⟨1, 0, 0, 0⟩]⟩]
  types := [0, 0]
  names := TrainItf.exNames
  w _ := [1, 2, 1, 2]
  wItf _ := [1, 1 / 2]
  split n := [n / 2, n - n / 2]
  solve gts _ _ := gts.map fun g => (List.range g.rows).map fun r => if r % 2 = 0 then (10 * g.cols + g.rows : ℕ) else 0
  junk := 77

/-- The snapshots of two samples. -/
def exStore : Store (List ℚ) :=
  match Snapshots.Spec.runSamples ⟨10, fun _ => true⟩ (Store.empty (List ℚ)) TrainItf.exHist with
  | .ok st => st
  | .error _ => Store.empty (List ℚ)

/-- A configuration that trains at component level with the default tolerances. -/
def exCfg (handling lvl : String) : Node :=
  .map [(key "model_reduction", .map [(key "nonlinear_handling", .scalar handling.toList),
    (key "save_operator", .map [(key "level", .scalar lvl.toList), (key "prefix", .scalar (key "rom"))])])]

def exNum : Node → Outcome ℚ := fun _ => .error .abort

def exTrain (o : OperType) (cfg : Node) : Outcome (Disk ℚ) :=
  trainEQP Options.exConv exNum cfg (exT o) exStore (fun _ => none)

/-- A run on B - A - B that lists B first; the port type is the only one. -/
def exL (o : OperType) : Runner where
  setup := ⟨["B", "A"], [2, 2], o, true⟩
  topo := ⟨["B", "A"], [⟨1, 0, 1, 2⟩], [0, 0]⟩
  submesh := false
  bdr := ⟨[0, 1, 0], [[5, -1], [-1, -1], [6, 7]], [5, 6, 7], [.zero, .dirichlet, .neumann], [true, true, false]⟩

theorem exT_ok (o : OperType) : TrainerOk (exT o) where
  names := by cases o <;> decide
  topo _ := ⟨⟨by cases o <;> decide, by cases o <;> decide⟩, ⟨by cases o <;> decide, by cases o <;> decide, by cases o <;> decide, by cases o <;> decide⟩⟩

theorem exL_suits (o : OperType) : Suits (exT o) (exL o) where
  oper := rfl
  fullDg := rfl
  submesh := rfl
  nbdr := rfl
  fewer := by cases o <;> decide
  comps c2 h := by
    have h : c2 < 2 := h
    match c2, h with
    | 0, _ => exact ⟨1, _, rfl, rfl, rfl⟩
    | 1, _ => exact ⟨0, _, rfl, rfl, rfl⟩
  bdr := {
    mesh := by cases o <;> decide
    rows := rfl
    row := by
      intro m c row nb h1 h2 h3
      match m with
      | 0 => cases h1; cases h2; cases h3; rfl
      | 1 => cases h1; cases h2; cases h3; rfl
      | 2 => cases h1; cases h2; cases h3; rfl
      | m + 3 => simp [exL] at h1
    types := rfl
    bc := by
      intro m row a g h1 h2 h3 h4
      have hg : g < 3 := (List.findIdx?_eq_some_iff_getElem.1 h3).1
      match g with
      | 0 => rfl
      | 1 => rfl
      | 2 => exact absurd rfl h4 }
  ports _ := ⟨⟨by cases o <;> decide, by cases o <;> decide⟩, by cases o <;> decide, by cases o <;> decide, fun r2 h => by
    have h : r2 < 1 := h
    obtain rfl : r2 = 0 := by omega
    exact ⟨0, by cases o <;> decide, ⟨0, 1, 1, 2⟩, ⟨1, 0, 1, 2⟩, "A", "B", rfl, rfl, rfl, rfl, rfl, rfl, rfl, rfl⟩⟩

theorem exSpace_ok : Training.Spec.SpaceOk exSpace 4 := by
  refine ⟨?_, ?_, ?_⟩
  · intro rows h
    simp only [exSpace, List.mem_cons, List.not_mem_nil, or_false] at h
    rcases h with rfl | rfl <;> exact ⟨by decide, by decide⟩
  · intro a c h
    simp only [exSpace, List.mem_cons, List.not_mem_nil, or_false, Option.some.injEq, Prod.mk.injEq] at h
    obtain ⟨rfl, rfl⟩ := h
    decide
  · intro a c h
    simp only [exSpace, List.mem_cons, List.not_mem_nil, or_false, Option.some.injEq, Prod.mk.injEq] at h
    rcases h with ⟨_, rfl⟩ | ⟨_, rfl⟩ <;> decide

/-- The snapshots of component A. -/
def exCols : List (List ℚ) := [[1, 2, 3, 4], [2, 4, 6, 8], [0, 2, 3, 4], [2, 4, 6, 0]]

/-- The hypotheses of `trained_within_tolerance` are met by component A, and its first snapshot is in the span
of the basis. -/
example : ∃ solve f', trainComp { exT .base with solve := solve } (1 / 100) exStore 0 = .ok f' ∧
    ∃ y', f'.mult [1, 0] [0, 0] (fun _ => 7) = .ok y' ∧ y'.length = 2 := by
  obtain ⟨solve, h1, -⟩ := Training.exists_solver (R := ℚ)
  have hrows : ∀ {el : Nat} {rows : List Int}, Eqp.Spec.rowsOf exSpace .domain el = some rows →
      rows.length = 2 := by
    intro el rows h
    match el, h with
    | 0, h => cases h; rfl
    | 1, h => cases h; rfl
    | _ + 2, h => cases h
  have hlin : Training.Spec.WeightLinear exSpace .domain (Training.exInteg 2 2) := by
    intro el rows h q w u k hk'
    rw [hrows h] at hk'
    have : ∀ n, k < n → LinAlg.Spec.ve ((Training.exInteg n 2).vec el el q w u) k =
        w * LinAlg.Spec.ve ((Training.exInteg n 2).vec el el q 1 u) k := by
      intro n hn
      show LinAlg.Spec.ve (tab n _) k = w * LinAlg.Spec.ve (tab n _) k
      rw [LinAlg.ve_tab hn, LinAlg.ve_tab hn]
      ring
    exact this 2 hk'
  obtain ⟨f', e1, e2⟩ := trained_within_tolerance (T := { exT .base with solve := solve }) (tol := 1 / 100)
    (st := exStore) (c := 0) (k := ⟨"A", exSpace, 4, [1, 2]⟩) (b := ⟨4, 2, [1, 2, 3, 4, 0, 1, 0, 1]⟩)
    (tag := ⟨"A", "vel"⟩) (cols := exCols) (snaps := snapshotMatrix 4 exCols) rfl rfl rfl rfl
    (by decide +kernel) rfl rfl (by decide) (by norm_num) h1 (by decide)
    (by unfold LinAlg.Spec.MatOk; decide) (by
      intro e he
      obtain rfl := List.mem_singleton.1 he
      refine ⟨2, ⟨exSpace_ok, trivial, by unfold LinAlg.Spec.MatOk; decide, Nat.le_refl 4,
        by unfold LinAlg.Spec.CMatOk; decide, Nat.le_refl 4, rfl, show 2 ≤ 4 by decide, ?_, ?_⟩, ?_, ?_, ?_⟩
      · intro el rows h q w u
        rw [hrows h]
        simp [exT, Training.exInteg]
      · intro m
        show m / 2 + (m - m / 2 + 0) = m
        omega
      · intro q hq
        show 0 ≤ LinAlg.Spec.ve [1, 2, 1, 2] q
        match q, hq with
        | 0, _ => decide +kernel
        | 1, _ => decide +kernel
      · exact hlin
      · intro el rows h q w u
        rw [hrows h]
        exact ⟨rfl, rfl, LinAlg.of_ok _ _ _⟩)
  obtain ⟨y', e3, e4, -⟩ := e2 0 (by decide) [1, 0] rfl (fun r hr => by
    have hr : r < 4 := hr
    match r, hr with
    | 0, _ => decide +kernel
    | 1, _ => decide +kernel
    | 2, _ => decide +kernel
    | 3, _ => decide +kernel) [0, 0] (fun _ => 7) rfl
  exact ⟨solve, f', e1, y', e3, e4⟩

/-- What a run has behind its pointers: the samples of each subdomain, and those of the ports. -/
def exSeen (L : Runner) (r : Loaded ℚ) : Outcome (List (List (Option (Samples ℚ)))) := do
  let s ← r.subs.mapM fun x => (x.dom ++ x.face ++ x.bdr.map BdrInteg.sample).mapM (view r.comps.heap)
  let p ← (List.range r.itf.views.length).mapM fun _ => EqpStore.seen L.topo r.itf 0 0
  return s ++ [p]

/-- The hypotheses are met, and the later run has the samples of B, A and B: those of the homogeneous
boundary 5, none for the boundaries of A, which are joined, those of boundaries 6 and 7, and the same samples
for both ports. -/
example : (do
    let d ← exTrain .lf (exCfg "eqp" "component")
    let r ← runEQP Options.exConv (exCfg "eqp" "component") (exL .lf) d
    exSeen (exL .lf) r) = .ok
      [[some [⟨0, 0, 42⟩, ⟨1, 0, 42⟩], some [⟨0, 0, 42⟩], some [⟨0, 0, 44⟩, ⟨0, 2, 44⟩]],
       [some [⟨0, 0, 82⟩, ⟨1, 0, 82⟩], some [⟨0, 0, 82⟩]],
       [some [⟨0, 0, 42⟩, ⟨1, 0, 42⟩], some [⟨0, 0, 42⟩], some [⟨0, 0, 42⟩], some [⟨1, 0, 42⟩]],
       [some [⟨0, 0, 162⟩, ⟨1, 0, 162⟩], some [⟨0, 0, 162⟩, ⟨1, 0, 162⟩]]] := by decide +kernel

example (d' : Disk ℚ) (h : exTrain .lf (exCfg "eqp" "component") = .ok d') :=
  trained_samples_used (exT_ok .lf) h rfl (exL_suits .lf) (d2 := d') rfl (fun _ _ => rfl)

/-- With another handling, or another level, training stops. -/
example : ((exTrain .lf (exCfg "tensor" "component")).map fun _ => ()) = .error .abort ∧
    ((exTrain .lf (exCfg "eqp" "global")).map fun _ => ()) = .error .abort ∧
    ((exTrain .lf (exCfg "eqp" "none")).map fun _ => ()) = .error .abort := by decide +kernel

/-- Nothing in the file says for which operator it was trained: a run with the operator without face terms
takes the samples trained for the other one, and has no samples on faces and boundaries. -/
theorem other_operator_accepted : (do
    let d ← exTrain .lf (exCfg "eqp" "component")
    let r ← runEQP Options.exConv (exCfg "eqp" "component") (exL .base) d
    exSeen (exL .base) r) = .ok
      [[some [⟨0, 0, 42⟩, ⟨1, 0, 42⟩]], [some [⟨0, 0, 82⟩, ⟨1, 0, 82⟩]],
       [some [⟨0, 0, 42⟩, ⟨1, 0, 42⟩]], []] := by decide +kernel

/-- The other way round the run stops, since the file lacks data sets. -/
example : ((do
    let d ← exTrain .base (exCfg "eqp" "component")
    let r ← runEQP Options.exConv (exCfg "eqp" "component") (exL .lf) d
    exSeen (exL .base) r) : Outcome _) = .error .abort := by decide +kernel

/-- A later run with more components than were trained stops, though it need not (the number is checked). -/
example : ((do
    let d ← exTrain .base (exCfg "eqp" "component")
    let r ← runEQP Options.exConv (exCfg "eqp" "component")
      { exL .base with setup := ⟨["B", "A", "C"], [2, 2, 2], .base, true⟩ } d
    exSeen (exL .base) r) : Outcome _) = .error .abort := by decide +kernel

end Verif.EqpPipeline
