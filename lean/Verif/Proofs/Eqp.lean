import Verif.Spec.Eqp
import Verif.Props.Convection
import Verif.Proofs.InterfaceForm

/-! # Lemmas on hyper-reduced forms -/

namespace Verif.Eqp

open Verif Verif.LinAlg Verif.LinAlg.Spec Verif.Convection Verif.Convection.Spec Verif.Eqp.Spec Finset

variable {P R σ : Type} [CommRing R]

theorem rdI_get {α : Type} {l : List α} {i : Int} {v : α} (h : 0 ≤ i) (hv : l[i.toNat]? = some v) :
    rdI l i = .ok v := by
  unfold rdI; rw [if_pos h, rd_eq_ok]; exact hv

/-- The transformation of a sampled entity. -/
theorem at_eq {sp : Space} {kind : Kind} {el : Int} {rows : List Int} (h0 : 0 ≤ el)
    (ha : Acts sp kind el.toNat) (hr : rowsOf sp kind el.toNat = some rows) :
    sp.at_ kind el = .ok (some rows) := by
  cases kind with
  | domain =>
    dsimp only [rowsOf] at hr
    dsimp only [Space.at_]
    rw [rdI_get h0 hr]; rfl
  | interior =>
    dsimp only [rowsOf] at hr
    dsimp only [Space.at_]
    split at hr
    · rename_i e1 e2 hf
      rw [rdI_get h0 hf]
      simp only [ok_bind]
      split at hr
      · rename_i r1 r2 h1 h2
        cases hr
        rw [rd_eq_ok.2 h1, rd_eq_ok.2 h2]; rfl
      · cases hr
    · cases hr
  | boundary m =>
    dsimp only [rowsOf] at hr
    dsimp only [Space.at_]
    split at hr
    · rename_i attr e hb
      rw [rdI_get h0 hb]
      simp only [ok_bind]
      have hm : markerOk m attr = .ok () := by
        cases m with
        | none => rfl
        | some m =>
          obtain ⟨a', e', v, g1, g2, g3, g4⟩ := ha
          rw [hb] at g1
          cases g1
          unfold markerOk
          dsimp only
          rw [rdI_get (by omega) g3, ok_bind]
          simp [require, g4]
      rw [hm, ok_bind, rd_eq_ok.2 hr]; rfl
    · cases hr

theorem intPoint_eq {nq : Nat} {qp : Int} (h0 : 0 ≤ qp) (h1 : qp < nq) :
    intPoint nq qp = .ok qp.toNat := if_pos ⟨h0, h1⟩

theorem multSub_lift {b : Mat R} (hb : MatOk b) (hw : 0 < b.w) {rows : List Int}
    (hr : RowsOk rows b.h) {x y : List R} (hx : x.length = b.w) (junk : Nat → R) :
    multSubMatrix b rows x y junk = .ok (lift b rows x) :=
  multSubMatrix_spec b rows x y junk hb hr hx hw

/-- The cached data are those of the entity `prev`. -/
def CacheOk (sp : Space) (kind : Kind) (b : Mat R) (x : List R) (c : Cache R) : Prop :=
  0 ≤ c.prev → rowsOf sp kind c.prev.toNat = some c.rows ∧ c.elx = lift b c.rows x

/-- A slow step is given the data of its own entity. -/
theorem sampleLoop_slow {V : Type} [AddCommMonoid V] {sp : Space} {kind : Kind} {b : Mat R}
    (hb : MatOk b) (hw : 0 < b.w) {x : List R} (hx : x.length = b.w) (junk : Nat → R) {nq : Nat}
    {g : Integ P R} {samples : List (Sample P R)}
    (hs : ∀ s ∈ samples, SampleOk sp kind nq b.h g s)
    {fast : Sample P R → Nat → Nat → σ → Outcome σ}
    {slow : Sample P R → Cache R → Nat → σ → Outcome σ}
    (Inv : σ → Prop) (val : σ → V) (term : Sample P R → V) {s : σ} (h0 : Inv s)
    (hstep : ∀ sm ∈ samples, ∀ rows, rowsOf sp kind sm.el.toNat = some rows → ∀ s, Inv s →
      ∃ s', slow sm ⟨sm.el, rows, lift b rows x⟩ sm.qp.toNat s = .ok s' ∧ Inv s' ∧
        val s' = val s + term sm) :
    ∃ s', sampleLoop false sp kind (some b) x junk nq samples fast slow s = .ok s' ∧ Inv s' ∧
      val s' = val s + (samples.map term).sum := by
  unfold sampleLoop
  obtain ⟨⟨c, s'⟩, e, ⟨_, h1⟩, h2⟩ := loop_list_acc (l := samples) (body := fun i (st : Cache R × σ) => (do
      let sm ← rd samples i
      let tr ← sp.at_ kind sm.el
      if false then do
        let _ ← deref tr
        let qp ← intPoint nq sm.qp
        let s ← fast sm sm.el.toNat qp st.2
        return (st.1, s)
      else do
        let qp ← intPoint nq sm.qp
        let c ← refresh (some b) x junk sm.el tr st.1
        let s ← slow sm c qp st.2
        return (c, s) : Outcome (Cache R × σ)))
    (fun st => CacheOk sp kind b x st.1 ∧ Inv st.2) (fun st => val st.2) term (s := (Cache.init, s))
    ⟨fun h => absurd (show (0 : Int) ≤ -1 from h) (by decide), h0⟩ (by
      rintro k sm ⟨c, s⟩ hm hk ⟨hc, hi⟩
      obtain ⟨q1, q2, q3, q4, rows, q5, q6, _⟩ := hs sm hm
      obtain ⟨s', e1, e2, e3⟩ := hstep sm hm rows q5 s hi
      refine ⟨(⟨sm.el, rows, lift b rows x⟩, s'), ?_, ⟨fun _ => ⟨q5, rfl⟩, e2⟩, e3⟩
      rw [hk, ok_bind, at_eq q1 q4 q5, ok_bind]
      simp only [Bool.false_eq_true, if_false]
      rw [intPoint_eq q2 q3, ok_bind]
      have hr : refresh (some b) x junk sm.el (some rows) c =
          .ok ⟨sm.el, rows, lift b rows x⟩ := by
        unfold refresh
        split
        · show (do
            let elx ← multSubMatrix b rows x c.elx junk
            return (⟨sm.el, rows, elx⟩ : Cache R)) = _
          rw [multSub_lift hb hw q6 hx]; rfl
        · rename_i hp
          have hq : sm.el = c.prev := by simpa using hp
          obtain ⟨r1, r2⟩ := hc (hq ▸ q1)
          rw [← hq, q5] at r1
          obtain ⟨a1, a2, a3⟩ := c
          dsimp only at hq r1 r2
          cases r1
          rw [hq, r2]
      rw [hr, ok_bind, e1]; rfl)
  refine ⟨s', ?_, h1, h2⟩
  rw [e]; rfl

/-- A fast step is called at the sampled point of the sampled entity. -/
theorem sampleLoop_fast {V : Type} [AddCommMonoid V] {sp : Space} {kind : Kind} {b : Option (Mat R)}
    {x : List R} (junk : Nat → R) {nq h : Nat} {g : Integ P R} {samples : List (Sample P R)}
    (hs : ∀ s ∈ samples, SampleOk sp kind nq h g s)
    {fast : Sample P R → Nat → Nat → σ → Outcome σ}
    {slow : Sample P R → Cache R → Nat → σ → Outcome σ}
    (Inv : σ → Prop) (val : σ → V) (term : Sample P R → V) {s : σ} (h0 : Inv s)
    (hstep : ∀ sm ∈ samples, ∀ rows, rowsOf sp kind sm.el.toNat = some rows → ∀ s, Inv s →
      ∃ s', fast sm sm.el.toNat sm.qp.toNat s = .ok s' ∧ Inv s' ∧ val s' = val s + term sm) :
    ∃ s', sampleLoop true sp kind b x junk nq samples fast slow s = .ok s' ∧ Inv s' ∧
      val s' = val s + (samples.map term).sum := by
  unfold sampleLoop
  obtain ⟨⟨c, s'⟩, e, h1, h2⟩ := loop_list_acc (l := samples) (body := fun i (st : Cache R × σ) => (do
      let sm ← rd samples i
      let tr ← sp.at_ kind sm.el
      if true then do
        let _ ← deref tr
        let qp ← intPoint nq sm.qp
        let s ← fast sm sm.el.toNat qp st.2
        return (st.1, s)
      else do
        let qp ← intPoint nq sm.qp
        let c ← refresh b x junk sm.el tr st.1
        let s ← slow sm c qp st.2
        return (c, s) : Outcome (Cache R × σ)))
    (fun st => Inv st.2) (fun st => val st.2) term (s := (Cache.init, s)) h0 (by
      rintro k sm ⟨c, s⟩ hm hk hi
      obtain ⟨q1, q2, q3, q4, rows, q5, q6, _⟩ := hs sm hm
      obtain ⟨s', e1, e2, e3⟩ := hstep sm hm rows q5 s hi
      refine ⟨(c, s'), ?_, e2, e3⟩
      rw [hk, ok_bind, at_eq q1 q4 q5, ok_bind]
      simp only [if_true]
      rw [intPoint_eq q2 q3, ok_bind]
      show (do
        let s ← fast sm sm.el.toNat sm.qp.toNat s
        return (c, s)) = _
      rw [e1]; rfl)
  refine ⟨s', ?_, h1, h2⟩
  rw [e]; rfl

/-! ## One integrator -/

theorem vecTerm_eq {sp : Space} {kind : Kind} {g : Integ P R} {b : Mat R} {x : List R}
    {s : Sample P R} {rows : List Int} (h : rowsOf sp kind s.el.toNat = some rows) (c : Nat) :
    vecTerm sp kind g b x s c =
      project b rows (g.vec s.el.toNat s.el.toNat s.qp.toNat s.qw (lift b rows x)) c := by
  unfold vecTerm; rw [h]

theorem gradTerm_eq {sp : Space} {kind : Kind} {g : Integ P R} {b : Mat R} {x : List R}
    {s : Sample P R} {rows : List Int} (h : rowsOf sp kind s.el.toNat = some rows) (i j : Nat) :
    gradTerm sp kind g b x s i j =
      project2 b rows (g.grad s.el.toNat s.el.toNat s.qp.toNat s.qw (lift b rows x)) i j := by
  unfold gradTerm; rw [h]

theorem multEntry_spec {f : Form P R} {b : Mat R} (hf : FormOk f b) {kind : Kind} {e : Entry P R}
    (he : EntryOk f.space b.h kind e)
    (hp : f.precompute = true → ∀ s ∈ e.samples.getD [], Ready f.space kind b e.integ s)
    {x : List R} (hx : x.length = b.w) (junk : Nat → R) {y : List R} (hy : y.length = b.w) :
    ∃ y', multEntry f x junk kind e y = .ok y' ∧ y'.length = b.w ∧
      (fun c : Fin b.w => ve y' c) = (fun c : Fin b.w => ve y c) +
        ((e.samples.getD []).map fun s => fun c : Fin b.w =>
          vecTerm f.space kind e.integ b x s c).sum := by
  obtain ⟨nq, l, h1, h2, h3⟩ := he
  unfold multEntry
  rw [h1, h2]
  simp only [nonNull, ok_bind, Option.getD_some]
  rw [hf.basis]
  cases hpre : f.precompute with
  | false =>
    refine sampleLoop_slow hf.ok hf.pos hx junk h3 (fun y : List R => y.length = b.w)
      (fun (y : List R) => fun c : Fin b.w => ve y c) _ hy ?_
    intro sm hm rows hr y hy
    obtain ⟨q1, q2, q3, q4, rows', q5, q6, q7⟩ := h3 sm hm
    rw [hr] at q5
    cases q5
    refine ⟨_, addMultTransposeSubMatrix_spec b rows _ y hf.ok q6 (q7 _ _).1 hy, by simp, ?_⟩
    funext c
    rw [Pi.add_apply, ve_tab c.2, vecTerm_eq hr]; rfl
  | true =>
    refine sampleLoop_fast junk h3 (fun y : List R => y.length = b.w)
      (fun (y : List R) => fun c : Fin b.w => ve y c) _ hy ?_
    intro sm hm rows hr y hy
    obtain ⟨p, e1, e2⟩ := hp hpre sm (by rw [h2]; exact hm) rows hr
    obtain ⟨y', g1, g2, g3⟩ := e2.vec sm.qw x y hx hy
    refine ⟨y', by rw [e1]; exact g1, g2, ?_⟩
    funext c
    rw [Pi.add_apply, g3 c c.2, vecTerm_eq hr]

theorem gradEntry_spec {f : Form P R} {b : Mat R} (hf : FormOk f b) {kind : Kind} {e : Entry P R}
    (he : EntryOk f.space b.h kind e)
    (hp : f.precompute = true → ∀ s ∈ e.samples.getD [], Ready f.space kind b e.integ s)
    {x : List R} (hx : x.length = b.w) (junk : Nat → R) {m : Mat R} (hm1 : m.h = b.w)
    (hm2 : m.w = b.w) (hm3 : MatOk m) (hm4 : f.precompute = true → m.data.length = b.w * b.w) :
    ∃ m', gradEntry f x junk kind e m = .ok m' ∧ (m'.h = b.w ∧ m'.w = b.w ∧ MatOk m' ∧
      (f.precompute = true → m'.data.length = b.w * b.w)) ∧
      (fun p : Fin b.w × Fin b.w => ent m' p.1 p.2) = (fun p : Fin b.w × Fin b.w => ent m p.1 p.2) +
        ((e.samples.getD []).map fun s => fun p : Fin b.w × Fin b.w =>
          gradTerm f.space kind e.integ b x s p.1 p.2).sum := by
  obtain ⟨nq, l, h1, h2, h3⟩ := he
  unfold gradEntry
  rw [h1, h2]
  simp only [nonNull, ok_bind, Option.getD_some]
  rw [hf.basis]
  cases hpre : f.precompute with
  | false =>
    refine sampleLoop_slow hf.ok hf.pos hx junk h3
      (fun m : Mat R => m.h = b.w ∧ m.w = b.w ∧ MatOk m ∧ (false = true → m.data.length = b.w * b.w))
      (fun m => fun p : Fin b.w × Fin b.w => ent m p.1 p.2) _ ⟨hm1, hm2, hm3, by simp⟩ ?_
    rintro sm hm rows hr m ⟨i1, i2, i3, _⟩
    obtain ⟨q1, q2, q3, q4, rows', q5, q6, q7⟩ := h3 sm hm
    rw [hr] at q5
    cases q5
    obtain ⟨_, w2, w3, w4⟩ := q7 sm.qw (lift b rows x)
    obtain ⟨m', e1, e2, e3, e4, e5⟩ := addSubMatrixRtAP_spec b _ b m rows rows junk hf.ok w4 hf.ok i3
      q6 q6 w2 w3
    refine ⟨m', e1, ⟨e2, e3, e4, by simp⟩, ?_⟩
    funext p
    have hs : m.setSize b.w b.w = m := by unfold Mat.setSize; rw [if_pos ⟨i1, i2⟩]
    rw [Pi.add_apply, e5 _ _ p.1.2 p.2.2, hs, gradTerm_eq hr]; rfl
  | true =>
    refine sampleLoop_fast junk h3
      (fun m : Mat R => m.h = b.w ∧ m.w = b.w ∧ MatOk m ∧ (true = true → m.data.length = b.w * b.w))
      (fun m => fun p : Fin b.w × Fin b.w => ent m p.1 p.2) _ ⟨hm1, hm2, hm3, fun _ => hm4 hpre⟩ ?_
    rintro sm hm rows hr m ⟨i1, i2, i3, i4⟩
    obtain ⟨p, e1, e2⟩ := hp hpre sm (by rw [h2]; exact hm) rows hr
    obtain ⟨m', g1, g2, g3, g4, g5⟩ := e2.grad sm.qw x m hx i1 i2 (i4 rfl)
    refine ⟨m', by rw [e1]; exact g1, ⟨g2, g3, ?_, fun _ => g4⟩, ?_⟩
    · unfold MatOk; rw [g2, g3, g4]
    · funext p
      rw [Pi.add_apply, g5 _ _ p.1.2 p.2.2, gradTerm_eq hr]

/-! ## Full quadrature -/

theorem rowAt_lt' {rows : List Int} {h : Nat} (hr : RowsOk rows h) {k : Nat} (hk : k < rows.length) :
    rowAt rows k < h := by
  unfold rowAt
  rw [List.getElem?_eq_getElem hk]
  have := hr.2 _ (List.getElem_mem hk)
  simp only [Option.getD_some]
  omega

/-- Testing an element vector is testing its scattered global vector. -/
theorem project_scatter {b : Mat R} {rows : List Int} (hr : RowsOk rows b.h) (q : Nat → R) (c : Nat) :
    ∑ r ∈ range b.h, ent b r c * (∑ k ∈ range rows.length, if rowAt rows k = r then q k else 0) =
      ∑ k ∈ range rows.length, ent b (rowAt rows k) c * q k := by
  simp only [mul_sum]
  rw [sum_comm]
  refine sum_congr rfl fun k hk => ?_
  rw [sum_eq_single (rowAt rows k)]
  · rw [if_pos rfl]
  · intro r _ hne; rw [if_neg (Ne.symm hne), mul_zero]
  · intro h; exact absurd (mem_range.2 (rowAt_lt' hr (mem_range.1 hk))) h

theorem restrict_lift (b : Mat R) (rows : List Int) (x : List R) :
    restrict (liftAll b x) rows = lift b rows x := rfl

end Verif.Eqp
