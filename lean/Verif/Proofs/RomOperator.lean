import Verif.Spec.RomOperator
import Verif.Proofs.Basic

/-! # Helper lemmas on the ownership of the ROM operator -/

namespace Verif.RomOperator

open Verif Verif.RomOperator.Spec

variable {α : Type}

/-- The pointers of a handler whose operator is `a` are live. -/
structure Good (h : Handler α) (a : α) : Prop where
  romMat : ∃ b, h.romMat = some b ∧ h.heap.obj b = some (.block a)
  mono : ∀ m, h.mono = some m → h.heap.obj m = some (.mono a)
  hypre : ∀ m, h.hypre = some m → ∃ k, h.heap.obj m = some (.hypre k)
  mumps : ∀ m, h.mumps = some m → ∃ o, h.heap.obj m = some (.mumps o)
  sol : ∀ m, h.sol = some m → h.heap.obj m = some .vec
  fresh : ∀ q, h.heap.next ≤ q → h.heap.obj q = none
  loaded : h.loaded = true → ∃ m, h.mono = some m

theorem lt_next {x : Heap α} (hf : ∀ q, x.next ≤ q → x.obj q = none) {q : Nat} {o : Obj α}
    (h : x.obj q = some o) : q < x.next := by
  by_contra hc
  rw [hf q (by omega)] at h
  cases h

/-- The direct solver, if used, holds the operator. -/
def Clean (h : Handler α) (a : α) : Prop :=
  h.direct = true → h.loaded = true → ∃ q, h.mumps = some q ∧ h.heap.obj q = some (.mumps (some a))

/-- Without a direct solver nothing but the operator, its copy and vectors is on the heap. -/
structure Tight (h : Handler α) : Prop where
  hypre : h.hypre = none
  mumps : h.mumps = none
  obj : ∀ q o, h.heap.obj q = some o → o = .vec ∨ h.romMat = some q ∨ h.mono = some q

/-- What `SetRomMat` needs of its state: the new block matrix holds `a`. -/
structure Pre (h : Handler α) (p : Nat) (a : α) : Prop where
  input : h.heap.obj p = some (.block a)
  romMat : ∃ b, h.romMat = some b ∧ ∃ c, h.heap.obj b = some (.block c)
  mono : ∀ m, h.mono = some m → ∃ c, h.heap.obj m = some (.mono c)
  hypre : ∀ m, h.hypre = some m → ∃ k, h.heap.obj m = some (.hypre k)
  mumps : ∀ m, h.mumps = some m → ∃ o, h.heap.obj m = some (.mumps o)
  sol : ∀ m, h.sol = some m → h.heap.obj m = some .vec
  fresh : ∀ q, h.heap.next ≤ q → h.heap.obj q = none

/-- The heap after the optional deletion of a live object. -/
def drop (x : Heap α) : Option Nat → Heap α
  | none => x
  | some p => ⟨fun q => if q = p then none else x.obj q, x.next⟩

theorem free_ok {x : Heap α} {p : Option Nat} (h : ∀ m, p = some m → x.obj m ≠ none) :
    x.free p = .ok (drop x p) := by
  cases p with
  | none => rfl
  | some m =>
    unfold Heap.free drop
    cases hm : x.obj m with
    | none => exact absurd hm (h m rfl)
    | some o => simp [hm]

theorem drop_obj {x : Heap α} {p : Option Nat} {q : Nat} (h : p ≠ some q) :
    (drop x p).obj q = x.obj q := by
  cases p with
  | none => rfl
  | some m =>
    have : q ≠ m := fun hq => h (by rw [hq])
    simp [drop, this]

theorem drop_next {x : Heap α} {p : Option Nat} : (drop x p).next = x.next := by
  cases p <;> rfl

theorem drop_self {x : Heap α} {p q : Nat} (h : p = q) : (drop x (some p)).obj q = none := by
  simp [drop, h]

theorem drop_some {x : Heap α} {p : Option Nat} {q : Nat} {o : Obj α}
    (h : (drop x p).obj q = some o) : x.obj q = some o ∧ p ≠ some q := by
  by_cases hp : p = some q
  · subst hp; rw [drop_self rfl] at h; cases h
  · rw [drop_obj hp] at h; exact ⟨h, hp⟩

theorem alloc_self {x : Heap α} {o : Obj α} : (x.alloc o).obj x.next = some o := by
  simp [Heap.alloc]

theorem alloc_obj {x : Heap α} {o : Obj α} {q : Nat} (h : q ≠ x.next) :
    (x.alloc o).obj q = x.obj q := by simp [Heap.alloc, h]

theorem alloc_next {x : Heap α} {o : Obj α} : (x.alloc o).next = x.next + 1 := rfl

theorem alloc_fresh {x : Heap α} (hf : ∀ q, x.next ≤ q → x.obj q = none) {o : Obj α} :
    ∀ q, (x.alloc o).next ≤ q → (x.alloc o).obj q = none := by
  intro q hq
  rw [alloc_next] at hq
  rw [alloc_obj (by omega)]
  exact hf q (by omega)

theorem alloc_live {x : Heap α} (hf : ∀ q, x.next ≤ q → x.obj q = none) {o o' : Obj α} {q : Nat}
    (h : x.obj q = some o') : (x.alloc o).obj q = some o' := by
  have := lt_next hf h
  rw [alloc_obj (by omega)]; exact h

theorem drop_fresh {x : Heap α} (hf : ∀ q, x.next ≤ q → x.obj q = none) {p : Option Nat} :
    ∀ q, (drop x p).next ≤ q → (drop x p).obj q = none := by
  intro q hq
  rw [drop_next] at hq
  by_cases hp : p = some q
  · rw [hp]; exact drop_self rfl
  · rw [drop_obj hp]; exact hf q hq

/-- A live object of another kind survives a deletion. -/
theorem drop_live {x : Heap α} {p : Option Nat} {q : Nat} {o : Obj α} (h : x.obj q = some o)
    (hp : ∀ m, p = some m → x.obj m ≠ some o) : (drop x p).obj q = some o := by
  rw [drop_obj]; · exact h
  · intro hq; exact hp q hq h

theorem readBlock_ok {x : Heap α} {p : Nat} {a : α} (h : x.obj p = some (.block a)) :
    x.readBlock (some p) = .ok a := by
  unfold Heap.readBlock Heap.read; simp only [h]; rfl

theorem readMono_ok {x : Heap α} {p : Nat} {a : α} (h : x.obj p = some (.mono a)) :
    x.readMono (some p) = .ok a := by
  unfold Heap.readMono Heap.read; simp only [h]; rfl

theorem readHypre_ok {x : Heap α} {p m : Nat} {a : α} (h : x.obj p = some (.hypre m))
    (hm : x.obj m = some (.mono a)) : x.readHypre (some p) = .ok a := by
  unfold Heap.readHypre Heap.read; simp only [h, ok_bind]; exact readMono_ok hm

theorem readMumps_ok {x : Heap α} {p : Nat} {a : Option α} (h : x.obj p = some (.mumps a)) :
    x.readMumps (some p) = .ok a := by
  unfold Heap.readMumps Heap.read; simp only [h]; rfl

theorem setupDirect_ok {h : Handler α} {a : α} (g : Good h a) (hd : h.direct = true)
    (hm : ∃ m, h.mono = some m) : ∃ h', setupDirect h = .ok h' ∧ Good h' a ∧
      (∃ q, h'.mumps = some q ∧ h'.heap.obj q = some (.mumps (some a))) ∧
      h'.direct = h.direct ∧ h'.global = h.global ∧ h'.mono = h.mono := by
  obtain ⟨m, hm⟩ := hm
  have gm := g.mono m hm
  obtain ⟨b, hb, gb⟩ := g.romMat
  have e1 : h.heap.free h.hypre = .ok (drop h.heap h.hypre) := free_ok fun k hk => by
    obtain ⟨_, hk⟩ := g.hypre k hk; rw [hk]; simp
  have f1 := drop_fresh g.fresh (p := h.hypre)
  have m1 : (drop h.heap h.hypre).obj m = some (.mono a) := drop_live gm fun k hk => by
    obtain ⟨_, hk⟩ := g.hypre k hk; rw [hk]; simp
  have b1 : (drop h.heap h.hypre).obj b = some (.block a) := drop_live gb fun k hk => by
    obtain ⟨_, hk⟩ := g.hypre k hk; rw [hk]; simp
  have s1 : ∀ m, h.sol = some m → (drop h.heap h.hypre).obj m = some .vec := fun m hm =>
    drop_live (g.sol m hm) fun k hk => by
      obtain ⟨_, hk⟩ := g.hypre k hk; rw [hk]; simp
  generalize drop h.heap h.hypre = x at *
  have f2 := alloc_fresh f1 (o := .hypre m)
  have m2 := alloc_live f1 (o := .hypre m) m1
  have f3 := alloc_fresh f2 (o := .mumps (some a))
  refine ⟨⟨(x.alloc (.hypre m)).alloc (.mumps (some a)), h.romMat, h.mono, some x.next,
    some (x.alloc (.hypre m)).next, h.sol, h.loaded, h.direct, h.global⟩, ?_, ?_, ?_, rfl, rfl, rfl⟩
  · unfold setupDirect
    rw [if_pos hd]
    simp only [hm, Option.isSome_some, require_true, ok_bind, e1, readMono_ok m1, Option.getD_some,
      readHypre_ok alloc_self m2]
    rfl
  · refine ⟨⟨b, hb, ?_⟩, ?_, ?_, ?_, ?_, f3, fun _ => ⟨m, hm⟩⟩
    · exact alloc_live f2 (alloc_live f1 b1)
    · intro k hk
      have : k = m := by rw [hm] at hk; cases hk; rfl
      subst this
      exact alloc_live f2 m2
    · intro k hk
      cases hk
      exact ⟨m, alloc_live f2 alloc_self⟩
    · intro k hk
      cases hk
      exact ⟨_, alloc_self⟩
    · intro k hk
      exact alloc_live f2 (alloc_live f1 (s1 k hk))
  · exact ⟨_, rfl, alloc_self⟩

theorem setRomMat_ok {h : Handler α} {p : Nat} {a : α} (P : Pre h p a) (init : Bool) :
    ∃ h', setRomMat h p init = .ok h' ∧ Good h' a ∧ h'.loaded = true ∧ h'.direct = h.direct ∧
      h'.global = h.global ∧ (∃ m, h'.mono = some m) ∧ (init = true → Clean h' a) ∧
      (h.direct = false → h.hypre = none → h.mumps = none →
        (∀ q o, h.heap.obj q = some o → o = .vec ∨ h.romMat = some q ∨ h.mono = some q ∨ q = p) →
        Tight h') := by
  obtain ⟨b, hb, c, gb⟩ := P.romMat
  -- the old block matrix
  have e1 : ∃ x, replaceMat h p = .ok x ∧
      x.obj p = some (.block a) ∧ (∀ q o, h.heap.obj q = some o → (∀ c, o ≠ .block c) →
        x.obj q = some o) ∧ (∀ q, x.next ≤ q → x.obj q = none) ∧
      (∀ q o, x.obj q = some o → h.heap.obj q = some o ∧ (h.romMat = some q → q = p)) := by
    unfold replaceMat
    by_cases hp : h.romMat = some p
    · rw [if_neg (by simpa using hp)]
      refine ⟨h.heap, rfl, P.input, fun q o hq _ => hq, P.fresh, fun q o hq => ⟨hq, fun hr => ?_⟩⟩
      rw [hp] at hr; cases hr; rfl
    · rw [if_pos hp]
      refine ⟨drop h.heap h.romMat, free_ok fun m hm => ?_, ?_, ?_, drop_fresh P.fresh, ?_⟩
      · rw [hb] at hm; cases hm; rw [gb]; simp
      · rw [drop_obj hp]; exact P.input
      · intro q o hq hn
        rw [drop_obj]; · exact hq
        · intro hr; rw [hb] at hr; cases hr; rw [gb] at hq; cases hq; exact hn c rfl
      · intro q o hq
        obtain ⟨h1, h2⟩ := drop_some hq
        exact ⟨h1, fun hr => absurd hr h2⟩
  obtain ⟨x, e1, xp, xo, xf, xb⟩ := e1
  -- the old copy
  have e2 : x.free h.mono = .ok (drop x h.mono) := free_ok fun m hm => by
    obtain ⟨c, hc⟩ := P.mono m hm
    rw [xo m _ hc (by simp)]; simp
  have hmono : ∀ m, h.mono = some m → ∃ c, x.obj m = some (.mono c) := fun m hm => by
    obtain ⟨c, hc⟩ := P.mono m hm
    exact ⟨c, xo m _ hc (by simp)⟩
  have yp : (drop x h.mono).obj p = some (.block a) := drop_live xp fun k hk => by
    obtain ⟨c, hc⟩ := hmono k hk; rw [hc]; simp
  have yo : ∀ q o, h.heap.obj q = some o → (∀ c, o ≠ .block c) → (∀ c, o ≠ .mono c) →
      (drop x h.mono).obj q = some o := fun q o hq h1 h2 =>
    drop_live (xo q o hq h1) fun k hk => by
      obtain ⟨c, hc⟩ := hmono k hk; rw [hc]; intro he; cases he; exact h2 c rfl
  have yf := drop_fresh xf (p := h.mono)
  have yb : ∀ q o, (drop x h.mono).obj q = some o → h.heap.obj q = some o ∧
      (h.romMat = some q → q = p) ∧ h.mono ≠ some q := fun q o hq => by
    obtain ⟨h1, h2⟩ := drop_some hq
    obtain ⟨h3, h4⟩ := xb q o h1
    exact ⟨h3, h4, h2⟩
  generalize drop x h.mono = y at *
  -- the state before the direct solver
  have g0 : ∀ l, Good ⟨y.alloc (.mono a), some p, some y.next, h.hypre, h.mumps, h.sol, l, h.direct,
      h.global⟩ a := fun l => by
    refine ⟨⟨p, rfl, alloc_live yf yp⟩, ?_, ?_, ?_, ?_, alloc_fresh yf, fun _ => ⟨_, rfl⟩⟩
    · intro m hm; cases hm; exact alloc_self
    · intro m hm
      obtain ⟨k, hk⟩ := P.hypre m hm
      exact ⟨k, alloc_live yf (yo m _ hk (by simp) (by simp))⟩
    · intro m hm
      obtain ⟨k, hk⟩ := P.mumps m hm
      exact ⟨k, alloc_live yf (yo m _ hk (by simp) (by simp))⟩
    · intro m hm
      exact alloc_live yf (yo m _ (P.sol m hm) (by simp) (by simp))
  have unf : setRomMat h p init = ((if h.direct && init then
        setupDirect ⟨y.alloc (.mono a), some p, some y.next, h.hypre, h.mumps, h.sol, h.loaded,
          h.direct, h.global⟩
      else .ok ⟨y.alloc (.mono a), some p, some y.next, h.hypre, h.mumps, h.sol, h.loaded, h.direct,
        h.global⟩) >>= fun h' => .ok { h' with loaded := true }) := by
    unfold setRomMat initDirect
    rw [e1]
    simp only [ok_bind, e2, readBlock_ok yp]
    rfl
  rw [unf]
  by_cases hdi : (h.direct && init) = true
  · rw [if_pos hdi]
    simp only [Bool.and_eq_true] at hdi
    obtain ⟨h', e3, g3, c3, d3, l3, m3⟩ := setupDirect_ok (g0 h.loaded) hdi.1 ⟨_, rfl⟩
    rw [e3]
    refine ⟨_, rfl, ⟨g3.romMat, g3.mono, g3.hypre, g3.mumps, g3.sol, g3.fresh, fun _ => ⟨_, m3⟩⟩, rfl,
      d3, l3, ⟨_, m3⟩, fun _ => ?_, ?_⟩
    · intro _ _; exact c3
    · intro hd; rw [hdi.1] at hd; cases hd
  · rw [if_neg hdi]
    refine ⟨_, rfl, g0 true, rfl, rfl, rfl, ⟨_, rfl⟩, fun hi hd _ => ?_, ?_⟩
    · exact absurd (by simp [hi, show h.direct = true from hd]) hdi
    · intro hd h1 h2 h3
      refine ⟨h1, h2, ?_⟩
      intro q o hq
      by_cases hqn : q = y.next
      · right; right; rw [hqn]
      · rw [alloc_obj hqn] at hq
        obtain ⟨k1, k2, k3⟩ := yb q o hq
        rcases h3 q o k1 with h | h | h | h
        · left; exact h
        · right; left; rw [k2 h]
        · exact absurd h k3
        · right; left; rw [h]

theorem free_dead {x : Heap α} {p : Nat} (h : x.obj p = none) : x.free (some p) = .error .ub := by
  unfold Heap.free; simp only [h]

/-- The operator after a call. -/
def nextOp (a : α) : Call α → α
  | .project b => b
  | .set b _ => b
  | .load b => b
  | _ => a

/-- What a call is expected to use. -/
def outOf (a : α) : Call α → List (Option α)
  | .solve _ => [some a]
  | .saveSystem _ => [some a]
  | .saveOperator => [some a]
  | _ => []

theorem expected_cons (a : α) (c : Call α) (cs : List (Call α)) :
    expected a (c :: cs) = outOf a c ++ expected (nextOp a c) cs := by
  cases c <;> rfl

/-- What one call does to a good state. -/
structure Step (h : Handler α) (a : α) (c : Call α) (h' : Handler α) (out : List (Option α)) : Prop where
  good : Good h' (nextOp a c)
  direct : h'.direct = h.direct
  global : h'.global = h.global
  mono : (∃ m, h'.mono = some m) ↔ (∃ m, h.mono = some m) ∨ Copies c
  clean : Clean h a → (h.direct = true → ¬ Detaches c) → Clean h' (nextOp a c) ∧ out = outOf a c
  tight : h.direct = false → Tight h → Tight h'

theorem step_set {h : Handler α} {a b : α} {c : Call α} {p : Nat} {init : Bool} {h0 : Handler α}
    (hs : step h c = (setRomMat h0 p init >>= fun h => .ok (h, []))) (P : Pre h0 p b)
    (hn : nextOp a c = b) (ho : outOf a c = []) (hc : Copies c) (hi : ¬ Detaches c → init = true)
    (hd : h0.direct = h.direct) (hg : h0.global = h.global)
    (ht : h.direct = false → Tight h → h0.hypre = none ∧ h0.mumps = none ∧
      ∀ q o, h0.heap.obj q = some o → o = .vec ∨ h0.romMat = some q ∨ h0.mono = some q ∨ q = p) :
    ∃ h' out, step h c = .ok (h', out) ∧ Step h a c h' out := by
  obtain ⟨h', e, g, l, d, gl, m, cl, t⟩ := setRomMat_ok P init
  rw [e] at hs
  refine ⟨h', [], hs, ⟨by rw [hn]; exact g, d.trans hd, gl.trans hg, ⟨fun _ => .inr hc, fun _ => m⟩, ?_,
    ?_⟩⟩
  · intro _ hk
    refine ⟨?_, ho.symm⟩
    rw [hn]
    intro hdd
    exact cl (hi (hk (by rw [← hd, ← d]; exact hdd))) hdd
  · intro hdd htt
    obtain ⟨t1, t2, t3⟩ := ht hdd htt
    exact t (by rw [hd]; exact hdd) t1 t2 t3

theorem good_vec {h : Handler α} {a : α} (g : Good h a) :
    Good { h with heap := h.heap.alloc .vec, sol := some h.heap.next } a := by
  obtain ⟨b, hb, gb⟩ := g.romMat
  refine ⟨⟨b, hb, alloc_live g.fresh gb⟩, fun m hm => alloc_live g.fresh (g.mono m hm), ?_, ?_, ?_,
    alloc_fresh g.fresh, g.loaded⟩
  · intro m hm; obtain ⟨k, hk⟩ := g.hypre m hm; exact ⟨k, alloc_live g.fresh hk⟩
  · intro m hm; obtain ⟨k, hk⟩ := g.mumps m hm; exact ⟨k, alloc_live g.fresh hk⟩
  · intro m hm; cases hm; exact alloc_self

theorem clean_vec {h : Handler α} {a : α} (g : Good h a) (c : Clean h a) :
    Clean { h with heap := h.heap.alloc .vec, sol := some h.heap.next } a := by
  intro hd hl
  obtain ⟨q, h1, h2⟩ := c hd hl
  exact ⟨q, h1, alloc_live g.fresh h2⟩

theorem tight_vec {h : Handler α} (t : Tight h) :
    Tight { h with heap := h.heap.alloc .vec, sol := some h.heap.next } := by
  refine ⟨t.hypre, t.mumps, ?_⟩
  intro q o hq
  by_cases hn : q = h.heap.next
  · subst hn; left; rw [alloc_self] at hq; cases hq; rfl
  · rw [alloc_obj hn] at hq; exact t.obj q o hq

theorem solveWith_ok {h : Handler α} {a : α} (g : Good h a) (p : Prec) :
    solveWith h p = .error .abort ∨ ∃ o, solveWith h p = .ok o ∧ (Clean h a → o = some a) := by
  unfold solveWith
  cases hll : h.loaded with
  | false => left; rfl
  | true =>
    simp only [require_true, ok_bind]
    cases hd : h.direct with
    | true =>
      simp only [if_true]
      cases hmm : h.mumps with
      | none => left; rfl
      | some m =>
        right
        obtain ⟨o, ho⟩ := g.mumps m hmm
        refine ⟨o, by simp [require_true, readMumps_ok ho, ok_bind], fun c => ?_⟩
        obtain ⟨q, h1, h2⟩ := c hd hll
        rw [hmm] at h1; cases h1
        rw [ho] at h2; cases h2; rfl
    | false =>
      simp only [Bool.false_eq_true, if_false]
      obtain ⟨m, hm⟩ := g.loaded hll
      obtain ⟨b, hb, gb⟩ := g.romMat
      cases p with
      | unknown => left; rfl
      | mono => right; exact ⟨some a, by simp only [hm, readMono_ok (g.mono m hm), ok_bind], fun _ => rfl⟩
      | block => right; exact ⟨some a, by simp only [hb, readBlock_ok gb, ok_bind], fun _ => rfl⟩

theorem step_ok {h : Handler α} {a : α} (g : Good h a) (c : Call α)
    (hl : ∀ b, c = .load b → h.mono = none) :
    step h c = .error .abort ∨ ∃ h' out, step h c = .ok (h', out) ∧ Step h a c h' out := by
  obtain ⟨b, hb, gb⟩ := g.romMat
  cases c with
  | project d =>
    right
    refine step_set (h0 := { h with heap := ⟨fun q => if q = b then some (.block d) else h.heap.obj q,
      h.heap.next⟩ }) (p := b) (init := true) (b := d) ?_ ?_ rfl rfl trivial (fun _ => rfl) rfl rfl ?_
    · unfold step project
      rw [hb, readBlock_ok gb]
      rfl
    · refine ⟨by simp, ⟨b, hb, d, by simp⟩, ?_, ?_, ?_, ?_, ?_⟩
      · intro m hm
        have := g.mono m hm
        have hne : m ≠ b := by rintro rfl; rw [gb] at this; cases this
        exact ⟨a, by simp only [if_neg hne]; exact this⟩
      · intro m hm
        obtain ⟨k, hk⟩ := g.hypre m hm
        have hne : m ≠ b := by rintro rfl; rw [gb] at hk; cases hk
        exact ⟨k, by simp only [if_neg hne]; exact hk⟩
      · intro m hm
        obtain ⟨k, hk⟩ := g.mumps m hm
        have hne : m ≠ b := by rintro rfl; rw [gb] at hk; cases hk
        exact ⟨k, by simp only [if_neg hne]; exact hk⟩
      · intro m hm
        have := g.sol m hm
        have hne : m ≠ b := by rintro rfl; rw [gb] at this; cases this
        simp only [if_neg hne]; exact this
      · intro q hq
        have := lt_next g.fresh gb
        have hne : q ≠ b := by intro h; subst h; exact absurd hq (by simpa using this)
        simp only [if_neg hne]; exact g.fresh q hq
    · intro _ t
      refine ⟨t.hypre, t.mumps, ?_⟩
      intro q o hq
      by_cases hqb : q = b
      · right; right; right; exact hqb
      · simp only [if_neg hqb] at hq
        rcases t.obj q o hq with h | h | h
        · exact .inl h
        · exact .inr (.inl h)
        · exact .inr (.inr (.inl h))
  | set d init =>
    right
    refine step_set (h0 := { h with heap := h.heap.alloc (.block d) }) (p := h.heap.next) (init := init)
      (b := d) rfl ?_ rfl rfl trivial ?_ rfl rfl ?_
    · refine ⟨alloc_self, ⟨b, hb, a, alloc_live g.fresh gb⟩, ?_, ?_, ?_, ?_, alloc_fresh g.fresh⟩
      · intro m hm; exact ⟨a, alloc_live g.fresh (g.mono m hm)⟩
      · intro m hm; obtain ⟨k, hk⟩ := g.hypre m hm; exact ⟨k, alloc_live g.fresh hk⟩
      · intro m hm; obtain ⟨k, hk⟩ := g.mumps m hm; exact ⟨k, alloc_live g.fresh hk⟩
      · intro m hm; exact alloc_live g.fresh (g.sol m hm)
    · intro hn
      cases init with
      | true => rfl
      | false => exact absurd rfl hn
    · intro _ t
      refine ⟨t.hypre, t.mumps, ?_⟩
      intro q o hq
      by_cases hn : q = h.heap.next
      · right; right; right; exact hn
      · rw [alloc_obj hn] at hq
        rcases t.obj q o hq with h | h | h
        · exact .inl h
        · exact .inr (.inl h)
        · exact .inr (.inr (.inl h))
  | load d =>
    cases hgl : h.global with
    | false =>
      left
      unfold step load
      rw [hgl]; rfl
    | true =>
      right
      have hm := hl d rfl
      have e1 : h.heap.free h.romMat = .ok (drop h.heap h.romMat) := free_ok fun k hk => by
        rw [hb] at hk; cases hk; rw [gb]; simp
      have f1 := drop_fresh g.fresh (p := h.romMat)
      have o1 : ∀ q o, h.heap.obj q = some o → (∀ c, o ≠ .block c) →
          (drop h.heap h.romMat).obj q = some o := fun q o hq hn => drop_live hq fun k hk => by
        rw [hb] at hk; cases hk; rw [gb]; intro he; cases he; exact hn a rfl
      have t1 : ∀ q o, (drop h.heap h.romMat).obj q = some o → h.heap.obj q = some o ∧
          h.romMat ≠ some q := fun q o hq => drop_some hq
      generalize drop h.heap h.romMat = x at *
      refine step_set (h0 := { h with heap := x.alloc (.block d), romMat := some x.next })
        (p := x.next) (init := true) (b := d) ?_ ?_ rfl rfl trivial (fun _ => rfl) rfl rfl ?_
      · unfold step load
        rw [hgl, hm, e1]
        rfl
      · refine ⟨alloc_self, ⟨_, rfl, d, alloc_self⟩, ?_, ?_, ?_, ?_, alloc_fresh f1⟩
        · intro m hm'; rw [show h.mono = some m from hm'] at hm; cases hm
        · intro m hm
          obtain ⟨k, hk⟩ := g.hypre m hm
          exact ⟨k, alloc_live f1 (o1 m _ hk (by simp))⟩
        · intro m hm
          obtain ⟨k, hk⟩ := g.mumps m hm
          exact ⟨k, alloc_live f1 (o1 m _ hk (by simp))⟩
        · intro m hm
          exact alloc_live f1 (o1 m _ (g.sol m hm) (by simp))
      · intro _ t
        refine ⟨t.hypre, t.mumps, ?_⟩
        intro q o hq
        by_cases hn : q = x.next
        · right; right; right; exact hn
        · rw [alloc_obj hn] at hq
          obtain ⟨k1, k2⟩ := t1 q o hq
          rcases t.obj q o k1 with h | h | h
          · exact .inl h
          · exact absurd h k2
          · exact .inr (.inr (.inl h))
  | solve p =>
    have hs : step h (.solve p) =
        (solveWith { h with heap := h.heap.alloc .vec, sol := some h.heap.next } p >>= fun o =>
          .ok ({ h with heap := h.heap.alloc .vec, sol := some h.heap.next }, [o])) := by
      show ((solveWith _ p >>= fun a => _) >>= _) = _
      cases solveWith { h with heap := h.heap.alloc .vec, sol := some h.heap.next } p <;> rfl
    rcases solveWith_ok (good_vec g) p with e | ⟨o, e, ho⟩
    · left; rw [hs, e]; rfl
    · right
      refine ⟨_, [o], by rw [hs, e]; rfl, good_vec g, rfl, rfl, by simp [Copies],
        fun c _ => ⟨clean_vec g c, by rw [ho (clean_vec g c)]; rfl⟩, fun _ t => tight_vec t⟩
  | nonlinear =>
    right
    have g' := good_vec g
    cases hd : h.direct with
    | false =>
      refine ⟨{ h with heap := h.heap.alloc .vec, sol := some h.heap.next }, [], ?_, g', rfl, rfl,
        by simp [Copies], fun c _ => ⟨clean_vec g c, rfl⟩, fun _ t => tight_vec t⟩
      unfold step nonlinear
      simp only [hd]
      rfl
    | true =>
      refine ⟨⟨(h.heap.alloc .vec).alloc (.mumps none), h.romMat, h.mono, h.hypre,
        some (h.heap.alloc .vec).next, some h.heap.next, h.loaded, h.direct, h.global⟩, [], ?_, ?_, rfl,
        rfl, by simp [Copies], fun _ hk => absurd trivial (hk hd), fun hdd => by rw [hd] at hdd; cases hdd⟩
      · unfold step nonlinear
        simp only [hd]
        rfl
      · obtain ⟨b', hb', gb'⟩ := g'.romMat
        have f' : ∀ q, (h.heap.alloc .vec).next ≤ q → (h.heap.alloc .vec).obj q = none := g'.fresh
        refine ⟨⟨b', hb', alloc_live f' gb'⟩, fun m hm => alloc_live f' (g'.mono m hm), ?_, ?_, ?_,
          alloc_fresh f', g'.loaded⟩
        · intro m hm; obtain ⟨k, hk⟩ := g'.hypre m hm; exact ⟨k, alloc_live f' hk⟩
        · intro m hm; cases hm; exact ⟨none, alloc_self⟩
        · intro m hm; exact alloc_live f' (g'.sol m hm)
  | saveSystem known =>
    -- the copy
    obtain ⟨h1, e1, g1, ⟨m, hm⟩, d1, l1, c1, t1⟩ : ∃ h1, ensureMono h = .ok h1 ∧ Good h1 a ∧
        (∃ m, h1.mono = some m) ∧ h1.direct = h.direct ∧ h1.global = h.global ∧
        (Clean h a → Clean h1 a) ∧ (Tight h → Tight h1) := by
      unfold ensureMono
      cases hm : h.mono with
      | some m =>
        refine ⟨h, by simp, g, ⟨m, hm⟩, rfl, rfl, id, id⟩
      | none =>
        refine ⟨{ h with heap := h.heap.alloc (.mono a), mono := some h.heap.next }, ?_, ?_, ⟨_, rfl⟩, rfl,
          rfl, ?_, ?_⟩
        · simp only [Option.isNone_none, if_true, hb, Option.isSome_some, require_true, ok_bind,
            readBlock_ok gb]
          rfl
        · refine ⟨⟨b, hb, alloc_live g.fresh gb⟩, ?_, ?_, ?_, ?_, alloc_fresh g.fresh, fun _ => ⟨_, rfl⟩⟩
          · intro m hm; cases hm; exact alloc_self
          · intro m hm; obtain ⟨k, hk⟩ := g.hypre m hm; exact ⟨k, alloc_live g.fresh hk⟩
          · intro m hm; obtain ⟨k, hk⟩ := g.mumps m hm; exact ⟨k, alloc_live g.fresh hk⟩
          · intro m hm; exact alloc_live g.fresh (g.sol m hm)
        · intro c hd hl
          obtain ⟨q, k1, k2⟩ := c hd hl
          exact ⟨q, k1, alloc_live g.fresh k2⟩
        · intro t
          refine ⟨t.hypre, t.mumps, ?_⟩
          intro q o hq
          by_cases hn : q = h.heap.next
          · right; right; rw [hn]
          · rw [alloc_obj hn] at hq
            rcases t.obj q o hq with h' | h' | h'
            · exact .inl h'
            · exact .inr (.inl h')
            · rw [hm] at h'; cases h'
    unfold step saveSystem
    rw [e1]
    simp only [ok_bind]
    cases hs : h1.sol with
    | none => left; rfl
    | some s =>
      have gs := g1.sol s hs
      have er : h1.heap.read (some s) = .ok .vec := by unfold Heap.read; simp only [gs]
      cases known with
      | false => left; simp only [Option.isSome_some, require_true, ok_bind, er]; rfl
      | true =>
        right
        refine ⟨h1, [some a], ?_, g1, d1, l1, ⟨fun _ => .inr trivial, fun _ => ⟨m, hm⟩⟩,
          fun c _ => ⟨c1 c, rfl⟩, fun _ => t1⟩
        simp only [Option.isSome_some, require_true, ok_bind, er, hm, readMono_ok (g1.mono m hm)]
        rfl
  | saveOperator =>
    unfold step saveOperator
    cases hgl : h.global with
    | false => left; rfl
    | true =>
      cases hll : h.loaded with
      | false => left; rw [hb]; rfl
      | true =>
        right
        refine ⟨h, [some a], ?_, g, rfl, rfl, by simp [Copies], fun c _ => ⟨c, rfl⟩, fun _ t => t⟩
        rw [hb]
        simp only [Option.isSome_some, Bool.and_self, require_true, ok_bind, readBlock_ok gb]

end Verif.RomOperator
