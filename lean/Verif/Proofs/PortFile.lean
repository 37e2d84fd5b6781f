import Verif.Spec.PortFile
import Verif.Proofs.Hdf5
import Verif.Proofs.Ports

/-! Helper lemmas for the reference ports. -/

namespace Verif

/-- The states a successful loop goes through. -/
theorem loopFrom_trace {σ : Type _} (body : Nat → σ → Outcome σ) :
    ∀ (k i : Nat) (s t : σ), loopFrom body i k s = .ok t →
      ∃ st : Nat → σ, st i = s ∧ st (i + k) = t ∧
        ∀ j, i ≤ j → j < i + k → body j (st j) = .ok (st (j + 1)) := by
  intro k
  induction k with
  | zero =>
    intro i s t h
    cases h
    exact ⟨fun _ => s, rfl, rfl, fun j h1 h2 => by omega⟩
  | succ k ih =>
    intro i s t h
    unfold loopFrom at h
    cases hb : body i s with
    | error e => rw [hb] at h; cases h
    | ok u =>
      rw [hb] at h
      obtain ⟨st, h0, h1, h2⟩ := ih (i + 1) u t h
      refine ⟨fun j => if j = i then s else st j, by simp, ?_, ?_⟩
      · have : i + (k + 1) ≠ i := by omega
        simp only [this, if_false]
        rw [← h1]; congr 1; omega
      · intro j hj1 hj2
        by_cases e : j = i
        · subst e
          have : j + 1 ≠ j := by omega
          simp only [if_true, this, if_false]
          rw [hb, h0]
        · have : j + 1 ≠ i := by omega
          simp only [e, this, if_false]
          exact h2 j (by omega) (by omega)

theorem loop_trace {σ : Type _} {n : Nat} {body : Nat → σ → Outcome σ} {s t : σ}
    (h : loop n body s = .ok t) :
    ∃ st : Nat → σ, st 0 = s ∧ st n = t ∧ ∀ j, j < n → body j (st j) = .ok (st (j + 1)) := by
  obtain ⟨st, h0, h1, h2⟩ := loopFrom_trace body n 0 s t h
  exact ⟨st, h0, by simpa using h1, fun j hj => h2 j (by omega) (by omega)⟩

/-- A loop over two arrays of the same length. -/
theorem loop_zip {α β σ : Type} {a : List α} {b : List β} (h : a.length = b.length)
    (g : σ → α → β → σ) (s : σ) {n : Nat} (hn : n = a.length) :
    loop n (fun i s => do
      let x ← rd a i
      let y ← rd b i
      return g s x y) s = .ok ((a.zip b).foldl (fun s p => g s p.1 p.2) s) := by
  subst hn
  have := loop_spec (n := a.length) (body := fun i s => do
      let x ← rd a i
      let y ← rd b i
      return g s x y)
    (fun i => ((a.zip b).take i).foldl (fun s p => g s p.1 p.2) s) (s := s) rfl
    (fun i hi => by
      have hib : i < b.length := by omega
      have hz : i < (a.zip b).length := by simp; omega
      rw [rd_of_lt hi, rd_of_lt hib]
      simp only [ok_bind]
      rw [List.take_add_one, List.getElem?_eq_getElem hz]
      simp [List.foldl_append, pure, Except.pure])
  rw [this]
  congr 2
  apply List.take_of_length_le
  simp

end Verif

namespace Verif.PortFile

open Verif Verif.Hdf5 Spec

variable {R : Type}

/-! ### Maps -/

theorem look_set (m : Names) (k x : String) (v : Nat) :
    (m.set k v).look x = if x = k then some v else m.look x := by
  unfold Names.set Names.look
  by_cases h : x = k
  · simp [h]
  · have h' : ¬ k = x := fun e => h e.symm
    simp only [List.find?_cons, h, if_false]
    rw [show (k == x) = false by simpa using h']
    simp only []
    congr 1
    rw [List.find?_filter]
    congr 1
    funext p
    by_cases e : p.1 = x
    · subst e; simp [h]
    · simp [e]

theorem look_cons (m : Names) (k x : String) (v : Nat) :
    Names.look ((k, v) :: m) x = if x = k then some v else m.look x := by
  unfold Names.look
  by_cases h : x = k
  · simp [h]
  · have h' : ¬ k = x := fun e => h e.symm
    simp [h, h']

/-- What reading names may do to `comp_name2idx`. -/
structure Grows (m m' : Names) : Prop where
  index : ∀ x, index m' x = index m x
  keep : ∀ x v, m.look x = some v → m'.look x = some v

theorem Grows.refl (m : Names) : Grows m m := ⟨fun _ => rfl, fun _ _ h => h⟩

theorem Grows.trans {a b c : Names} (h : Grows a b) (h' : Grows b c) : Grows a c :=
  ⟨fun x => (h'.index x).trans (h.index x), fun x v e => h'.keep x v (h.keep x v e)⟩

theorem at_index (m : Names) (k : String) : (m.at k).2 = index m k := by
  unfold Names.at index
  cases h : m.look k <;> simp

theorem at_grows (m : Names) (k : String) : Grows m (m.at k).1 := by
  unfold Names.at
  cases h : m.look k with
  | some v => exact .refl m
  | none =>
    constructor
    · intro x
      unfold index
      simp only [look_cons]
      by_cases e : x = k
      · subst e; simp [h]
      · simp [e]
    · intro x v hx
      simp only [look_cons]
      rw [if_neg (by rintro rfl; rw [h] at hx; cases hx)]
      exact hx

theorem lookup_vset (m : VMap) (k x v : Int) :
    (m.set k v).lookup x = if x = k then some v else m.lookup x := by
  unfold VMap.set
  rw [List.lookup_cons]
  by_cases h : x = k
  · simp [h]
  · rw [show (x == k) = false by simpa using h]
    simp only [h, if_false]
    induction m with
    | nil => rfl
    | cons p m ih =>
      obtain ⟨a, b⟩ := p
      by_cases ha : a = k
      · subst ha
        simp only [List.filter_cons, bne_self_eq_false, Bool.false_eq_true, if_false, List.lookup_cons]
        rw [show (x == a) = false by simpa using h]
        exact ih
      · simp only [List.filter_cons, bne_iff_ne, ne_eq, ha, not_false_eq_true, if_true,
          List.lookup_cons]
        by_cases hx : x = a
        · simp [hx]
        · rw [show (x == a) = false by simpa using hx]
          exact ih

theorem lookup_append (l m : VMap) (x : Int) :
    (l ++ m).lookup x = (l.lookup x).or (m.lookup x) := by
  induction l with
  | nil => simp
  | cons p l ih =>
    obtain ⟨a, b⟩ := p
    simp only [List.cons_append, List.lookup_cons]
    by_cases hx : x = a
    · simp [hx]
    · rw [show (x == a) = false by simpa using hx]
      exact ih

theorem lookup_foldl (l m : VMap) (x : Int) :
    (l.foldl (fun m p => VMap.set m p.1 p.2) m).lookup x
      = (l.reverse.lookup x).or (m.lookup x) := by
  induction l generalizing m with
  | nil => simp
  | cons p l ih =>
    obtain ⟨a, b⟩ := p
    simp only [List.foldl_cons, List.reverse_cons]
    rw [ih, lookup_append, lookup_vset]
    by_cases hx : x = a
    · subst hx; simp
    · simp [hx, List.lookup_cons, show (x == a) = false by simpa using hx]

theorem mem_of_lookup {l : VMap} {x y : Int} (h : l.lookup x = some y) : (x, y) ∈ l := by
  induction l with
  | nil => simp at h
  | cons p l ih =>
    obtain ⟨a, b⟩ := p
    rw [List.lookup_cons] at h
    by_cases hx : x = a
    · subst hx; simp at h; subst h; simp
    · rw [show (x == a) = false by simpa using hx] at h
      exact List.mem_cons_of_mem _ (ih h)

theorem lookup_of_mem {l : VMap} (hn : (l.map (·.1)).Nodup) {x y : Int} (h : (x, y) ∈ l) :
    l.lookup x = some y := by
  induction l with
  | nil => simp at h
  | cons p l ih =>
    obtain ⟨a, b⟩ := p
    simp only [List.map_cons, List.nodup_cons] at hn
    rw [List.lookup_cons]
    rcases List.mem_cons.1 h with e | e
    · cases e; simp
    · have : x ≠ a := by
        rintro rfl
        exact hn.1 (List.mem_map.2 ⟨_, e, rfl⟩)
      rw [show (x == a) = false by simpa using this]
      exact ih hn.2 e

theorem lookup_reverse {l : VMap} (hn : (l.map (·.1)).Nodup) (x : Int) :
    l.reverse.lookup x = l.lookup x := by
  have hn' : (l.reverse.map (·.1)).Nodup := by
    rw [List.map_reverse]; exact List.nodup_reverse.2 hn
  cases h : l.lookup x with
  | some y => exact lookup_of_mem hn' (List.mem_reverse.2 (mem_of_lookup h))
  | none =>
    cases h' : l.reverse.lookup x with
    | none => rfl
    | some y =>
      rw [lookup_of_mem hn (List.mem_reverse.1 (mem_of_lookup h'))] at h
      cases h

/-! ### Port files -/

theorem zip_map (l : List (Int × Int)) : (l.map (·.1)).zip (l.map (·.2)) = l := by
  induction l with
  | nil => rfl
  | cons p l ih => simp [ih]

theorem _root_.Verif.PortFile.Spec.Same.refl (p : Port) : Same p p :=
  ⟨rfl, rfl, rfl, rfl, fun _ => rfl, rfl⟩

theorem _root_.Verif.PortFile.Spec.Same.trans {p q r : Port} (a : Same p q) (b : Same q r) :
    Same p r :=
  ⟨b.comp1.trans a.comp1, b.comp2.trans a.comp2, b.attr1.trans a.attr1, b.attr2.trans a.attr2,
    fun x => (b.vtx x).trans (a.vtx x), b.pairs.trans a.pairs⟩

theorem _root_.Verif.PortFile.Spec.Same.symm {p q : Port} (a : Same p q) : Same q p :=
  ⟨a.comp1.symm, a.comp2.symm, a.attr1.symm, a.attr2.symm, fun x => (a.vtx x).symm, a.pairs.symm⟩

/-- A group describes one port only. -/
theorem holds_unique {f : File R} {g : Loc} {c : String → Nat} {p q : Port} (hp : Holds f g c p)
    (hq : Holds f g c q) : Same p q := by
  obtain ⟨n1, a1, e1⟩ := hp.comp1
  obtain ⟨n2, a2, e2⟩ := hp.comp2
  obtain ⟨m1, b1, d1⟩ := hq.comp1
  obtain ⟨m2, b2, d2⟩ := hq.comp2
  obtain ⟨v1, v2, h1, h2, -, h3⟩ := hp.vtx
  obtain ⟨w1, w2, k1, k2, -, k3⟩ := hq.vtx
  obtain ⟨x1, x2, i1, i2, -, i3⟩ := hp.pairs
  obtain ⟨y1, y2, j1, j2, -, j3⟩ := hq.pairs
  have t1 := hp.attr1
  have t2 := hp.attr2
  rw [hq.attr1] at t1
  rw [hq.attr2] at t2
  rw [a1] at b1; cases b1
  rw [a2] at b2; cases b2
  rw [h1] at k1; cases k1
  rw [h2] at k2; cases k2
  rw [i1] at j1; cases j1
  rw [i2] at j2; cases j2
  refine ⟨by rw [d1, e1], by rw [d2, e2], by injection t1, by injection t2,
    fun x => by rw [k3, h3], by rw [j3, i3]⟩

theorem readPort_spec {f : File R} {g : Loc} {ci ci' : Names} {p : Port}
    (h : readPort f g ci = .ok (ci', p)) : Holds f g (index ci) p ∧ Grows ci ci' := by
  unfold readPort at h
  obtain ⟨a1, e1, h⟩ := bind_eq_ok.1 h
  obtain ⟨a2, e2, h⟩ := bind_eq_ok.1 h
  obtain ⟨n1, e3, h⟩ := bind_eq_ok.1 h
  obtain ⟨n2, e4, h⟩ := bind_eq_ok.1 h
  obtain ⟨v1, e5, h⟩ := bind_eq_ok.1 h
  obtain ⟨v2, e6, h⟩ := bind_eq_ok.1 h
  obtain ⟨_, l1, h⟩ := bind_eq_ok.1 h
  obtain ⟨b1, e7, h⟩ := bind_eq_ok.1 h
  obtain ⟨b2, e8, h⟩ := bind_eq_ok.1 h
  obtain ⟨_, l2, h⟩ := bind_eq_ok.1 h
  have l1 : v1.length = v2.length := by simpa using require_eq_ok.1 l1
  have l2 : b1.length = b2.length := by simpa using require_eq_ok.1 l2
  rw [loop_zip (a := v2) (b := v1) l1.symm (fun (m : VMap) k x => m.set k x) [] l1] at h
  rw [ok_bind, loop_zip l2 (fun l x y => l ++ [(x, y)]) [] rfl, ok_bind] at h
  cases h
  have hz : ∀ (l acc : List (Int × Int)),
      l.foldl (fun s p => s ++ [(p.1, p.2)]) acc = acc ++ l := by
    intro l
    induction l with
    | nil => simp
    | cons p l ih => intro acc; simp [ih]
  refine ⟨⟨e1, e2, ⟨n1, e3, at_index ci n1⟩, ⟨n2, e4, ?_⟩,
    ⟨v1, v2, e5, e6, l1, fun x => ?_⟩, ⟨b1, b2, e7, e8, l2, ?_⟩⟩,
    (at_grows ci n1).trans (at_grows _ n2)⟩
  · exact (at_index _ n2).trans ((at_grows ci n1).index n2)
  · simp [lookup_foldl]
  · simp [hz]

theorem readPort_total {f : File R} {g : Loc} {c : String → Nat} {p : Port} (h : Holds f g c p)
    (ci : Names) : ∃ r, readPort f g ci = .ok r := by
  obtain ⟨n1, a1, e1⟩ := h.comp1
  obtain ⟨n2, a2, e2⟩ := h.comp2
  obtain ⟨v1, v2, h1, h2, l1, h3⟩ := h.vtx
  obtain ⟨b1, b2, i1, i2, l2, i3⟩ := h.pairs
  unfold readPort
  rw [h.attr1, ok_bind, h.attr2, ok_bind, a1, ok_bind, a2, ok_bind]
  dsimp only
  rw [h1, ok_bind, h2, ok_bind, show (v1.length == v2.length) = true by simpa using l1,
    require_true, ok_bind, i1, ok_bind, i2, ok_bind,
    show (b1.length == b2.length) = true by simpa using l2, require_true, ok_bind]
  rw [loop_zip (a := v2) (b := v1) l1.symm (fun (m : VMap) k x => m.set k x) [] l1, ok_bind,
    loop_zip l2 (fun l x y => l ++ [(x, y)]) [] rfl, ok_bind]
  exact ⟨_, rfl⟩

theorem named_of {f : File R} {k : Nat} {g : Loc} {name : String}
    (h1 : openGroup f [] (toString k) = .ok g) (h2 : readStr f g "name" = .ok name) :
    g = [toString k] ∧ Named f k name := by
  unfold openGroup at h1
  split at h1
  · rename_i e
    cases h1
    refine ⟨rfl, e, ?_⟩
    unfold readStr at h2
    split at h2
    · rename_i e2; cases h2; exact e2
    · cases h2
  · cases h1

theorem Spec.Named.open {f : File R} {k : Nat} {name : String} (h : Named f k name) :
    openGroup f [] (toString k) = .ok [toString k] ∧ readStr f [toString k] "name" = .ok name := by
  constructor
  · unfold openGroup; rw [h.1]
  · unfold readStr; rw [h.2]

theorem Spec.Named.unique {f : File R} {k : Nat} {a b : String} (h : Named f k a)
    (h' : Named f k b) : a = b := by
  have := h.2
  rw [h'.2] at this
  cases this; rfl

/-- One iteration of reading a port file. -/
theorem readGroup_spec {f : File R} {k : Nat} {s s' : Handler} (h : readGroup f k s = .ok s') :
    ∃ name, Named f k name ∧
      ((s' = s ∧ (s.portIdx.look name = none ∨
          ∃ i p, s.portIdx.look name = some i ∧ s.refs[i]? = some (some p))) ∨
        ∃ i p ci, s.portIdx.look name = some i ∧ s.refs[i]? = some none ∧
          Holds f [toString k] (index s.compIdx) p ∧ Grows s.compIdx ci ∧
          s' = { s with compIdx := ci, refs := s.refs.set i (some p) }) := by
  unfold readGroup at h
  obtain ⟨g, e1, h⟩ := bind_eq_ok.1 h
  obtain ⟨name, e2, h⟩ := bind_eq_ok.1 h
  obtain ⟨rfl, hn⟩ := named_of e1 e2
  refine ⟨name, hn, ?_⟩
  cases hl : s.portIdx.look name with
  | none => rw [hl] at h; cases h; exact .inl ⟨rfl, .inl rfl⟩
  | some i =>
    rw [hl] at h
    dsimp only at h
    obtain ⟨r, e3, h⟩ := bind_eq_ok.1 h
    rw [rd_eq_ok] at e3
    cases r with
    | some p =>
      simp only [Option.isSome_some, if_true] at h
      cases h
      exact .inl ⟨rfl, .inr ⟨i, p, rfl, e3⟩⟩
    | none =>
      simp only [Option.isSome_none, Bool.false_eq_true, if_false] at h
      obtain ⟨⟨ci, p⟩, e4, h⟩ := bind_eq_ok.1 h
      obtain ⟨refs, e5, h⟩ := bind_eq_ok.1 h
      obtain ⟨h1, h2⟩ := readPort_spec e4
      have hi : i < s.refs.length := by
        by_contra hc
        rw [List.getElem?_eq_none (by omega)] at e3
        cases e3
      rw [wr_of_lt hi] at e5
      cases e5
      cases h
      exact .inr ⟨i, p, ci, rfl, e3, h1, h2, rfl⟩

theorem readGroup_skip {f : File R} {k : Nat} {s : Handler} {name : String} (hn : Named f k name)
    (h : s.portIdx.look name = none ∨
      ∃ i p, s.portIdx.look name = some i ∧ s.refs[i]? = some (some p)) :
    readGroup f k s = .ok s := by
  unfold readGroup
  rw [hn.open.1, ok_bind, hn.open.2, ok_bind]
  rcases h with h | ⟨i, p, h, hp⟩
  · rw [h]; rfl
  · rw [h]
    dsimp only
    rw [rd_eq_ok.2 hp, ok_bind]
    rfl

theorem readGroup_set {f : File R} {k : Nat} {s : Handler} {name : String} (hn : Named f k name)
    {i : Nat} (hl : s.portIdx.look name = some i) (hr : s.refs[i]? = some none)
    {c : String → Nat} {p : Port} (h : Holds f [toString k] c p) :
    ∃ q ci, Holds f [toString k] (index s.compIdx) q ∧ Grows s.compIdx ci ∧
      readGroup f k s = .ok { s with compIdx := ci, refs := s.refs.set i (some q) } := by
  obtain ⟨⟨ci, q⟩, e⟩ := readPort_total h s.compIdx
  obtain ⟨h1, h2⟩ := readPort_spec e
  refine ⟨q, ci, h1, h2, ?_⟩
  have hi : i < s.refs.length := by
    by_contra hc
    rw [List.getElem?_eq_none (by omega)] at hr
    cases hr
  unfold readGroup
  rw [hn.open.1, ok_bind, hn.open.2, ok_bind, hl]
  dsimp only
  rw [rd_eq_ok.2 hr, ok_bind]
  simp only [Option.isSome_none, Bool.false_eq_true, if_false]
  rw [e, ok_bind, wr_of_lt hi, ok_bind]
  rfl

/-- Everything but the ports stays, and ports only appear. -/
structure Ext (s s' : Handler) : Prop where
  names : s'.compNames = s.compNames
  idx : s'.portIdx = s.portIdx
  comp : Grows s.compIdx s'.compIdx
  len : s'.refs.length = s.refs.length
  keep : ∀ (i : Nat) p, s.refs[i]? = some (some p) → s'.refs[i]? = some (some p)

theorem Ext.refl (s : Handler) : Ext s s := ⟨rfl, rfl, .refl _, rfl, fun _ _ h => h⟩

theorem Ext.trans {a b c : Handler} (h : Ext a b) (h' : Ext b c) : Ext a c :=
  ⟨h'.names.trans h.names, h'.idx.trans h.idx, h.comp.trans h'.comp, h'.len.trans h.len,
    fun i p e => h'.keep i p (h.keep i p e)⟩

theorem ext_set {s : Handler} {i : Nat} {p : Port} {ci : Names} (hr : s.refs[i]? = some none)
    (hc : Grows s.compIdx ci) :
    Ext s { s with compIdx := ci, refs := s.refs.set i (some p) } := by
  refine ⟨rfl, rfl, hc, by simp, fun j q h => ?_⟩
  have : i ≠ j := by rintro rfl; rw [hr] at h; cases h
  dsimp only
  rw [List.getElem?_set_ne this]
  exact h

theorem readGroup_ext {f : File R} {k : Nat} {s s' : Handler} (h : readGroup f k s = .ok s') :
    Ext s s' := by
  obtain ⟨name, -, ⟨rfl, -⟩ | ⟨i, p, ci, -, h2, -, h4, rfl⟩⟩ := readGroup_spec h
  · exact .refl _
  · exact ext_set h2 h4

theorem readFile_loop {f : File R} {s s' : Handler} (h : readFile f s = .ok s') :
    ∃ n : Nat, 0 < n ∧ readAttr f [] "number_of_ports" = .ok (n : Int) ∧
      loop n (readGroup f) s = .ok s' := by
  unfold readFile at h
  obtain ⟨n, e1, h⟩ := bind_eq_ok.1 h
  obtain ⟨_, e2, h⟩ := bind_eq_ok.1 h
  have := require_eq_ok.1 e2
  simp only [decide_eq_true_eq] at this
  refine ⟨n.toNat, by omega, ?_, h⟩
  rw [e1]; congr 1; omega

theorem readFile_of_loop {f : File R} {s : Handler} {n : Nat} (hn : 0 < n)
    (h : readAttr f [] "number_of_ports" = .ok (n : Int)) :
    readFile f s = loop n (readGroup f) s := by
  unfold readFile
  rw [h, ok_bind]
  have : decide ((0 : Int) < n) = true := by simpa using hn
  rw [this, require_true, ok_bind, Int.toNat_natCast]

theorem readFile_ext {f : File R} {s s' : Handler} (h : readFile f s = .ok s') : Ext s s' := by
  obtain ⟨n, -, -, h⟩ := readFile_loop h
  exact loop_inv (fun _ u => Ext s u) (.refl s)
    (fun j u v _ hu hv => hu.trans (readGroup_ext hv)) h

/-- The contents of a written port file. -/
def image (p : Port) (name n1 n2 : String) : File R :=
  [(⟨["0"], "be2", false⟩, .dset [(p.pairs.map (·.2)).length] (.ints (p.pairs.map (·.2)))),
   (⟨["0"], "be1", false⟩, .dset [(p.pairs.map (·.1)).length] (.ints (p.pairs.map (·.1)))),
   (⟨["0"], "vtx2", false⟩, .dset [(p.vtx.map (·.1)).length] (.ints (p.vtx.map (·.1)))),
   (⟨["0"], "vtx1", false⟩, .dset [(p.vtx.map (·.2)).length] (.ints (p.vtx.map (·.2)))),
   (⟨["0"], "component2", true⟩, .attrStr n2),
   (⟨["0"], "component1", true⟩, .attrStr n1),
   (⟨["0"], "bdr_attr2", true⟩, .attrInt p.attr2),
   (⟨["0"], "bdr_attr1", true⟩, .attrInt p.attr1),
   (⟨["0"], "name", true⟩, .attrStr name),
   (⟨[], "0", false⟩, .group),
   (⟨[], "number_of_ports", true⟩, .attrInt 1)]

theorem writePort_eq {names : List String} {p : Port} {name n1 n2 : String}
    (h1 : names[p.comp1]? = some n1) (h2 : names[p.comp2]? = some n2) :
    writePort names p name = .ok (image (R := R) p name n1 n2) := by
  unfold writePort
  rw [rd_eq_ok.2 h1, rd_eq_ok.2 h2]
  simp [writeAttr, writeStr, writeArray, create, isOpen, find, require, image, splitPairs, Elem.pack,
    pure, Except.pure]

theorem writePort_inv {names : List String} {p : Port} {name : String} {f : File R}
    (h : writePort names p name = .ok f) :
    ∃ n1 n2, names[p.comp1]? = some n1 ∧ names[p.comp2]? = some n2 := by
  unfold writePort at h
  obtain ⟨_, -, h⟩ := bind_eq_ok.1 h
  obtain ⟨_, -, h⟩ := bind_eq_ok.1 h
  obtain ⟨_, -, h⟩ := bind_eq_ok.1 h
  obtain ⟨_, -, h⟩ := bind_eq_ok.1 h
  obtain ⟨_, -, h⟩ := bind_eq_ok.1 h
  obtain ⟨n1, e1, h⟩ := bind_eq_ok.1 h
  obtain ⟨n2, e2, h⟩ := bind_eq_ok.1 h
  exact ⟨n1, n2, rd_eq_ok.1 e1, rd_eq_ok.1 e2⟩

theorem image_array {p : Port} {name n1 n2 : String} (n : String) (v : List Int)
    (h : find (image (R := R) p name n1 n2) ⟨["0"], n, false⟩ = some (.dset [v.length] (.ints v))) :
    readArray (image (R := R) p name n1 n2) ["0"] n = .ok v :=
  readArray_of h

/-- What a written port file contains. -/
theorem writePort_holds {names : List String} {p : Port} {name : String} {f : File R}
    (h : writePort names p name = .ok f) :
    ∃ n1 n2, names[p.comp1]? = some n1 ∧ names[p.comp2]? = some n2 ∧
      readAttr f [] "number_of_ports" = .ok ((1 : Nat) : Int) ∧ Named f 0 name ∧
      ∀ c : String → Nat, VtxOk p →
        Holds f [toString 0] c { p with comp1 := c n1, comp2 := c n2 } := by
  obtain ⟨n1, n2, h1, h2⟩ := writePort_inv h
  rw [writePort_eq h1 h2] at h
  cases h
  have t0 : toString 0 = "0" := by decide
  refine ⟨n1, n2, h1, h2, by simp [readAttr, image, find], ⟨by rw [t0]; simp [image, find],
    by rw [t0]; simp [image, find]⟩, fun c hv => ?_⟩
  rw [t0]
  refine ⟨by simp [readAttr, image, find], by simp [readAttr, image, find],
    ⟨n1, by simp [readStr, image, find], rfl⟩, ⟨n2, by simp [readStr, image, find], rfl⟩,
    ⟨p.vtx.map (·.2), p.vtx.map (·.1), ?_, ?_, by simp, fun x => ?_⟩,
    ⟨p.pairs.map (·.1), p.pairs.map (·.2), ?_, ?_, by simp, (zip_map _).symm⟩⟩
  · exact image_array _ _ (by simp [image, find])
  · exact image_array _ _ (by simp [image, find])
  · rw [zip_map, lookup_reverse hv]
  · exact image_array _ _ (by simp [image, find])
  · exact image_array _ _ (by simp [image, find])

theorem writePort_total {names : List String} {p : Port} (name : String)
    (h1 : p.comp1 < names.length) (h2 : p.comp2 < names.length) :
    ∃ f : File R, writePort names p name = .ok f :=
  ⟨_, writePort_eq (List.getElem?_eq_getElem h1) (List.getElem?_eq_getElem h2)⟩

/-! ### Building ports -/

section
variable [Field R] [LinearOrder R]

theorem built_vtx {thr : R} {dim : Nat} {tf : List R → Outcome (List R)} {comps : List (Ports.CMesh R)}
    {c1 c2 : Nat} {a1 a2 : Int} {q : Ports.PortData}
    (h : Ports.buildPort thr dim tf comps c1 c2 a1 a2 = .ok q) : VtxOk (ofBuilt q) := by
  unfold Ports.buildPort at h
  obtain ⟨m1, -, h⟩ := bind_eq_ok.1 h
  obtain ⟨m2, -, h⟩ := bind_eq_ok.1 h
  obtain ⟨_, -, h⟩ := bind_eq_ok.1 h
  obtain ⟨_, -, h⟩ := bind_eq_ok.1 h
  obtain ⟨_, -, h⟩ := bind_eq_ok.1 h
  obtain ⟨_, -, h⟩ := bind_eq_ok.1 h
  obtain ⟨_, -, h⟩ := bind_eq_ok.1 h
  obtain ⟨_, -, h⟩ := bind_eq_ok.1 h
  obtain ⟨_, -, h⟩ := bind_eq_ok.1 h
  obtain ⟨_, -, h⟩ := bind_eq_ok.1 h
  obtain ⟨x2s, e1, h⟩ := bind_eq_ok.1 h
  obtain ⟨m, e2, h⟩ := bind_eq_ok.1 h
  obtain ⟨pairs, -, h⟩ := bind_eq_ok.1 h
  cases h
  have := (Ports.matchVertices_ok e1 e2).nodup
  unfold VtxOk ofBuilt
  simp only [List.map_map]
  rw [show ((fun x : Int × Int => x.1) ∘ fun x : Nat × Nat => ((x.1 : Int), (x.2 : Int)))
    = (fun n : Nat => (n : Int)) ∘ Prod.fst from rfl, ← List.map_map]
  exact this.map (fun a b h => by simpa using h)

theorem built_comp {thr : R} {dim : Nat} {tf : List R → Outcome (List R)} {comps : List (Ports.CMesh R)}
    {c1 c2 : Nat} {a1 a2 : Int} {q : Ports.PortData}
    (h : Ports.buildPort thr dim tf comps c1 c2 a1 a2 = .ok q) :
    (ofBuilt q).comp1 = c1 ∧ (ofBuilt q).comp2 = c2 := by
  unfold Ports.buildPort at h
  obtain ⟨m1, -, h⟩ := bind_eq_ok.1 h
  obtain ⟨m2, -, h⟩ := bind_eq_ok.1 h
  obtain ⟨_, -, h⟩ := bind_eq_ok.1 h
  obtain ⟨_, -, h⟩ := bind_eq_ok.1 h
  obtain ⟨_, -, h⟩ := bind_eq_ok.1 h
  obtain ⟨_, -, h⟩ := bind_eq_ok.1 h
  obtain ⟨_, -, h⟩ := bind_eq_ok.1 h
  obtain ⟨_, -, h⟩ := bind_eq_ok.1 h
  obtain ⟨_, -, h⟩ := bind_eq_ok.1 h
  obtain ⟨_, -, h⟩ := bind_eq_ok.1 h
  obtain ⟨x2s, e1, h⟩ := bind_eq_ok.1 h
  obtain ⟨m, e2, h⟩ := bind_eq_ok.1 h
  obtain ⟨pairs, -, h⟩ := bind_eq_ok.1 h
  cases h
  exact ⟨rfl, rfl⟩

theorem need_ok {α : Type} {o : Option α} {a : α} (h : need o = .ok a) : o = some a := by
  cases o with
  | none => cases h
  | some b => cases h; rfl

/-- A description is of no use: its port is not configured, or already there. -/
def Idle (s : Handler) (name : String) : Prop :=
  s.portIdx.look name = none ∨ ∃ i p, s.portIdx.look name = some i ∧ s.refs[i]? = some (some p)

/-- What building a port from a description does. -/
structure Made (e : Env R) (d : Entry R) (name : String) (i : Nat) (p : Port) (w w' : World R) :
    Prop where
  look : w.h.portIdx.look name = some i
  free : w.h.refs[i]? = some none
  built : Built e (index w.h.compIdx) d p
  vtx : VtxOk p
  known1 : ∃ n, d.comp1 = some n ∧ w.h.compIdx.look n = some p.comp1
  known2 : ∃ n, d.comp2 = some n ∧ w.h.compIdx.look n = some p.comp2
  h : w'.h = { w.h with refs := w.h.refs.set i (some p) }
  disk : (e.writePorts = false ∧ w'.disk = w.disk) ∨
    (e.writePorts = true ∧ ∃ file f, d.file = some file ∧ file ≠ "" ∧
      writePort w.h.compNames p name = .ok f ∧ w'.disk = Function.update w.disk file (some f))

theorem buildInput_spec {e : Env R} {d : Entry R} {w w' : World R}
    (h : buildInput e d w = .ok w') :
    ∃ name, d.name = some name ∧ ((w' = w ∧ Idle w.h name) ∨ ∃ i p, Made e d name i p w w') := by
  unfold buildInput at h
  obtain ⟨name, e0, h⟩ := bind_eq_ok.1 h
  refine ⟨name, need_ok e0, ?_⟩
  cases hl : w.h.portIdx.look name with
  | none => rw [hl] at h; cases h; exact .inl ⟨rfl, .inl hl⟩
  | some i =>
    rw [hl] at h
    dsimp only at h
    obtain ⟨r, e3, h⟩ := bind_eq_ok.1 h
    rw [rd_eq_ok] at e3
    cases r with
    | some p =>
      simp only [Option.isSome_some, if_true] at h
      cases h
      exact .inl ⟨rfl, .inr ⟨i, p, hl, e3⟩⟩
    | none =>
      simp only [Option.isSome_none, Bool.false_eq_true, if_false] at h
      obtain ⟨n1, m1, h⟩ := bind_eq_ok.1 h
      obtain ⟨n2, m2, h⟩ := bind_eq_ok.1 h
      obtain ⟨c1, m3, h⟩ := bind_eq_ok.1 h
      obtain ⟨c2, m4, h⟩ := bind_eq_ok.1 h
      obtain ⟨a1, m5, h⟩ := bind_eq_ok.1 h
      obtain ⟨a2, m6, h⟩ := bind_eq_ok.1 h
      obtain ⟨conf, m7, h⟩ := bind_eq_ok.1 h
      obtain ⟨_, m8, h⟩ := bind_eq_ok.1 h
      obtain ⟨q, m9, h⟩ := bind_eq_ok.1 h
      obtain ⟨refs, m10, h⟩ := bind_eq_ok.1 h
      have hi : i < w.h.refs.length := by
        by_contra hc
        rw [List.getElem?_eq_none (by omega)] at e3
        cases e3
      rw [wr_of_lt hi] at m10
      cases m10
      have m8 : conf.length = 6 := by simpa using require_eq_ok.1 m8
      have i1 : index w.h.compIdx n1 = c1 := by unfold index; rw [need_ok m3]; rfl
      have i2 : index w.h.compIdx n2 = c2 := by unfold index; rw [need_ok m4]; rfl
      have hb := built_comp m9
      have hB : Built e (index w.h.compIdx) d (ofBuilt q) :=
        ⟨n1, n2, a1, a2, conf, q, need_ok m1, need_ok m2, need_ok m5, need_ok m6, need_ok m7, m8,
          by rw [i1, i2]; exact m9, rfl⟩
      refine .inr ⟨i, ofBuilt q, ?_⟩
      cases hw : e.writePorts with
      | false =>
        rw [hw] at h
        cases h
        exact ⟨hl, e3, hB, built_vtx m9, ⟨n1, need_ok m1, by rw [hb.1]; exact need_ok m3⟩,
          ⟨n2, need_ok m2, by rw [hb.2]; exact need_ok m4⟩, rfl, .inl ⟨hw, rfl⟩⟩
      | true =>
        rw [hw] at h
        simp only [if_true] at h
        obtain ⟨file, k1, h⟩ := bind_eq_ok.1 h
        obtain ⟨_, k2, h⟩ := bind_eq_ok.1 h
        obtain ⟨f, k3, h⟩ := bind_eq_ok.1 h
        cases h
        refine ⟨hl, e3, hB, built_vtx m9, ⟨n1, need_ok m1, by rw [hb.1]; exact need_ok m3⟩,
          ⟨n2, need_ok m2, by rw [hb.2]; exact need_ok m4⟩, rfl,
          .inr ⟨hw, file, f, need_ok k1, ?_, k3, rfl⟩⟩
        simpa using require_eq_ok.1 k2

theorem buildInput_idle {e : Env R} {d : Entry R} {w : World R} {name : String}
    (hd : d.name = some name) (h : Idle w.h name) : buildInput e d w = .ok w := by
  unfold buildInput
  rw [hd]
  simp only [need, ok_bind]
  rcases h with h | ⟨i, p, h, hp⟩
  · rw [h]; rfl
  · rw [h]
    dsimp only
    rw [rd_eq_ok.2 hp, ok_bind]
    rfl

theorem Made.ext {e : Env R} {d : Entry R} {name : String} {i : Nat} {p : Port}
    {w w' : World R} (h : Made e d name i p w w') : Ext w.h w'.h := by
  rw [h.h]
  exact ext_set (ci := w.h.compIdx) h.free (.refl _)

theorem entry_cases {e : Env R} {d : Entry R} {w w' : World R} (h : entry e d w = .ok w') :
    (stored w.disk d = none ∧ buildInput e d w = .ok w') ∨
      ∃ f, stored w.disk d = some f ∧ readFile f w.h = .ok w'.h ∧ w'.disk = w.disk := by
  unfold entry at h
  unfold stored
  cases hf : d.file with
  | none => rw [hf] at h; exact .inl ⟨rfl, h⟩
  | some n =>
    rw [hf] at h
    dsimp only at h ⊢
    by_cases hn : n = ""
    · rw [if_pos hn] at h ⊢; exact .inl ⟨rfl, h⟩
    · rw [if_neg hn] at h ⊢
      cases hk : w.disk n with
      | none => rw [hk] at h; exact .inl ⟨rfl, h⟩
      | some f =>
        rw [hk] at h
        dsimp only at h
        obtain ⟨u, e1, h⟩ := bind_eq_ok.1 h
        cases h
        exact .inr ⟨f, rfl, e1, rfl⟩

theorem entry_build {e : Env R} {d : Entry R} {w : World R} (h : stored w.disk d = none) :
    entry e d w = buildInput e d w := by
  unfold entry
  unfold stored at h
  cases hf : d.file with
  | none => rfl
  | some n =>
    rw [hf] at h
    dsimp only at h ⊢
    by_cases hn : n = ""
    · rw [if_pos hn]
    · rw [if_neg hn] at h ⊢
      rw [h]

theorem entry_read {e : Env R} {d : Entry R} {w : World R} {f : File R} {s : Handler}
    (h : stored w.disk d = some f) (hr : readFile f w.h = .ok s) :
    entry e d w = .ok ⟨s, w.disk⟩ := by
  unfold entry
  unfold stored at h
  cases hf : d.file with
  | none => rw [hf] at h; cases h
  | some n =>
    rw [hf] at h
    dsimp only at h ⊢
    by_cases hn : n = ""
    · rw [if_pos hn] at h; cases h
    · rw [if_neg hn] at h ⊢
      rw [h]
      dsimp only
      rw [hr]
      rfl

theorem buildInput_ext {e : Env R} {d : Entry R} {w w' : World R} (h : buildInput e d w = .ok w') :
    Ext w.h w'.h := by
  obtain ⟨name, -, ⟨rfl, -⟩ | ⟨i, p, hm⟩⟩ := buildInput_spec h
  · exact .refl _
  · exact hm.ext

theorem entry_ext {e : Env R} {d : Entry R} {w w' : World R} (h : entry e d w = .ok w') :
    Ext w.h w'.h := by
  rcases entry_cases h with ⟨-, h⟩ | ⟨f, -, h, -⟩
  · exact buildInput_ext h
  · exact readFile_ext h

theorem dictEntry_ext {e : Env R} {d : Option (Entry R)} {w w' : World R}
    (h : dictEntry e d w = .ok w') : Ext w.h w'.h := by
  cases d with
  | none => cases h; exact .refl _
  | some d => exact buildInput_ext h

/-- The phases of a successful set-up. -/
theorem setupRefs_cases {e : Env R} {dicts : List (Option (Entry R))} {list : List (Entry R)}
    {w w' : World R} (h : setupRefs e dicts list w = .ok w') :
    0 < dicts.length ∧ ∃ w1,
      loop dicts.length (fun p w => do
        let d ← rd dicts p
        dictEntry e d w) ⟨{ w.h with refs := List.replicate dicts.length none }, w.disk⟩ = .ok w1 ∧
      loop list.length (fun p w => do
        let d ← rd list p
        entry e d w) w1 = .ok w' ∧ w'.h.refs.all Option.isSome = true := by
  unfold setupRefs at h
  obtain ⟨_, e1, h⟩ := bind_eq_ok.1 h
  obtain ⟨w1, e2, h⟩ := bind_eq_ok.1 h
  obtain ⟨w2, e3, h⟩ := bind_eq_ok.1 h
  obtain ⟨_, e4, h⟩ := bind_eq_ok.1 h
  cases h
  exact ⟨by simpa using require_eq_ok.1 e1, w1, e2, e3, require_eq_ok.1 e4⟩

/-! ### Running again -/

theorem getElem?_set_some {l : List (Option Port)} {i : Nat} {p : Port} (h : l[i]? = some none) :
    (l.set i (some p))[i]? = some (some p) := by
  have : i < l.length := by
    by_contra hc
    rw [List.getElem?_eq_none (by omega)] at h
    cases h
  simp [this]

omit [Field R] [LinearOrder R] in
/-- A slot that is not free is in use. -/
theorem free_or {l : List (Option Port)} {i : Nat} (h : i < l.length) :
    l[i]? = some none ∨ ∃ p, l[i]? = some (some p) := by
  rw [List.getElem?_eq_getElem h]
  cases l[i] with
  | none => exact .inl rfl
  | some p => exact .inr ⟨p, rfl⟩

omit [Field R] [LinearOrder R] in
theorem lt_of_get {l : List (Option Port)} {i : Nat} {o : Option Port} (h : l[i]? = some o) :
    i < l.length := by
  by_contra hc
  rw [List.getElem?_eq_none (by omega)] at h
  cases h

/-- A state `s2` of the second run beside a state `s1` of the first run that ended with `b`. -/
structure Rel (b s1 s2 : Handler) : Prop where
  idx : s2.portIdx = s1.portIdx
  len : s2.refs.length = s1.refs.length
  comp : ∀ x, index s2.compIdx x = index s1.compIdx x
  has : ∀ (i : Nat) p, s1.refs[i]? = some (some p) →
    ∃ q, s2.refs[i]? = some (some q) ∧ Same p q
  fin : ∀ (i : Nat) q, s2.refs[i]? = some (some q) →
    ∃ p, b.refs[i]? = some (some p) ∧ Same p q

omit [Field R] [LinearOrder R] in
theorem Rel.idle {b s1 s2 : Handler} (h : Rel b s1 s2) {name : String} (hi : Idle s1 name) :
    Idle s2 name := by
  rcases hi with hi | ⟨i, p, h1, h2⟩
  · left; rw [h.idx]; exact hi
  · obtain ⟨q, hq, -⟩ := h.has i p h2
    exact .inr ⟨i, q, by rw [h.idx]; exact h1, hq⟩

omit [Field R] [LinearOrder R] in
/-- The first run sets a port that the second one already has. -/
theorem Rel.left {b s1 s1' s2 : Handler} (h : Rel b s1 s2) {i : Nat} {p : Port}
    (hi : s1'.portIdx = s1.portIdx) (hc : ∀ x, index s1'.compIdx x = index s1.compIdx x)
    (hr : s1'.refs = s1.refs.set i (some p)) (he : Ext s1' b)
    (hf : s1.refs[i]? = some none) {q : Port} (hq : s2.refs[i]? = some (some q)) :
    Rel b s1' s2 := by
  refine ⟨h.idx.trans hi.symm, by rw [hr]; simpa using h.len,
    fun x => (h.comp x).trans (hc x).symm, fun j r hj => ?_, h.fin⟩
  by_cases e : i = j
  · subst e
    rw [hr, getElem?_set_some hf] at hj
    cases hj
    have hb := he.keep i p (by rw [hr]; exact getElem?_set_some hf)
    obtain ⟨p', hp', hs⟩ := h.fin i q hq
    rw [hb] at hp'
    cases hp'
    exact ⟨q, hq, hs⟩
  · rw [hr, List.getElem?_set_ne e] at hj
    exact h.has j r hj

omit [Field R] [LinearOrder R] in
/-- The second run sets a port as the first one does in the end. -/
theorem Rel.right {b s1 s2 : Handler} (h : Rel b s1 s2) {i : Nat} {p q : Port} {ci : Names}
    (hb : b.refs[i]? = some (some p)) (hs : Same p q) (hf : s2.refs[i]? = some none)
    (hg : Grows s2.compIdx ci) :
    Rel b s1 { s2 with compIdx := ci, refs := s2.refs.set i (some q) } := by
  refine ⟨h.idx, by simpa using h.len, fun x => (hg.index x).trans (h.comp x), fun j r hj => ?_,
    fun j r hj => ?_⟩
  · obtain ⟨r', h1, h2⟩ := h.has j r hj
    have : i ≠ j := by rintro rfl; rw [hf] at h1; cases h1
    refine ⟨r', ?_, h2⟩
    dsimp only
    rw [List.getElem?_set_ne this]
    exact h1
  · dsimp only at hj
    by_cases e : i = j
    · subst e
      rw [getElem?_set_some hf] at hj
      cases hj
      exact ⟨p, hb, hs⟩
    · rw [List.getElem?_set_ne e] at hj
      exact h.fin j r hj

omit [Field R] [LinearOrder R] in
theorem holds_congr {f : File R} {g : Loc} {c c' : String → Nat} {p : Port} (h : Holds f g c p)
    (hc : ∀ x, c' x = c x) : Holds f g c' p := by
  rw [show c' = c from funext hc]; exact h

omit [Field R] [LinearOrder R] in
/-- Both runs read the same group. -/
theorem readGroup_rel {f : File R} {k : Nat} {b s1 s1' s2 : Handler}
    (h : readGroup f k s1 = .ok s1') (he : Ext s1' b) (hr : Rel b s1 s2) :
    ∃ s2', readGroup f k s2 = .ok s2' ∧ Rel b s1' s2' := by
  obtain ⟨name, hn, ⟨rfl, hi⟩ | ⟨i, p, ci, h1, h2, h3, h4, rfl⟩⟩ := readGroup_spec h
  · exact ⟨s2, readGroup_skip hn (hr.idle hi), hr⟩
  · have hi : i < s2.refs.length := by rw [hr.len]; exact lt_of_get h2
    have hl : s2.portIdx.look name = some i := by rw [hr.idx]; exact h1
    rcases free_or hi with hf | ⟨q, hq⟩
    · obtain ⟨q, ci2, hh, hg, hok⟩ := readGroup_set hn hl hf h3
      have hs : Same p q := holds_unique (holds_congr h3 hr.comp) hh
      have hb := he.keep i p (getElem?_set_some h2)
      refine ⟨_, hok, ?_⟩
      exact (hr.right hb hs hf hg).left (i := i) (p := p) (q := q) rfl (fun x => h4.index x) rfl he h2
        (getElem?_set_some hf)
    · exact ⟨s2, readGroup_skip hn (.inr ⟨i, q, hl, hq⟩),
        hr.left (i := i) (p := p) rfl (fun x => h4.index x) rfl he h2 hq⟩

omit [Field R] [LinearOrder R] in
theorem readFile_rel {f : File R} {b s1 s1' s2 : Handler} (h : readFile f s1 = .ok s1')
    (he : Ext s1' b) (hr : Rel b s1 s2) : ∃ s2', readFile f s2 = .ok s2' ∧ Rel b s1' s2' := by
  obtain ⟨n, hn, ha, hl⟩ := readFile_loop h
  rw [readFile_of_loop hn ha]
  obtain ⟨st, h0, h1, hst⟩ := loop_trace hl
  have hx : ∀ j, j ≤ n → Ext (st j) s1' := by
    intro j hj
    obtain ⟨d, rfl⟩ := Nat.exists_eq_add_of_le hj
    clear hl ha
    induction d generalizing j with
    | zero => simp only [Nat.add_zero] at h1; rw [h1]; exact .refl _
    | succ d ih =>
      exact (readGroup_ext (hst j (by omega))).trans
        (ih (j := j + 1) (by omega) (by rw [← h1]; congr 1; omega)
          (fun i hi => hst i (by omega)) (by omega))
  obtain ⟨t, ht, hI⟩ := loop_total (n := n) (body := readGroup f) (fun j u => Rel b (st j) u)
    (s := s2) (by rw [h0]; exact hr)
    (fun j u hj hu => readGroup_rel (hst j hj) ((hx (j + 1) (by omega)).trans he) hu)
  exact ⟨t, ht, by rw [← h1]; exact hI⟩

omit [Field R] [LinearOrder R] in
/-- Reading a written port. -/
theorem readFile_written {names : List String} {p : Port} {name : String} {f : File R} {s : Handler}
    (h : writePort names p name = .ok f) (hv : VtxOk p) :
    (Idle s name → readFile f s = .ok s) ∧
      ∀ i, s.portIdx.look name = some i → s.refs[i]? = some none →
        ∃ n1 n2 q ci, names[p.comp1]? = some n1 ∧ names[p.comp2]? = some n2 ∧
          Same { p with comp1 := index s.compIdx n1, comp2 := index s.compIdx n2 } q ∧
          Grows s.compIdx ci ∧
          readFile f s = .ok { s with compIdx := ci, refs := s.refs.set i (some q) } := by
  obtain ⟨n1, n2, h1, h2, ha, hn, hh⟩ := writePort_holds h
  rw [readFile_of_loop (by omega) ha]
  have e : loop 1 (readGroup f) s = readGroup f 0 s := by
    unfold loop loopFrom
    cases readGroup f 0 s <;> rfl
  rw [e]
  refine ⟨fun hi => readGroup_skip hn hi, fun i hl hr => ?_⟩
  obtain ⟨q, ci, hq, hg, hok⟩ := readGroup_set hn hl hr (hh (index s.compIdx) hv)
  exact ⟨n1, n2, q, ci, h1, h2, holds_unique (hh (index s.compIdx) hv) hq, hg, hok⟩

/-- Where the files on disk come from during the first run. -/
def Files (d0 : Disk R) (s0 : Handler) (w : World R) : Prop :=
  ∀ n f, w.disk n = some f → d0 n = some f ∨
    ∃ name i p, s0.portIdx.look name = some i ∧ w.h.refs[i]? = some (some p) ∧ VtxOk p ∧
      writePort s0.compNames p name = .ok f

omit [Field R] [LinearOrder R] in
theorem stored_mono {d0 d1 : Disk R} {d : Entry R} {f : File R}
    (h : ∀ n f, d0 n = some f → d1 n = some f) (hs : stored d0 d = some f) :
    stored d1 d = some f := by
  unfold stored at hs ⊢
  cases hf : d.file with
  | none => rw [hf] at hs; cases hs
  | some n =>
    rw [hf] at hs
    dsimp only at hs ⊢
    by_cases hn : n = ""
    · rw [if_pos hn] at hs; cases hs
    · rw [if_neg hn] at hs ⊢; exact h _ _ hs

omit [Field R] [LinearOrder R] in
theorem stored_name {dk : Disk R} {d : Entry R} {f : File R} (hs : stored dk d = some f) :
    ∃ n, d.file = some n ∧ n ≠ "" ∧ dk n = some f := by
  unfold stored at hs
  cases hf : d.file with
  | none => rw [hf] at hs; cases hs
  | some n =>
    rw [hf] at hs
    dsimp only at hs
    by_cases hn : n = ""
    · rw [if_pos hn] at hs; cases hs
    · rw [if_neg hn] at hs; exact ⟨n, rfl, hn, hs⟩

/-- One entry in the first run: files are never overwritten. -/
theorem entry_disk {e : Env R} {d : Entry R} {w w' : World R} (h : entry e d w = .ok w') :
    (∀ n f, w.disk n = some f → w'.disk n = some f) := by
  rcases entry_cases h with ⟨hs, h⟩ | ⟨f, -, -, hd⟩
  · obtain ⟨name, -, ⟨rfl, -⟩ | ⟨i, p, hm⟩⟩ := buildInput_spec h
    · exact fun _ _ h => h
    · rcases hm.disk with ⟨-, hd⟩ | ⟨-, file, f, h1, h2, -, hd⟩
      · rw [hd]; exact fun _ _ h => h
      · intro n g hn
        have : n ≠ file := by
          rintro rfl
          unfold stored at hs
          rw [h1] at hs
          dsimp only at hs
          rw [if_neg h2, hn] at hs
          cases hs
        rw [hd, Function.update_of_ne this]
        exact hn
  · rw [hd]; exact fun _ _ h => h

theorem entry_files {e : Env R} {d : Entry R} {w w' : World R} {d0 : Disk R} {s0 : Handler}
    (h : entry e d w = .ok w') (hx : Ext s0 w.h) (hf : Files d0 s0 w) : Files d0 s0 w' := by
  have hext := entry_ext h
  have old : ∀ n f, w.disk n = some f → d0 n = some f ∨
      ∃ name i p, s0.portIdx.look name = some i ∧ w'.h.refs[i]? = some (some p) ∧ VtxOk p ∧
        writePort s0.compNames p name = .ok f := by
    intro n f hn
    rcases hf n f hn with h | ⟨name, i, p, h1, h2, h3⟩
    · exact .inl h
    · exact .inr ⟨name, i, p, h1, hext.keep i p h2, h3⟩
  rcases entry_cases h with ⟨hs, h⟩ | ⟨f, -, -, hd⟩
  · obtain ⟨name, -, ⟨rfl, -⟩ | ⟨i, p, hm⟩⟩ := buildInput_spec h
    · exact hf
    · rcases hm.disk with ⟨-, hd⟩ | ⟨-, file, f, h1, h2, h3, hd⟩
      · intro n f hn; rw [hd] at hn; exact old n f hn
      · intro n g hn
        rw [hd] at hn
        by_cases e : n = file
        · subst e
          rw [Function.update_self] at hn
          cases hn
          refine .inr ⟨name, i, p, by rw [← hx.idx]; exact hm.look, ?_, hm.vtx,
            by rw [← hx.names]; exact h3⟩
          rw [hm.h]
          exact getElem?_set_some hm.free
        · rw [Function.update_of_ne e] at hn
          exact old n g hn
  · intro n f hn; rw [hd] at hn; exact old n f hn

/-- One entry in both runs. -/
theorem entry_rel {e e' : Env R} {d : Entry R} {w1 w1' b w2 : World R} {d0 : Disk R} {s0 : Handler}
    (hw : e.writePorts = true) (h : entry e d w1 = .ok w1') (hx : Ext s0 w1.h) (he : Ext w1'.h b.h)
    (h0 : ∀ n f, d0 n = some f → w1.disk n = some f)
    (hd : ∀ n f, w1'.disk n = some f → b.disk n = some f) (hfiles : Files d0 s0 b)
    (hdist : Distinct s0) (hr : Rel b.h w1.h w2.h) (hdisk : w2.disk = b.disk) :
    ∃ w2', entry e' d w2 = .ok w2' ∧ Rel b.h w1'.h w2'.h ∧ w2'.disk = b.disk := by
  have hd1 : ∀ n f, w1.disk n = some f → b.disk n = some f :=
    fun n f hn => hd n f (entry_disk h n f hn)
  -- reading a file the first run has written
  have key : ∀ name i p f, s0.portIdx.look name = some i → b.h.refs[i]? = some (some p) → VtxOk p →
      writePort s0.compNames p name = .ok f → stored b.disk d = some f →
      ∃ w2', entry e' d w2 = .ok w2' ∧ Rel b.h w1.h w2'.h ∧ w2'.disk = b.disk ∧
        ∃ q, w2'.h.refs[i]? = some (some q) := by
    intro name i p f hl hb hv hwr hst
    have hl2 : w2.h.portIdx.look name = some i := by rw [hr.idx, hx.idx]; exact hl
    have hib : i < w2.h.refs.length := by
      rw [hr.len, ← (entry_ext h).len, ← he.len]; exact lt_of_get hb
    have hst2 : stored w2.disk d = some f := by rw [hdisk]; exact hst
    have hR := readFile_written (s := w2.h) hwr hv
    rcases free_or hib with hf | ⟨q, hq⟩
    · obtain ⟨n1, n2, q, ci, k1, k2, hs, hg, hok⟩ := hR.2 i hl2 hf
      have c1 : index w2.h.compIdx n1 = p.comp1 := by
        rw [hr.comp, hx.comp.index]; unfold index; rw [hdist _ _ k1]; rfl
      have c2 : index w2.h.compIdx n2 = p.comp2 := by
        rw [hr.comp, hx.comp.index]; unfold index; rw [hdist _ _ k2]; rfl
      rw [c1, c2] at hs
      exact ⟨_, entry_read hst2 hok, hr.right hb hs hf hg, hdisk, q, getElem?_set_some hf⟩
    · exact ⟨_, entry_read hst2 (hR.1 (.inr ⟨i, q, hl2, hq⟩)), hr, hdisk, q, hq⟩
  rcases entry_cases h with ⟨hs, h⟩ | ⟨f, hs, hrf, hdk⟩
  · obtain ⟨name, hname, ⟨rfl, hi⟩ | ⟨i, p, hm⟩⟩ := buildInput_spec h
    · -- nothing to build
      cases hst : stored b.disk d with
      | none =>
        rw [entry_build (by rw [hdisk]; exact hst)]
        exact ⟨w2, buildInput_idle hname (hr.idle hi), hr, hdisk⟩
      | some f =>
        obtain ⟨n, k1, k2, k3⟩ := stored_name hst
        rcases hfiles n f k3 with h1 | ⟨name', i, p, h1, h2, h3, h4⟩
        · have := h0 n f h1
          unfold stored at hs
          rw [k1] at hs
          dsimp only at hs
          rw [if_neg k2, this] at hs
          cases hs
        · obtain ⟨w2', g1, g2, g3, -⟩ := key name' i p f h1 h2 h3 h4 hst
          exact ⟨w2', g1, g2, g3⟩
    · rcases hm.disk with ⟨hno, -⟩ | ⟨-, file, f, h1, h2, h3, hdk⟩
      · rw [hw] at hno; cases hno
      · have hb : b.h.refs[i]? = some (some p) :=
          he.keep i p (by rw [hm.h]; exact getElem?_set_some hm.free)
        have hst : stored b.disk d = some f := by
          unfold stored
          rw [h1]
          dsimp only
          rw [if_neg h2]
          exact hd _ _ (by rw [hdk, Function.update_self])
        obtain ⟨w2', g1, g2, g3, q, hq⟩ := key name i p f (by rw [← hx.idx]; exact hm.look) hb hm.vtx
          (by rw [← hx.names]; exact h3) hst
        refine ⟨w2', g1, ?_, g3⟩
        exact g2.left (i := i) (p := p) (by rw [hm.h]) (fun x => by rw [hm.h]) (by rw [hm.h]) he
          hm.free hq
  · have hst : stored b.disk d = some f := stored_mono hd1 hs
    obtain ⟨s2', g1, g2⟩ := readFile_rel hrf he hr
    exact ⟨_, entry_read (by rw [hdisk]; exact hst) g1, g2, hdisk⟩

end

end Verif.PortFile
