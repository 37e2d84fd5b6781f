import Verif.Spec.SubMesh
import Verif.Proofs.LinAlg
import Mathlib.Data.List.Basic

/-! Helper lemmas for `Verif.Props.SubMesh`. -/

namespace Verif.SubMesh

open Verif.Topology Verif.LinAlg

/-- A match: boundary element `ib` of submesh `i` and `jb` of submesh `j` on one face. -/
structure Ev where
  i : Nat
  ib : Nat
  j : Nat
  jb : Nat
deriving DecidableEq

def Ev.pair (e : Ev) : Nat × Nat := (e.i, e.j)

def Ev.touches (e : Ev) (m b : Nat) : Bool := (e.i == m && e.ib == b) || (e.j == m && e.jb == b)

/-- The distinct pairs of a list of matches, in order of first occurrence. -/
def pairs (E : List Ev) : List (Nat × Nat) :=
  E.foldl (fun l e => if e.pair ∈ l then l else l ++ [e.pair]) []

theorem pairs_snoc (E : List Ev) (e : Ev) :
    pairs (E ++ [e]) = if e.pair ∈ pairs E then pairs E else pairs E ++ [e.pair] := by
  unfold pairs; rw [List.foldl_append]; rfl

theorem mem_pairs {E : List Ev} {q : Nat × Nat} : q ∈ pairs E ↔ ∃ e ∈ E, e.pair = q := by
  induction E using List.reverseRecOn with
  | nil => simp [pairs]
  | append_singleton E e ih =>
    rw [pairs_snoc]
    by_cases h : e.pair ∈ pairs E
    · rw [if_pos h, ih]
      constructor
      · rintro ⟨x, hx, hq⟩; exact ⟨x, by simp [hx], hq⟩
      · rintro ⟨x, hx, hq⟩
        rcases List.mem_append.1 hx with hx | hx
        · exact ⟨x, hx, hq⟩
        · obtain ⟨y, hy, hyq⟩ := ih.1 (by
            have : x = e := by simpa using hx
            rw [← hq, this]; exact h)
          exact ⟨y, hy, hyq⟩
    · rw [if_neg h, List.mem_append, ih]
      constructor
      · rintro (⟨x, hx, hq⟩ | hq)
        · exact ⟨x, by simp [hx], hq⟩
        · exact ⟨e, by simp, (List.mem_singleton.1 hq).symm⟩
      · rintro ⟨x, hx, hq⟩
        rcases List.mem_append.1 hx with hx | hx
        · exact Or.inl ⟨x, hx, hq⟩
        · refine Or.inr ?_
          rw [List.mem_singleton] at hx
          rw [← hq, hx]; simp

theorem nodup_pairs (E : List Ev) : (pairs E).Nodup := by
  induction E using List.reverseRecOn with
  | nil => simp [pairs]
  | append_singleton E e ih =>
    rw [pairs_snoc]
    by_cases h : e.pair ∈ pairs E
    · rw [if_pos h]; exact ih
    · rw [if_neg h, List.nodup_append]
      refine ⟨ih, by simp, ?_⟩
      intro a ha b hb hab
      rw [List.mem_singleton] at hb
      exact h (hb ▸ hab ▸ ha)

theorem idxOf_pairs_snoc {E : List Ev} {e : Ev} {q : Nat × Nat} (h : q ∈ pairs E) :
    (pairs (E ++ [e])).idxOf q = (pairs E).idxOf q := by
  rw [pairs_snoc]
  by_cases h' : e.pair ∈ pairs E
  · rw [if_pos h']
  · rw [if_neg h', List.idxOf_append_of_mem h]

theorem idxOf_getElem? {l : List (Nat × Nat)} {q : Nat × Nat} (h : q ∈ l) :
    l[l.idxOf q]? = some q := by
  rw [List.getElem?_eq_getElem (List.idxOf_lt_length_of_mem h)]
  simp

theorem getElem?_idxOf {l : List (Nat × Nat)} {q : Nat × Nat} {p : Nat} (hn : l.Nodup)
    (h : l[p]? = some q) : l.idxOf q = p := by
  obtain ⟨hp, e⟩ := List.getElem?_eq_some_iff.1 h
  rw [← e]; exact hn.idxOf_getElem p hp

section
variable (pm : Parent) (subs : List Sub) (faceMaps : List (List Int)) (bes0 : List (List BE))
  (g : Int)

def be0 (m b : Nat) : BE := (bes0.getD m []).getD b ⟨0, 0, 0⟩
def nb (m : Nat) : Nat := (bes0.getD m []).length
def pf (m b : Nat) : Int := (faceMaps.getD m []).getD (be0 bes0 m b).face (-1)
def fc (f : Int) : Face := (pm.faces[f.toNat]?).getD ⟨0, 0, 0, 0⟩

def infsOf (i ib : Nat) : Int × Int :=
  let f := fc pm (pf faceMaps bes0 i ib)
  let e := (((subs.getD i ⟨[], [], 0, []⟩).elemMap)[(be0 bes0 i ib).elem]?).getD 0
  if (e : Int) = f.e0 then (f.inf0, f.inf1) else (f.inf1, f.inf0)

def infoOf (e : Ev) : InterfaceInfo :=
  ⟨e.ib, e.jb, (infsOf pm subs faceMaps bes0 e.i e.ib).1, (infsOf pm subs faceMaps bes0 e.i e.ib).2⟩

/-- The attribute of the port of a pair. -/
def attrOf (E : List Ev) (q : Nat × Nat) : Int := g + 2 + ((pairs E).idxOf q : Nat)

def attrNow (E : List Ev) (m b : Nat) : Int :=
  match E.find? (·.touches m b) with
  | some e => attrOf g E e.pair
  | none => (be0 bes0 m b).attr

def portAt (g : Int) (p : Nat) (q : Nat × Nat) : PortInfo := ⟨g + 2 + p, q.1, q.2, g + 2 + p, g + 2 + p⟩

def beNow (E : List Ev) (m b : Nat) : BE := { be0 bes0 m b with attr := attrNow bes0 g E m b }

/-- The state after the matches `E`. -/
def stateOf (n : Nat) (E : List Ev) : IState where
  bes := tab n fun m => tab (nb bes0 m) fun b => beNow bes0 g E m b
  ifAttr := g + 2 + ((pairs E).length : Nat)
  attrs := tab (n * n) fun k =>
    if (k / n, k % n) ∈ pairs E then attrOf g E (k / n, k % n) else -1
  map := tab (n * n) fun k =>
    if (k / n, k % n) ∈ pairs E then some ((pairs E).idxOf (k / n, k % n)) else none
  ports := (pairs E).mapIdx (portAt g)
  infos := (pairs E).map fun q => (E.filter (·.pair == q)).map (infoOf pm subs faceMaps bes0)

/-- What the proofs need to know about the input. -/
structure Geo (n : Nat) : Prop where
  subs_len : subs.length = n
  gpos : 0 ≤ g
  face : ∀ m b, m < n → b < nb bes0 m → ∃ fm, rd faceMaps m = .ok fm ∧
    rd fm (be0 bes0 m b).face = .ok (pf faceMaps bes0 m b)
  inf : ∀ i ib j jb (a b : Int), i < n → j < n → ib < nb bes0 i → jb < nb bes0 j →
    findParentInterfaceInfo pm subs (pf faceMaps bes0 i ib) i { be0 bes0 i ib with attr := a } j
      { be0 bes0 j jb with attr := b } = .ok (infsOf pm subs faceMaps bes0 i ib)
  inj : ∀ m b b', m < n → b < nb bes0 m → b' < nb bes0 m →
    pf faceMaps bes0 m b = pf faceMaps bes0 m b' → b = b'
  two : ∀ a x b y c z, a < n → x < nb bes0 a → b < n → y < nb bes0 b → c < n → z < nb bes0 c →
    pf faceMaps bes0 a x = pf faceMaps bes0 b y → pf faceMaps bes0 b y = pf faceMaps bes0 c z →
    a = b ∨ b = c ∨ a = c
  gen : ∀ a x b y, a < n → x < nb bes0 a → b < n → y < nb bes0 b →
    pf faceMaps bes0 a x = pf faceMaps bes0 b y → (be0 bes0 a x).attr = g + 1 →
    (be0 bes0 b y).attr = g + 1

/-- A genuine match. -/
structure Good (n : Nat) (e : Ev) : Prop where
  lt : e.i < e.j
  jlt : e.j < n
  ib : e.ib < nb bes0 e.i
  jb : e.jb < nb bes0 e.j
  face : pf faceMaps bes0 e.i e.ib = pf faceMaps bes0 e.j e.jb
  gen : (be0 bes0 e.i e.ib).attr = g + 1

variable {pm subs faceMaps bes0 g}

theorem attrOf_snoc {E : List Ev} {e : Ev} {q : Nat × Nat} (h : q ∈ pairs E) :
    attrOf g (E ++ [e]) q = attrOf g E q := by
  unfold attrOf; rw [idxOf_pairs_snoc h]

theorem touches_iff {e : Ev} {m b : Nat} :
    e.touches m b = true ↔ (e.i = m ∧ e.ib = b) ∨ (e.j = m ∧ e.jb = b) := by
  simp [Ev.touches]

theorem attrNow_untouched {E : List Ev} {m b : Nat} (h : ∀ e ∈ E, e.touches m b = false) :
    attrNow bes0 g E m b = (be0 bes0 m b).attr := by
  unfold attrNow
  rw [List.find?_eq_none.2 (by intro e he; simp [h e he])]

theorem attrNow_snoc_other {E : List Ev} {e : Ev} {m b : Nat} (h : e.touches m b = false) :
    attrNow bes0 g (E ++ [e]) m b = attrNow bes0 g E m b := by
  unfold attrNow
  rw [List.find?_append]
  cases hf : E.find? (·.touches m b) with
  | none => simp [h]
  | some x =>
    simp only [Option.some_or]
    exact attrOf_snoc (mem_pairs.2 ⟨x, List.mem_of_find?_eq_some hf, rfl⟩)

theorem attrNow_snoc_self {E : List Ev} {e : Ev} {m b : Nat} (h : e.touches m b = true)
    (hE : ∀ x ∈ E, x.touches m b = false) :
    attrNow bes0 g (E ++ [e]) m b = attrOf g (E ++ [e]) e.pair := by
  unfold attrNow
  rw [List.find?_append, List.find?_eq_none.2 (by intro e he; simp [hE e he])]
  simp [h]

variable {n : Nat}

/-- Two matches that touch the same boundary element are the same. -/
theorem Geo.same (hg : Geo pm subs faceMaps bes0 g n) {e x : Ev} {m b : Nat}
    (he : Good faceMaps bes0 g n e) (hx : Good faceMaps bes0 g n x)
    (te : e.touches m b = true) (tx : x.touches m b = true) : e = x := by
  obtain ⟨i, ib, j, jb⟩ := e
  obtain ⟨i', ib', j', jb'⟩ := x
  obtain ⟨h1, h2, h3, h4, h5, h6⟩ := he
  obtain ⟨k1, k2, k3, k4, k5, k6⟩ := hx
  simp only at h1 h2 h3 h4 h5 h6 k1 k2 k3 k4 k5 k6
  rw [touches_iff] at te tx
  simp only at te tx
  have hii : i < n := by omega
  have hii' : i' < n := by omega
  rcases te with ⟨rfl, rfl⟩ | ⟨rfl, rfl⟩ <;> rcases tx with ⟨rfl, rfl⟩ | ⟨rfl, rfl⟩
  · rcases hg.two _ _ _ _ _ _ h2 h4 hii h3 k2 k4 h5.symm k5 with h | h | h
    · omega
    · omega
    · subst h
      have := hg.inj j jb jb' h2 h4 k4 (h5.symm.trans k5)
      subst this; rfl
  · rcases hg.two _ _ _ _ _ _ h2 h4 hii h3 hii' k3 h5.symm k5.symm with h | h | h <;> omega
  · rcases hg.two _ _ _ _ _ _ hii h3 hii' k3 k2 k4 h5 k5 with h | h | h <;> omega
  · rcases hg.two _ _ _ _ _ _ hii h3 h2 h4 hii' k3 h5 k5.symm with h | h | h
    · omega
    · omega
    · subst h
      have := hg.inj i ib ib' hii h3 k3 (h5.trans k5.symm)
      subst this; rfl

theorem mod_pair {i j n : Nat} (hj : j < n) : ((i * n + j) / n, (i * n + j) % n) = (i, j) := by
  have hn : 0 < n := by omega
  rw [Nat.mul_comm, Nat.mul_add_div hn, Nat.mul_add_mod, Nat.div_eq_of_lt hj, Nat.mod_eq_of_lt hj]
  rfl

theorem pair_idx_lt {i j n : Nat} (hi : i < n) (hj : j < n) : i * n + j < n * n := by
  calc i * n + j < i * n + n := by omega
    _ = (i + 1) * n := by rw [Nat.add_mul, Nat.one_mul]
    _ ≤ n * n := Nat.mul_le_mul_right n hi

theorem div_mod_pair {k i j n : Nat} (hj : j < n) : (k / n, k % n) = (i, j) ↔ k = i * n + j := by
  constructor
  · intro h
    have h1 : k / n = i := congrArg Prod.fst h
    have h2 : k % n = j := congrArg Prod.snd h
    rw [← h1, ← h2, Nat.mul_comm]; exact (Nat.div_add_mod k n).symm
  · rintro rfl; exact mod_pair hj

/-- `ensurePort` on a state of the right shape: ports, tables and attribute counter as after the
match, interface lists and boundary elements not yet. -/
theorem ensurePort_eq (hgp : 0 ≤ g) {E : List Ev} {e : Ev} (he : Good faceMaps bes0 g n e) :
    ensurePort n e.i e.j (stateOf pm subs faceMaps bes0 g n E) = .ok
      { stateOf pm subs faceMaps bes0 g n (E ++ [e]) with
        bes := (stateOf pm subs faceMaps bes0 g n E).bes
        infos := (pairs (E ++ [e])).map fun q =>
          (E.filter (·.pair == q)).map (infoOf pm subs faceMaps bes0) } := by
  have hi : e.i < n := by have := he.lt; have := he.jlt; omega
  have hk := pair_idx_lt hi he.jlt
  unfold ensurePort stateOf
  simp only [rd_tab hk, ok_bind, mod_pair he.jlt, wr_tab hk]
  have hpair : (e.i, e.j) = e.pair := rfl
  rw [hpair]
  by_cases h : e.pair ∈ pairs E
  · have ha : ¬ attrOf g E e.pair ≤ 0 := by unfold attrOf; omega
    simp only [if_pos h, if_neg ha]
    have hp : pairs (E ++ [e]) = pairs E := by rw [pairs_snoc, if_pos h]
    have hat : ∀ q, attrOf g (E ++ [e]) q = attrOf g E q := by intro q; unfold attrOf; rw [hp]
    simp only [hp, hat]
  · simp only [if_neg h, show ((-1 : Int) ≤ 0) by decide, if_true]
    have hp : pairs (E ++ [e]) = pairs E ++ [e.pair] := by rw [pairs_snoc, if_neg h]
    have hidx : (pairs E ++ [e.pair]).idxOf e.pair = (pairs E).length := by
      rw [List.idxOf_append_of_notMem h]; simp
    congr 1
    simp only [IState.mk.injEq, hp, true_and]
    refine ⟨by simp; omega, ?_, ?_, ?_, ?_⟩
    · apply tab_congr
      intro k hk'
      by_cases hke : k = e.i * n + e.j
      · subst hke
        rw [Function.update_self, mod_pair he.jlt, hpair, if_pos (by simp)]
        unfold attrOf
        rw [hp, hidx]
      · rw [Function.update_of_ne hke]
        have hne : (k / n, k % n) ≠ e.pair := fun hh => hke ((div_mod_pair he.jlt).1 hh)
        by_cases hm : (k / n, k % n) ∈ pairs E
        · rw [if_pos hm, if_pos (by simp [hm]), attrOf_snoc hm]
        · rw [if_neg hm, if_neg (by simp [hm, hne])]
    · apply tab_congr
      intro k hk'
      by_cases hke : k = e.i * n + e.j
      · subst hke
        rw [Function.update_self, mod_pair he.jlt, hpair, if_pos (by simp), hidx]
        simp
      · rw [Function.update_of_ne hke]
        have hne : (k / n, k % n) ≠ e.pair := fun hh => hke ((div_mod_pair he.jlt).1 hh)
        by_cases hm : (k / n, k % n) ∈ pairs E
        · rw [if_pos hm, if_pos (by simp [hm]), List.idxOf_append_of_mem hm]
        · rw [if_neg hm, if_neg (by simp [hm, hne])]
    · rw [List.mapIdx_append]
      simp only [List.mapIdx_cons, List.mapIdx_nil, Nat.zero_add]
      rfl
    · rw [List.map_append]
      congr 1
      simp only [List.map_cons, List.map_nil]
      rw [List.filter_eq_nil_iff.2]
      · rfl
      · intro x hx
        simp only [beq_iff_eq]
        intro hxe
        exact h (mem_pairs.2 ⟨x, hx, hxe⟩)

theorem setBdrAttribute_tab {f : Nat → Nat → BE} {N : Nat → Nat} {m b : Nat} {a : Int}
    (hm : m < n) (hb : b < N m) :
    setBdrAttribute (tab n fun m => tab (N m) (f m)) m b a =
      .ok (tab n fun m' => tab (N m') fun b' =>
        if m' = m ∧ b' = b then { f m b with attr := a } else f m' b') := by
  unfold setBdrAttribute
  simp only [rd_tab hm, ok_bind, rd_tab hb, wr_tab hb, wr_tab hm]
  congr 1
  apply tab_congr
  intro m' hm'
  by_cases h : m' = m
  · subst h
    rw [Function.update_self]
    apply tab_congr
    intro b' hb'
    by_cases h' : b' = b
    · subst h'; simp
    · rw [Function.update_of_ne h']; simp [h']
  · rw [Function.update_of_ne h]
    apply tab_congr
    intro b' hb'; simp [h]

/-- One iteration of the innermost loop without a match. -/
theorem matchBody_no (hg : Geo pm subs faceMaps bes0 g n) {E : List Ev} {i ib j jb : Nat}
    (hj : j < n) (hjb : jb < nb bes0 j)
    (hne : pf faceMaps bes0 i ib ≠ pf faceMaps bes0 j jb) :
    matchBody pm subs faceMaps n (g + 1) i ib (pf faceMaps bes0 i ib) j jb
      (stateOf pm subs faceMaps bes0 g n E) = .ok (stateOf pm subs faceMaps bes0 g n E) := by
  obtain ⟨fm, h1, h2⟩ := hg.face j jb hj hjb
  unfold matchBody
  simp only [h1, ok_bind, stateOf, rd_tab hj, rd_tab hjb, beNow, h2]
  rw [if_pos hne]

/-- One iteration of the innermost loop with a match. -/
theorem matchBody_yes (hg : Geo pm subs faceMaps bes0 g n) {E : List Ev} {e : Ev}
    (he : Good faceMaps bes0 g n e) (hE : ∀ x ∈ E, Good faceMaps bes0 g n x) (hnew : e ∉ E) :
    matchBody pm subs faceMaps n (g + 1) e.i e.ib (pf faceMaps bes0 e.i e.ib) e.j e.jb
      (stateOf pm subs faceMaps bes0 g n E) =
      .ok (stateOf pm subs faceMaps bes0 g n (E ++ [e])) := by
  have hi : e.i < n := by have := he.lt; have := he.jlt; omega
  have hk := pair_idx_lt hi he.jlt
  obtain ⟨fm, h1, h2⟩ := hg.face e.j e.jb he.jlt he.jb
  have hun : ∀ m b, e.touches m b = true → ∀ x ∈ E, x.touches m b = false := by
    intro m b ht x hx
    by_contra hc
    have := hg.same he (hE x hx) ht (by simpa using hc)
    exact hnew (this ▸ hx)
  have tj : e.touches e.j e.jb = true := by simp [Ev.touches]
  have ti : e.touches e.i e.ib = true := by simp [Ev.touches]
  have hgj : (be0 bes0 e.j e.jb).attr = g + 1 :=
    hg.gen e.i e.ib e.j e.jb hi he.ib he.jlt he.jb he.face he.gen
  have hmem : e.pair ∈ pairs (E ++ [e]) := mem_pairs.2 ⟨e, by simp, rfl⟩
  have hidx := List.idxOf_lt_length_of_mem hmem
  unfold matchBody
  have hbes : (stateOf pm subs faceMaps bes0 g n E).bes =
    tab n fun m => tab (nb bes0 m) fun b => beNow bes0 g E m b := rfl
  simp only [h1, ok_bind, hbes, rd_tab he.jlt, rd_tab he.jb]
  have hbf : (beNow bes0 g E e.j e.jb).face = (be0 bes0 e.j e.jb).face := rfl
  rw [hbf, h2]
  simp only [ok_bind]
  rw [if_neg (by simpa using he.face)]
  have hat : (beNow bes0 g E e.j e.jb).attr = g + 1 := by
    show attrNow bes0 g E e.j e.jb = _
    rw [attrNow_untouched (hun _ _ tj), hgj]
  rw [hat]
  simp only [beq_self_eq_true, require_true, ok_bind]
  rw [ensurePort_eq hg.gpos he]
  simp only [ok_bind]
  have hmap : rdInit (stateOf pm subs faceMaps bes0 g n (E ++ [e])).map (e.i * n + e.j) =
      .ok ((pairs (E ++ [e])).idxOf e.pair) := by
    unfold rdInit stateOf
    simp only [rd_tab hk, ok_bind, mod_pair he.jlt]
    rw [show (e.i, e.j) = e.pair from rfl, if_pos hmem]
  rw [hmap]
  simp only [ok_bind, hbes, rd_tab hi, rd_tab he.ib]
  have hinf := hg.inf e.i e.ib e.j e.jb (attrNow bes0 g E e.i e.ib) (attrNow bes0 g E e.j e.jb)
    hi he.jlt he.ib he.jb
  have hinf' : findParentInterfaceInfo pm subs (pf faceMaps bes0 e.i e.ib) e.i
      (beNow bes0 g E e.i e.ib) e.j (beNow bes0 g E e.j e.jb) =
      .ok (infsOf pm subs faceMaps bes0 e.i e.ib) := hinf
  rw [hinf']
  have hattr : rd (stateOf pm subs faceMaps bes0 g n (E ++ [e])).attrs (e.i * n + e.j) =
      .ok (attrOf g (E ++ [e]) e.pair) := by
    unfold stateOf
    simp only [rd_tab hk, mod_pair he.jlt]
    rw [show (e.i, e.j) = e.pair from rfl, if_pos hmem]
  simp only [ok_bind, hattr]
  rw [setBdrAttribute_tab hi he.ib]
  simp only [ok_bind]
  rw [setBdrAttribute_tab he.jlt he.jb]
  simp only [ok_bind]
  have hinfos : rd ((pairs (E ++ [e])).map fun q =>
      (E.filter (·.pair == q)).map (infoOf pm subs faceMaps bes0)) ((pairs (E ++ [e])).idxOf e.pair)
      = .ok ((E.filter (·.pair == e.pair)).map (infoOf pm subs faceMaps bes0)) := by
    rw [rd_eq_ok, List.getElem?_map, idxOf_getElem? hmem]; rfl
  rw [hinfos]
  simp only [ok_bind]
  rw [wr_of_lt (by simpa using hidx)]
  simp only [ok_bind]
  congr 1
  unfold stateOf
  simp only [IState.mk.injEq, true_and]
  refine ⟨?_, ?_⟩
  · apply tab_congr
    intro m hm
    apply tab_congr
    intro b hb
    by_cases hmj : m = e.j ∧ b = e.jb
    · rw [if_pos hmj]
      obtain ⟨rfl, rfl⟩ := hmj
      rw [if_neg (by have := he.lt; omega)]
      unfold beNow
      rw [attrNow_snoc_self tj (hun _ _ tj)]
    · rw [if_neg hmj]
      by_cases hmi : m = e.i ∧ b = e.ib
      · rw [if_pos hmi]
        obtain ⟨rfl, rfl⟩ := hmi
        unfold beNow
        rw [attrNow_snoc_self ti (hun _ _ ti)]
      · rw [if_neg hmi]
        unfold beNow
        rw [attrNow_snoc_other]
        by_contra hc
        rcases touches_iff.1 (by simpa using hc) with ⟨a, b⟩ | ⟨a, b⟩
        · exact hmi ⟨a.symm, b.symm⟩
        · exact hmj ⟨a.symm, b.symm⟩
  · apply List.ext_getElem?
    intro p
    rw [List.getElem?_set, List.length_map, List.getElem?_map, List.getElem?_map]
    by_cases hp : (pairs (E ++ [e])).idxOf e.pair = p
    · rw [if_pos hp, if_pos (hp ▸ hidx), ← hp, idxOf_getElem? hmem]
      simp [List.filter_append, infoOf]
    · rw [if_neg hp]
      cases hq : (pairs (E ++ [e]))[p]? with
      | none => rfl
      | some q =>
        have hne : e.pair ≠ q := by
          rintro rfl
          exact hp (getElem?_idxOf (nodup_pairs _) hq)
        simp [List.filter_append, hne]


variable (faceMaps bes0 g n)

/-- Matches of boundary element `(i, ib)` with the first `k` boundary elements of submesh `j`. -/
def ev4 (i ib j k : Nat) : List Ev :=
  ((List.range k).filter fun jb => pf faceMaps bes0 i ib == pf faceMaps bes0 j jb).map
    fun jb => ⟨i, ib, j, jb⟩

def ev3 (i ib k : Nat) : List Ev :=
  (List.range k).flatMap fun j => ev4 faceMaps bes0 i ib (i + 1 + j) (nb bes0 (i + 1 + j))

def ev2 (i k : Nat) : List Ev :=
  (List.range k).flatMap fun ib =>
    if (be0 bes0 i ib).attr = g + 1 then ev3 faceMaps bes0 i ib (n - (i + 1)) else []

def ev1 (k : Nat) : List Ev :=
  (List.range k).flatMap fun i => ev2 faceMaps bes0 g n i (nb bes0 i)

variable {faceMaps bes0 g n}

theorem mem_ev4 {i ib j k : Nat} {e : Ev} : e ∈ ev4 faceMaps bes0 i ib j k ↔
    e.i = i ∧ e.ib = ib ∧ e.j = j ∧ e.jb < k ∧ pf faceMaps bes0 i ib = pf faceMaps bes0 j e.jb := by
  obtain ⟨a, b, c, d⟩ := e
  simp only [ev4, List.mem_map, List.mem_filter, List.mem_range, beq_iff_eq, Ev.mk.injEq]
  constructor
  · rintro ⟨x, ⟨h1, h2⟩, rfl, rfl, rfl, rfl⟩; exact ⟨rfl, rfl, rfl, h1, h2⟩
  · rintro ⟨rfl, rfl, rfl, h1, h2⟩; exact ⟨d, ⟨h1, h2⟩, rfl, rfl, rfl, rfl⟩

theorem mem_ev3 {i ib k : Nat} {e : Ev} : e ∈ ev3 faceMaps bes0 i ib k ↔
    e.i = i ∧ e.ib = ib ∧ i < e.j ∧ e.j < i + 1 + k ∧ e.jb < nb bes0 e.j ∧
      pf faceMaps bes0 i ib = pf faceMaps bes0 e.j e.jb := by
  simp only [ev3, List.mem_flatMap, List.mem_range, mem_ev4]
  constructor
  · rintro ⟨x, hx, h1, h2, h3, h4, h5⟩
    refine ⟨h1, h2, by omega, by omega, h3 ▸ h4, h3 ▸ h5⟩
  · rintro ⟨h1, h2, h3, h4, h5, h6⟩
    have : i + 1 + (e.j - (i + 1)) = e.j := by omega
    refine ⟨e.j - (i + 1), by omega, h1, h2, by omega, by rw [this]; exact h5, by rw [this]; exact h6⟩

theorem mem_ev2 {i k : Nat} {e : Ev} (hi : i < n) : e ∈ ev2 faceMaps bes0 g n i k ↔
    e.i = i ∧ e.ib < k ∧ (be0 bes0 e.i e.ib).attr = g + 1 ∧ i < e.j ∧ e.j < n ∧
      e.jb < nb bes0 e.j ∧ pf faceMaps bes0 e.i e.ib = pf faceMaps bes0 e.j e.jb := by
  simp only [ev2, List.mem_flatMap, List.mem_range]
  constructor
  · rintro ⟨ib, hib, h⟩
    by_cases hc : (be0 bes0 i ib).attr = g + 1
    · rw [if_pos hc, mem_ev3] at h
      obtain ⟨h1, h2, h3, h4, h5, h6⟩ := h
      subst h1; subst h2
      exact ⟨rfl, hib, hc, h3, by omega, h5, h6⟩
    · rw [if_neg hc] at h; cases h
  · rintro ⟨h1, h2, h3, h4, h5, h6, h7⟩
    subst h1
    refine ⟨e.ib, h2, ?_⟩
    rw [if_pos h3, mem_ev3]
    exact ⟨rfl, rfl, h4, by omega, h6, h7⟩

theorem mem_ev1 {k : Nat} {e : Ev} (hk : k ≤ n) : e ∈ ev1 faceMaps bes0 g n k ↔
    e.i < k ∧ Good faceMaps bes0 g n e := by
  simp only [ev1, List.mem_flatMap, List.mem_range]
  constructor
  · rintro ⟨i, hi, h⟩
    obtain ⟨h1, h2, h3, h4, h5, h6, h7⟩ := (mem_ev2 (by omega)).1 h
    subst h1
    exact ⟨hi, h4, h5, h2, h6, h7, h3⟩
  · rintro ⟨hi, h1, h2, h3, h4, h5, h6⟩
    exact ⟨e.i, hi, (mem_ev2 (by omega)).2 ⟨rfl, h3, h6, h1, h2, h4, h5⟩⟩

theorem flatMap_range_succ {α : Type _} (k : Nat) (f : Nat → List α) :
    (List.range (k + 1)).flatMap f = (List.range k).flatMap f ++ f k := by
  rw [List.range_succ, List.flatMap_append]; simp

theorem ev4_succ (i ib j k : Nat) : ev4 faceMaps bes0 i ib j (k + 1) = ev4 faceMaps bes0 i ib j k ++
    if pf faceMaps bes0 i ib = pf faceMaps bes0 j k then [⟨i, ib, j, k⟩] else [] := by
  unfold ev4
  rw [List.range_succ, List.filter_append, List.map_append]
  congr 1
  by_cases h : pf faceMaps bes0 i ib = pf faceMaps bes0 j k
  · simp [h]
  · simp [h]

theorem bes_row {E : List Ev} {m : Nat} (hm : m < n) :
    rd (stateOf pm subs faceMaps bes0 g n E).bes m =
      .ok (tab (nb bes0 m) fun b => beNow bes0 g E m b) := rd_tab hm

theorem loop4 (hg : Geo pm subs faceMaps bes0 g n) {E : List Ev} {i ib j : Nat} (hij : i < j)
    (hj : j < n) (hib : ib < nb bes0 i) (hgen : (be0 bes0 i ib).attr = g + 1)
    (hE : ∀ x ∈ E, Good faceMaps bes0 g n x)
    (hnew : ∀ x ∈ E, ¬ (x.i = i ∧ x.ib = ib ∧ x.j = j)) :
    loop (nb bes0 j) (fun jb st =>
      matchBody pm subs faceMaps n (g + 1) i ib (pf faceMaps bes0 i ib) j jb st)
      (stateOf pm subs faceMaps bes0 g n E) =
      .ok (stateOf pm subs faceMaps bes0 g n (E ++ ev4 faceMaps bes0 i ib j (nb bes0 j))) := by
  refine loop_spec (fun k => stateOf pm subs faceMaps bes0 g n (E ++ ev4 faceMaps bes0 i ib j k))
    (by simp [ev4]) ?_
  intro jb hjb
  rw [ev4_succ]
  by_cases h : pf faceMaps bes0 i ib = pf faceMaps bes0 j jb
  · rw [if_pos h, ← List.append_assoc]
    refine matchBody_yes hg (e := ⟨i, ib, j, jb⟩) ⟨hij, hj, hib, hjb, h, hgen⟩ ?_ ?_
    · intro x hx
      rcases List.mem_append.1 hx with hx | hx
      · exact hE x hx
      · obtain ⟨h1, h2, h3, h4, h5⟩ := mem_ev4.1 hx
        subst h1; subst h2; subst h3
        exact ⟨hij, hj, hib, by omega, h5, hgen⟩
    · intro hx
      rcases List.mem_append.1 hx with hx | hx
      · exact hnew _ hx ⟨rfl, rfl, rfl⟩
      · have := (mem_ev4.1 hx).2.2.2.1
        simp at this
  · rw [if_neg h, List.append_nil]
    exact matchBody_no hg hj hjb h

theorem faceBody_eq (hg : Geo pm subs faceMaps bes0 g n) {E : List Ev} {i ib : Nat}
    (hi : i < n) (hib : ib < nb bes0 i)
    (hE : ∀ x ∈ E, Good faceMaps bes0 g n x)
    (hnew : ∀ x ∈ E, ¬ (x.i = i ∧ x.ib = ib)) :
    faceBody pm subs faceMaps n (g + 1) i ib (stateOf pm subs faceMaps bes0 g n E) =
      .ok (stateOf pm subs faceMaps bes0 g n (E ++
        if (be0 bes0 i ib).attr = g + 1 then ev3 faceMaps bes0 i ib (n - (i + 1)) else [])) := by
  unfold faceBody
  simp only [bes_row hi, ok_bind, rd_tab hib]
  by_cases ht : ∃ x ∈ E, x.touches i ib = true
  · obtain ⟨x, hx, htx⟩ := ht
    have hgx := hE x hx
    have hxj : x.j = i ∧ x.jb = ib := by
      rcases touches_iff.1 htx with h | h
      · exact absurd h (hnew x hx)
      · exact h
    have hne : (beNow bes0 g E i ib).attr ≠ g + 1 := by
      show attrNow bes0 g E i ib ≠ g + 1
      unfold attrNow
      cases hf : E.find? (·.touches i ib) with
      | none => exact absurd htx (by simpa using List.find?_eq_none.1 hf x hx)
      | some y => simp only [attrOf]; omega
    rw [if_pos hne]
    have hnil : (if (be0 bes0 i ib).attr = g + 1 then ev3 faceMaps bes0 i ib (n - (i + 1))
        else []) = [] := by
      by_cases hc : (be0 bes0 i ib).attr = g + 1
      · rw [if_pos hc]
        apply List.eq_nil_iff_forall_not_mem.2
        intro y hy
        obtain ⟨h1, h2, h3, h4, h5, h6⟩ := mem_ev3.1 hy
        have hfx := hgx.face
        rw [hxj.1, hxj.2] at hfx
        have := hg.two x.i x.ib i ib y.j y.jb (by have := hgx.lt; omega) hgx.ib hi hib (by omega)
          h5 hfx h6
        have := hgx.lt
        omega
      · rw [if_neg hc]
    rw [hnil, List.append_nil]
  · push Not at ht
    have hat : (beNow bes0 g E i ib).attr = (be0 bes0 i ib).attr :=
      attrNow_untouched (by simpa using ht)
    rw [hat]
    by_cases hc : (be0 bes0 i ib).attr = g + 1
    · rw [if_neg (by simpa using hc), if_pos hc]
      obtain ⟨fm, h1, h2⟩ := hg.face i ib hi hib
      have hbf : (beNow bes0 g E i ib).face = (be0 bes0 i ib).face := rfl
      simp only [h1, ok_bind, hbf, h2]
      refine loop_spec (fun k => stateOf pm subs faceMaps bes0 g n (E ++ ev3 faceMaps bes0 i ib k))
        (by simp [ev3]) ?_
      intro k hk
      have hj : i + 1 + k < n := by omega
      simp only [bes_row hj, ok_bind, length_tab]
      have hs : ev3 faceMaps bes0 i ib (k + 1) = ev3 faceMaps bes0 i ib k ++
          ev4 faceMaps bes0 i ib (i + 1 + k) (nb bes0 (i + 1 + k)) := flatMap_range_succ k _
      rw [hs, ← List.append_assoc]
      refine loop4 hg (by omega) hj hib hc ?_ ?_
      · intro x hx
        rcases List.mem_append.1 hx with hx | hx
        · exact hE x hx
        · obtain ⟨e1, e2, h3, h4, h5, h6⟩ := mem_ev3.1 hx
          subst e1; subst e2
          exact ⟨h3, by omega, hib, h5, h6, hc⟩
      · intro x hx
        rcases List.mem_append.1 hx with hx | hx
        · exact fun h => hnew x hx ⟨h.1, h.2.1⟩
        · have := (mem_ev3.1 hx).2.2.2.1
          omega
    · rw [if_pos hc, if_neg hc, List.append_nil]

/-- The whole search, as a function of the list of all matches. -/
theorem buildInterfaceInfos_eq (hg : Geo pm subs faceMaps bes0 g n)
    (hmax : arrMax pm.bdrAttributes = .ok g) (hlen : bes0.length = n) :
    buildInterfaceInfos pm subs faceMaps bes0 =
      .ok (stateOf pm subs faceMaps bes0 g n (ev1 faceMaps bes0 g n n)) := by
  unfold buildInterfaceInfos
  simp only [hmax, ok_bind, hg.subs_len]
  refine loop_spec (fun k => stateOf pm subs faceMaps bes0 g n (ev1 faceMaps bes0 g n k)) ?_ ?_
  · unfold stateOf ev1
    simp only [IState.mk.injEq]
    refine ⟨?_, by simp [pairs], ?_, ?_, by simp [pairs], by simp [pairs]⟩
    · rw [← hlen]
      conv_lhs => rw [← tab_getD bes0 []]
      apply tab_congr
      intro m hm
      have hrow : bes0[m]?.getD [] = bes0.getD m [] := by simp
      rw [hrow]
      conv_lhs => rw [← tab_getD (bes0.getD m []) ⟨0, 0, 0⟩]
      apply tab_congr
      intro b hb
      have : beNow bes0 g [] m b = be0 bes0 m b := by
        unfold beNow attrNow; rfl
      simp only [List.range_zero, List.flatMap_nil, this]
      unfold be0
      rw [List.getD_eq_getElem?_getD, List.getD_eq_getElem?_getD]
    · apply List.ext_getElem?
      intro k
      rw [getElem?_tab, List.getElem?_replicate]
      simp [pairs]
    · apply List.ext_getElem?
      intro k
      rw [getElem?_tab, List.getElem?_replicate]
      simp [pairs]
  · intro i hi
    simp only [bes_row hi, ok_bind, length_tab]
    have hs : ev1 faceMaps bes0 g n (i + 1) = ev1 faceMaps bes0 g n i ++
        ev2 faceMaps bes0 g n i (nb bes0 i) := flatMap_range_succ i _
    rw [hs]
    refine loop_spec (fun k => stateOf pm subs faceMaps bes0 g n
      (ev1 faceMaps bes0 g n i ++ ev2 faceMaps bes0 g n i k)) (by simp [ev2]) ?_
    intro ib hib
    have hs : ev2 faceMaps bes0 g n i (ib + 1) = ev2 faceMaps bes0 g n i ib ++
        (if (be0 bes0 i ib).attr = g + 1 then ev3 faceMaps bes0 i ib (n - (i + 1)) else []) :=
      flatMap_range_succ ib _
    rw [hs, ← List.append_assoc]
    refine faceBody_eq hg hi hib ?_ ?_
    · intro x hx
      rcases List.mem_append.1 hx with hx | hx
      · exact ((mem_ev1 (by omega)).1 hx).2
      · obtain ⟨h1, h2, h3, h4, h5, h6, h7⟩ := (mem_ev2 hi).1 hx
        subst h1
        exact ⟨h4, h5, by omega, h6, h7, h3⟩
    · intro x hx
      rcases List.mem_append.1 hx with hx | hx
      · have := ((mem_ev1 (by omega)).1 hx).1
        omega
      · have := ((mem_ev2 hi).1 hx).2.1
        omega

end

end Verif.SubMesh
