import Verif.Spec.Hdf5
import Verif.Proofs.Basic
import Verif.Proofs.Blocks
import Verif.Proofs.LinAlg
import Std.Data.String.ToNat

/-! Helper lemmas for the HDF5 round trips. -/

namespace Verif.Hdf5

open Verif Spec

variable {R : Type}

theorem find_cons_self (f : File R) (k : Key) (o : Obj R) : find ((k, o) :: f) k = some o := by
  simp [find]

theorem find_cons_ne (f : File R) {k k' : Key} (o : Obj R) (h : k ≠ k') :
    find ((k, o) :: f) k' = find f k' := by
  simp [find, h]

theorem Spec.Later.refl (f : File R) : Later f f := fun _ _ h => h

theorem Spec.Later.trans {f g h : File R} (a : Later f g) (b : Later g h) : Later f h :=
  fun k o hk => b k o (a k o hk)

theorem Spec.Later.isOpen {f f' : File R} (h : Later f f') {loc : Loc} (ho : isOpen f loc = true) :
    isOpen f' loc = true := by
  cases loc with
  | nil => rfl
  | cons n l =>
    simp only [Hdf5.isOpen] at ho ⊢
    cases hf : find f ⟨l, n, false⟩ with
    | none => rw [hf] at ho; simp at ho
    | some o =>
      rw [hf] at ho
      rw [h _ _ hf]
      exact ho

theorem later_cons {f : File R} {k : Key} {o : Obj R} (h : find f k = none) :
    Later f ((k, o) :: f) := by
  intro k' o' hk
  rw [find_cons_ne _ _ (by rintro rfl; rw [h] at hk; cases hk)]
  exact hk

theorem valid_cons {f : File R} {k : Key} {o : Obj R} (hv : Valid f) (ho : isOpen f k.loc = true)
    (h : find f k = none) : Valid ((k, o) :: f) := by
  intro k' hk
  by_cases e : k = k'
  · subst e; exact (later_cons h).isOpen ho
  · rw [find_cons_ne _ _ e] at hk
    exact (later_cons h).isOpen (hv k' hk)

theorem create_ok {f : File R} {k : Key} {o : Obj R} (ho : isOpen f k.loc = true)
    (h : find f k = none) : create f k o = .ok ((k, o) :: f) := by
  unfold create
  rw [ho, h]; rfl

theorem create_inv {f f' : File R} {k : Key} {o : Obj R} (h : create f k o = .ok f') :
    isOpen f k.loc = true ∧ find f k = none ∧ f' = (k, o) :: f := by
  unfold create at h
  cases h1 : isOpen f k.loc with
  | false => rw [h1] at h; cases h
  | true =>
    cases h2 : find f k with
    | some o => rw [h1, h2] at h; cases h
    | none => rw [h1, h2] at h; cases h; exact ⟨rfl, rfl, rfl⟩

/-- Nothing lies below a name that does not exist. -/
theorem Spec.Valid.below {f : File R} (hv : Valid f) {loc : Loc} {name : String}
    (h : find f ⟨loc, name, false⟩ = none) (k : Key) (hk : k.loc = name :: loc) :
    find f k = none := by
  by_contra hne
  have := hv k hne
  rw [hk] at this
  simp only [isOpen] at this
  rw [h] at this
  simp at this

theorem Spec.OnlyBelow.of_cons {f f' : File R} {loc : Loc} {name : String} {k : Key} {o : Obj R}
    (hk : k = ⟨loc, name, false⟩ ∨ (name :: loc) <:+ k.loc)
    (h : OnlyBelow f f' loc name) : OnlyBelow f ((k, o) :: f') loc name := by
  intro k' h1 h2
  rw [find_cons_ne]
  · exact h k' h1 h2
  · rintro rfl
    rcases hk with hk | hk
    · exact h1 hk
    · exact h2 hk

theorem Spec.OnlyBelow.refl (f : File R) (loc : Loc) (name : String) : OnlyBelow f f loc name :=
  fun _ _ _ => rfl

theorem ne_cons_self {α : Type _} (a : α) (l : List α) : a :: l ≠ l := by
  intro h; have := congrArg List.length h; simp at this

/-! ### Reading stored objects -/

theorem openDset_of {f : File R} {loc : Loc} {name : String} {dims : List Nat} {d : Data R}
    (h : find f ⟨loc, name, false⟩ = some (.dset dims d)) :
    openDset f loc name dims.length = .ok (dims, d) := by
  unfold openDset
  rw [h]
  simp [pure, Except.pure]

theorem openGroup_of {f : File R} {loc : Loc} {name : String}
    (h : find f ⟨loc, name, false⟩ = some .group) : openGroup f loc name = .ok (name :: loc) := by
  unfold openGroup; rw [h]

/-- An array is stored under a name. -/
def StoredArr {α : Type} [Elem R α] (f : File R) (loc : Loc) (name : String) (v : List α) : Prop :=
  find f ⟨loc, name, false⟩ = some (.dset [v.length] (Elem.pack v))

theorem readArray_of {α : Type} [Elem R α] {f : File R} {loc : Loc} {name : String} {v : List α}
    (h : StoredArr f loc name v) : readArray f loc name = .ok v := by
  unfold readArray
  have := openDset_of h
  rw [show ([v.length] : List Nat).length = 1 from rfl] at this
  rw [this]
  simp only [ok_bind, Elem.unpack_pack]
  cases v with
  | nil => rfl
  | cons a v => simp [pure, Except.pure]

theorem StoredArr.later {α : Type} [Elem R α] {f f' : File R} {loc : Loc} {name : String}
    {v : List α} (h : StoredArr f loc name v) (hl : Later f f') : StoredArr f' loc name v :=
  hl _ _ h

/-- The result of writing one object. -/
structure Wrote (f f' : File R) (loc : Loc) (name : String) : Prop where
  valid : Valid f'
  later : Later f f'
  only : OnlyBelow f f' loc name

theorem Wrote.trans {f g h : File R} {loc : Loc} {name : String} (a : Wrote f g loc name)
    (b : Wrote g h loc name) : Wrote f h loc name :=
  ⟨b.valid, a.later.trans b.later, fun k h1 h2 => (b.only k h1 h2).trans (a.only k h1 h2)⟩

theorem wrote_cons {f : File R} {loc : Loc} {name : String} {o : Obj R}
    (h : CanWrite f loc name) : Wrote f ((⟨loc, name, false⟩, o) :: f) loc name :=
  ⟨valid_cons h.1 h.2.1 h.2.2, later_cons h.2.2, .of_cons (.inl rfl) (.refl _ _ _)⟩

theorem writeArray_ok {α : Type} [Elem R α] {f : File R} {loc : Loc} {name : String}
    (h : CanWrite f loc name) (v : List α) :
    writeArray f loc name v
      = .ok ((⟨loc, name, false⟩, .dset [v.length] (Elem.pack v)) :: f) :=
  create_ok h.2.1 h.2.2

/-- Writing something into a group keeps the rest of the group writable. -/
theorem Spec.CanWrite.step {f f' : File R} {loc : Loc} {name name' : String} (h : CanWrite f loc name')
    (w : Wrote f f' loc name) (hne : name ≠ name') : CanWrite f' loc name' := by
  refine ⟨w.valid, w.later.isOpen h.2.1, ?_⟩
  rw [w.only]
  · exact h.2.2
  · intro e; exact hne (by simpa using e.symm)
  · rintro ⟨t, ht⟩
    have := congrArg List.length ht
    simp at this
    omega

/-- A freshly created group is empty and writable. -/
theorem Spec.CanWrite.group {f : File R} {loc : Loc} {name : String} (h : CanWrite f loc name)
    (n : String) :
    CanWrite ((⟨loc, name, false⟩, .group) :: f) (name :: loc) n := by
  refine ⟨(wrote_cons h).valid, ?_, ?_⟩
  · simp only [isOpen]; rw [find_cons_self]
  · rw [find_cons_ne]
    · exact h.1.below h.2.2 _ rfl
    · intro e
      have := congrArg Key.loc e
      exact ne_cons_self name loc this.symm

/-- A freshly created group has no attributes. -/
theorem attr_free {f : File R} {loc : Loc} {name : String} (h : CanWrite f loc name)
    (n : String) : find (((⟨loc, name, false⟩, .group) :: f : File R)) ⟨name :: loc, n, true⟩ = none := by
  rw [find_cons_ne]
  · exact h.1.below h.2.2 _ rfl
  · intro e
    have := congrArg Key.loc e
    exact ne_cons_self name loc this.symm

/-- Writing below a group inside `name` is writing below `name`. -/
theorem Wrote.lift {f f' : File R} {loc : Loc} {name n : String}
    (w : Wrote f f' (name :: loc) n) : Wrote f f' loc name := by
  refine ⟨w.valid, w.later, fun k h1 h2 => w.only k ?_ ?_⟩
  · rintro rfl; exact h2 (List.suffix_refl _)
  · rintro ⟨t, ht⟩
    exact h2 ⟨t ++ [n], by rw [← ht]; simp⟩

theorem wrote_attr {f : File R} {loc : Loc} {name n : String} {v : Int} (hv : Valid f)
    (ho : isOpen f (name :: loc) = true) (h : find f ⟨name :: loc, n, true⟩ = none) :
    Wrote f ((⟨name :: loc, n, true⟩, .attrInt v) :: f) loc name :=
  ⟨valid_cons hv ho h, later_cons h, .of_cons (.inr (List.suffix_refl _)) (.refl _ _ _)⟩

theorem Wrote.arr {α : Type} [Elem R α] {f : File R} {loc : Loc} {name : String}
    (h : CanWrite f loc name) (v : List α) :
    ∃ f', writeArray f loc name v = .ok f' ∧ Wrote f f' loc name ∧ StoredArr f' loc name v :=
  ⟨_, writeArray_ok h v, wrote_cons h, find_cons_self _ _ _⟩

/-! ### Sparse matrices -/

/-- What is stored for a sparse matrix. -/
structure StoredCsr (f : File R) (loc : Loc) (name : String) (m : Csr R) : Prop where
  grp : find f ⟨loc, name, false⟩ = some .group
  I : StoredArr f (name :: loc) "I" (m.I.take (m.h + 1))
  J : StoredArr f (name :: loc) "J" (m.J.take (nnz m))
  data : StoredArr f (name :: loc) "data" ((m.data.take (nnz m)).map Dbl.mk)
  size : StoredArr f (name :: loc) "size" [(m.h : Int), (m.w : Int)]

theorem StoredCsr.later {f f' : File R} {loc : Loc} {name : String} {m : Csr R}
    (h : StoredCsr f loc name m) (hl : Later f f') : StoredCsr f' loc name m :=
  ⟨hl _ _ h.grp, h.I.later hl, h.J.later hl, h.data.later hl, h.size.later hl⟩

theorem Spec.CsrOk.mono' {m : Csr R} (h : CsrOk m) : ∀ {i j : Nat}, i ≤ j → j ≤ m.h →
    m.I[i]?.getD 0 ≤ m.I[j]?.getD 0 := by
  intro i j hij
  induction hij with
  | refl => intro _; exact Int.le_refl _
  | step _ ih => intro hj; exact Int.le_trans (ih (by omega)) (h.mono _ (by omega))

theorem Spec.CsrOk.nnz_cast {m : Csr R} (h : CsrOk m) : ((nnz m : Nat) : Int) = m.I[m.h]?.getD 0 := by
  have := CsrOk.mono' h (Nat.zero_le m.h) (Nat.le_refl _)
  rw [h.start] at this
  unfold nnz
  simp at this ⊢
  exact this

theorem Spec.CsrOk.rdI {m : Csr R} (h : CsrOk m) : m.I[m.h]? = some ((nnz m : Nat) : Int) := by
  rw [CsrOk.nnz_cast h]
  have := h.lenI
  rw [List.getElem?_eq_getElem (by omega)]
  rfl

theorem writeSparse_ok {f : File R} {loc : Loc} {name : String} (h : CanWrite f loc name)
    {m : Csr R} (hm : CsrOk m) :
    ∃ f', writeSparse f loc name m = .ok f' ∧ Wrote f f' loc name ∧ StoredCsr f' loc name m := by
  have w0 := wrote_cons (o := .group) h
  obtain ⟨f1, e1, w1, s1⟩ := Wrote.arr (CanWrite.group h "I") (m.I.take (m.h + 1))
  have c1 : ∀ n, "I" ≠ n → CanWrite f1 (name :: loc) n := fun n hn =>
    (CanWrite.group h n).step w1 hn
  obtain ⟨f2, e2, w2, s2⟩ := Wrote.arr (c1 "J" (by decide)) (m.J.take (nnz m))
  obtain ⟨f3, e3, w3, s3⟩ := Wrote.arr ((c1 "data" (by decide)).step w2 (by decide))
    ((m.data.take (nnz m)).map Dbl.mk)
  obtain ⟨f4, e4, w4, s4⟩ := Wrote.arr
    (((c1 "size" (by decide)).step w2 (by decide)).step w3 (by decide))
    [(m.h : Int), (m.w : Int)]
  refine ⟨f4, ?_, ?_, ?_⟩
  · unfold writeSparse
    rw [hm.fin, require_true, ok_bind, create_ok h.2.1 h.2.2, ok_bind]
    have a1 : bufTake m.I (m.h + 1) = .ok (m.I.take (m.h + 1)) := if_pos hm.lenI
    have a2 : rd (m.I.take (m.h + 1)) m.h = .ok ((nnz m : Nat) : Int) := by
      rw [rd_eq_ok, List.getElem?_take, if_pos (Nat.lt_succ_self _), CsrOk.rdI hm]
    have a3 : bufTake m.J (nnz m) = .ok (m.J.take (nnz m)) := if_pos hm.lenJ
    have a4 : bufTake m.data (nnz m) = .ok (m.data.take (nnz m)) := if_pos hm.lenD
    simp only [a1, a2, ok_bind, Int.toNat_natCast, a3, a4, e1, e2, e3, e4]
  · exact w0.trans (w1.lift.trans (w2.lift.trans (w3.lift.trans w4.lift)))
  · have l1 := w4.later
    have l2 := w3.later.trans l1
    have l3 := w2.later.trans l2
    exact ⟨(w1.later.trans l3) _ _ (find_cons_self _ _ _), s1.later l3, s2.later l2, s3.later l1, s4⟩

/-- The matrix read back: the buffers trimmed to the entries in use. -/
def trimCsr (m : Csr R) : Csr R :=
  ⟨m.h, m.w, m.I.take (m.h + 1), m.J.take (nnz m), m.data.take (nnz m), true⟩

theorem readSparse_of {f : File R} {loc : Loc} {name : String} {m : Csr R} (hm : CsrOk m)
    (hh : 0 < m.h) (hw : 0 < m.w) (h : StoredCsr f loc name m) :
    readSparse f loc name = .ok (trimCsr m) := by
  unfold readSparse
  rw [openGroup_of h.grp, ok_bind, readArray_of h.I, ok_bind, readArray_of h.J, ok_bind,
    readArray_of h.size, ok_bind, readArray_of h.data, ok_bind]
  have e1 : rd [(m.h : Int), (m.w : Int)] 0 = .ok (m.h : Int) := rfl
  have e2 : rd [(m.h : Int), (m.w : Int)] 1 = .ok (m.w : Int) := rfl
  have a2 : rdI (m.I.take (m.h + 1)) (m.h : Int) = .ok ((nnz m : Nat) : Int) := by
    unfold Verif.rdI
    rw [if_pos (by omega), Int.toNat_natCast, rd_eq_ok, List.getElem?_take,
      if_pos (Nat.lt_succ_self _), CsrOk.rdI hm]
  have l1 : (m.I.take (m.h + 1)).length = m.h + 1 := by
    rw [List.length_take]; exact Nat.min_eq_left hm.lenI
  have l2 : (m.J.take (nnz m)).length = nnz m := by
    rw [List.length_take]; exact Nat.min_eq_left hm.lenJ
  have l3 : ((m.data.take (nnz m)).map Dbl.mk).length = nnz m := by
    rw [List.length_map, List.length_take]; exact Nat.min_eq_left hm.lenD
  have hh' : decide ((0 : Int) < m.h) = true := by simpa using hh
  have hw' : decide ((0 : Int) < m.w) = true := by simpa using hw
  have b1 : ((((m.I.take (m.h + 1)).length : Nat) : Int) == (m.h : Int) + 1) = true := by
    rw [l1]; simp
  have b2 : ((((m.J.take (nnz m)).length : Nat) : Int) == ((nnz m : Nat) : Int)) = true := by
    rw [l2]; simp
  have b3 : (((((m.data.take (nnz m)).map Dbl.mk).length : Nat) : Int)
      == ((nnz m : Nat) : Int)) = true := by rw [l3]; simp
  have b0 : ([(m.h : Int), (m.w : Int)].length == 2) = true := rfl
  simp only [b0, e1, e2, ok_bind, hh', hw', Bool.and_self, require_true, b1, a2, b2, b3]
  simp [pure, Except.pure, trimCsr, Function.comp_def]

theorem sameCsr_trim {m : Csr R} (hm : CsrOk m) : SameCsr m (trimCsr m) := by
  refine ⟨rfl, rfl, hm.fin, ?_, ?_⟩
  · intro i hi
    show (m.I.take (m.h + 1))[i]? = _
    rw [List.getElem?_take, if_pos (by omega)]
  · intro k hk
    constructor
    · show (m.J.take (nnz m))[k]? = _
      rw [List.getElem?_take, if_pos hk]
    · show (m.data.take (nnz m))[k]? = _
      rw [List.getElem?_take, if_pos hk]

/-! ### Block names -/

theorem digits_no_us (n : Nat) : '_' ∉ (toString n : String).toList := by
  rw [show (toString n : String) = Nat.repr n from rfl, Nat.toList_repr]
  exact Nat.underscore_not_in_toDigits

theorem blockName_inj {i j i' j' : Nat} (h : blockName i j = blockName i' j') :
    i = i' ∧ j = j' := by
  have := congrArg String.toList h
  unfold blockName at this
  simp only [String.toList_append] at this
  simp only [List.append_assoc] at this
  have h2 := List.append_cancel_left this
  have h3 := list_split_unique (u := '_') (digits_no_us i) (digits_no_us i')
    (x := (toString j : String).toList) (y := (toString j' : String).toList) (by simpa using h2)
  exact ⟨Nat.repr_injective (String.toList_injective h3.1),
    Nat.repr_injective (String.toList_injective h3.2)⟩

theorem blockName_chars (i j : Nat) : ∃ t, (blockName i j).toList = 'b' :: t := by
  refine ⟨"lock_".toList ++ (toString i).toList ++ '_' :: (toString j).toList, ?_⟩
  unfold blockName
  simp [String.toList_append]

theorem blockName_ne {s : String} (h : s.toList.head? ≠ some 'b') (i j : Nat) :
    s ≠ blockName i j := by
  rintro rfl
  obtain ⟨t, ht⟩ := blockName_chars i j
  rw [ht] at h
  exact h rfl

/-! ### Block tables -/

theorem loop2_total {σ : Type _} {a b : Nat} {body : Nat → Nat → σ → Outcome σ}
    (Inv : Nat → σ → Prop) {s : σ} (h0 : Inv 0 s)
    (hstep : ∀ i j u, i < a → j < b → Inv (i * b + j) u →
      ∃ v, body i j u = .ok v ∧ Inv (i * b + j + 1) v) :
    ∃ t, loop a (fun i st => loop b (fun j st => body i j st) st) s = .ok t ∧ Inv (a * b) t := by
  refine loop_total (fun i u => Inv (i * b) u) (by simpa using h0) ?_
  intro i u hi hu
  obtain ⟨v, hv, hI⟩ := loop_total (n := b) (body := fun j st => body i j st)
    (fun j u => Inv (i * b + j) u) (s := u) (by simpa using hu)
    (fun j u hj hu => hstep i j u hi hj hu)
  refine ⟨v, hv, ?_⟩
  show Inv ((i + 1) * b) v
  rwa [Nat.succ_mul]

theorem Spec.CsrOk.h_pos {m : Csr R} (h : CsrOk m) (hn : nnz m ≠ 0) : 0 < m.h := by
  rcases Nat.eq_zero_or_pos m.h with h0 | h0
  · exfalso; apply hn
    unfold nnz; rw [h0, h.start]; rfl
  · exact h0

theorem Spec.CsrOk.w_pos {m : Csr R} (h : CsrOk m) (hn : nnz m ≠ 0) : 0 < m.w := by
  have := h.cols 0 (by omega)
  omega

/-- The entry of the `zero_blocks` table. -/
def zeroFlag (b : Option (Csr R)) : Bool :=
  match b with
  | none => true
  | some m => decide (nnz m = 0)

theorem isZeroBlock_ok {b : Option (Csr R)} (h : ∀ m, b = some m → CsrOk m) :
    isZeroBlock b = .ok (zeroFlag b) := by
  cases b with
  | none => rfl
  | some m =>
    have hm := h m rfl
    unfold isZeroBlock Csr.nnz
    simp only [rd_eq_ok.2 hm.rdI, ok_bind, zeroFlag, pure, Except.pure]
    congr 1
    rw [Bool.eq_iff_iff]; simp

/-- The table of flags. -/
def flags (nr nc : Nat) (blocks : Nat → Nat → Option (Csr R)) : Arr2 Bool :=
  ⟨nr, nc, tab (nr * nc) (fun t => zeroFlag (blocks (t / nc) (t % nc)))⟩

theorem zeroBlocks_ok {nr nc : Nat} {blocks : Nat → Nat → Option (Csr R)}
    (h : BlocksOk nr nc blocks) :
    zeroBlocks nr nc blocks = .ok (flags nr nc blocks) := by
  unfold zeroBlocks
  have key : loop nr (fun i d => loop nc (fun j d => do
      let z ← isZeroBlock (blocks i j)
      wr d (i * nc + j) z) d) (List.replicate (nr * nc) false)
      = .ok (tab (nr * nc) (fun t => zeroFlag (blocks (t / nc) (t % nc)))) := by
    obtain ⟨t, ht, h1⟩ := loop2_total (a := nr) (b := nc)
      (body := fun i j d => do
        let z ← isZeroBlock (blocks i j)
        wr d (i * nc + j) z)
      (fun t d => d = tab (nr * nc) (fun k => if k < t then zeroFlag (blocks (k / nc) (k % nc))
        else false)) (s := List.replicate (nr * nc) false) (by
        apply List.ext_getElem?
        intro k
        rw [getElem?_tab]
        simp [List.getElem?_replicate]) (by
        rintro i j u hi hj rfl
        have hlt : i * nc + j < nr * nc := by
          have := Nat.mul_le_mul_right nc (show i + 1 ≤ nr by omega)
          rw [Nat.succ_mul] at this; omega
        refine ⟨_, by rw [isZeroBlock_ok (fun m => h i j hi hj m), ok_bind, wr_tab hlt], ?_⟩
        apply tab_congr
        intro k hk
        by_cases e : k = i * nc + j
        · subst e
          rw [Function.update_self, if_pos (Nat.lt_succ_self _)]
          have hp : 0 < nc := by omega
          rw [Nat.mul_comm i nc, Nat.mul_add_div hp, Nat.div_eq_of_lt hj, Nat.mul_add_mod,
            Nat.mod_eq_of_lt hj, Nat.add_zero]
        · rw [Function.update_of_ne e]
          by_cases hk2 : k < i * nc + j
          · rw [if_pos hk2, if_pos (by omega)]
          · rw [if_neg hk2, if_neg (by omega)])
    rw [ht, h1]
    congr 1
    apply tab_congr
    intro k hk
    rw [if_pos hk]
  rw [key]; rfl

theorem flags_get {nr nc i j : Nat} (blocks : Nat → Nat → Option (Csr R)) (hi : i < nr)
    (hj : j < nc) : (flags nr nc blocks).get i j = .ok (zeroFlag (blocks i j)) := by
  unfold Arr2.get flags
  have hlt : i * nc + j < nr * nc := by
    have := Nat.mul_le_mul_right nc (show i + 1 ≤ nr by omega)
    rw [Nat.succ_mul] at this; omega
  show rd (tab _ _) (i * nc + j) = _
  rw [rd_tab hlt]
  have hp : 0 < nc := by omega
  rw [Nat.mul_comm i nc, Nat.mul_add_div hp, Nat.div_eq_of_lt hj, Nat.mul_add_mod,
    Nat.mod_eq_of_lt hj, Nat.add_zero]

theorem pair_cases {nc i j i' j' : Nat} (hj : j < nc) (hj' : j' < nc)
    (h : i * nc + j < i' * nc + j' + 1) (hne : ¬ (i = i' ∧ j = j')) :
    i * nc + j < i' * nc + j' := by
  by_contra hc
  have e : i * nc + j = i' * nc + j' := by omega
  apply hne
  have hn : 0 < nc := by omega
  have a1 : (i * nc + j) / nc = i := by
    rw [Nat.mul_comm, Nat.mul_add_div hn, Nat.div_eq_of_lt hj]; omega
  have a2 : (i' * nc + j') / nc = i' := by
    rw [Nat.mul_comm, Nat.mul_add_div hn, Nat.div_eq_of_lt hj']; omega
  have : i = i' := by rw [← a1, ← a2, e]
  subst this
  exact ⟨rfl, by omega⟩

theorem pair_le_ne {nc i j i' j' : Nat} (hj : j < nc) (hj' : j' < nc)
    (h : i' * nc + j' + 1 ≤ i * nc + j) : ¬ (i' = i ∧ j' = j) := by
  rintro ⟨rfl, rfl⟩; omega

/-- Every block with entries is stored. -/
def StoredBlocks (f : File R) (g : Loc) (nr nc : Nat) (blocks : Nat → Nat → Option (Csr R)) :
    Prop :=
  ∀ i j m, i < nr → j < nc → blocks i j = some m → nnz m ≠ 0 → StoredCsr f g (blockName i j) m

theorem StoredBlocks.later {f f' : File R} {g : Loc} {nr nc : Nat}
    {blocks : Nat → Nat → Option (Csr R)} (h : StoredBlocks f g nr nc blocks) (hl : Later f f') :
    StoredBlocks f' g nr nc blocks :=
  fun i j m hi hj hb hn => (h i j m hi hj hb hn).later hl

theorem writeBlocks_ok {f : File R} {loc : Loc} {name : String} {nr nc : Nat}
    {blocks : Nat → Nat → Option (Csr R)} (hb : BlocksOk nr nc blocks)
    (hc : ∀ i j, i < nr → j < nc → CanWrite f (name :: loc) (blockName i j))
    (hv : Valid f) :
    ∃ f', writeBlocks f (name :: loc) nr nc (flags nr nc blocks) blocks = .ok f' ∧
      Wrote f f' loc name ∧ StoredBlocks f' (name :: loc) nr nc blocks := by
  unfold writeBlocks
  obtain ⟨f', e, w, -, s⟩ := loop2_total (a := nr) (b := nc)
    (body := fun i j f => do
      let z ← (flags nr nc blocks).get i j
      if z then return f
      else match blocks i j with
        | none => .error .ub
        | some m => writeSparse f (name :: loc) (blockName i j) m)
    (fun t u => Wrote f u loc name ∧
      (∀ i j, i < nr → j < nc → t ≤ i * nc + j → CanWrite u (name :: loc) (blockName i j)) ∧
      (∀ i j m, i < nr → j < nc → i * nc + j < t → blocks i j = some m → nnz m ≠ 0 →
        StoredCsr u (name :: loc) (blockName i j) m)) (s := f)
    ⟨⟨hv, .refl _, .refl _ _ _⟩, fun i j hi hj _ => hc i j hi hj, fun i j m _ _ h => absurd h (by omega)⟩
    (by
      rintro i j u hi hj ⟨w, hcw, hst⟩
      rw [flags_get blocks hi hj, ok_bind]
      cases hz : zeroFlag (blocks i j) with
      | true =>
        refine ⟨u, rfl, w, fun a b ha hb' h => hcw a b ha hb' (by omega), ?_⟩
        intro a b m ha hb' hlt hbl hn
        refine hst a b m ha hb' (pair_cases hb' hj hlt ?_) hbl hn
        rintro ⟨rfl, rfl⟩
        rw [hbl] at hz
        simp [zeroFlag, hn] at hz
      | false =>
        cases hbl : blocks i j with
        | none => rw [hbl] at hz; cases hz
        | some m =>
          obtain ⟨v, ev, wv, sv⟩ := writeSparse_ok (hcw i j hi hj (Nat.le_refl _))
            (hb i j hi hj m hbl)
          refine ⟨v, ev, w.trans wv.lift, ?_, ?_⟩
          · intro a b ha hb' h
            refine (hcw a b ha hb' (by omega)).step wv ?_
            intro hne
            exact pair_le_ne hb' hj h (blockName_inj hne)
          · intro a b m' ha hb' hlt hbl' hn
            by_cases hab : a = i ∧ b = j
            · obtain ⟨rfl, rfl⟩ := hab
              rw [hbl] at hbl'; cases hbl'
              exact sv
            · exact (hst a b m' ha hb' (pair_cases hb' hj hlt hab) hbl' hn).later wv.later)
  refine ⟨f', e, w, fun i j m hi hj hbl hn => s i j m hi hj ?_ hbl hn⟩
  have := Nat.mul_le_mul_right nc (show i + 1 ≤ nr by omega)
  rw [Nat.succ_mul] at this; omega

/-- What a block looks like after reading. -/
def readBack (b : Option (Csr R)) : Option (Csr R) :=
  match b with
  | none => none
  | some m => if nnz m = 0 then none else some (trimCsr m)

theorem readBack_zero {b : Option (Csr R)} (h : zeroFlag b = true) : readBack b = none := by
  cases b with
  | none => rfl
  | some m => simp [zeroFlag] at h; simp [readBack, h]

theorem readBack_some {b : Option (Csr R)} (h : zeroFlag b = false) :
    ∃ m, b = some m ∧ nnz m ≠ 0 ∧ readBack b = some (trimCsr m) := by
  cases b with
  | none => cases h
  | some m => simp [zeroFlag] at h; exact ⟨m, rfl, h, by simp [readBack, h]⟩

theorem sameBlocks_readBack {nr nc : Nat} {blocks b : Nat → Nat → Option (Csr R)}
    (hb : BlocksOk nr nc blocks) (h : ∀ i j, i < nr → j < nc → b i j = readBack (blocks i j)) :
    SameBlocks nr nc blocks b := by
  intro i j hi hj
  have := h i j hi hj
  cases e : blocks i j with
  | none => rw [e] at this; exact this
  | some m =>
    rw [e] at this
    simp only [readBack] at this
    by_cases hn : nnz m = 0
    · simp only [hn, if_true] at this ⊢; exact this
    · simp only [hn, if_false] at this ⊢
      exact ⟨_, this, sameCsr_trim (hb i j hi hj m e)⟩

end Verif.Hdf5
