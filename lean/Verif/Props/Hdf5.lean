import Verif.Proofs.Hdf5
import Verif.Props.Blocks
import Mathlib.Tactic.IntervalCases

/-!
# C24 – C27: HDF5 round trips

Throughout, `Later f' f''` lets any further objects be written between the write and the read.
-/

namespace Verif.Hdf5

open Verif Spec

variable {R : Type}

/-- Files stay proper: the empty file is, and every successful creation keeps the property, keeps all
earlier objects and adds exactly one. -/
theorem create_keeps (f f' : File R) (k : Key) (o : Obj R) (hv : Valid f)
    (h : create f k o = .ok f') : Valid f' ∧ Later f f' ∧ find f' k = some o ∧
      ∀ k', k' ≠ k → find f' k' = find f k' := by
  obtain ⟨h1, h2, rfl⟩ := create_inv h
  exact ⟨valid_cons hv h1 h2, later_cons h2, find_cons_self _ _ _,
    fun k' hk => find_cons_ne _ _ hk.symm⟩

theorem valid_empty : Valid ([] : File R) := fun _ h => absurd rfl h

/-! ## C24: arrays, vectors, dense matrices, tensors -/

/-- Arrays of any element type and any length, including empty ones. -/
theorem array_roundTrip {α : Type} [Elem R α] (f : File R) (loc : Loc) (name : String)
    (h : CanWrite f loc name) (v : List α) :
    ∃ f', writeArray f loc name v = .ok f' ∧ Valid f' ∧ Later f f' ∧ OnlyBelow f f' loc name ∧
      ∀ f'', Later f' f'' → readArray f'' loc name = .ok v := by
  obtain ⟨f', e, w, s⟩ := Wrote.arr h v
  exact ⟨f', e, w.valid, w.later, w.only, fun f'' hl => readArray_of (s.later hl)⟩

/-- Rank-two arrays with at least one entry. -/
theorem array2_roundTrip {α : Type} [Elem R α] (f : File R) (loc : Loc) (name : String)
    (h : CanWrite f loc name) (a : Arr2 α) (hr : 0 < a.rows) (hc : 0 < a.cols)
    (hl : a.rows * a.cols ≤ a.data.length) :
    ∃ f', writeArray2 f loc name a = .ok f' ∧ Valid f' ∧ Later f f' ∧ OnlyBelow f f' loc name ∧
      ∀ f'', Later f' f'' → ∃ b, readArray2 f'' loc name = .ok b ∧ SameArr2 a b := by
  have hp : 0 < a.rows * a.cols := Nat.mul_pos hr hc
  have w := wrote_cons (o := .dset [a.rows, a.cols] (Elem.pack (a.data.take (a.rows * a.cols)))) h
  refine ⟨_, ?_, w.valid, w.later, w.only, ?_⟩
  · unfold writeArray2 Arr2.get
    rw [show 0 * a.cols + 0 = 0 by omega, rd_of_lt (by omega), ok_bind,
      show bufTake a.data (a.rows * a.cols) = .ok _ from if_pos hl, ok_bind]
    exact create_ok h.2.1 h.2.2
  · intro f'' hlt
    refine ⟨⟨a.rows, a.cols, a.data.take (a.rows * a.cols)⟩, ?_, rfl, rfl, ?_⟩
    · unfold readArray2
      have := openDset_of (hlt _ _ (find_cons_self f ⟨loc, name, false⟩ _))
      rw [show ([a.rows, a.cols] : List Nat).length = 2 from rfl] at this
      rw [this]
      simp only [ok_bind, Elem.unpack_pack]
      have : ¬ (a.rows = 0 ∨ a.cols = 0) := by omega
      simp [this, pure, Except.pure]
    · intro i j hi hj
      unfold Arr2.get rd
      dsimp only
      have := Nat.mul_le_mul_right a.cols (show i + 1 ≤ a.rows by omega)
      rw [Nat.succ_mul] at this
      rw [List.getElem?_take, if_pos (by omega)]

/-- C24 fails for empty rank-two arrays: writing one reads outside its buffer. -/
theorem array2_empty_ub {α : Type} [Elem R α] (f : File R) (loc : Loc) (name : String)
    (r c : Nat) : writeArray2 f loc name (⟨r, c, []⟩ : Arr2 α) = .error .ub := by
  unfold writeArray2 Arr2.get rd; rfl

/-- Vectors: exactly the non-empty ones are written, and come back. -/
theorem vector_roundTrip (f : File R) (loc : Loc) (name : String) (h : CanWrite f loc name)
    (v : List R) (hv : v ≠ []) :
    ∃ f', writeVector f loc name v = .ok f' ∧ Valid f' ∧ Later f f' ∧ OnlyBelow f f' loc name ∧
      ∀ f'', Later f' f'' → readVector f'' loc name = .ok v := by
  have hp : 0 < v.length := List.length_pos_of_ne_nil hv
  have w := wrote_cons (o := .dset [v.length] (.reals v)) h
  refine ⟨_, ?_, w.valid, w.later, w.only, ?_⟩
  · unfold writeVector
    rw [decide_eq_true hp, require_true, ok_bind]
    exact create_ok h.2.1 h.2.2
  · intro f'' hlt
    unfold readVector
    have := openDset_of (hlt _ _ (find_cons_self f ⟨loc, name, false⟩ _))
    rw [show ([v.length] : List Nat).length = 1 from rfl] at this
    rw [this, ok_bind]
    dsimp only
    rw [rd_of_lt hp]; rfl

theorem vector_empty_aborts (f : File R) (loc : Loc) (name : String) :
    writeVector f loc name [] = .error .abort := rfl

/-- Dense matrices with at least one entry, into any target matrix. -/
theorem dense_roundTrip [Zero R] (f : File R) (loc : Loc) (name : String)
    (h : CanWrite f loc name) (m : LinAlg.Mat R) (hh : 0 < m.h) (hw : 0 < m.w)
    (hl : m.h * m.w ≤ m.data.length) :
    ∃ f', writeDense f loc name m = .ok f' ∧ Valid f' ∧ Later f f' ∧ OnlyBelow f f' loc name ∧
      ∀ f'' (target : LinAlg.Mat R), Later f' f'' →
        target.h * target.w ≤ target.data.length →
        ∃ r, readDense f'' loc name target = .ok r ∧ SameMat m r := by
  have hp : 0 < m.h * m.w := Nat.mul_pos hh hw
  have w := wrote_cons (o := .dset [m.w, m.h] (.reals (m.data.take (m.h * m.w)))) h
  refine ⟨_, ?_, w.valid, w.later, w.only, ?_⟩
  · unfold writeDense
    rw [rd_of_lt (by omega), ok_bind, show bufTake m.data (m.h * m.w) = .ok _ from if_pos hl, ok_bind]
    exact create_ok h.2.1 h.2.2
  · intro f'' target hlt ht
    unfold readDense
    have := openDset_of (hlt _ _ (find_cons_self f ⟨loc, name, false⟩ _))
    rw [show ([m.w, m.h] : List Nat).length = 2 from rfl] at this
    rw [this, ok_bind]
    dsimp only
    simp only [List.getElem?_cons_succ, List.getElem?_cons_zero, Option.getD_some]
    have hs : (target.setSize m.h m.w).h = m.h ∧ (target.setSize m.h m.w).w = m.w ∧
        m.h * m.w ≤ (target.setSize m.h m.w).data.length := by
      unfold LinAlg.Mat.setSize
      by_cases c1 : target.h = m.h ∧ target.w = m.w
      · rw [if_pos c1]; exact ⟨c1.1, c1.2, by rw [← c1.1, ← c1.2]; exact ht⟩
      · rw [if_neg c1]
        by_cases c2 : target.data.length < m.h * m.w
        · rw [if_pos c2]; simp
        · rw [if_neg c2]; exact ⟨rfl, rfl, Nat.le_of_not_lt c2⟩
    obtain ⟨s1, s2, s3⟩ := hs
    rw [rd_of_lt (by omega), ok_bind]
    have hlen : (m.data.take (m.h * m.w)).length = m.h * m.w := by
      rw [List.length_take]; exact Nat.min_eq_left hl
    rw [show bufFill (target.setSize m.h m.w).data (m.data.take (m.h * m.w)) = .ok _ from
      if_pos (by rw [hlen]; exact s3), ok_bind]
    refine ⟨_, rfl, s1.symm, s2.symm, ?_⟩
    intro i j hi hj
    dsimp only
    rw [s1]
    have hidx : i + j * m.h < m.h * m.w := by
      have := Nat.mul_le_mul_left m.h (show j + 1 ≤ m.w by omega)
      rw [Nat.mul_add, Nat.mul_comm m.h j] at this; omega
    rw [List.getElem?_append_left (by rw [hlen]; exact hidx), List.getElem?_take, if_pos hidx]

/-- C24 fails for empty dense matrices: writing one reads outside its buffer. -/
theorem dense_empty_ub (f : File R) (loc : Loc) (name : String) (r c : Nat) :
    writeDense f loc name (⟨r, c, []⟩ : LinAlg.Mat R) = .error .ub := rfl

/-- Tensors with at least one entry, into any target tensor. -/
theorem tensor_roundTrip (f : File R) (loc : Loc) (name : String)
    (h : CanWrite f loc name) (t : Tens R) (hi : 0 < t.si) (hj : 0 < t.sj) (hk : 0 < t.sk)
    (hl : t.si * t.sj * t.sk ≤ t.data.length) :
    ∃ f', writeTensor f loc name t = .ok f' ∧ Valid f' ∧ Later f f' ∧ OnlyBelow f f' loc name ∧
      ∀ f'' (target : Tens R) junk, Later f' f'' →
        ∃ r, readTensor f'' loc name target junk = .ok r ∧ SameTens t r := by
  have hp : 0 < t.si * t.sj * t.sk := Nat.mul_pos (Nat.mul_pos hi hj) hk
  have w := wrote_cons
    (o := .dset [t.sk, t.sj, t.si] (.reals (t.data.take (t.si * t.sj * t.sk)))) h
  refine ⟨_, ?_, w.valid, w.later, w.only, ?_⟩
  · unfold writeTensor
    rw [rd_of_lt (by omega), ok_bind,
      show bufTake t.data (t.si * t.sj * t.sk) = .ok _ from if_pos hl, ok_bind]
    exact create_ok h.2.1 h.2.2
  · intro f'' target junk hlt
    unfold readTensor
    have := openDset_of (hlt _ _ (find_cons_self f ⟨loc, name, false⟩ _))
    rw [show ([t.sk, t.sj, t.si] : List Nat).length = 3 from rfl] at this
    rw [this, ok_bind]
    dsimp only
    simp only [List.getElem?_cons_succ, List.getElem?_cons_zero, Option.getD_some]
    have hs : (target.setSize t.si t.sj t.sk junk).si = t.si ∧
        (target.setSize t.si t.sj t.sk junk).sj = t.sj ∧
        (target.setSize t.si t.sj t.sk junk).sk = t.sk ∧
        t.si * t.sj * t.sk ≤ (target.setSize t.si t.sj t.sk junk).data.length := by
      unfold Tens.setSize
      by_cases c2 : target.data.length < t.si * t.sj * t.sk
      · rw [if_pos c2]; simp
      · rw [if_neg c2]; exact ⟨rfl, rfl, rfl, Nat.le_of_not_lt c2⟩
    obtain ⟨s1, s2, s3, s4⟩ := hs
    rw [rd_of_lt (by omega), ok_bind]
    have hlen : (t.data.take (t.si * t.sj * t.sk)).length = t.si * t.sj * t.sk := by
      rw [List.length_take]; exact Nat.min_eq_left hl
    rw [show bufFill (target.setSize t.si t.sj t.sk junk).data (t.data.take (t.si * t.sj * t.sk))
      = .ok _ from if_pos (by rw [hlen]; exact s4), ok_bind]
    refine ⟨_, rfl, s1.symm, s2.symm, s3.symm, ?_⟩
    intro i j k hi' hj' hk'
    dsimp only
    rw [s1, s2]
    have hidx : i + t.si * (j + t.sj * k) < t.si * t.sj * t.sk := by
      have a1 := Nat.mul_le_mul_left t.sj (show k + 1 ≤ t.sk by omega)
      rw [Nat.mul_add] at a1
      have a2 := Nat.mul_le_mul_left t.si (show j + t.sj * k + 1 ≤ t.sj * t.sk by omega)
      rw [Nat.mul_add, ← Nat.mul_assoc] at a2
      omega
    rw [List.getElem?_append_left (by rw [hlen]; exact hidx), List.getElem?_take, if_pos hidx]

theorem tensor_empty_ub (f : File R) (loc : Loc) (name : String) (i j k : Nat) :
    writeTensor f loc name (⟨i, j, k, []⟩ : Tens R) = .error .ub := rfl

/-- A name that is already in use is never overwritten: every writer stops. -/
theorem existing_name_aborts (f : File R) (loc : Loc) (name : String) (o : Obj R)
    (h : find f ⟨loc, name, false⟩ = some o) :
    (∀ (α : Type) [Elem R α] (v : List α), writeArray f loc name v = .error .abort) ∧
    (∀ v : List R, v ≠ [] → writeVector f loc name v = .error .abort) ∧
    (∀ m : LinAlg.Mat R, 0 < m.h * m.w → m.h * m.w ≤ m.data.length →
      writeDense f loc name m = .error .abort) ∧
    (∀ t : Tens R, 0 < t.si * t.sj * t.sk → t.si * t.sj * t.sk ≤ t.data.length →
      writeTensor f loc name t = .error .abort) := by
  have key : ∀ o', create f ⟨loc, name, false⟩ o' = .error .abort := by
    intro o'
    unfold create
    rw [h]
    cases isOpen f loc <;> rfl
  refine ⟨fun α _ v => key _, fun v hv => ?_, fun m hm hl => ?_, fun t ht hl => ?_⟩
  · unfold writeVector
    rw [decide_eq_true (List.length_pos_of_ne_nil hv), require_true, ok_bind, key]
  · unfold writeDense
    rw [rd_of_lt (by omega), ok_bind, show bufTake m.data (m.h * m.w) = .ok _ from if_pos hl,
      ok_bind, key]
  · unfold writeTensor
    rw [rd_of_lt (by omega), ok_bind,
      show bufTake t.data (t.si * t.sj * t.sk) = .ok _ from if_pos hl, ok_bind, key]

/-- Attributes. -/
theorem attr_roundTrip (f : File R) (loc : Loc) (name : String) (hv : Valid f)
    (ho : isOpen f loc = true) (h : find f ⟨loc, name, true⟩ = none) (v : Int) :
    ∃ f', writeAttr f loc name v = .ok f' ∧ Valid f' ∧ Later f f' ∧
      ∀ f'', Later f' f'' → readAttr f'' loc name = .ok v := by
  refine ⟨_, create_ok ho h, valid_cons hv ho h, later_cons h, ?_⟩
  intro f'' hl
  unfold readAttr
  rw [hl _ _ (find_cons_self _ _ _)]

/-- A 2×3 matrix in a buffer of capacity 7, written to an empty file and read into a 1×1 matrix. -/
example : (do
    let f ← writeDense ([] : File Int) [] "a" ⟨2, 3, [1, 2, 3, 4, 5, 6, 99]⟩
    let f ← writeArray f [] "b" [(7 : Int)]
    readDense f [] "a" ⟨1, 1, [0]⟩) = .ok ⟨2, 3, [1, 2, 3, 4, 5, 6]⟩ := by decide

example : CanWrite ([] : File Int) [] "a" := ⟨valid_empty, rfl, rfl⟩

/-! ## C25: sparse and block matrices -/

/-- Matching CSR structures represent the same matrix. -/
theorem sameCsr_entry [AddCommMonoid R] (a b : Csr R) (ha : CsrOk a) (h : SameCsr a b)
    (i j : Nat) (hi : i < a.h) : csrEntry b i j = csrEntry a i j := by
  obtain ⟨-, -, -, h4, h5⟩ := h
  unfold csrEntry
  rw [h4 i (by omega), h4 (i + 1) (by omega)]
  apply Finset.sum_congr rfl
  intro k hk
  rw [Finset.mem_Ico] at hk
  have hn : k < nnz a := by
    have := ha.mono' (show i + 1 ≤ a.h by omega) (Nat.le_refl _)
    unfold nnz
    omega
  rw [(h5 k hn).1, (h5 k hn).2]

/-- A proper CSR matrix without stored entries is the zero matrix. -/
theorem csrEntry_empty [AddCommMonoid R] (a : Csr R) (ha : CsrOk a) (hn : nnz a = 0) (i j : Nat)
    (hi : i < a.h) : csrEntry a i j = 0 := by
  unfold csrEntry
  have h1 := ha.mono' (show i + 1 ≤ a.h by omega) (Nat.le_refl _)
  unfold nnz at hn
  rw [Finset.Ico_eq_empty (by omega), Finset.sum_empty]

/-- Sparse matrices with at least one row and one column. -/
theorem sparse_roundTrip (f : File R) (loc : Loc) (name : String) (h : CanWrite f loc name)
    (m : Csr R) (hm : CsrOk m) (hh : 0 < m.h) (hw : 0 < m.w) :
    ∃ f', writeSparse f loc name m = .ok f' ∧ Valid f' ∧ Later f f' ∧ OnlyBelow f f' loc name ∧
      ∀ f'', Later f' f'' → ∃ r, readSparse f'' loc name = .ok r ∧ SameCsr m r := by
  obtain ⟨f', e, w, s⟩ := writeSparse_ok h hm
  exact ⟨f', e, w.valid, w.later, w.only,
    fun f'' hl => ⟨_, readSparse_of hm hh hw (s.later hl), sameCsr_trim hm⟩⟩

/-- C25 fails for matrices without rows or columns: they are written, but every read aborts. -/
theorem sparse_degenerate_aborts (f : File R) (loc : Loc) (name : String) (h : CanWrite f loc name)
    (m : Csr R) (hm : CsrOk m) (hz : m.h = 0 ∨ m.w = 0) :
    ∃ f', writeSparse f loc name m = .ok f' ∧
      ∀ f'', Later f' f'' → readSparse f'' loc name = .error .abort := by
  obtain ⟨f', e, w, s⟩ := writeSparse_ok h hm
  refine ⟨f', e, fun f'' hl => ?_⟩
  have s := s.later hl
  unfold readSparse
  rw [openGroup_of s.grp, ok_bind, readArray_of s.I, ok_bind, readArray_of s.J, ok_bind,
    readArray_of s.size, ok_bind, readArray_of s.data, ok_bind]
  have b0 : ([(m.h : Int), (m.w : Int)].length == 2) = true := rfl
  have e1 : rd [(m.h : Int), (m.w : Int)] 0 = .ok (m.h : Int) := rfl
  have e2 : rd [(m.h : Int), (m.w : Int)] 1 = .ok (m.w : Int) := rfl
  have : (decide ((0 : Int) < m.h) && decide ((0 : Int) < m.w)) = false := by
    rcases hz with hz | hz <;> rw [hz] <;> simp
  simp only [b0, e1, e2, require_true, ok_bind, this, require_false, error_bind]

/-- A matrix that was never finalised is rejected and nothing is written. -/
theorem sparse_unfinalized_aborts (f : File R) (loc : Loc) (name : String) (m : Csr R)
    (h : m.finalized = false) : writeSparse f loc name m = .error .abort := by
  unfold writeSparse; rw [h]; rfl

/-- `MatrixBlocks`: shape and every block with entries come back; blocks without entries come back as
missing. -/
theorem matrixBlocks_roundTrip (f : File R) (loc : Loc) (name : String) (h : CanWrite f loc name)
    (m : MBlocks R) (hr : 0 < m.nrows) (hc : 0 < m.ncols)
    (hb : BlocksOk m.nrows m.ncols m.blocks) :
    ∃ f', writeMBlocks f loc name m = .ok f' ∧ Valid f' ∧ Later f f' ∧ OnlyBelow f f' loc name ∧
      ∀ f'', Later f' f'' → ∃ r, readMBlocks f'' loc name = .ok r ∧
        r.nrows = m.nrows ∧ r.ncols = m.ncols ∧ SameBlocks m.nrows m.ncols m.blocks r.blocks := by
  have w0 := wrote_cons (o := .group) h
  have ho0 := (CanWrite.group h "x").2.1
  have w1 := wrote_attr (v := (m.nrows : Int)) w0.valid ho0 (attr_free h "nrows")
  have fr2 : find ((⟨name :: loc, "nrows", true⟩, Obj.attrInt (m.nrows : Int)) ::
      (⟨loc, name, false⟩, Obj.group) :: f : File R) ⟨name :: loc, "ncols", true⟩ = none := by
    rw [find_cons_ne _ _ (by simp)]; exact attr_free h "ncols"
  have w2 := wrote_attr (v := (m.ncols : Int)) w1.valid (w1.later.isOpen ho0) fr2
  set f2 : File R := (⟨name :: loc, "ncols", true⟩, Obj.attrInt (m.ncols : Int)) ::
    (⟨name :: loc, "nrows", true⟩, Obj.attrInt (m.nrows : Int)) ::
    (⟨loc, name, false⟩, Obj.group) :: f with hf2
  have c2 : ∀ n, CanWrite f2 (name :: loc) n := by
    intro n
    refine ⟨w2.valid, w2.later.isOpen (w1.later.isOpen ho0), ?_⟩
    rw [hf2, find_cons_ne _ _ (by simp), find_cons_ne _ _ (by simp)]
    exact (CanWrite.group h n).2.2
  have w3 := wrote_cons (o := .dset [m.nrows, m.ncols]
    (Elem.pack (flags m.nrows m.ncols m.blocks).data)) (c2 "zero_blocks")
  obtain ⟨f', e4, w4, s4⟩ := writeBlocks_ok (loc := loc) (name := name) hb
    (fun i j _ _ => (c2 (blockName i j)).step w3 (blockName_ne (by decide) i j)) w3.valid
  have hp : 0 < m.nrows * m.ncols := Nat.mul_pos hr hc
  have hlen : (flags m.nrows m.ncols m.blocks).data.length = m.nrows * m.ncols := length_tab _ _
  have htot := w0.trans (w1.trans (w2.trans (w3.lift.trans w4)))
  refine ⟨f', ?_, htot.valid, htot.later, htot.only, ?_⟩
  · unfold writeMBlocks
    rw [create_ok h.2.1 h.2.2, ok_bind]
    dsimp only
    unfold writeAttr
    rw [create_ok ho0 (attr_free h "nrows"), ok_bind, create_ok (w1.later.isOpen ho0) fr2, ok_bind,
      zeroBlocks_ok hb, ok_bind]
    have : writeArray2 f2 (name :: loc) "zero_blocks" (flags m.nrows m.ncols m.blocks)
        = .ok ((⟨name :: loc, "zero_blocks", false⟩, .dset [m.nrows, m.ncols]
          (Elem.pack (flags m.nrows m.ncols m.blocks).data)) :: f2) := by
      unfold writeArray2
      rw [flags_get m.blocks hr hc, ok_bind]
      have : bufTake (flags m.nrows m.ncols m.blocks).data (m.nrows * m.ncols)
          = .ok (flags m.nrows m.ncols m.blocks).data := by
        unfold bufTake
        rw [if_pos (by omega), List.take_of_length_le (by omega)]
      show (do
        let v ← bufTake (flags m.nrows m.ncols m.blocks).data (m.nrows * m.ncols)
        create _ _ _) = _
      rw [this, ok_bind]
      exact create_ok (c2 "zero_blocks").2.1 (c2 "zero_blocks").2.2
    rw [this, ok_bind, e4]
  · intro f'' hl
    have l3 := w4.later.trans hl
    have l2 := w3.later.trans l3
    have hst := s4.later hl
    have hgrp : find f'' ⟨loc, name, false⟩ = some .group := by
      apply l2; rw [hf2, find_cons_ne _ _ (by simp), find_cons_ne _ _ (by simp)]
      exact find_cons_self _ _ _
    have ha1 : readAttr f'' (name :: loc) "nrows" = .ok (m.nrows : Int) := by
      unfold readAttr
      rw [l2 _ _ (show find f2 ⟨name :: loc, "nrows", true⟩ = some _ by
        rw [hf2, find_cons_ne _ _ (by simp)]; exact find_cons_self _ _ _)]
    have ha2 : readAttr f'' (name :: loc) "ncols" = .ok (m.ncols : Int) := by
      unfold readAttr
      rw [l2 _ _ (show find f2 ⟨name :: loc, "ncols", true⟩ = some _ from find_cons_self _ _ _)]
    have hz : readArray2 f'' (name :: loc) "zero_blocks" = .ok (flags m.nrows m.ncols m.blocks) := by
      unfold readArray2
      have := openDset_of (l3 _ _ (find_cons_self f2 ⟨name :: loc, "zero_blocks", false⟩ _))
      rw [show ([m.nrows, m.ncols] : List Nat).length = 2 from rfl] at this
      rw [this]
      simp only [ok_bind, Elem.unpack_pack]
      have : ¬ (m.nrows = 0 ∨ m.ncols = 0) := by omega
      simp [this, pure, Except.pure]
      rfl
    obtain ⟨b, eb, hbk⟩ := loop2_total (a := m.nrows) (b := m.ncols)
      (body := fun i j (b : Nat → Nat → Option (Csr R)) => do
        let z ← (flags m.nrows m.ncols m.blocks).get i j
        if z then return b
        else do
          let m ← readSparse f'' (name :: loc) (blockName i j)
          return (fun a c => if a = i ∧ c = j then some m else b a c))
      (fun t b => ∀ i j, i < m.nrows → j < m.ncols →
        b i j = if i * m.ncols + j < t then readBack (m.blocks i j) else none)
      (s := fun _ _ => none) (by intro i j _ _; simp) (by
        intro i j u hi hj hu
        rw [flags_get m.blocks hi hj, ok_bind]
        cases hzf : zeroFlag (m.blocks i j) with
        | true =>
          refine ⟨u, rfl, ?_⟩
          intro a c ha hc'
          rw [hu a c ha hc']
          by_cases hac : a = i ∧ c = j
          · obtain ⟨rfl, rfl⟩ := hac
            rw [if_neg (by omega), if_pos (by omega), readBack_zero hzf]
          · by_cases hlt : a * m.ncols + c < i * m.ncols + j
            · rw [if_pos hlt, if_pos (by omega)]
            · rw [if_neg hlt, if_neg]
              intro hlt'
              exact hlt (pair_cases hc' hj hlt' hac)
        | false =>
          obtain ⟨m', hm', hn', hrb⟩ := readBack_some hzf
          have hok := hb i j hi hj m' hm'
          have hrd := readSparse_of hok (hok.h_pos hn') (hok.w_pos hn') (hst i j m' hi hj hm' hn')
          refine ⟨fun a c => if a = i ∧ c = j then some (trimCsr m') else u a c, ?_, ?_⟩
          · rw [hrd]; rfl
          · intro a c ha hc'
            dsimp only
            by_cases hac : a = i ∧ c = j
            · rw [if_pos hac]
              obtain ⟨rfl, rfl⟩ := hac
              rw [if_pos (by omega), hrb]
            · rw [if_neg hac, hu a c ha hc']
              by_cases hlt : a * m.ncols + c < i * m.ncols + j
              · rw [if_pos hlt, if_pos (by omega)]
              · rw [if_neg hlt, if_neg]
                intro hlt'
                exact hlt (pair_cases hc' hj hlt' hac))
    refine ⟨⟨m.nrows, m.ncols, b⟩, ?_, rfl, rfl, ?_⟩
    · unfold readMBlocks
      rw [openGroup_of hgrp, ok_bind, ha1, ok_bind, ha2, ok_bind, hz, ok_bind]
      have r1 : (((flags m.nrows m.ncols m.blocks).rows : Int) == (m.nrows : Int)) = true := by
        simp [flags]
      have r2 : (((flags m.nrows m.ncols m.blocks).cols : Int) == (m.ncols : Int)) = true := by
        simp [flags]
      rw [r1, r2, require_true, ok_bind, ok_bind, Int.toNat_natCast, Int.toNat_natCast, eb]
      rfl
    · refine sameBlocks_readBack hb (fun i j hi hj => ?_)
      show b i j = _
      rw [hbk i j hi hj, if_pos]
      have := Nat.mul_le_mul_right m.ncols (show i + 1 ≤ m.nrows by omega)
      rw [Nat.succ_mul] at this; omega

/-- Block matrices: when the caller passes the matrix's own (row and column) offsets, the matrix read
back has the same offsets and blocks, blocks without entries becoming missing ones. -/
theorem blockMatrix_roundTrip (f : File R) (loc : Loc) (name : String) (h : CanWrite f loc name)
    (m : BMat R) (off : List Int) (hro : m.rowOffsets = off) (hco : m.colOffsets = off)
    (hn : 0 < m.nrb) (hb : BlocksOk m.nrb m.nrb m.blocks)
    (hshape : ∀ i j b, i < m.nrb → j < m.nrb → m.blocks i j = some b →
      off[i + 1]?.getD 0 - off[i]?.getD 0 = (b.h : Int) ∧
      off[j + 1]?.getD 0 - off[j]?.getD 0 = (b.w : Int)) :
    ∃ f', writeBlockMatrix f loc name m = .ok f' ∧ Valid f' ∧ Later f f' ∧
      OnlyBelow f f' loc name ∧
      ∀ f'', Later f' f'' → ∃ r, readBlockMatrix f'' loc name off = .ok r ∧
        r.rowOffsets = off ∧ r.colOffsets = off ∧ SameBlocks m.nrb m.nrb m.blocks r.blocks := by
  obtain ⟨ro, co, blocks⟩ := m
  simp only at hro hco
  subst hro; subst hco
  have hncb : BMat.ncb ⟨co, co, blocks⟩ = BMat.nrb ⟨co, co, blocks⟩ := rfl
  set n := BMat.nrb ⟨co, co, blocks⟩ with hndef
  have hnl : co.length = n + 1 := by
    have : n = co.length - 1 := rfl
    omega
  simp only at hb hshape
  have w0 := wrote_cons (o := .group) h
  have c0 := fun s => CanWrite.group h s
  obtain ⟨f1, e1, w1, s1⟩ := Wrote.arr (c0 "size") [(n : Int), (n : Int)]
  have c1 : ∀ s, "size" ≠ s → CanWrite f1 (name :: loc) s := fun s hs => (c0 s).step w1 hs
  obtain ⟨f2, e2, w2, s2⟩ := Wrote.arr (c1 "row_offsets" (by decide)) co
  have c2 : ∀ s, "size" ≠ s → "row_offsets" ≠ s → CanWrite f2 (name :: loc) s :=
    fun s hs hs' => (c1 s hs).step w2 hs'
  obtain ⟨f3, e3, w3, s3⟩ := Wrote.arr (c2 "col_offsets" (by decide) (by decide)) co
  have c3 : ∀ s, "size" ≠ s → "row_offsets" ≠ s → "col_offsets" ≠ s →
      CanWrite f3 (name :: loc) s :=
    fun s hs hs' hs'' => (c2 s hs hs').step w3 hs''
  have cz := c3 "zero_blocks" (by decide) (by decide) (by decide)
  have w4 := wrote_cons (o := .dset [n, n] (Elem.pack (flags n n blocks).data)) cz
  obtain ⟨f', e5, w5, s5⟩ := writeBlocks_ok (loc := loc) (name := name) hb
    (fun i j _ _ => (c3 (blockName i j) (blockName_ne (by decide) i j)
      (blockName_ne (by decide) i j) (blockName_ne (by decide) i j)).step w4
      (blockName_ne (by decide) i j)) w4.valid
  have hlen : (flags n n blocks).data.length = n * n := length_tab _ _
  have hp : 0 < n * n := Nat.mul_pos hn hn
  have htot := w0.trans (w1.lift.trans (w2.lift.trans (w3.lift.trans (w4.lift.trans w5))))
  refine ⟨f', ?_, htot.valid, htot.later, htot.only, ?_⟩
  · unfold writeBlockMatrix
    rw [create_ok h.2.1 h.2.2, ok_bind]
    simp only [hncb, ← hndef]
    rw [e1, ok_bind, e2, ok_bind, e3, ok_bind, zeroBlocks_ok hb, ok_bind]
    have : writeArray2 f3 (name :: loc) "zero_blocks" (flags n n blocks)
        = .ok ((⟨name :: loc, "zero_blocks", false⟩, .dset [n, n]
          (Elem.pack (flags n n blocks).data)) :: f3) := by
      unfold writeArray2
      rw [flags_get blocks hn hn, ok_bind]
      have : bufTake (flags n n blocks).data (n * n) = .ok (flags n n blocks).data := by
        unfold bufTake
        rw [if_pos (by omega), List.take_of_length_le (by omega)]
      show (do
        let v ← bufTake (flags n n blocks).data (n * n)
        create _ _ _) = _
      rw [this, ok_bind]
      exact create_ok cz.2.1 cz.2.2
    rw [this, ok_bind, e5]
  · intro f'' hl
    have l5 := w5.later.trans hl
    have l3 := w4.later.trans l5
    have l2 := w3.later.trans l3
    have l1 := w2.later.trans l2
    have l0 := w1.later.trans l1
    have hst := s5.later hl
    have hgrp : find f'' ⟨loc, name, false⟩ = some .group := l0 _ _ (find_cons_self _ _ _)
    have hz : readArray2 f'' (name :: loc) "zero_blocks" = .ok (flags n n blocks) := by
      unfold readArray2
      have := openDset_of (l5 _ _ (find_cons_self f3 ⟨name :: loc, "zero_blocks", false⟩ _))
      rw [show ([n, n] : List Nat).length = 2 from rfl] at this
      rw [this]
      simp only [ok_bind, Elem.unpack_pack]
      have : n ≠ 0 := by omega
      simp [this, pure, Except.pure]
      rfl
    obtain ⟨r, er, hr1, hr2, hr3⟩ := loop2_total (a := n) (b := n)
      (body := fun i j (m : BMat R) => do
        let z ← (flags n n blocks).get i j
        if z then return m
        else do
          let b ← readSparse f'' (name :: loc) (blockName i j)
          m.setBlock i j b)
      (fun t r => r.rowOffsets = co ∧ r.colOffsets = co ∧ ∀ i j, i < n → j < n →
        r.blocks i j = if i * n + j < t then readBack (blocks i j) else none)
      (s := ⟨co, co, fun _ _ => none⟩) ⟨rfl, rfl, by intro i j _ _; simp⟩ (by
        rintro i j u hi hj ⟨hu1, hu2, hu⟩
        rw [flags_get blocks hi hj, ok_bind]
        cases hzf : zeroFlag (blocks i j) with
        | true =>
          refine ⟨u, rfl, hu1, hu2, ?_⟩
          intro a c ha hc'
          rw [hu a c ha hc']
          by_cases hac : a = i ∧ c = j
          · obtain ⟨rfl, rfl⟩ := hac
            rw [if_neg (by omega), if_pos (by omega), readBack_zero hzf]
          · by_cases hlt : a * n + c < i * n + j
            · rw [if_pos hlt, if_pos (by omega)]
            · rw [if_neg hlt, if_neg]
              intro hlt'
              exact hlt (pair_cases hc' hj hlt' hac)
        | false =>
          obtain ⟨m', hm', hn', hrb⟩ := readBack_some hzf
          have hok := hb i j hi hj m' hm'
          have hrd := readSparse_of hok (hok.h_pos hn') (hok.w_pos hn') (hst i j m' hi hj hm' hn')
          have hsh := hshape i j m' hi hj hm'
          refine ⟨⟨co, co, fun a c => if a = i ∧ c = j then some (trimCsr m') else u.blocks a c⟩,
            ?_, rfl, rfl, ?_⟩
          · simp only [Bool.false_eq_true, if_false]
            rw [hrd, ok_bind]
            unfold BMat.setBlock BMat.nrb BMat.ncb
            rw [hu1, hu2]
            have g : ∀ k, k ≤ n → rd co k = .ok (co[k]?.getD 0) := by
              intro k hk
              rw [rd_of_lt (by omega), List.getElem?_eq_getElem (by omega)]; rfl
            have d1 : (decide (i < co.length - 1) && decide (j < co.length - 1)) = true := by
              simp; omega
            rw [d1, require_true, ok_bind, g i (by omega), ok_bind, g (i + 1) (by omega), ok_bind,
              g j (by omega), ok_bind, g (j + 1) (by omega), ok_bind, hsh.1, hsh.2]
            have d2 : (((m'.h : Int) == ((trimCsr m').h : Int)) &&
                ((m'.w : Int) == ((trimCsr m').w : Int))) = true := by simp [trimCsr]
            rw [d2, require_true, ok_bind]; rfl
          · intro a c ha hc'
            dsimp only
            by_cases hac : a = i ∧ c = j
            · rw [if_pos hac]
              obtain ⟨rfl, rfl⟩ := hac
              rw [if_pos (by omega), hrb]
            · rw [if_neg hac, hu a c ha hc']
              by_cases hlt : a * n + c < i * n + j
              · rw [if_pos hlt, if_pos (by omega)]
              · rw [if_neg hlt, if_neg]
                intro hlt'
                exact hlt (pair_cases hc' hj hlt' hac))
    refine ⟨r, ?_, hr1, hr2, ?_⟩
    · unfold readBlockMatrix
      rw [openGroup_of hgrp, ok_bind, readArray_of (s1.later l1), ok_bind,
        readArray_of (s2.later l2), ok_bind, readArray_of (s3.later l3), ok_bind, hz, ok_bind]
      have q0 : ([(n : Int), (n : Int)].length == 2) = true := rfl
      have q1 : rd [(n : Int), (n : Int)] 0 = .ok (n : Int) := rfl
      have q2 : rd [(n : Int), (n : Int)] 1 = .ok (n : Int) := rfl
      have q3 : ((co.length : Int) == (n : Int) + 1) = true := by simp [hnl]
      have q4 : (((flags n n blocks).rows : Int) == (n : Int)) = true := by simp [flags]
      have q5 : (((flags n n blocks).cols : Int) == (n : Int)) = true := by simp [flags]
      have q6 : (co.length == co.length) = true := by simp
      have q7 : loop co.length (fun i (_ : Unit) => do
          let b ← rd co i
          let r ← rd co i
          require (r == b)
          let c ← rd co i
          require (c == b)) () = .ok () := by
        refine loop_spec (fun _ => ()) rfl ?_
        intro i hi
        simp [rd_of_lt hi]
      simp only [q0, q1, q2, q3, q4, q5, q6, require_true, ok_bind, q7, Int.toNat_natCast]
      exact er
    · refine sameBlocks_readBack hb (fun i j hi hj => ?_)
      rw [hr3 i j hi hj, if_pos]
      have := Nat.mul_le_mul_right n (show i + 1 ≤ n by omega)
      rw [Nat.succ_mul] at this; omega

/-- What the round trips of block tables mean for the operator: every entry of every block is the
same, whether or not the block survived as an object. -/
theorem sameBlocks_entry [AddCommMonoid R] (nr nc : Nat) (a b : Nat → Nat → Option (Csr R))
    (ha : BlocksOk nr nc a) (h : SameBlocks nr nc a b) (i j : Nat) (hi : i < nr) (hj : j < nc)
    (m : Csr R) (hm : a i j = some m) (r c : Nat) (hr : r < m.h) :
    blockEntry (b i j) r c = blockEntry (a i j) r c := by
  have hok := ha i j hi hj m hm
  have := h i j hi hj
  rw [hm] at this ⊢
  dsimp only at this
  by_cases hn : nnz m = 0
  · rw [if_pos hn] at this
    rw [this]
    show 0 = csrEntry m r c
    rw [csrEntry_empty m hok hn r c hr]
  · rw [if_neg hn] at this
    obtain ⟨m', e, hs⟩ := this
    rw [e]
    exact sameCsr_entry m m' hok hs r c hr

/-- Wrong offsets are rejected: a stored offset that differs from the caller's aborts the read. -/
theorem blockMatrix_wrong_offsets_abort (f : File R) (loc : Loc) (name : String) (off ro co : List Int)
    (n : Nat) (hg : find f ⟨loc, name, false⟩ = some .group)
    (hs : StoredArr f (name :: loc) "size" [(n : Int), (n : Int)])
    (hro : StoredArr f (name :: loc) "row_offsets" ro)
    (hco : StoredArr f (name :: loc) "col_offsets" co)
    (zb : Arr2 Bool) (hz : readArray2 f (name :: loc) "zero_blocks" = .ok zb)
    (hne : ro ≠ off ∨ co ≠ off) :
    readBlockMatrix f loc name off = .error .abort := by
  unfold readBlockMatrix
  rw [openGroup_of hg, ok_bind, readArray_of hs, ok_bind, readArray_of hro, ok_bind,
    readArray_of hco, ok_bind, hz, ok_bind]
  have q0 : ([(n : Int), (n : Int)].length == 2) = true := rfl
  have q1 : rd [(n : Int), (n : Int)] 0 = .ok (n : Int) := rfl
  have q2 : rd [(n : Int), (n : Int)] 1 = .ok (n : Int) := rfl
  simp only [q0, q1, q2, require_true, ok_bind]
  rcases hc1 : ((ro.length : Int) == (n : Int) + 1) with _ | _
  · rfl
  rcases hc2 : ((co.length : Int) == (n : Int) + 1) with _ | _
  · rfl
  rcases hc3 : ((zb.rows : Int) == (n : Int)) with _ | _
  · rfl
  rcases hc4 : ((zb.cols : Int) == (n : Int)) with _ | _
  · rfl
  rcases hc5 : (ro.length == off.length) with _ | _
  · rfl
  rcases hc6 : (co.length == off.length) with _ | _
  · rfl
  simp only [require_true, ok_bind]
  have l1 : ro.length = off.length := by simpa using hc5
  have l2 : co.length = off.length := by simpa using hc6
  have : loop off.length (fun i (_ : Unit) => do
      let b ← rd off i
      let r ← rd ro i
      require (r == b)
      let c ← rd co i
      require (c == b)) () = .error .abort := by
    have hbad : ∃ k, k < off.length ∧ (ro[k]? ≠ off[k]? ∨ co[k]? ≠ off[k]?) := by
      by_contra hcon
      push Not at hcon
      rcases hne with hne | hne
      · apply hne
        apply List.ext_getElem?
        intro k
        by_cases hk : k < off.length
        · exact (hcon k hk).1
        · rw [List.getElem?_eq_none (by omega), List.getElem?_eq_none (by omega)]
      · apply hne
        apply List.ext_getElem?
        intro k
        by_cases hk : k < off.length
        · exact (hcon k hk).2
        · rw [List.getElem?_eq_none (by omega), List.getElem?_eq_none (by omega)]
    have body : ∀ k, k < off.length →
        (do
          let b ← rd off k
          let r ← rd ro k
          require (r == b)
          let c ← rd co k
          require (c == b))
        = if ro[k]? = off[k]? ∧ co[k]? = off[k]? then (.ok () : Outcome Unit) else .error .abort := by
      intro k hk
      simp only [rd_of_lt hk, rd_of_lt (show k < ro.length by omega),
        rd_of_lt (show k < co.length by omega), ok_bind]
      rw [List.getElem?_eq_getElem hk, List.getElem?_eq_getElem (show k < ro.length by omega),
        List.getElem?_eq_getElem (show k < co.length by omega)]
      by_cases a1 : ro[k] = off[k] <;> by_cases a2 : co[k] = off[k] <;>
        simp [a1, a2, require]
    obtain ⟨k, hk, hbk⟩ := hbad
    refine Blocks.loop_error_of (fun _ => True) trivial ?_ ⟨k, hk, ?_⟩
    · intro k u hk _
      rw [body k hk]
      by_cases c : ro[k]? = off[k]? ∧ co[k]? = off[k]?
      · left; exact ⟨(), by rw [if_pos c], trivial⟩
      · right; rw [if_neg c]
    · intro u _
      rw [body k hk, if_neg]
      rintro ⟨c1, c2⟩
      rcases hbk with hbk | hbk
      · exact hbk c1
      · exact hbk c2
  rw [this]; rfl

/-- A 2×2 matrix with three entries in oversized buffers. -/
def csrEx : Csr Int := ⟨2, 2, [0, 1, 3, 7], [1, 0, 1, 5], [10, 20, 30, 40], true⟩

theorem csrEx_ok : CsrOk csrEx := by
  refine ⟨rfl, by decide, rfl, ?_, by decide, by decide, ?_⟩
  · intro i hi
    have : i < 2 := hi
    interval_cases i <;> decide
  · intro k hk
    have : k < 3 := hk
    interval_cases k <;> decide

example : (do
    let f ← writeSparse ([] : File Int) [] "A" csrEx
    readSparse f [] "A") = .ok ⟨2, 2, [0, 1, 3], [1, 0, 1], [10, 20, 30], true⟩ := by decide

example : csrEntry csrEx 1 0 = 20 ∧ csrEntry csrEx 0 0 = 0 := by
  constructor <;> decide

/-- A block table with a stored block, an entry-free block and missing blocks. -/
def blocksEx : Nat → Nat → Option (Csr Int)
  | 0, 0 => some csrEx
  | 0, 1 => some ⟨2, 2, [0, 0, 0], [], [], true⟩
  | _, _ => none

theorem blocksEx_ok : BlocksOk 2 2 blocksEx := by
  intro i j hi hj m hm
  interval_cases i <;> interval_cases j <;> simp [blocksEx] at hm <;> subst hm
  · exact csrEx_ok
  · refine ⟨rfl, by decide, rfl, ?_, by decide, by decide, ?_⟩
    · intro i hi
      have : i < 2 := hi
      interval_cases i <;> decide
    · intro k hk
      have : k < 0 := hk
      omega

example : ∃ f', writeBlockMatrix ([] : File Int) [] "M" ⟨[0, 2, 4], [0, 2, 4], blocksEx⟩ = .ok f' ∧
    ∃ r, readBlockMatrix f' [] "M" [0, 2, 4] = .ok r := by
  obtain ⟨f', e, -, -, -, h⟩ := blockMatrix_roundTrip ([] : File Int) [] "M"
    ⟨valid_empty, rfl, rfl⟩ ⟨[0, 2, 4], [0, 2, 4], blocksEx⟩ [0, 2, 4] rfl rfl (by decide)
    blocksEx_ok (by
      intro i j b hi hj hb
      have hi' : i < 2 := hi
      have hj' : j < 2 := hj
      interval_cases i <;> interval_cases j <;> simp [blocksEx, csrEx] at hb <;> subst hb <;>
        decide)
  obtain ⟨r, hr, -⟩ := h f' (.refl _)
  exact ⟨f', e, r, hr⟩

/-! ## C26: the legacy sparse format -/

theorem writeSparseOld_ok (m : Csr R) (hm : CsrOk m) (hn : 0 < nnz m) :
    writeSparseOld m = .ok [("I", .ints (m.I.take (m.h + 1))), ("J", .ints (m.J.take (nnz m))),
      ("data", .reals (m.data.take (nnz m))), ("size", .ints [(m.h : Int), (m.w : Int)])] := by
  unfold writeSparseOld oldPut
  have a1 : bufTake m.I (m.h + 1) = .ok (m.I.take (m.h + 1)) := if_pos hm.lenI
  have a2 : rd m.I m.h = .ok ((nnz m : Nat) : Int) := rd_eq_ok.2 hm.rdI
  have a3 : bufTake m.J (nnz m) = .ok (m.J.take (nnz m)) := if_pos hm.lenJ
  have a4 : bufTake m.data (nnz m) = .ok (m.data.take (nnz m)) := if_pos hm.lenD
  simp [hm.fin, a1, a2, a3, a4, hn, pure, Except.pure]

/-- C26 is violated: a matrix with fewer entries than rows plus one is written, but reading it back
writes past the end of the row-pointer buffer. -/
theorem legacySparse_overflow (m : Csr R) (hm : CsrOk m) (hn : 0 < nnz m) (hlt : nnz m < m.h + 1)
    (junk : Nat → Int) (junkR : Nat → R) :
    ∃ f, writeSparseOld m = .ok f ∧ readSparseOld f junk junkR = .error .ub := by
  refine ⟨_, writeSparseOld_ok m hm hn, ?_⟩
  have l1 : (m.I.take (m.h + 1)).length = m.h + 1 := by
    rw [List.length_take]; exact Nat.min_eq_left hm.lenI
  have l3 : (m.data.take (nnz m)).length = nnz m := by
    rw [List.length_take]; exact Nat.min_eq_left hm.lenD
  unfold readSparseOld oldGetInt oldSize
  have k1 : ([("I", Data.ints (m.I.take (m.h + 1))), ("J", .ints (m.J.take (nnz m))),
      ("data", .reals (m.data.take (nnz m))), ("size", .ints [(m.h : Int), (m.w : Int)])] :
      OldFile R).lookup "size" = some (.ints [(m.h : Int), (m.w : Int)]) := rfl
  have k2 : ([("I", Data.ints (m.I.take (m.h + 1))), ("J", .ints (m.J.take (nnz m))),
      ("data", .reals (m.data.take (nnz m))), ("size", .ints [(m.h : Int), (m.w : Int)])] :
      OldFile R).lookup "data" = some (.reals (m.data.take (nnz m))) := rfl
  have k3 : ([("I", Data.ints (m.I.take (m.h + 1))), ("J", .ints (m.J.take (nnz m))),
      ("data", .reals (m.data.take (nnz m))), ("size", .ints [(m.h : Int), (m.w : Int)])] :
      OldFile R).lookup "I" = some (.ints (m.I.take (m.h + 1))) := rfl
  have b1 : bufFill [(0 : Int), 0] [(m.h : Int), (m.w : Int)] = .ok [(m.h : Int), (m.w : Int)] := rfl
  have b2 : bufFill ((List.range (m.data.take (nnz m)).length).map junk) (m.I.take (m.h + 1))
      = .error .ub := by
    unfold bufFill
    rw [if_neg]
    rw [l1, l3, List.length_map, List.length_range]
    omega
  have e1 : rd [(m.h : Int), (m.w : Int)] 0 = .ok (m.h : Int) := rfl
  have e2 : rd [(m.h : Int), (m.w : Int)] 1 = .ok (m.w : Int) := rfl
  simp only [k1, k2, k3, b1, e1, e2, ok_bind, b2, error_bind]

/-- C26, the part that holds: with at least rows plus one entries the round trip is exact. -/
theorem legacySparse_roundTrip_partial (m : Csr R) (hm : CsrOk m) (hge : m.h + 1 ≤ nnz m)
    (junk : Nat → Int) (junkR : Nat → R) :
    ∃ f, writeSparseOld m = .ok f ∧ ∃ r, readSparseOld f junk junkR = .ok r ∧ SameCsr m r := by
  refine ⟨_, writeSparseOld_ok m hm (by omega), ?_⟩
  have l1 : (m.I.take (m.h + 1)).length = m.h + 1 := by
    rw [List.length_take]; exact Nat.min_eq_left hm.lenI
  have l2 : (m.J.take (nnz m)).length = nnz m := by
    rw [List.length_take]; exact Nat.min_eq_left hm.lenJ
  have l3 : (m.data.take (nnz m)).length = nnz m := by
    rw [List.length_take]; exact Nat.min_eq_left hm.lenD
  let F : OldFile R := [("I", Data.ints (m.I.take (m.h + 1))), ("J", .ints (m.J.take (nnz m))),
      ("data", .reals (m.data.take (nnz m))), ("size", .ints [(m.h : Int), (m.w : Int)])]
  have k1 : F.lookup "size" = some (.ints [(m.h : Int), (m.w : Int)]) := rfl
  have k2 : F.lookup "data" = some (.reals (m.data.take (nnz m))) := rfl
  have k3 : F.lookup "I" = some (.ints (m.I.take (m.h + 1))) := rfl
  have k4 : F.lookup "J" = some (.ints (m.J.take (nnz m))) := rfl
  have b1 : bufFill [(0 : Int), 0] [(m.h : Int), (m.w : Int)] = .ok [(m.h : Int), (m.w : Int)] := rfl
  let ibuf := m.I.take (m.h + 1) ++ ((List.range (nnz m)).map junk).drop (m.h + 1)
  have b2 : bufFill ((List.range (nnz m)).map junk) (m.I.take (m.h + 1)) = .ok ibuf := by
    unfold bufFill
    rw [if_pos (by rw [l1, List.length_map, List.length_range]; omega), l1]
  have b3 : bufFill ((List.range (nnz m)).map junk) (m.J.take (nnz m)) = .ok (m.J.take (nnz m)) := by
    unfold bufFill
    rw [if_pos (by rw [l2, List.length_map, List.length_range]), l2,
      List.drop_of_length_le (by rw [List.length_map, List.length_range]), List.append_nil]
  have b4 : bufFill ((List.range (nnz m)).map junkR) (m.data.take (nnz m))
      = .ok (m.data.take (nnz m)) := by
    unfold bufFill
    rw [if_pos (by rw [l3, List.length_map, List.length_range]), l3,
      List.drop_of_length_le (by rw [List.length_map, List.length_range]), List.append_nil]
  have hib : ∀ i, i ≤ m.h → ibuf[i]? = m.I[i]? := by
    intro i hi
    show (m.I.take (m.h + 1) ++ _)[i]? = _
    rw [List.getElem?_append_left (by omega), List.getElem?_take, if_pos (by omega)]
  have b5 : rdI ibuf (m.h : Int) = .ok ((nnz m : Nat) : Int) := by
    unfold rdI
    rw [if_pos (by omega), Int.toNat_natCast, rd_eq_ok, hib _ (Nat.le_refl _), hm.rdI]
  refine ⟨⟨m.h, m.w, ibuf, m.J.take (nnz m), m.data.take (nnz m), true⟩, ?_, ?_⟩
  · show readSparseOld F junk junkR = _
    unfold readSparseOld oldGetInt oldGetReal oldSize
    have e1 : rd [(m.h : Int), (m.w : Int)] 0 = .ok (m.h : Int) := rfl
    have e2 : rd [(m.h : Int), (m.w : Int)] 1 = .ok (m.w : Int) := rfl
    simp only [k1, k2, k3, k4, b1, e1, e2, ok_bind, l3, b2, b3, b4, b5]
    rfl
  · refine ⟨rfl, rfl, hm.fin, hib, ?_⟩
    intro k hk
    constructor
    · show (m.J.take (nnz m))[k]? = _
      rw [List.getElem?_take, if_pos hk]
    · show (m.data.take (nnz m))[k]? = _
      rw [List.getElem?_take, if_pos hk]

/-- The overflow is reached by an ordinary matrix: 3×3 with a single entry. -/
example : (do
    let f ← writeSparseOld (⟨3, 3, [0, 1, 1, 1], [2], [5], true⟩ : Csr Int)
    readSparseOld f (fun _ => 0) (fun _ => 0)) = .error .ub := by decide

example : csrEx.h + 1 ≤ nnz csrEx := by decide

/-! ## C27: quadrature samples -/

/-- `EQPElement::Save` then `Load`, and the `SampleInfo` array functions: for every integrator type the
samples come back in order with the same element, point and weight; a load asking for another type
aborts. -/
theorem samples_roundTrip (f : File R) (loc : Loc) (name : String) (h : CanWrite f loc name)
    (ty : IntegType) (hty : ty ≠ .numIntegType) (s : List (Sample R)) :
    ∃ f', writeSamples f loc name ty s = .ok f' ∧ Valid f' ∧ Later f f' ∧
      OnlyBelow f f' loc name ∧
      (∀ f'', Later f' f'' → readSamples f'' loc name ty = .ok s) ∧
      (∀ ty', ty' ≠ ty → readSamples f' loc name ty' = .error .abort) := by
  obtain ⟨e, he, hn1, hn2⟩ : ∃ e, eldset ty = .ok e ∧ e ≠ "quad-pt" ∧ e ≠ "quad-wt" := by
    cases ty
    · exact ⟨_, rfl, by decide, by decide⟩
    · exact ⟨_, rfl, by decide, by decide⟩
    · exact ⟨_, rfl, by decide, by decide⟩
    · exact ⟨_, rfl, by decide, by decide⟩
    · exact absurd rfl hty
  have w0 := wrote_cons (o := .group) h
  have c0 := fun n => CanWrite.group h n
  obtain ⟨f1, e1, w1, s1⟩ := Wrote.arr (c0 e) (s.map Sample.el)
  obtain ⟨f2, e2, w2, s2⟩ := Wrote.arr ((c0 "quad-pt").step w1 hn1) (s.map Sample.qp)
  obtain ⟨f3, e3, w3, s3⟩ := Wrote.arr
    (((c0 "quad-wt").step w1 hn2).step w2 (by decide)) (s.map (fun x => Dbl.mk x.qw))
  have htot := w0.trans (w1.lift.trans (w2.lift.trans w3.lift))
  have hgrp : find f3 ⟨loc, name, false⟩ = some .group :=
    (w1.later.trans (w2.later.trans w3.later)) _ _ (find_cons_self _ _ _)
  refine ⟨f3, ?_, htot.valid, htot.later, htot.only, ?_, ?_⟩
  · unfold writeSamples
    rw [he, ok_bind]
    dsimp only
    rw [create_ok h.2.1 h.2.2, ok_bind, e1, ok_bind, e2, ok_bind, e3]
  · intro f'' hl
    unfold readSamples
    rw [he, ok_bind, openGroup_of (hl _ _ hgrp), ok_bind,
      readArray_of (s1.later (w2.later.trans (w3.later.trans hl))), ok_bind,
      readArray_of (s2.later (w3.later.trans hl)), ok_bind, readArray_of (s3.later hl), ok_bind]
    have := loop_spec (n := (s.map Sample.el).length) (body := fun k (acc : List (Sample R)) => do
        let a ← rd (s.map Sample.el) k
        let b ← rd (s.map Sample.qp) k
        let c ← rd (s.map (fun x => Dbl.mk x.qw)) k
        return acc ++ [⟨a, b, c.val⟩]) (fun k => s.take k) (s := []) rfl (by
        intro k hk
        have hk' : k < s.length := by simpa using hk
        rw [rd_of_lt (by simpa using hk'), ok_bind, rd_of_lt (by simpa using hk'), ok_bind,
          rd_of_lt (by simpa using hk'), ok_bind]
        show Except.ok _ = Except.ok _
        congr 1
        rw [List.take_add_one, List.getElem?_eq_getElem hk']
        simp only [List.getElem_map, Option.toList_some])
    rw [this]
    simp
  · intro ty' hne
    unfold readSamples
    cases he' : eldset ty' with
    | error x =>
      cases ty' <;> cases he'
      rfl
    | ok e' =>
      have hd : e ≠ e' ∧ e' ≠ "quad-pt" ∧ e' ≠ "quad-wt" := by
        cases ty <;> cases ty' <;> cases he <;> cases he' <;>
          first | exact absurd rfl hne | (refine ⟨by decide, by decide, by decide⟩)
      have hnone : find f3 ⟨name :: loc, e', false⟩ = none := by
        have := (((c0 e').step w1 hd.1).step w2 (Ne.symm hd.2.1)).step w3 (Ne.symm hd.2.2)
        exact this.2.2
      rw [ok_bind, openGroup_of hgrp, ok_bind]
      have : readArray f3 (name :: loc) e' = (.error .abort : Outcome (List Int)) := by
        unfold readArray openDset
        rw [hnone]; rfl
      rw [this]; rfl

/-- The type `NUM_INTEG_TYPE` is rejected by both. -/
theorem samples_bad_type (f : File R) (loc : Loc) (name : String) (s : List (Sample R)) :
    writeSamples f loc name .numIntegType s = .error .abort ∧
      readSamples f loc name .numIntegType = .error .abort := ⟨rfl, rfl⟩

example : (do
    let f ← writeSamples ([] : File Int) [] "integ0" .interface [⟨3, 1, 25⟩, ⟨0, 2, 75⟩]
    readSamples f [] "integ0" .interface) = .ok [⟨3, 1, 25⟩, ⟨0, 2, 75⟩] := by decide

end Verif.Hdf5
