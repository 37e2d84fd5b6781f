import Verif.Proofs.ConfigOps

/-!
# C113: the check that all faces are closed
-/

namespace Verif.Config

open Verif Verif.CompSetup Verif.GenConf Verif.Config.Spec

/-- C113: whatever calls a script makes, the check succeeds exactly if the script has named every face of
every mesh exactly once. -/
theorem closed_iff (comps : List Part) (calls : List Call) {s : Conf} (e : script comps calls = .ok s) :
    s.allFacesClosed = .ok true ↔ ClosedOnce comps calls := by
  have A := after_script comps calls e
  have count_ref : ∀ (p : Part) f, f ∈ p.refBattr → p.refBattr.count f = 1 := fun p f hf =>
    List.count_eq_one_of_mem (refBattr_nodup p) hf
  rw [closed_eq]
  constructor
  · intro h
    split at h
    · cases h
    obtain ⟨gs, h1, h2⟩ := bind_eq_ok.1 h
    obtain ⟨_, hc⟩ := drops_count _ _ _ h1
    intro m c p hm hp f hf
    rw [facesOf_eq] at hf
    obtain ⟨M, q, g1, g2, rfl⟩ := A.part m c hm
    rw [hp] at g2; cases g2
    obtain ⟨l', g3, g4⟩ := hc m _ (by rw [List.getElem?_map, g1]; rfl)
    have hall : gs.all (fun l => decide (l = [])) = true := Except.ok.inj h2
    have hnil : l' = [] := of_decide_eq_true (List.all_eq_true.1 hall l' (List.mem_of_getElem? g3))
    have := g4 f
    rw [hnil, A.rows, count_ref _ f hf] at this
    simpa using this
  · intro h
    have named_ref : ∀ (m : Nat) M f, s.meshes[m]? = some M → f ∈ M.part.refBattr →
        (allNamed calls).count (m, f) = 1 := by
      intro m M f hM hf
      have hlt : m < (added calls).length := by rw [← A.meshes]; exact (List.getElem?_eq_some_iff.1 hM).1
      have hc := List.getElem?_eq_getElem hlt
      obtain ⟨M', p, g1, g2, g3⟩ := A.part m _ hc
      rw [hM] at g1; cases g1
      exact h m _ p hc g2 f (by rw [facesOf_eq, ← g3]; exact hf)
    have hnd : (ment s).Nodup := by
      rw [List.nodup_iff_count_le_one]
      rintro ⟨a, f⟩
      by_cases hin : (a, f) ∈ ment s
      · obtain ⟨m, h1, h2⟩ := A.nonneg _ hin
        dsimp only at h1 h2
        obtain ⟨M, g1, g2⟩ := A.faces _ h2
        rw [h1, A.rows, named_ref m M f g1 g2]
      · rw [List.count_eq_zero_of_not_mem hin]; omega
    obtain ⟨gs, g1, g2⟩ := drop_list (refs := s.meshes.map fun m => m.part.refBattr)
      (by
        intro K hK
        obtain ⟨M, _, rfl⟩ := List.mem_map.1 hK
        exact refBattr_nodup _) (ment s) [] (s.meshes.map fun m => m.part.refBattr) (by simpa using hnd)
      (by
        intro x hx
        obtain ⟨m, h1, h2⟩ := A.nonneg x hx
        obtain ⟨M, h3, h4⟩ := A.faces _ h2
        exact ⟨m, _, h1, by rw [List.getElem?_map, h3]; rfl, h4⟩)
      ⟨rfl, fun m K hK => by rw [hK]; simp⟩
    have hfree : s.meshes.any (fun m => decide (m.free ≠ [])) = false := by
      rw [List.any_eq_false]
      intro M hM
      obtain ⟨m, hm⟩ := List.getElem?_of_mem hM
      simp only [ne_eq, decide_not, Bool.not_eq_true', decide_eq_false_iff_not, not_not]
      rw [List.eq_nil_iff_forall_not_mem]
      intro f hf
      obtain ⟨q1, q2⟩ := ((A.free m M hm).2 f).1 hf
      have := named_ref m M f hm (mem_refBattr (by simpa using q1))
      exact q2 (List.count_pos_iff.1 (by omega))
    rw [hfree]
    simp only [Bool.false_eq_true, if_false]
    rw [g1, ok_bind]
    congr 1
    rw [List.all_eq_true]
    intro l hl
    obtain ⟨m, hm⟩ := List.getElem?_of_mem hl
    have hml : m < s.meshes.length := by
      have := (List.getElem?_eq_some_iff.1 hm).1
      rw [g2.1] at this
      simpa using this
    have hmM := List.getElem?_eq_getElem hml
    have := g2.2 m _ (by rw [List.getElem?_map, hmM]; rfl)
    rw [hm] at this
    injection this with this
    rw [this, decide_eq_true_eq, List.filter_eq_nil_iff]
    intro f hf
    simp only [List.nil_append, decide_eq_true_eq, not_not]
    have := named_ref m _ f hmM hf
    rw [← A.rows] at this
    exact List.count_pos_iff.1 (by omega)

/-- C113: a face that has been named before cannot be joined to another one, nor a face to itself. -/
theorem interface_rejected (comps : List Part) (calls : List Call) {s : Conf}
    (e : script comps calls = .ok s) {m1 m2 : Nat} {f1 f2 : Int} (h1 : m1 < (added calls).length)
    (h2 : m2 < (added calls).length)
    (h : (m1, f1) ∈ allNamed calls ∨ (m2, f2) ∈ allNamed calls ∨ (m1, f1) = (m2, f2)) :
    s.appendInterface m1 m2 f1 f2 = .error .abort := by
  have A := after_script comps calls e
  rw [← A.meshes] at h1 h2
  have g1 := List.getElem?_eq_getElem h1
  have g2 := List.getElem?_eq_getElem h2
  have req : ∀ {b : Bool}, b = false → require b = .error .abort := by
    intro b hb; rw [hb]; rfl
  unfold Conf.appendInterface
  rw [rd_eq_ok.2 g1, ok_bind]
  by_cases c1 : f1 ∈ s.meshes[m1].free
  · rw [show require (decide (f1 ∈ s.meshes[m1].free)) = .ok () by rw [decide_eq_true c1]; rfl, ok_bind,
      rd_eq_ok.2 g2, ok_bind]
    by_cases c2 : f2 ∈ s.meshes[m2].free
    · rw [show require (decide (f2 ∈ s.meshes[m2].free)) = .ok () by rw [decide_eq_true c2]; rfl, ok_bind]
      have n1 := (((A.free m1 _ g1).2 f1).1 c1).2
      have n2 := (((A.free m2 _ g2).2 f2).1 c2).2
      have heq : (m1, f1) = (m2, f2) := by
        rcases h with h | h | h
        · exact absurd h n1
        · exact absurd h n2
        · exact h
      cases heq
      have hnd := (A.free m1 _ g1).1
      unfold popFace
      rw [rd_eq_ok.2 g1, ok_bind, show require (decide (f1 ∈ s.meshes[m1].free)) = .ok () by
        rw [decide_eq_true c1]; rfl, ok_bind, wr_of_lt h1, ok_bind,
        rd_eq_ok.2 (List.getElem?_set_self h1), ok_bind]
      rw [req (decide_eq_false (by
        dsimp only
        rw [mem_erase_nodup hnd]
        exact fun hh => hh.2 rfl))]
      rfl
    · rw [req (decide_eq_false c2)]; rfl
  · rw [req (decide_eq_false c1)]; rfl

/-- C113: the tables name the faces exactly as often as the script did. -/
theorem tables_named (comps : List Part) (calls : List Call) {s : Conf} (e : script comps calls = .ok s)
    (m : Nat) (f : Int) :
    (GenConf.Spec.mentioned (⟨s.types.map Int.ofNat, s.loc, s.bdr, s.itf⟩ : Layout Int)).count ((m : Int), f) =
      (allNamed calls).count (m, f) :=
  (after_script comps calls e).rows m f

theorem ok_and {α : Type} {x : Outcome α} {P : α → Prop} [DecidablePred P]
    (h : x.toOption.any (fun a => decide (P a)) = true) : ∃ a, x = .ok a ∧ P a := by
  cases x with
  | error e => simp [Except.toOption] at h
  | ok a => exact ⟨a, rfl, by simpa [Except.toOption] using h⟩

/-! Non-vacuity: two meshes side by side, the second with an object. -/

def demoParts : List Part := [⟨"empty", false⟩, ⟨"disk", true⟩]

def demoCalls : List Call :=
  [.mesh 0 (0, 0), .boundary 1 0 1, .mesh 1 (1, 0), .interface 1 0 4 2, .boundary 3 0 3, .boundary 4 0 4,
   .boundary 5 1 5, .boundary 1 1 1, .boundary 2 1 2, .boundary 3 1 3]

example : ∃ s, script demoParts demoCalls = .ok s ∧ s.allFacesClosed = .ok true ∧
    s.itf = [⟨0, 1, 2, 4, 0⟩] := by
  refine ok_and (by decide +kernel)

/-- Without the object's face the check fails, with a face named twice it raises an exception. -/
example : (∃ s, script demoParts (demoCalls.eraseIdx 6) = .ok s ∧ s.allFacesClosed = .ok false) ∧
    (∃ s, script demoParts (demoCalls ++ [.boundary 7 0 1]) = .ok s ∧
      s.allFacesClosed = .error .abort) ∧
    script demoParts (demoCalls ++ [.interface 0 1 1 3]) = .error .abort := by
  refine ⟨ok_and (by decide +kernel), ok_and (by decide +kernel), by decide +kernel⟩

example : ClosedOnce demoParts demoCalls := by
  have h : ∃ s, script demoParts demoCalls = .ok s ∧ s.allFacesClosed = .ok true :=
    ok_and (by decide +kernel)
  obtain ⟨s, h1, h2⟩ := h
  exact (closed_iff demoParts demoCalls h1).1 h2

end Verif.Config
