import Verif.Model.Options
import Mathlib.Data.List.Forall2

/-! # Specification vocabulary for input options -/

namespace Verif.Options.Spec

open Verif.Options

/-- Node `n` sits at path `p` below `t`: paths go through the first entry of a map with the given key,
or through element `k` of a list, `k` written in decimal. -/
inductive At : Node → List Str → Node → Prop where
  | here (t : Node) : At t [] t
  | entry {pre post : List (Str × Node)} {s : Str} {c n : Node} {ss : List Str}
      (hpre : ∀ e ∈ pre, e.1 ≠ s) (h : At c ss n) : At (.map (pre ++ (s, c) :: post)) (s :: ss) n
  | element {l : List Node} {k : Nat} {c n : Node} {ss : List Str} (hk : l[k]? = some c)
      (h : At c ss n) : At (.seq l) (digits k :: ss) n

/-- There is a node at path `p`. -/
def Exists (t : Node) (p : List Str) : Prop := ∃ n, At t p n

/-- Path `p` leads below a plain value. -/
def Blocked (t : Node) (p : List Str) : Prop :=
  ∃ q s r v, p = q ++ s :: r ∧ At t q (.scalar v)

/-- The pieces put together again, with a delimiter between them. -/
def join (d : Char) : List Str → Str
  | [] => []
  | [p] => p
  | p :: ps => p ++ d :: join d ps

/-- `p` are the parts of the text `s` between delimiters; a delimiter at the very end is ignored. -/
def Parts (d : Char) (s : Str) (p : List Str) : Prop :=
  (∀ x ∈ p, d ∉ x) ∧
    ((s = [] ∧ p = []) ∨ (p ≠ [] ∧ s = join d p ++ [d]) ∨
      (s = join d p ∧ ∃ y, p.getLast? = some y ∧ y ≠ []))

/-- The text `kv` is a pair: a key, `=`, a nonempty value; or a key, `=`, a value and a final `=`. -/
def IsPair (kv k v : Str) : Prop :=
  '=' ∉ k ∧ '=' ∉ v ∧ (v ≠ [] ∧ kv = k ++ '=' :: v ∨ kv = k ++ '=' :: v ++ ['='])

open Verif

/-- The pairs are assigned one after the other. -/
def assignAll (load : Str → Outcome Node) (kvs : List (Str × Str)) (t : Node) : Outcome Node :=
  kvs.foldlM (fun t kv => load kv.2 >>= fun n => setOption kv.1 n t) t

/-- The text `forced` lists the pairs `kvs`, separated by colons. -/
def Lists (forced : Str) (kvs : List (Str × Str)) : Prop :=
  ∃ texts, Parts ':' forced texts ∧ List.Forall₂ (fun kv p => IsPair kv p.1 p.2) texts kvs

/-- Entry `lkey` of `e` is `lval`. -/
def Named {T : Type} (as : Node → Outcome T) (lkey : Str) (lval : T) (e : Node) : Prop :=
  ∃ n, At e (pieces '/' lkey) n ∧ as n = .ok lval

/-- Entry `lkey` of `e` is absent or something else. -/
def NotNamed {T : Type} (as : Node → Outcome T) (lkey : Str) (lval : T) (e : Node) : Prop :=
  (¬ Spec.Exists e (pieces '/' lkey) ∧ ¬ Blocked e (pieces '/' lkey)) ∨
    ∃ n v, At e (pieces '/' lkey) n ∧ as n = .ok v ∧ v ≠ lval

/-- `e` is the first of `es` whose entry `lkey` is `lval`. -/
def FirstNamed {T : Type} (as : Node → Outcome T) (lkey : Str) (lval : T) (es : List Node) (e : Node) :
    Prop :=
  ∃ pre post, es = pre ++ e :: post ∧ Named as lkey lval e ∧ ∀ e' ∈ pre, NotNamed as lkey lval e'

end Verif.Options.Spec
