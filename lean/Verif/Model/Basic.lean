/-!
# Outcomes, loops and raw buffers

Shared vocabulary of the model.  Nothing here is specific to scaleupROM; it fixes how C++
control flow, failing assertions and undefined behaviour are represented.
-/

namespace Verif

/-- Ways a C++ call can fail to return normally.  `abort` is a failing `assert`, `mfem_error`,
`MFEM_ABORT` or `exit(-1)`; `ub` is undefined behaviour (out-of-bounds access, null or dangling
dereference, double free, division by zero). -/
inductive Fault where
  | abort
  | ub
deriving DecidableEq, Repr

/-- Result of a C++ call. -/
abbrev Outcome := Except Fault

/-- `assert(c)`. -/
def require (c : Bool) : Outcome Unit := if c then .ok () else .error .abort

/-- Iterations `i, i+1, ..., i+k-1` of a loop with state `σ`. -/
def loopFrom {σ : Type _} (body : Nat → σ → Outcome σ) : Nat → Nat → σ → Outcome σ
  | _, 0, s => .ok s
  | i, k + 1, s =>
    match body i s with
    | .ok s' => loopFrom body (i + 1) k s'
    | .error e => .error e

/-- `for (int i = 0; i < n; i++) body`. -/
def loop {σ : Type _} (n : Nat) (body : Nat → σ → Outcome σ) (s : σ) : Outcome σ :=
  loopFrom body 0 n s

/-- `buf[i]` as an rvalue; out of bounds is undefined behaviour. -/
def rd {α : Type _} (b : List α) (i : Nat) : Outcome α :=
  match b[i]? with
  | some v => .ok v
  | none => .error .ub

/-- `buf[i] = v`; out of bounds is undefined behaviour. -/
def wr {α : Type _} (b : List α) (i : Nat) (v : α) : Outcome (List α) :=
  if i < b.length then .ok (b.set i v) else .error .ub

/-- `buf[i]` with a signed `int` index. -/
def rdI {α : Type _} (b : List α) (i : Int) : Outcome α :=
  if 0 ≤ i then rd b i.toNat else .error .ub

/-- `buf[i] = v` with a signed `int` index. -/
def wrI {α : Type _} (b : List α) (i : Int) (v : α) : Outcome (List α) :=
  if 0 ≤ i then wr b i.toNat v else .error .ub

end Verif
