import Verif.Model.Basic

/-!
# Ownership of the ROM operator

`MFEMROMHandler` keeps four raw pointers derived from the ROM operator: the block matrix, its
monolithic copy, a hypre view of the copy and a MUMPS factorisation.  The model tracks heap objects and
their contents; `α` is the type of operators.
-/

namespace Verif.RomOperator

open Verif

/-- Heap objects.  A hypre matrix borrows the arrays of the monolithic matrix at address `m`
(`HypreParMatrix(comm, size, starts, SparseMatrix*)` does not own them); MUMPS copies its matrix when
`SetOperator` is called, `none` before that or when it holds a Jacobian. -/
inductive Obj (α : Type) where
  | block (a : α)
  | mono (a : α)
  | hypre (m : Nat)
  | mumps (a : Option α)
  | vec

/-- The heap: addresses at or above `next` were never handed out. -/
structure Heap (α : Type) where
  obj : Nat → Option (Obj α)
  next : Nat

/-- `new`. -/
def Heap.alloc {α : Type} (h : Heap α) (o : Obj α) : Heap α :=
  ⟨fun q => if q = h.next then some o else h.obj q, h.next + 1⟩

/-- `delete p`; deleting null is a no-op, deleting a dead object is undefined. -/
def Heap.free {α : Type} (h : Heap α) (p : Option Nat) : Outcome (Heap α) :=
  match p with
  | none => .ok h
  | some p =>
    match h.obj p with
    | none => .error .ub
    | some _ => .ok ⟨fun q => if q = p then none else h.obj q, h.next⟩

/-- Use of `*p`; null and dangling pointers are undefined. -/
def Heap.read {α : Type} (h : Heap α) (p : Option Nat) : Outcome (Obj α) :=
  match p with
  | none => .error .ub
  | some p =>
    match h.obj p with
    | none => .error .ub
    | some o => .ok o

/-- `*p` as a `BlockMatrix`. -/
def Heap.readBlock {α : Type} (h : Heap α) (p : Option Nat) : Outcome α :=
  h.read p >>= fun o => match o with
    | .block a => .ok a
    | _ => .error .ub

/-- `*p` as a `SparseMatrix`. -/
def Heap.readMono {α : Type} (h : Heap α) (p : Option Nat) : Outcome α :=
  h.read p >>= fun o => match o with
    | .mono a => .ok a
    | _ => .error .ub

/-- The entries of `*p` as a `HypreParMatrix`: those of the matrix it borrows from. -/
def Heap.readHypre {α : Type} (h : Heap α) (p : Option Nat) : Outcome α :=
  h.read p >>= fun o => match o with
    | .hypre m => h.readMono (some m)
    | _ => .error .ub

/-- `*p` as a `MUMPSSolver`: the matrix it factorised. -/
def Heap.readMumps {α : Type} (h : Heap α) (p : Option Nat) : Outcome (Option α) :=
  h.read p >>= fun o => match o with
    | .mumps a => .ok a
    | _ => .error .ub

/-- The members of `MFEMROMHandler` concerned (`include/rom_handler.hpp:115-116, 224-231`), the solver
type (`direct`) and building level (`global`) read from the configuration. -/
structure Handler (α : Type) where
  heap : Heap α
  romMat : Option Nat
  mono : Option Nat
  hypre : Option Nat
  mumps : Option Nat
  sol : Option Nat
  loaded : Bool
  direct : Bool
  global : Bool

/-- `MFEMROMHandler::MFEMROMHandler` (`src/rom_handler.cpp:331-361`): an empty block matrix `z`. -/
def create {α : Type} (direct global : Bool) (z : α) : Handler α :=
  ⟨(⟨fun _ => none, 0⟩ : Heap α).alloc (.block z), some 0, none, none, none, none, false, direct,
    global⟩

/-- `MFEMROMHandler::~MFEMROMHandler` and `~ROMHandlerBase` (`src/rom_handler.cpp:60-65, 363-371`), for
the members above; `reduced_rhs` is not modelled. -/
def destroy {α : Type} (h : Handler α) : Outcome (Heap α) := do
  let x ← h.heap.free h.romMat
  let x ← x.free h.mono
  let x ← x.free h.hypre
  let x ← x.free h.mumps
  x.free h.sol

/-- `MFEMROMHandler::SetupDirectSolver` (`src/rom_handler.cpp:1046-1064`).  `delete romMat_hypre, mumps`
is the comma operator: only `romMat_hypre` is deleted. -/
def setupDirect {α : Type} (h : Handler α) : Outcome (Handler α) :=
  if h.direct then do
    require h.mono.isSome
    let x ← h.heap.free h.hypre
    let _ ← x.readMono h.mono
    let p := x.next
    let x := x.alloc (.hypre (h.mono.getD 0))
    let a ← x.readHypre (some p)
    let q := x.next
    let x := x.alloc (.mumps (some a))
    return { h with heap := x, hypre := some p, mumps := some q }
  else .ok h

/-- `if ((linsol_type == DIRECT) && init_direct_solver) SetupDirectSolver()`
(`src/rom_handler.cpp:930-931`). -/
def initDirect {α : Type} (h : Handler α) (init : Bool) : Outcome (Handler α) :=
  if h.direct && init then setupDirect h else .ok h

/-- `if (romMat != input_mat) delete romMat` (`src/rom_handler.cpp:921-925`). -/
def replaceMat {α : Type} (h : Handler α) (input : Nat) : Outcome (Heap α) :=
  if h.romMat ≠ some input then h.heap.free h.romMat else .ok h.heap

/-- `MFEMROMHandler::SetRomMat` (`src/rom_handler.cpp:919-933`). -/
def setRomMat {α : Type} (h : Handler α) (input : Nat) (init : Bool) : Outcome (Handler α) := do
  let x ← replaceMat h input
  let x ← x.free h.mono
  let a ← x.readBlock (some input)
  let p := x.next
  let h' := { h with heap := x.alloc (.mono a), romMat := some input, mono := some p }
  let h' ← initDirect h' init
  return { h' with loaded := true }

/-- `SetRomMat(new BlockMatrix)`, as `MultiBlockSolver::AssembleROMMat` does
(`src/multiblock_solver.cpp:273-283`). -/
def setNew {α : Type} (h : Handler α) (a : α) (init : Bool) : Outcome (Handler α) :=
  setRomMat { h with heap := h.heap.alloc (.block a) } h.heap.next init

/-- `MFEMROMHandler::ProjectOperatorOnReducedBasis` (`src/rom_handler.cpp:416-432`): the blocks of the
present block matrix are replaced (`a` is the projected operator; the projection itself is modelled in
`RomHandler` and `RomAssembly`). -/
def project {α : Type} (h : Handler α) (a : α) : Outcome (Handler α) := do
  let _ ← h.heap.readBlock h.romMat
  let b := h.romMat.getD 0
  let x : Heap α := ⟨fun q => if q = b then some (.block a) else h.heap.obj q, h.heap.next⟩
  setRomMat { h with heap := x } b true

/-- `MFEMROMHandler::LoadOperatorFromFile` (`src/rom_handler.cpp:901-917`); `a` is the operator in the
file (container round trip: `Hdf5`). -/
def load {α : Type} (h : Handler α) (a : α) : Outcome (Handler α) := do
  require h.global
  let x ← h.heap.free h.romMat
  let x ← x.free h.mono
  let p := x.next
  setRomMat { h with heap := x.alloc (.block a), romMat := some p } p true

/-- Preconditioners of `MFEMROMHandler::Solve`: `amg`, `gs`, `none` work on the monolithic matrix,
`block_gs`, `block_jacobi` on the block matrix. -/
inductive Prec where
  | mono
  | block
  | unknown

/-- `MFEMROMHandler::Solve(rhs, sol)` (`src/rom_handler.cpp:535-602`); returns the operator of the
linear system solved. -/
def solveWith {α : Type} (h : Handler α) (p : Prec) : Outcome (Option α) := do
  require h.loaded
  if h.direct then do
    require h.mumps.isSome
    h.heap.readMumps h.mumps
  else match p with
    | .mono => h.heap.readMono h.mono >>= fun a => .ok (some a)
    | .block => h.heap.readBlock h.romMat >>= fun a => .ok (some a)
    | .unknown => .error .abort

/-- `MFEMROMHandler::Solve(BlockVector*)` (`src/rom_handler.cpp:604-617`): `reduced_sol` is overwritten
without being deleted. -/
def solve {α : Type} (h : Handler α) (p : Prec) : Outcome (Handler α × Option α) := do
  let h := { h with heap := h.heap.alloc .vec, sol := some h.heap.next }
  let a ← solveWith h p
  return (h, a)

/-- `MFEMROMHandler::NonlinearSolve` (`src/rom_handler.cpp:619-701`), for its effect on the members
modelled: `reduced_sol` and, with a direct solver, `mumps` are overwritten. -/
def nonlinear {α : Type} (h : Handler α) : Outcome (Handler α) :=
  let h := { h with heap := h.heap.alloc .vec, sol := some h.heap.next }
  if h.direct then .ok { h with heap := h.heap.alloc (.mumps none), mumps := some h.heap.next }
  else .ok h

/-- `if (!romMat_mono) romMat_mono = romMat->CreateMonolithic()` (`src/rom_handler.cpp:937-941`). -/
def ensureMono {α : Type} (h : Handler α) : Outcome (Handler α) :=
  if h.mono.isNone then do
    require h.romMat.isSome
    let a ← h.heap.readBlock h.romMat
    return { h with heap := h.heap.alloc (.mono a), mono := some h.heap.next }
  else .ok h

/-- `MFEMROMHandler::SaveRomSystem` (`src/rom_handler.cpp:935-956`); `known` says whether the format is
one of the two supported.  Returns the matrix written. -/
def saveSystem {α : Type} (h : Handler α) (known : Bool) : Outcome (Handler α × α) := do
  let h ← ensureMono h
  require h.sol.isSome
  let _ ← h.heap.read h.sol
  require known
  let a ← h.heap.readMono h.mono
  return (h, a)

/-- `MFEMROMHandler::SaveOperator` (`src/rom_handler.cpp:434-448`); returns the matrix written. -/
def saveOperator {α : Type} (h : Handler α) : Outcome α := do
  require h.global
  require (h.loaded && h.romMat.isSome)
  h.heap.readBlock h.romMat

/-- Calls on a handler. -/
inductive Call (α : Type) where
  | project (a : α)
  | set (a : α) (init : Bool)
  | load (a : α)
  | solve (p : Prec)
  | nonlinear
  | saveSystem (known : Bool)
  | saveOperator

/-- One call, and the operator it used or wrote. -/
def step {α : Type} (h : Handler α) : Call α → Outcome (Handler α × List (Option α))
  | .project a => project h a >>= fun h => .ok (h, [])
  | .set a init => setNew h a init >>= fun h => .ok (h, [])
  | .load a => load h a >>= fun h => .ok (h, [])
  | .solve p => solve h p >>= fun r => .ok (r.1, [r.2])
  | .nonlinear => nonlinear h >>= fun h => .ok (h, [])
  | .saveSystem k => saveSystem h k >>= fun r => .ok (r.1, [some r.2])
  | .saveOperator => saveOperator h >>= fun a => .ok (h, [some a])

/-- A history of calls, and the operators used. -/
def run {α : Type} (h : Handler α) : List (Call α) → Outcome (Handler α × List (Option α))
  | [] => .ok (h, [])
  | c :: cs => do
    let r ← step h c
    let s ← run r.1 cs
    return (s.1, r.2 ++ s.2)

end Verif.RomOperator
