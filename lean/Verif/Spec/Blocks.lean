import Verif.Model.Blocks

/-! # Specification vocabulary for offsets and block vectors -/

namespace Verif.Blocks.Spec

open Verif Verif.Blocks

/-- `offs` are the offsets of consecutive blocks of the given sizes: they start at `0` and grow by
the size of each block. -/
def IsOffsets (offs sizes : List Nat) : Prop :=
  offs.length = sizes.length + 1 ∧ offs[0]? = some 0 ∧
  ∀ (i s : Nat), sizes[i]? = some s → ∃ x, offs[i]? = some x ∧ offs[i + 1]? = some (x + s)

/-- A block vector with blocks of the given sizes. -/
def HasSizes {R : Type} (b : BlockVector R) (sizes : List Nat) : Prop :=
  IsOffsets b.offsets sizes ∧ b.data.length = sizes.sum

/-- Entries of block `i`. -/
def blockOf {R : Type} (b : BlockVector R) (i : Nat) : List R :=
  (b.data.drop (b.offsets[i]?.getD 0)).take (b.offsets[i + 1]?.getD 0 - b.offsets[i]?.getD 0)

end Verif.Blocks.Spec
