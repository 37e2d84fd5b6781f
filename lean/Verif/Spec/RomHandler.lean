import Verif.Model.RomHandler
import Verif.Spec.LinAlg
import Verif.Spec.Blocks

/-! # Specification vocabulary for the ROM handler -/

namespace Verif.RomHandler.Spec

open Verif Verif.LinAlg Verif.LinAlg.Spec Verif.Blocks Verif.Blocks.Spec Verif.RomHandler

variable {R : Type} [CommRing R]

/-- Variables with a basis of their own: all of them, or one basis for all variables together. -/
def vars (h : Handler R) : Nat := if h.separate then h.numVar else 1

/-- Position of subdomain `m`, variable `v` among the blocks of a full-order vector: subdomain by
subdomain. -/
def fomBlock (h : Handler R) (m v : Nat) : Nat := m * vars h + v

/-- Position of subdomain `m`, variable `v` among the blocks of a reduced vector: subdomain by
subdomain or variable by variable. -/
def romBlock (h : Handler R) (m v : Nat) : Nat :=
  match h.ord with
  | .domain => m * vars h + v
  | .variable => if h.separate then v * h.numSub + m else m

/-- The basis of variable `v` on subdomain `m`: that of the component the subdomain is a copy of. -/
def basisOf (h : Handler R) (bases : List (Mat R)) (m v : Nat) : Mat R :=
  (bases[(h.meshType[m]?.getD 0) * vars h + v]?).getD ⟨0, 0, []⟩

/-- Entry `k` of block `i` of a block vector. -/
def bent (b : BlockVector R) (i k : Nat) : R := ve (blockOf b i) k

/-- A handler with its bases loaded, whose reduced blocks (`zr`) and full-order blocks (`zf`) have
the sizes of the bases. -/
structure Ready (h : Handler R) (zr zf : List Nat) : Prop where
  loaded : h.loaded = true
  basis : ∀ m v, m < h.numSub → v < vars h →
    h.domBasis[romBlock h m v]? = some (basisOf h h.refBasis m v)
  offs : IsOffsets h.romOffs zr
  lenR : zr.length = h.numSub * vars h
  lenF : zf.length = h.numSub * vars h
  szR : ∀ m v, m < h.numSub → v < vars h →
    zr[romBlock h m v]? = some (basisOf h h.refBasis m v).w
  szF : ∀ m v, m < h.numSub → v < vars h →
    zf[fomBlock h m v]? = some (basisOf h h.refBasis m v).h

/-- The columns of every basis are orthonormal. -/
def Orthonormal (h : Handler R) : Prop :=
  ∀ m v i j, m < h.numSub → v < vars h → i < (basisOf h h.refBasis m v).w →
    j < (basisOf h h.refBasis m v).w →
    ∑ r ∈ Finset.range (basisOf h h.refBasis m v).h,
      ent (basisOf h h.refBasis m v) r i * ent (basisOf h h.refBasis m v) r j = if i = j then 1 else 0

end Verif.RomHandler.Spec
