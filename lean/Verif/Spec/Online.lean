import Verif.Model.Online
import Verif.Spec.RomHandler
import Verif.Spec.RomAssembly

/-!
# What a Galerkin ROM should compute

`A m m' v w k l` is the coefficient, in the equation of dof `k` of variable `v` on subdomain `m`, of dof `l`
of variable `w` on subdomain `m'`.
-/

namespace Verif.Online.Spec

open Verif Verif.LinAlg Verif.LinAlg.Spec Finset
open Verif.Blocks (BlockVector)
open Verif.Blocks.Spec (IsOffsets HasSizes)
open Verif.RomHandler (Handler)
open Verif.RomHandler.Spec

variable {R : Type} [CommRing R]

/-- The basis of variable `v` on subdomain `m`. -/
abbrev V (h : Handler R) (m v : Nat) : Mat R := basisOf h h.refBasis m v

/-- `A u`, at dof `k` of variable `v` on subdomain `m`. -/
def apply (h : Handler R) (A : Nat → Nat → Nat → Nat → Nat → Nat → R) (u : BlockVector R) (m v k : Nat) :
    R :=
  ∑ m' ∈ range h.numSub, ∑ w ∈ range (vars h), ∑ l ∈ range (V h m' w).h,
    A m m' v w k l * bent u (fomBlock h m' w) l

/-- `u` solves the full-order system `A u = b`. -/
def Solves (h : Handler R) (A : Nat → Nat → Nat → Nat → Nat → Nat → R) (b u : BlockVector R) : Prop :=
  ∀ m v k, m < h.numSub → v < vars h → k < (V h m v).h →
    apply h A u m v k = bent b (fomBlock h m v) k

/-- `u` is a combination of the basis vectors with coefficients `c`. -/
def Combines (h : Handler R) (c : Nat → Nat → Nat → R) (u : BlockVector R) : Prop :=
  ∀ m v k, m < h.numSub → v < vars h → k < (V h m v).h →
    bent u (fomBlock h m v) k = ∑ p ∈ range (V h m v).w, ent (V h m v) k p * c m v p

/-- `u` lies in the span of the bases. -/
def InSpan (h : Handler R) (u : BlockVector R) : Prop := ∃ c, Combines h c u

/-- The residual `b - A u` is orthogonal to every basis vector. -/
def Orthogonal (h : Handler R) (A : Nat → Nat → Nat → Nat → Nat → Nat → R) (b u : BlockVector R) : Prop :=
  ∀ m v p, m < h.numSub → v < vars h → p < (V h m v).w →
    ∑ k ∈ range (V h m v).h, ent (V h m v) k p * (bent b (fomBlock h m v) k - apply h A u m v k) = 0

/-- The reduced matrix is regular: only the zero combination of basis vectors is mapped by `A` to a vector
orthogonal to all basis vectors. -/
def Regular (h : Handler R) (A : Nat → Nat → Nat → Nat → Nat → Nat → R) : Prop :=
  ∀ c : Nat → Nat → Nat → R,
    (∀ m v p, m < h.numSub → v < vars h → p < (V h m v).w →
      ∑ m' ∈ range h.numSub, ∑ w ∈ range (vars h), ∑ q ∈ range (V h m' w).w,
        (∑ k ∈ range (V h m v).h, ∑ l ∈ range (V h m' w).h,
          ent (V h m v) k p * A m m' v w k l * ent (V h m' w) l q) * c m' w q = 0) →
    ∀ m v p, m < h.numSub → v < vars h → p < (V h m v).w → c m v p = 0

/-- A linear solver (external) that solves every square system that has a solution. -/
def Exact (solver : Blk R → List R → List R → List R) : Prop :=
  ∀ (A : Blk R) (b x0 : List R), A.h = b.length → A.w = b.length → x0.length = b.length →
    (∃ x : Nat → R, ∀ r, r < b.length → ∑ c ∈ range b.length, A.val r c * x c = ve b r) →
    (solver A b x0).length = b.length ∧
      ∀ r, r < b.length → ∑ c ∈ range b.length, A.val r c * ve (solver A b x0) c = ve b r

end Verif.Online.Spec
