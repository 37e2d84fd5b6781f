import Verif.Model.Config

/-!
# Any script that assembles a configuration

The calls of `Configuration` (`utils/python/config.py`) that a script can make, in any order.
-/

namespace Verif.Config

open Verif

/-- One call: `addMesh` (`utils/python/config.py:108-126`; the derived classes decide which locations are
available), `appendBoundary` (`:128-137`) or `appendInterface` (`:139-162`), with mesh numbers from zero. -/
inductive Call where
  | mesh (comp : Nat) (loc : Int × Int)
  | boundary (gattr : Int) (mesh : Nat) (face : Int)
  | interface (mesh1 mesh2 : Nat) (face1 face2 : Int)
deriving DecidableEq, Repr

/-- What a call does (`utils/python/config.py:108-162`). -/
def Conf.call (s : Conf) : Call → Outcome Conf
  | .mesh c l => s.addMesh c l
  | .boundary g m f => s.appendBoundary g m f
  | .interface m1 m2 f1 f2 => s.appendInterface m1 m2 f1 f2

/-- A script: a sequence of calls on a configuration that has only its components
(`utils/python/config.py:61-98`). -/
def script (comps : List Part) (calls : List Call) : Outcome Conf :=
  calls.foldlM Conf.call ⟨comps, [], [], [], [], [], []⟩

end Verif.Config
