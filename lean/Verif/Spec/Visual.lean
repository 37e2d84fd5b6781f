import Verif.Spec.LinAlg
import Verif.Model.Visual

/-!
# What visualisation files should show
-/

namespace Verif.Visual.Spec

open Verif Verif.LinAlg Verif.LinAlg.Spec Verif.Visual

variable {R T : Type}

/-- The subdomains asked for: from the offset on, the multiples of the interval. -/
def Selected (o : Opts) (m : Nat) : Prop := o.offset ≤ m ∧ o.interval ∣ m

instance (o : Opts) (m : Nat) : Decidable (Selected o m) := inferInstanceAs (Decidable (_ ∧ _))

/-- The offset and the interval make sense for `n` subdomains. -/
def Sensible (o : Opts) (n : Nat) : Prop := 0 ≤ o.offset ∧ o.offset < n ∧ 0 < o.interval ∧ o.interval ≤ n

/-- Values number `k` of a list of grid functions. -/
def nth (l : List (List R)) (k : Nat) : List R := l[k]?.getD []

/-- One field per variable, and one for its error if asked for. -/
def fieldsFor (names : List String) (withError : Bool) (val err : Nat → List R) : List (String × List R) :=
  (List.range names.length).flatMap fun v =>
    let n := (names[v]?).getD ""
    (n, val v) :: if withError then [(n ++ "_abs_error", err v)] else []

/-- The file of subdomain `m`: the values of its variables. -/
def subFile (su : Setup) (o : Opts) (pre : String) (stamp : Option (Int × T)) (us err : List (List R)) (m : Nat) :
    File R T :=
  ⟨pre ++ "_" ++ toString m, some m, stamp, fieldsFor su.names o.saveError
    (fun v => nth us (m * su.names.length + v)) (fun v => nth err (m * su.names.length + v))⟩

/-- The files of all subdomains asked for. -/
def subFiles (su : Setup) (o : Opts) (pre : String) (stamp : Option (Int × T)) (us err : List (List R)) :
    List (File R T) :=
  ((List.range su.numSub).filter fun m => decide (Selected o m)).map (subFile su o pre stamp us err)

/-- The file name given, or the one of the input file. -/
def prefixOf (o : Opts) (path : String) : String := if path = "" then o.dir ++ "/" ++ o.pre else path

/-- There is a file name. -/
def Named (o : Opts) (path : String) : Prop := path ≠ "" ∨ o.pre ≠ "" ∧ o.dir ≠ ""

/-- There is a grid function for every variable of every subdomain. -/
def Complete (su : Setup) (us : List (List R)) : Prop := us.length = su.names.length * su.numSub

/-- The dofs of the subdomains are dofs of the parent mesh. -/
structure Placed (su : Setup) : Prop where
  bound : ∀ m v p, m < su.numSub → v < su.names.length → p ∈ su.map m v → p < su.globalSize v
  nodup : ∀ m v, m < su.numSub → v < su.names.length → (su.map m v).Nodup

/-- Grid functions with a value for every dof. -/
def Sized (su : Setup) (us : List (List R)) : Prop :=
  Complete su us ∧ ∀ m v, m < su.numSub → v < su.names.length →
    (nth us (m * su.names.length + v)).length = (su.map m v).length

/-- `g` on the parent mesh shows `us` on the subdomains: each dof has the value of the last subdomain it belongs
to. -/
def Shows (n : Nat) (map : Nat → List Nat) (size : Nat) (us : Nat → List R) (g : List R) : Prop :=
  g.length = size ∧ ∀ m (k p : Nat), m < n → (map m)[k]? = some p → (∀ m', m < m' → m' < n → p ∉ map m') →
    g[p]? = (us m)[k]?

/-- The fields of the parent mesh show the variables. -/
def ShowsAll (su : Setup) (us g : List (List R)) : Prop :=
  ∀ v, v < su.names.length →
    Shows su.numSub (fun m => su.map m v) (su.globalSize v) (fun m => nth us (m * su.names.length + v)) (nth g v)

/-- The file of the unified view. -/
def UnifiedFile (su : Setup) (o : Opts) (pre : String) (stamp : Option (Int × T)) (us err : List (List R))
    (f : File R T) : Prop :=
  f.name = pre ∧ f.mesh = none ∧ f.stamp = stamp ∧ ∃ g ge : List (List R),
    f.fields = fieldsFor su.names o.saveError (nth g) (nth ge) ∧ ShowsAll su us g ∧
      (o.saveError = true → ShowsAll su err ge)

/-- The difference of two solutions. -/
def diff [Sub R] (x y : List (List R)) : List (List R) := List.zipWith (List.zipWith (· - ·)) x y

/-- The files a program must have written: at each save those that `P` asks for, for the values at that time, and the
last cycle and time that were given. -/
def Pictures [Sub R] (P : Option (Int × T) → List (List R) → List (List R) → List (File R T) → Prop) :
    List (Event R T) → Option (Int × T) → List (List R) → List (List R) → List (File R T) → Prop
  | [], _, _, _, out => out = []
  | .solve us :: es, st, _, err, out => Pictures P es st us err out
  | .compare test :: es, st, us, _, out => Pictures P es st us (diff test us) out
  | .save :: es, st, us, err, out => ∃ a b, out = a ++ b ∧ P st us err a ∧ Pictures P es st us err b
  | .saveAt n t :: es, _, us, err, out =>
    ∃ a b, out = a ++ b ∧ P (some (n, t)) us err a ∧ Pictures P es (some (n, t)) us err b

/-- The solutions have the right shape. -/
def EventOk (Q : List (List R) → Prop) : Event R T → Prop
  | .solve us => Q us
  | .compare test => Q test
  | _ => True

/-- Some save carries cycle and time. -/
def Timed : List (Event R T) → Prop
  | [] => False
  | .saveAt _ _ :: _ => True
  | _ :: es => Timed es

/-- Value `p` of variable `v` in column `k` of a basis: the values of the variables are stored one after the other. -/
def entry (sizes : List Nat) (b : Mat R) (k v p : Nat) : Option R :=
  b.data[k * sizes.sum + (sizes.take v).sum + p]?

end Verif.Visual.Spec
