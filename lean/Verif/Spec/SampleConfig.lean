import Verif.Model.SampleConfig
import Verif.Spec.Options

/-! # Specification vocabulary for the configuration of every sample -/

namespace Verif.SampleConfig.Spec

open Verif Verif.Options Verif.Options.Spec Verif.SampleConfig

/-- Neither path contains the other. -/
def Unrelated (p q : List Str) : Prop := ¬ p <+: q ∧ ¬ q <+: p

/-- The keys of different parameters are unrelated paths. -/
def Separate (ps : List Param) : Prop :=
  ps.Pairwise fun a b => Unrelated (pieces '/' a.key) (pieces '/' b.key)

/-- Entry `k` of the node `e` is there and reads as `v`. -/
def Entry {T : Type} (as : Node → Outcome T) (e : Node) (k : String) (v : T) : Prop :=
  ∃ n, At e [k.toList] n ∧ as n = .ok v

/-- The option at a path of the configuration has the value `v`: the one written there, or the default if
nothing is. -/
def Setting {T : Type} (as : Node → Outcome T) (cfg : Node) (path : List String) (dflt v : T) : Prop :=
  (∃ n, At cfg (path.map String.toList) n ∧ as n = .ok v) ∨
    ¬ Spec.Exists cfg (path.map String.toList) ∧ v = dflt

/-- The node `e` describes the parameter. -/
inductive Describes (c : Codec) (e : Node) : Param → Prop where
  | double {k : String} {lg : Bool} {lo hi : ℝ} (hk : Entry c.str e "key" k)
      (ht : Entry c.str e "type" "double")
      (hlg : Entry c.bool e "log_scale" lg ∨ ¬ Spec.Exists e ["log_scale".toList] ∧ lg = false)
      (hlo : Entry c.dbl e "minimum" lo) (hhi : Entry c.dbl e "maximum" hi) :
      Describes c e ⟨k.toList, .double lg lo hi⟩
  | integer {k : String} {lo hi : Int} (hk : Entry c.str e "key" k)
      (ht : Entry c.str e "type" "integer")
      (hlo : Entry c.int e "minimum" lo) (hhi : Entry c.int e "maximum" hi) :
      Describes c e ⟨k.toList, .integer lo hi⟩
  | filename {k f : String} {lo hi : Int} (hk : Entry c.str e "key" k)
      (ht : Entry c.str e "type" "filename")
      (hlo : Entry c.int e "minimum" lo) (hhi : Entry c.int e "maximum" hi)
      (hf : Entry c.str e "format" f) :
      Describes c e ⟨k.toList, .filename f lo hi⟩

/-- The node `l` is a list with the given entries, or a map whose keys are their numbers. -/
def Items (l : Node) (es : List Node) : Prop :=
  l = .seq es ∨ ∃ m, l = .map m ∧ m.length = es.length ∧
    ∀ (k : Nat) e, es[k]? = some e → At l [Options.digits k] e

/-- Value `i` of `n` equally spaced values from `lo` to `hi` (`lo` if `n = 1`). -/
noncomputable def linear (lo hi : ℝ) (n i : Int) : ℝ :=
  if n = 1 then lo else lo + (hi - lo) * ((i : ℝ) / ((n : ℝ) - 1))

/-- Value `i` of `n` geometrically spaced values from `lo` to `hi` (`lo` if `n = 1`). -/
noncomputable def geometric (lo hi : ℝ) (n i : Int) : ℝ :=
  if n = 1 then lo else lo * (hi / lo) ^ ((i : ℝ) / ((n : ℝ) - 1))

/-- Value `i` of `n` integers starting from `lo`, with the spacing rounded towards zero. -/
def integers (lo hi : Int) (n i : Int) : Int :=
  if n = 1 then lo else lo + i * (hi - lo).tdiv (n - 1)

/-- What a parameter is set to in position `i` of `n`. -/
noncomputable def value (c : Codec) (k : Kind) (n i : Int) : Node :=
  match k with
  | .double false lo hi => c.ofDbl (linear lo hi n i)
  | .double true lo hi => c.ofDbl (geometric lo hi n i)
  | .integer lo hi => c.ofInt (integers lo hi n i)
  | .filename f lo hi => c.ofStr (c.format f (integers lo hi n i))

/-- A logarithmic scale has positive end points. -/
def Proper : Kind → Prop
  | .double true lo hi => 0 < lo ∧ 0 < hi
  | _ => True

/-- What a parameter is set to when `u` is drawn from `[0,1)` or `k` from `lo, …, hi`. -/
noncomputable def drawn (c : Codec) (k : Kind) (d : Draw) : Node :=
  match k with
  | .double false lo hi => c.ofDbl (lo + (hi - lo) * d.u)
  | .double true lo hi => c.ofDbl (lo * (hi / lo) ^ d.u)
  | .integer _ _ => c.ofInt d.k
  | .filename f _ _ => c.ofStr (c.format f d.k)

/-- `cfg'` is `cfg` with the parameters set to the values `vals`, all else as it was. -/
def Configured (ps : List Param) (vals : List Node) (cfg cfg' : Node) : Prop :=
  List.Forall₂ (fun q v => At cfg' (pieces '/' q.key) v) ps vals ∧
    ∀ path, (∀ q ∈ ps, Unrelated (pieces '/' q.key) path) →
      (∀ n, At cfg' path n ↔ At cfg path n) ∧ (Blocked cfg' path ↔ Blocked cfg path)

/-- The values of all parameters at the grid point `idx`. -/
noncomputable def values (c : Codec) (g : Gen) (idx : List Int) : List Node :=
  List.zipWith3 (fun q n i => value c q.kind n i) g.params g.sizes idx

/-- `idx` is a point of the grid with the given numbers of points in each direction. -/
def InGrid (sizes idx : List Int) : Prop := List.Forall₂ (fun n i => 0 ≤ i ∧ i < n) sizes idx

/-- Position of a grid point when the last direction runs fastest. -/
def position : List Int → List Int → Int
  | _ :: sizes, i :: idx => i * sizes.prod + position sizes idx
  | _, _ => 0

/-- The generator has one positive number of samples per parameter, and their product. -/
def Sized (g : Gen) : Prop :=
  g.params ≠ [] ∧ g.sizes.length = g.params.length ∧ (∀ n ∈ g.sizes, 0 < n) ∧ g.total = g.sizes.prod

/-- Different positions give different values: the interval is not a point and, for integers, has
enough of them. -/
def Spread : Kind → Int → Prop
  | .double false lo hi, n => n = 1 ∨ lo ≠ hi
  | .double true lo hi, n => n = 1 ∨ lo ≠ hi
  | .integer lo hi, n => n ≤ hi - lo + 1
  | .filename _ lo hi, n => n ≤ hi - lo + 1

/-- The values of the parameter on the grid are written differently when they are different (double
precision numbers are written with a limited number of digits). -/
def Faithful (c : Codec) (k : Kind) (n : Int) : Prop :=
  match k with
  | .double lg lo hi => Set.InjOn c.ofDbl
      {x | ∃ i : Int, 0 ≤ i ∧ i < n ∧ x = if lg then geometric lo hi n i else linear lo hi n i}
  | .integer lo hi => Set.InjOn c.ofInt {x | ∃ i : Int, 0 ≤ i ∧ i < n ∧ x = integers lo hi n i}
  | .filename f lo hi => Set.InjOn (fun v => c.ofStr (c.format f v))
      {x | ∃ i : Int, 0 ≤ i ∧ i < n ∧ x = integers lo hi n i}

end Verif.SampleConfig.Spec
