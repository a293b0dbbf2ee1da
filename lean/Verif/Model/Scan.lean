import Mathlib.Algebra.Field.Basic
import Mathlib.Order.Lattice
import Verif.Model.Py
/-
Model of the scan generator of xboa/algorithms/closed_orbit/_ellipse_closed_orbit_finder.py.
-/
namespace Xboa
namespace Scan
variable {K : Type} [Field K] [LinearOrder K]

/-- the entries of the three dictionaries for one key -/
structure Var (K : Type) where
  start : K
  stop : K
  size : K

/-- models _ellipse_closed_orbit_finder.py:84-91: the step dictionary after one yield.  The variables
and their values are listed with the last key (in sorted order) first. -/
def advance : List (Var K) → List K → List K
  | v :: vs, c :: cs =>
    let c' := c + v.size
    if c' > v.stop ∧ vs ≠ [] then v.start :: advance vs cs else c' :: cs
  | _, cs => cs

/-- models _ellipse_closed_orbit_finder.py:75-77: the scan is over when any variable has reached its
end. -/
def ended : List (Var K) → List K → Bool
  | v :: vs, c :: cs => decide (c ≥ v.stop) || ended vs cs
  | _, _ => false

/-- the step dictionary after `n` yields -/
def state (vars : List (Var K)) : Nat → List K
  | 0 => vars.map Var.start
  | n + 1 => advance vars (state vars n)

/-- how a generator ends -/
inductive End | stop | raise (e : Err)
deriving DecidableEq

/-- models _ellipse_closed_orbit_finder.py:57-91 (scan_generator) as a relation: `Run vars out e` says
that the generator tracks from the points `out`, yields once for each and then ends as `e`.  The
keys of the three dictionaries agree and there is at least one (keys[-1] otherwise raises); the
tracking is not modelled.  `raise StopIteration` inside a generator becomes RuntimeError. -/
def Run (vars : List (Var K)) (out : List (List K)) (e : End) : Prop :=
  ∃ n, (∀ k, k < n → ended vars (state vars k) = false) ∧ ended vars (state vars n) = true ∧
    out = (List.range n).map (state vars) ∧ e = .raise .RuntimeError

end Scan
end Xboa
