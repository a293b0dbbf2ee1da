import Verif.Model.Hitcore
import Mathlib.Algebra.Order.Field.Basic
import Mathlib.Data.Int.Cast.Lemmas
/-!
Specifications used by several property files: the variables of a hit by name, truncation of a number
to an integer, the weight of a hit.
-/
namespace Xboa

/-- The stored variables of a hit, as a user names them. -/
def hitVariables : List String :=
  ["x", "y", "z", "t", "px", "py", "pz", "energy", "bx", "by", "bz", "ex", "ey", "ez",
   "sx", "sy", "sz", "path_length", "proper_time", "e_dep", "charge", "mass",
   "local_weight", "global_weight", "spill", "event_number", "particle_number", "station",
   "status", "pid"]

/-- the code lists the same names -/
theorem hitVariables_eq : hitVariables = getNames := rfl

/-- `n` is `v` without its decimals. -/
def IsTrunc {K : Type} [Field K] [LinearOrder K] (v : K) (n : Int) : Prop :=
  (0 ≤ v → (n : K) ≤ v ∧ v < n + 1) ∧ (v < 0 → v ≤ n ∧ (n : K) - 1 < v)

/-- The entry of the weight context a hit uses (event and particle exchanged, see C05). -/
def Core.trackId {K : Type} (h : Core K) : HitId := ⟨h.i .spill, h.i .particle, h.i .event⟩

theorem Core.trackId_eq {K : Type} (h : Core K) : h.trackId = h.weightId := rfl

/-- The weight a hit shows to the user, hit.get('weight'): the local weight times the weight of its
track in the context. -/
def HS.userWeight {K : Type} [Mul K] (s : HS K) : K :=
  s.core.d .local_weight * s.wc.getWeight s.core.trackId

/-- the code computes the same -/
theorem HS.totalWeight_eq {K : Type} [Mul K] : (HS.totalWeight : HS K → K) = HS.userWeight := rfl

end Xboa
