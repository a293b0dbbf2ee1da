import Verif.Model.Hit
import Mathlib.Algebra.Order.Floor.Ring
/-
Model of Hit.check, xboa/hit/_hit.py:367-379.
-/
namespace Xboa
variable {K : Type} [Field K] [LinearOrder K] [FloorRing K]

/-- Python 3 `round(x)` of a float: the nearest integer, halves to the even one. -/
def pyRound (x : K) : Int :=
  let f := ⌊x⌋
  let d := x - (f : K)
  if d < 1 / 2 then f
  else if 1 / 2 < d then f + 1
  else if f % 2 = 0 then f else f + 1

namespace Hit
variable (E : Ext K)

/-- models _hit.py:367-379 (check).  `masses` is Common.pdg_pid_to_mass and `bad` Hit.__bad_pids;
printing is left out. -/
def check (masses : List (Int × K)) (bad : List Int) (tolerance : K) : PyM (HS K) Bool := do
  let v ← get E "pid"
  match v with
  | .int pid =>
    if (masses.lookup |pid|).isNone ∧ pid ∉ bad ∧ pid ≠ 0 then return false
    else
      let mass ← getF "mass"
      let wrong := match masses.lookup |pid| with
        | some m => decide (|mass - m| > tolerance)
        | none => false
      if wrong then return false
      else
        let p ← get_p E
        let energy ← getF "energy"
        if (((|pyRound (p ^ 2 + mass ^ 2) - pyRound (energy ^ 2)| : Int) : K) > tolerance) then
          return false
        else return true
  | _ => PyM.raise .TypeError

end Hit
end Xboa
