import Verif.Model.Grid
import Verif.Model.BunchList
/-
Model of Bunch.new_hit_shell, xboa/bunch/_bunch.py:379-401.
-/
namespace Xboa
namespace HitShell
variable {K : Type} [Field K] [LinearOrder K] (E : Ext K)

/-- models the loop of _bunch.py:397-398, `bunch[-1][var] += vector[0,i]` for i, i+1, ...: the hit is
read, the element of the vector is read (IndexError beyond its end), the sum is stored. -/
def addVars (vec : List K) : Nat → List String → PyM (HS K) Unit
  | _, [] => return ()
  | i, v :: r => do
    let old ← Hit.get E v
    match vec[i]? with
    | none => PyM.raise .IndexError
    | some a => do
      let new ← PyM.lift (Hit.addVal (.flt a) old)
      Hit.set E v new
      addVars vec (i + 1) r

/-- models the loop body of _bunch.py:396-400 as seen by the new Hit. -/
def shellHit (vars : List String) (massVar : String) (defaults : List (String × PyVal K)) (ev : Nat)
    (vec : List K) : PyM (HS K) Unit := do
  Hit.new_from_dict E defaults ""
  addVars E vec 0 vars
  Hit.set E "event_number" (.int ev)
  let _ ← Hit.mass_shell_condition E massVar

/-- models the loop of _bunch.py:395-401; hit number `ev` becomes object `first + ev`.  The hit is
appended before it is filled in; the bunch holds a reference, so this makes no difference. -/
def fill (vars : List String) (massVar : String) (defaults : List (String × PyVal K)) (first : Nat) :
    Nat → List (List K) → Bunch K → BWorld K → Except Err (Bunch K) × BWorld K
  | _, [], b, w => (.ok b, w)
  | ev, vec :: r, b, w =>
    match w.onHit (first + ev) (shellHit E vars massVar defaults ev vec) with
    | (.error e, w') => (.error e, w')
    | (.ok _, w') => fill vars massVar defaults first (ev + 1) r (b.append (first + ev)) w'

/-- models _bunch.py:379-401 (new_hit_shell); the new hits are the objects `first`, `first + 1`, ... -/
def newHitShell (L : LinAlg K) (n : Nat) (ellipse : Mat K) (vars : List String) (massVar : String)
    (defaults : List (String × PyVal K)) (first : Nat) (w : BWorld K) :
    Except Err (Bunch K) × BWorld K :=
  match Common.makeShell L E n ellipse none with
  | .error e => (.error e, w)
  | .ok grid => fill E vars massVar defaults first 0 grid Bunch.new w

end HitShell
end Xboa
