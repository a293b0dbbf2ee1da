import Verif.Model.Hit
import Mathlib.Algebra.BigOperators.Group.Finset.Basic
/-
Model of Hit.get_vector and Hit.abelian_transformation, xboa/hit/_hit.py.
-/
namespace Xboa
variable {K : Type} [Field K] [LinearOrder K]

/-- A numpy matrix: a shape and entries. -/
structure Mat (K : Type) where
  rows : Nat
  cols : Nat
  entry : Nat → Nat → K

namespace Hit
variable (E : Ext K)

/-- `self.get(key)` used as a number; None raises TypeError. -/
def getNum (key : String) : PyM (HS K) K := do
  let v ← get E key
  match v with
  | .flt a => return a
  | .int n => return (n : K)
  | .none => PyM.raise .TypeError

/-- `d[key]` after `if not key in d: d[key] = 0` (_hit.py:279-281). -/
def lookup0 (d : List (String × K)) (key : String) : K := (d.lookup key).getD 0

/-- models _hit.py:234-249 (get_vector); the 1 x n matrix as a list. -/
def get_vector (vars : List String) (origin : List (String × K)) : PyM (HS K) (List K) :=
  match vars with
  | [] => return []
  | key :: r => do
    let v ← getNum E key
    let rest ← get_vector r origin
    return (v - lookup0 origin key) :: rest

/-- the loop of _hit.py:285-286: element `i` onwards of the transformed vector is assigned. -/
def setVector (rows : Nat) (vec : Nat → K) (trans origin : List (String × K)) :
    Nat → List String → PyM (HS K) Unit
  | _, [] => return ()
  | i, key :: r => do
    if rows ≤ i then PyM.raise .IndexError
    else
      set E key (.flt (vec i + lookup0 trans key + lookup0 origin key))
      setVector rows vec trans origin (i + 1) r

/-- models _hit.py:262-288 (abelian_transformation).  numpy's matrix product raises ValueError
if the shapes do not fit.  Simplified: all values are numbers, so numpy's integer arrays (when
every listed variable is an int) are not distinguished. -/
def abelian_transformation (vars : List String) (R : Mat K) (trans origin : List (String × K))
    (mass_shell_variable : String) : PyM (HS K) Unit := do
  let v ← get_vector E vars []
  let v' := List.zipWith (fun key a => a - lookup0 origin key) vars v
  if R.cols ≠ vars.length then PyM.raise .ValueError
  else
    let w := fun i => ∑ j ∈ Finset.range R.cols, R.entry i j * v'.getD j 0
    setVector E R.rows w trans origin 0 vars
    let _ ← mass_shell_condition E mass_shell_variable

end Hit
end Xboa
