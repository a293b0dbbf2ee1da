import Verif.Model.Py
/-
Model of Bunchcore::get_index_by_power, xboa/core/cpplib/Bunchcore.cc:174-208, and of its Python
wrapper, xboa/core/pylib/PyBunchcore.cc:415-443.
-/
namespace Xboa

/-- models Bunchcore.cc:184-208 (get_index_by_power_recurse).  `current_sum` starts from element
0 and adds elements 1..axis-1; the loop runs for i with current_sum + i <= max_size; inside it
`current_index[axis] = i`.  `size_t` is a natural number. -/
def indexByPowerRecurse (maxSize : Nat) (axis : Nat) (cur : List Nat) : List (List Nat) :=
  if axis < cur.length then
    let currentSum := cur.getD 0 0 + ((cur.take axis).drop 1).sum
    (List.range (maxSize + 1 - currentSum)).flatMap fun i =>
      indexByPowerRecurse maxSize (axis + 1) (cur.set axis i) ++
        (if 0 < i then [cur.set axis i] else [])
  else []
termination_by cur.length - axis
decreasing_by simp; omega

/-- models Bunchcore.cc:174-181 (get_index_by_power). -/
def indexByPower (maxSize nAxes : Nat) : List (List Nat) :=
  List.replicate nAxes 0 :: indexByPowerRecurse maxSize 0 (List.replicate nAxes 0)

/-- models PyBunchcore.cc:415-443 (Bunchcore.index_by_power; the arguments are Python ints that
fit a C int). -/
def pyIndexByPower (maxPower nAxes : Int) : Except Err (List (List Nat)) :=
  if maxPower < 0 then .error .ValueError
  else if nAxes < 1 then .error .ValueError
  else .ok (indexByPower maxPower.toNat nAxes.toNat)

end Xboa
