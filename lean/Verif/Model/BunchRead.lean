import Verif.Model.TextIO
import Mathlib.Data.List.Sort
/-
Model of Bunch.new_dict_from_read_builtin and new_list_from_read_builtin (xboa/bunch/_bunch.py:183-273)
for the text formats.
-/
namespace Xboa
namespace BunchRead
variable {K : Type} [Field K] [LinearOrder K] [FloorRing K] {W : Type}

/-- The world after the hits `cores` were made as the objects `first`, `first + 1`, ... -/
def place (cores : List (Core K)) (wc : WC K) (first : Nat) (w : BWorld K) : BWorld K :=
  { w with hits := fun i => if first ≤ i then (cores[i - first]?).getD (w.hits i) else w.hits i
           ctx := fun c => if c = w.hcur then wc else w.ctx c }

/-- models _bunch.py:275-340 (new_from_read_builtin without a limit) as a Bunch; `files` are the
files found by glob. -/
def newFromRead (E : Ext K) (T : TextIO.Text K W) (format : String) (test : HS K → Bool)
    (files : List (List (TextIO.Line W))) (first : Nat) (w : BWorld K) :
    Except Err (Bunch K) × BWorld K :=
  match TextIO.readFiles E T format (-1) test files [] (w.ctx w.hcur) with
  | (.error e, wc) => (.error e, place [] wc first w)
  | (.ok cores, wc) =>
    (.ok ((List.range' first cores.length).foldl (fun b h => b.append h) Bunch.new),
     place cores wc first w)

/-- models _bunch.py:183-214 (new_dict_from_read_builtin). -/
def newDictFromRead (E : Ext K) (T : TextIO.Text K W) (format : String) (v : String)
    (test : HS K → Bool) (files : List (List (TextIO.Line W))) (first : Nat) (w : BWorld K) :
    Except Err (List (Int × Bunch K)) × BWorld K :=
  match newFromRead E T format test files first w with
  | (.error e, w') => (.error e, w')
  | (.ok b, w') => (Bunch.split E w' v b, w')

/-- models the last loop of _bunch.py:271-272. -/
def bunchesOf (d : List (Int × Bunch K)) : List Int → Except Err (List (Bunch K))
  | [] => .ok []
  | k :: r =>
    match d.lookup k with
    | none => .error .KeyError
    | some b =>
      match bunchesOf d r with
      | .error e => .error e
      | .ok l => .ok (b :: l)

/-- models _bunch.py:242-273 (new_list_from_read_builtin). -/
def newListFromRead (E : Ext K) (T : TextIO.Text K W) (format : String) (v : String)
    (test : HS K → Bool) (files : List (List (TextIO.Line W))) (first : Nat) (w : BWorld K) :
    Except Err (List (Bunch K)) × BWorld K :=
  match newDictFromRead E T format v test files first w with
  | (.error e, w') => (.error e, w')
  | (.ok d, w') => (bunchesOf d ((d.map Prod.fst).insertionSort (· ≤ ·)), w')

end BunchRead
end Xboa
