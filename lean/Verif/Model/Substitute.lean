import Verif.Model.Py
/-
Model of xboa/common/_common.py substitute.  A file is a list of lines (as Python iterates over it),
a string a list of characters.
-/
namespace Xboa
namespace Common

/-- models CPython's str.replace for a nonempty key: the text is scanned from the left, matches do
not overlap. -/
def replaceKey (key value : List Char) : List Char → List Char
  | [] => []
  | c :: r =>
    if key.isPrefixOf (c :: r) then value ++ replaceKey key value (r.drop (key.length - 1))
    else c :: replaceKey key value r
termination_by s => s.length
decreasing_by
  · simp; omega
  · simp

/-- models CPython's str.replace with an empty key: the value is put around every character. -/
def replaceEmpty (value : List Char) : List Char → List Char
  | [] => value
  | c :: r => value ++ c :: replaceEmpty value r

/-- models CPython's str.replace. -/
def replace (key value s : List Char) : List Char :=
  if key = [] then replaceEmpty value s else replaceKey key value s

/-- models the inner loop of _common.py:151-152; the items of the dictionary in their order. -/
def substituteLine (items : List (List Char × List Char)) (line : List Char) : List Char :=
  items.foldl (fun l kv => replace kv.1 kv.2 l) line

/-- models _common.py:139-156 (substitute): the text written. -/
def substitute (items : List (List Char × List Char)) (lines : List (List Char)) :
    List (List Char) := lines.map (substituteLine items)

end Common
end Xboa
