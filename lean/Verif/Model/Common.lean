import Verif.Model.Py
import Mathlib.Algebra.Order.Field.Basic
/-
Model of xboa/common/_common.py: min_max, multisort, histogram, get_bin_edges, n_bins and the pid
tables.
-/
namespace Xboa
namespace Common
variable {K : Type} [Field K] [LinearOrder K]

/-! ### min_max -/

/-- models the loop of _common.py:267-269 when `new_floats` is a new list. -/
def heavy : List K → List K → List K
  | w :: ws, x :: xs => if w > 1 / 1000000 then x :: heavy ws xs else heavy ws xs
  | _, _ => []

/-- models the loop of _common.py:267-269 when `new_floats` is the caller's list: `ind` is the next
index, elements are appended to the list that is being read. -/
def appendHeavy : Nat → List K → List K → Except Err Unit × List K
  | _, [], x => (.ok (), x)
  | ind, w :: ws, x =>
    if w > 1 / 1000000 then
      match x[ind]? with
      | none => (.error .IndexError, x)
      | some v => appendHeavy (ind + 1) ws (x ++ [v])
    else appendHeavy (ind + 1) ws x

/-- models Python's min of a nonempty list (the first one) -/
def pyMin (a : K) (l : List K) : K := l.foldl (fun m x => if x < m then x else m) a
/-- models Python's max of a nonempty list -/
def pyMax (a : K) (l : List K) : K := l.foldl (fun m x => if m < x then x else m) a

/-- models _common.py:270-280. -/
def limits (new_floats : List K) (margin : K) (xmin xmax : Option K) : K × K :=
  let x := match new_floats with
    | [] => ((0 : K), (0 : K))
    | a :: r => (pyMin a r, pyMax a r)
  let delta := (x.2 - x.1) * margin
  let x := (x.1 - delta, x.2 + delta)
  let x := if x.2 - x.1 < 1 / 1000000000 then (x.1 - 1, x.2 + 1) else x
  (xmin.getD x.1, xmax.getD x.2)

/-- models _common.py:252-280 (min_max).  The state is the caller's x_float_list. -/
def minMax (weight_list : List K) (margin : K) (xmin xmax : Option K) : PyM (List K) (K × K) :=
  fun x =>
    if weight_list.length = x.length then (.ok (limits (heavy weight_list x) margin xmin xmax), x)
    else
      match appendHeavy 0 weight_list x with
      | (.error e, x') => (.error e, x')
      | (.ok _, x') => (.ok (limits x' margin xmin xmax), x')

/-! ### multisort -/

/-- models _common.py:282-297 (multisort): the returned list, which is also the new contents of the
argument.  `sorted` is Python's stable sort.  If the first loop raises, the argument is unchanged. -/
def multisort (cols : List (List K)) : Except Err (List (List K)) :=
  match cols with
  | [] => .error .IndexError
  | c0 :: _ =>
    if cols.any (fun c => decide (c.length < c0.length)) then .error .IndexError
    else
      let rows := (List.range c0.length).map fun i => cols.map fun c => c.getD i 0
      let sorted := rows.mergeSort (fun a b => decide (a.getD 0 0 ≤ b.getD 0 0))
      .ok (cols.mapIdx fun i c => (sorted.map fun r => r.getD i 0) ++ c.drop c0.length)

/-! ### histogram -/

/-- models bisect.bisect_right (CPython Lib/bisect.py) on the part lo .. hi. -/
def bisectRightAux (a : List K) (x : K) (lo hi : Nat) : Nat :=
  if lo < hi then
    let mid := (lo + hi) / 2
    if x < a.getD mid 0 then bisectRightAux a x lo mid
    else bisectRightAux a x (mid + 1) hi
  else lo
termination_by hi - lo

/-- models bisect.bisect_right(a, x). -/
def bisectRight (a : List K) (x : K) : Nat := bisectRightAux a x 0 a.length

/-- the bin index `bisect_right(bins, x) - 1` if it is valid, _common.py:343-345 -/
def binOf (bins : List K) (x : K) : Option Nat :=
  let b := bisectRight bins x
  if 1 ≤ b ∧ b - 1 + 1 < bins.length then some (b - 1) else none

/-- models the loop of _common.py:342-346; `i` is the index of the next point. -/
def fill (xb yb ys ws : List K) : Nat → List K → (Nat → Nat → K) → Except Err (Nat → Nat → K)
  | _, [], c => .ok c
  | i, x :: r, c =>
    match ys[i]? with
    | none => .error .IndexError
    | some y =>
      match binOf xb x, binOf yb y with
      | some p, some q =>
        match ws[i]? with
        | none => .error .IndexError
        | some w =>
          fill xb yb ys ws (i + 1) r (fun p' q' => if p' = p ∧ q' = q then c p' q' + w else c p' q')
      | _, _ => fill xb yb ys ws (i + 1) r c

/-- models _common.py:322-350 (histogram): the array of contents with the bin edges returned. -/
def histogram (xs xb : List K) (ys yb ws : Option (List K)) :
    Except Err ((Nat → Nat → K) × List K × List K) :=
  let ws := ws.getD (List.replicate xs.length 1)
  match ys with
  | none =>
    if xb.length = 0 then .error .ValueError
    else
      match fill xb [-1, 1] (List.replicate xs.length 0) ws 0 xs (fun _ _ => 0) with
      | .error e => .error e
      | .ok c => .ok (c, xb, [])
  | some ys =>
    match yb with
    | none => .error .TypeError
    | some yb =>
      if xb.length = 0 ∨ yb.length = 0 then .error .ValueError
      else
        match fill xb yb ys ws 0 xs (fun _ _ => 0) with
        | .error e => .error e
        | .ok c => .ok (c, xb, yb)

/-- models _common.py:352-368 (get_bin_edges); the list of variables is not changed because
min_max is called without weights. -/
def getBinEdges (vars : List K) (n : Int) (xmin xmax : Option K) : Except Err (List K) :=
  match (minMax [] 0 none none vars).1 with
  | .error e => .error e
  | .ok mm =>
    let lo := xmin.getD mm.1
    let hi := xmax.getD mm.2
    if n = 0 then .error .ZeroDivisionError
    else
      let delta := (hi - lo) / (n : K)
      .ok ((List.range (n + 1).toNat).map fun (i : Nat) => lo + delta * (i : K))

/-! ### pid tables -/

/-- models _common.py:71. -/
def icoolPidToPdg : List (Int × Int) :=
  [(0, 0), (1, -11), (2, -13), (3, 211), (4, 321), (5, 2212), (-1, 11), (-2, 13), (-3, -211),
   (-4, -321), (-5, -2212)]

/-- models _common.py:82. -/
def marsPidToPdg : List (Int × Int) :=
  [(1, 2212), (2, 2112), (3, 211), (4, -211), (5, 321), (6, -321), (7, -13), (8, 13), (9, 22),
   (10, 11), (11, -11), (12, -2212), (13, 111), (14, 1000010020), (15, 1000010030),
   (16, 1000020030), (17, 1000020040), (18, 14), (19, -14), (20, 12), (21, -12), (22, 130),
   (23, 310), (24, 311), (25, -311), (26, 3122), (27, -3122), (28, 0), (29, 0), (30, 0),
   (31, -2112), (32, 0), (33, 0), (34, 0), (35, 0), (36, 0), (38, 0), (39, 0), (40, 0)]

/-- `d[k] = v` on a dictionary kept as a list without repeated keys -/
def dictSet {α β : Type} [DecidableEq α] (d : List (α × β)) (k : α) (v : β) : List (α × β) :=
  if d.any (fun p => decide (p.1 = k)) then d.map (fun p => if p.1 = k then (k, v) else p)
  else d ++ [(k, v)]

/-- models the loops of _common.py:73-74 and 84-85: the inverse dictionary. -/
def invert (d : List (Int × Int)) : List (Int × Int) :=
  d.foldl (fun acc p => dictSet acc p.2 p.1) []

/-- models _common.py:72-74. -/
def pdgPidToIcool : List (Int × Int) := invert icoolPidToPdg
/-- models _common.py:83-85. -/
def pdgPidToMars : List (Int × Int) := invert marsPidToPdg

/-- models _common.py:87 (masses in units of 1e-9 MeV/c^2). -/
def pdgPidToMass : List (Int × Nat) :=
  [(0, 0), (11, 510998910), (12, 0), (13, 105658366800), (14, 0), (22, 0), (111, 134976600000),
   (211, 139570180000), (321, 493667000000), (2112, 939565360000), (2212, 938271996000),
   (1000010020, 1876123900000), (1000010030, 2809432000000), (1000020030, 2809413460000),
   (1000020040, 3728400100000), (130, 497614000000), (310, 497614000000), (311, 497614000000),
   (3122, 1115683000000)]

/-- models _common.py:91. -/
def pdgPidToCharge : List (Int × Int) :=
  [(0, 0), (11, -1), (12, 0), (13, -1), (14, 0), (22, 0), (111, 0), (211, 1), (321, 1), (2112, 0),
   (2212, 1), (1000010020, 0), (1000010030, 0), (1000020030, 0), (1000020040, 0), (130, 0),
   (310, 0), (311, 0), (3122, 0), (-11, 1), (-12, 0), (-13, 1), (-14, 0), (-211, -1), (-321, -1),
   (-2112, 0), (-2212, -1), (-3122, 0)]

end Common
end Xboa
