import Verif.Model.Optics
import Verif.Model.BunchList
/-
Model of class MultipoleWeighting, xboa/bunch/weighting/_multipole_weighting.py.

Simplified: powers are natural numbers (set_target_moments also lets negative ints pass), the type
test of lines 101-103 is left out, variable names are those of Model/Bunch.lean.
-/
namespace Xboa
namespace Multipole
variable {K : Type} [Field K] [LinearOrder K]

/-- The members of MultipoleWeighting that outlive a call: maximum_moment, weight_variables,
v_g_index_by_power, v_g_list.  models _multipole_weighting.py:37-43. -/
structure MW (K : Type) where
  maxMoment : Int
  vars : List String
  gIdx : List (List Nat)
  gMom : List K

/-! ### sorting and searching -/

/-- Python `a <= b` of two tuples (list of ints, number). -/
def pairLe (a b : List Nat × K) : Bool :=
  if a.1 = b.1 then decide (a.2 ≤ b.2) else decide (a.1 < b.1)

/-- insertion before the first element that is not smaller -/
def insertPair (x : List Nat × K) : List (List Nat × K) → List (List Nat × K)
  | [] => [x]
  | y :: r => if pairLe x y then x :: y :: r else y :: insertPair x r

/-- models `sorted(zip(indices, moments))`, lines 109, 157. -/
def sortPairs : List (List Nat × K) → List (List Nat × K)
  | [] => []
  | x :: r => insertPair x (sortPairs r)

/-- models bisect.bisect_left(a, x, lo, hi) of the Python library: `n` bounds the number of steps. -/
def bisect (a : List (List Nat)) (x : List Nat) : Nat → Nat → Nat → Nat
  | 0, lo, _ => lo
  | n + 1, lo, hi =>
    if lo < hi then
      let mid := (lo + hi) / 2
      if a.getD mid [] < x then bisect a x n (mid + 1) hi
      else bisect a x n lo mid
    else lo

/-- models _multipole_weighting.py:133-147 (_v_f, _v_g): the element at the position bisect gives. -/
def lookupMoment (idx : List (List Nat)) (mom : List K) (x : List Nat) : Except Err K :=
  match mom[bisect idx x idx.length 0 idx.length]? with
  | none => .error .IndexError
  | some v => .ok v

/-! ### targets -/

/-- models _multipole_weighting.py:105-107: two neighbours are equal -/
def equalNeighbours : List (List Nat) → Bool
  | a :: b :: r => decide (b = a) || equalNeighbours (b :: r)
  | _ => false

/-- models _multipole_weighting.py:76-111 (set_target_moments). -/
def setTargetMoments (m : MW K) (idx : List (List Nat)) (mom : List K) : Except Err (MW K) :=
  if idx.length ≠ mom.length then .error .ValueError
  else if idx.any (fun i => decide (i.length ≠ m.vars.length)) then .error .ValueError
  else if equalNeighbours idx then .error .ValueError
  else
    match sortPairs (idx.zip mom) with
    | [] => .error .ValueError
    | s => .ok { m with gIdx := s.map Prod.fst, gMom := s.map Prod.snd }

/-- `[0]*n` with 1 added to element i, and to element j if given: lines 167-168, 172-174 -/
def unitIndex (n i : Nat) : List Nat := (List.replicate n 0).set i 1
/-- lines 172-174 -/
def pairIndex (n i j : Nat) : List Nat :=
  let l := (List.replicate n 0).set i 1
  l.set j (l.getD j 0 + 1)

/-- models _multipole_weighting.py:160-176 (_moments_from_ellipse); target_mean is a list of
numbers, target_ellipse a matrix. -/
def momentsFromEllipse (m : MW K) (mean : List K) (ellipse : Mat K) : Except Err (MW K) :=
  let n := m.vars.length
  let pairs := (List.range n).flatMap fun i => ((List.range n).drop i).map fun j => (i, j)
  if mean.length < n then .error .IndexError
  else if ellipse.rows < n ∨ ellipse.cols < n then .error .IndexError
  else setTargetMoments m
    ((List.range n).map (unitIndex n) ++ pairs.map (fun p => pairIndex n p.1 p.2))
    ((List.range n).map (fun i => mean.getD i 0) ++ pairs.map (fun p => ellipse.entry p.1 p.2))

/-- models _multipole_weighting.py:32-43 (__init__). -/
def new (maximumPole : Int) (vars : List String) (ellipse : Mat K) (mean : List K) :
    Except Err (MW K) := momentsFromEllipse ⟨maximumPole, vars, [], []⟩ mean ellipse

/-! ### coefficients -/

/-- models _multipole_weighting.py:149-158 (_setup): the sorted table of the moments of the bunch. -/
def setup (w : BWorld K) (m : MW K) (b : Bunch K) : Except Err (List (List Nat × K)) :=
  match pyIndexByPower (2 * m.maxMoment) m.vars.length with
  | .error e => .error e
  | .ok idx =>
    match Bunchcore.pyMomentTensor (Bunchcore.visits w b.core) m.vars (2 * m.maxMoment) with
    | .error e => .error e
    | .ok mom =>
      match sortPairs ((idx.drop 1).zip (mom.drop 1)) with
      | [] => .error .ValueError
      | s => .ok s

/-- apply a function that may raise to each element, in order -/
def collect {α β : Type} (f : α → Except Err β) : List α → Except Err (List β)
  | [] => .ok []
  | a :: r =>
    match f a with
    | .error e => .error e
    | .ok x =>
      match collect f r with
      | .error e => .error e
      | .ok xs => .ok (x :: xs)

/-- models the body of the loop of _multipole_weighting.py:120-124: element (i, j) of m_matrix is
`_v_f(list_ij) - _v_f(list_i) * _v_g(list_j)`. -/
def element (f : List (List Nat × K)) (m : MW K) (li lj : List Nat) : Except Err K :=
  match lookupMoment (f.map Prod.fst) (f.map Prod.snd) (List.zipWith (· + ·) li lj) with
  | .error e => .error e
  | .ok fij =>
    match lookupMoment (f.map Prod.fst) (f.map Prod.snd) li with
    | .error e => .error e
    | .ok fi =>
      match lookupMoment m.gIdx m.gMom lj with
      | .error e => .error e
      | .ok gj => .ok (fij - fi * gj)

/-- models the loop of _multipole_weighting.py:127-128: element i of u_vector is
`_v_g(list_i) - _v_f(list_i)`. -/
def offset (f : List (List Nat × K)) (m : MW K) (li : List Nat) : Except Err K :=
  match lookupMoment m.gIdx m.gMom li with
  | .error e => .error e
  | .ok gi =>
    match lookupMoment (f.map Prod.fst) (f.map Prod.snd) li with
    | .error e => .error e
    | .ok fi => .ok (gi - fi)

/-- models _multipole_weighting.py:113-131 (_calculate_coefficients). -/
def coefficients (L : LinAlg K) (w : BWorld K) (m : MW K) (b : Bunch K) : Except Err (List K) :=
  match setup w m b with
  | .error e => .error e
  | .ok f =>
    let n := m.gIdx.length
    match collect (fun li => collect (element f m li) m.gIdx) m.gIdx with
    | .error e => .error e
    | .ok rows =>
      match L.inv ⟨n, n, fun i j => (rows.getD i []).getD j 0⟩ with
      | none => .error .LinAlgError
      | some N =>
        match collect (offset f m) m.gIdx with
        | .error e => .error e
        | .ok u => .ok ((List.range n).map fun i => ∑ j ∈ Finset.range n, N.entry i j * u.getD j 0)

/-! ### weights -/

/-- models _multipole_weighting.py:62-68: the factor of a particle at `x`, 1 + sum a_j x^index_j. -/
def factor (gIdx : List (List Nat)) (coeffs : List K) (x : List K) : K :=
  (coeffs.zip gIdx).foldl (fun acc p => acc + (p.2.zip x).foldl (fun t q => t * q.2 ^ q.1) p.1) 1

/-- `hit[v] *= a`, line 70 -/
def scale (E : Ext K) (v : String) (a : K) : PyM (HS K) Unit := do
  let x ← Hit.getNum E v
  Hit.set E v (.flt (x * a))

/-- `hit[v] /= a`, line 73 -/
def divide (E : Ext K) (v : String) (a : K) : PyM (HS K) Unit := do
  let x ← Hit.getNum E v
  if a = 0 then PyM.raise .ZeroDivisionError else Hit.set E v (.flt (x / a))

/-- run a statement for each pair (hit, argument) until one raises -/
def forHits {α : Type} (f : α → PyM (HS K) Unit) : List (Nat × α) → BWorld K → Except Err Unit × BWorld K
  | [], w => (.ok (), w)
  | (i, a) :: r, w =>
    match w.onHit i (f a) with
    | (.error e, w') => (.error e, w')
    | (.ok _, w') => forHits f r w'

/-- models _multipole_weighting.py:45-74 (apply_weights).  hit_data is read once, before the first
weight is changed (line 58). -/
def applyWeights (L : LinAlg K) (E : Ext K) (m : MW K) (b : Bunch K) (globalCut : Bool)
    (w : BWorld K) : Except Err Unit × BWorld K :=
  match coefficients L w m b with
  | .error e => (.error e, w)
  | .ok coeffs =>
    match collect (fun v => Bunch.listGet E w v b.hits) m.vars with
    | .error e => (.error e, w)
    | .ok data =>
      let facs := (List.range b.hits.length).map fun i =>
        factor m.gIdx coeffs (data.map fun col => col.getD i 0)
      match forHits (scale E (Bunch.wtName globalCut)) (b.hits.zip facs) w with
      | (.error e, w') => (.error e, w')
      | (.ok _, w') =>
        forHits (divide E (Bunch.wtName globalCut))
          (b.hits.map fun i => (i, facs.foldl (fun acc f => acc + f / (b.hits.length : K)) 0)) w'

end Multipole
end Xboa
