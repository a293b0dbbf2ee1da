import Verif.Model.Optics
/-
Model of xboa/common/_common.py: make_grid, make_shell, normalise_vector.  A numpy row vector is a
list.
-/
namespace Xboa
namespace Common
variable {K : Type} [Field K] [LinearOrder K]

/-- models the loop body of _common.py:842-849: for coordinate `i` the copies with positions
j = 1 .. n-1 are appended. -/
def gridStep (n : Nat) (acc : List (List K)) (i : Nat) : List (List K) :=
  acc ++ (List.range (n - 1)).flatMap fun (j : Nat) =>
    acc.map fun vec => vec.set i (2 * ((j + 1 : Nat) : K) / ((n - 1 : Nat) : K) - 1)

/-- models _common.py:829-850 (make_grid), for dimensions and counts >= 0 (a negative count acts
like 0). -/
def makeGrid (d n : Nat) : List (List K) :=
  (List.range d).foldl (gridStep n) [List.replicate d (-1)]

/-- models _common.py:882-897 (normalise_vector).  numpy gives nan for the square root of a negative
number, which is turned into ValueError, and infinite components for 0 (not modelled further). -/
def normaliseVector (E : Ext K) (vector : List K) (N : Mat K) : Except Err (List K) :=
  let q := Bunch.quad N vector
  if q < 0 then .error .ValueError
  else if q = 0 then .error .Unmodelled
  else .ok (vector.map (· * (1 / E.sqrt q)))

/-- models the loop of _common.py:875-879. -/
def shellLoop (E : Ext K) (N : Mat K) (mean : List K) : List (List K) → Except Err (List (List K))
  | [] => .ok []
  | v :: r =>
    if (v.map (fun x => x * x)).sum > 1 / 1000000000 then
      match normaliseVector E v N with
      | .error e => .error e
      | .ok u =>
        match shellLoop E N mean r with
        | .error e => .error e
        | .ok l => .ok (List.zipWith (· + ·) u mean :: l)
    else shellLoop E N mean r

/-- models _common.py:852-880 (make_shell).  A mean of another length than the dimension is
broadcast by numpy or raises (not modelled). -/
def makeShell (L : LinAlg K) (E : Ext K) (n : Nat) (ellipse : Mat K) (mean : Option (List K)) :
    Except Err (List (List K)) :=
  if ellipse.rows ≠ ellipse.cols then .error .LinAlgError
  else
    match L.inv ellipse with
    | none => .error .LinAlgError
    | some N =>
      let mean := mean.getD (List.replicate ellipse.rows 0)
      if mean.length ≠ ellipse.rows then .error .Unmodelled
      else shellLoop E N mean (makeGrid ellipse.rows n)

end Common
end Xboa
