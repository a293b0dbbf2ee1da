import Verif.Model.Optics
import Mathlib.Algebra.Order.Floor.Defs
/-
Model of xboa/common/_common.py: nd_newton_raphson1 and nd_newton_raphson2.  Messages are left out.
The lists of starting values, deltas and tolerances (and limits) have one length, which is not 0, and
`str` of a list of numbers is read back by numpy.matrix.
-/
namespace Xboa
namespace Newton
variable {K : Type} [Field K] [LinearOrder K] [FloorRing K]

/-- models _common.py:209-211 and :215-217: x -= delta_limit * floor(x / delta_limit - lower) for
every variable; `limits` are pairs (lower, upper). -/
def wrap : List (K × K) → List K → Except Err (List K)
  | (lo, up) :: r, x :: xs =>
    if up - lo = 0 then .error .ZeroDivisionError
    else
      match wrap r xs with
      | .error e => .error e
      | .ok ys => .ok ((x - (up - lo) * ((⌊x / (up - lo) - lo⌋ : Int) : K)) :: ys)
  | _, xs => .ok xs

/-- models _common.py:218-220: the point and its neighbours, one for each variable. -/
def neighbours (x delta : List K) : List (List K) :=
  x :: (List.range x.length).map fun i => x.set i (x.getD i 0 + delta.getD i 0)

/-- the i-th column of the jacobian, _common.py:234-235: (y_x[i+1][j] - y_x[0][j]) / delta_x[0,i] -/
def column (y : List (List K)) (n i : Nat) (d : K) : Except Err (List K) :=
  (List.range n).foldr (fun j acc =>
    match y[i + 1]?.bind (·[j]?), y[0]?.bind (·[j]?), acc with
    | some a, some b, .ok l => .ok ((a - b) / d :: l)
    | some _, some _, .error e => .error e
    | _, _, _ => .error .IndexError) (.ok [])

/-- models _common.py:230-236: the columns of the jacobian for the variables `is`, or none if a step is
smaller than float_tolerance. -/
def columns (y : List (List K)) (n : Nat) (delta : List K) : List Nat → Except Err (Option (List (List K)))
  | [] => .ok (some [])
  | i :: is =>
    if |delta.getD i 0| < 1 / 1000000000 then .ok none
    else
      match column y n i (delta.getD i 0) with
      | .error e => .error e
      | .ok c =>
        match columns y n delta is with
        | .error e => .error e
        | .ok none => .ok none
        | .ok (some cs) => .ok (some (c :: cs))

/-- the jacobian as a matrix -/
def jacobian (cs : List (List K)) : Mat K := ⟨cs.length, cs.length, fun j i => (cs.getD i []).getD j 0⟩

/-- models _common.py:212-249, the loop of nd_newton_raphson2; the first number is `count`.  `limits`
is [] if the limits are not lists. -/
def loop (L : LinAlg K) (f : List (List K) → Except Err (List (List K))) (tol : List K)
    (limits : List (K × K)) : Nat → List K → List K → Except Err (List K)
  | 0, x, _ => .ok x
  | count + 1, x, delta =>
    match wrap limits x with
    | .error e => .error e
    | .ok x =>
      match f (neighbours x delta) with
      | .error e => .error e
      | .ok [] => .error .RuntimeError
      | .ok (y0 :: ys) =>
        match columns (y0 :: ys) x.length delta (List.range x.length) with
        | .error e => .error e
        | .ok none => .ok x
        | .ok (some cs) =>
          if y0.length ≠ x.length then .ok x
          else
            match L.inv (jacobian cs) with
            | none => .ok x
            | some N =>
              let delta' := (List.range x.length).map fun i =>
                -∑ j ∈ Finset.range x.length, N.entry i j * y0.getD j 0
              let x' := List.zipWith (· + ·) x delta'
              let done := (List.range x.length).all fun i => decide (|y0.getD i 0| ≤ tol.getD i 0)
              match f [x'] with
              | .error e => .error e
              | .ok _ => if done then .ok x' else loop L f tol limits count x' delta'

/-- models _common.py:185-250 (nd_newton_raphson2). -/
def newton2 (L : LinAlg K) (f : List (List K) → Except Err (List (List K))) (tol start delta : List K)
    (maxIter : Nat) (limits : List (K × K)) : Except Err (List K) :=
  loop L f tol limits maxIter start delta

/-- models _common.py:158-163 (__y_function_wrapper).  The state is the global wrapped_y_function;
`call g x` is the call of the function `g`, which may change it. -/
def wrapper {G : Type} (call : G → List K → PyM G (List K)) : List (List K) → PyM G (List (List K))
  | [] => fun g => (.ok [], g)
  | x :: xs => fun g =>
    match call g x g with
    | (.error e, g1) => (.error e, g1)
    | (.ok y, g1) =>
      match wrapper call xs g1 with
      | (.error e, g2) => (.error e, g2)
      | (.ok ys, g2) => (.ok (y :: ys), g2)

/-- models _common.py:165-183 (nd_newton_raphson1) for functions that leave the global alone: what is
passed to nd_newton_raphson2 is the wrapper with `f` in the global. -/
def newton1 (L : LinAlg K) {G : Type} (call : G → List K → PyM G (List K)) (f : G)
    (tol start delta : List K) (maxIter : Nat) (limits : List (K × K)) : Except Err (List K) :=
  newton2 L (fun xs => (wrapper call xs f).1) tol start delta maxIter limits

end Newton
end Xboa
