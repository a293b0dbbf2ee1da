import Verif.Model.FitEllipse
import Verif.Model.FFTTune
/-
Model of xboa/algorithms/closed_orbit/_ellipse_closed_orbit_finder.py: EllipseClosedOrbitFinder and
EllipseClosedOrbitFinderIteration.  Plotting is left out.

A generator is modelled by everything it yields and the way it ends.  `raise StopIteration` inside a
generator function is a RuntimeError for the caller (PEP 479, Python 3.7 and later).
-/
namespace Xboa
namespace ClosedOrbit
variable {K : Type} [Field K] [LinearOrder K]

/-- What the finder uses of hits and of the tracking: `hit[var]`, `hit[var] = x` on a hit of its own,
`==` of hits and tracking.track_one, which is taken to leave its argument alone and to return the
same hits for the same hit. -/
structure Beam (H K : Type) where
  get : H → String → Except Err K
  set : H → String → K → Except Err H
  eq : H → H → Bool
  track : H → Except Err (List H)

variable {H : Type}

/-- models the while loop of _ellipse_closed_orbit_finder.py:179-183.  The first argument bounds the
number of rounds; running out of it (not modelled) does not happen, see C80_points_end. -/
def pointsLoop (B : Beam H K) (n : Nat) : Nat → H → List H → Except Err (List H)
  | fuel, next, hits =>
    if hits.length < n then
      match fuel with
      | 0 => .error .Unmodelled
      | fuel + 1 =>
        match B.track next with
        | .error e => .error e
        | .ok t =>
          match (hits ++ t.drop 1).getLast? with
          | none => .error .IndexError
          | some last =>
            if B.eq last next then .error .RuntimeError
            else pointsLoop B n fuel last (hits ++ t.drop 1)
    else .ok hits

/-- `[hit[var] for var in keys]` -/
def values (B : Beam H K) (keys : List String) (h : H) : Except Err (List K) :=
  FFTTune.mapErr (B.get h) keys

/-- models _ellipse_closed_orbit_finder.py:175-185 (_get_points), for number_of_points >= 0. -/
def getPoints (B : Beam H K) (useSeed : Bool) (keys : List String) (next : H) (n : Nat) :
    Except Err (List (List K)) :=
  match pointsLoop B n n next (if useSeed then [next] else []) with
  | .error e => .error e
  | .ok hits => FFTTune.mapErr (values B keys) hits

/-- The attributes of an EllipseClosedOrbitFinderIteration; None is `none`. -/
structure Iteration (K : Type) where
  points : List (List K)
  epsMax : K
  centre : Option (List K)
  ellipse : Option (Mat K)
  noise : Option (List K)

/-- `x V^-1 x^T` for the points, _ellipse_closed_orbit_finder.py:230-233 -/
def noiseList (inv : Mat K) (centre : List K) (points : List (List K)) : List K :=
  points.map fun p => Bunch.quad inv (List.zipWith (· - ·) p centre)

/-- models _ellipse_closed_orbit_finder.py:217-238 (calculate_ellipse).  A determinant that is not
positive makes the scaled ellipse nan or infinite; then either the inverse raises LinAlgError or the
noise is nan, which raises ValueError (here: ValueError), unless there are no points. -/
noncomputable def calculateEllipse (L : LinAlg K) (E : Ext K) (it : Iteration K) :
    Except Err Unit × Iteration K :=
  let r := Common.fitEllipse L E it.points it.epsMax none 10
  let it1 := { it with centre := some r.1, ellipse := some r.2 }
  if it.points = [] then (.ok (), { it1 with noise := some [] })
  else if r.2.det ≤ 0 then (.error .ValueError, it1)
  else
    let scale := L.root r.1.length r.2.det
    match L.inv ⟨r.2.rows, r.2.cols, fun i j => r.2.entry i j / scale⟩ with
    | none => (.error .LinAlgError, it1)
    | some N => (.ok (), { it1 with noise := some (noiseList N r.1 it.points) })

/-- models _ellipse_closed_orbit_finder.py:195-215 (__init__ of the iteration) without the fit -/
def newIteration (points : List (List K)) (epsMax : K) : Iteration K :=
  ⟨points, epsMax, none, none, none⟩

/-- models _ellipse_closed_orbit_finder.py:240-253 (get_mean_noise), once the noise is there. -/
def meanNoise (noise : List K) : Except Err K :=
  if noise = [] then .error .ValueError else .ok (noise.sum / (noise.length : K))

/-- models _ellipse_closed_orbit_finder.py:256-272 (get_sigma_noise), once the noise is there. -/
def sigmaNoise (E : Ext K) (noise : List K) : Except Err K :=
  match meanNoise noise with
  | .error e => .error e
  | .ok m =>
    let var := (noise.map fun x => x * x).sum / (noise.length : K) - m ^ 2
    if var ≤ 0 then .ok 0 else .ok (E.sqrt var)

/-- `hit[var] = value` for every variable, _ellipse_closed_orbit_finder.py:141-142 and :163-164 -/
def setAll (B : Beam H K) : List (String × K) → H → Except Err H
  | [], h => .ok h
  | (k, v) :: r, h =>
    match B.set h k v with
    | .error e => .error e
    | .ok h' => setAll B r h'

/-- models the while loop of _ellipse_closed_orbit_finder.py:123-143: what is yielded, and how the
generator ends (`.ok ()` would be a normal end).  The first argument is the number of iterations
left. -/
noncomputable def orbitLoop (L : LinAlg K) (E : Ext K) (B : Beam H K) (epsMax : K) (useSeed : Bool)
    (keys : List String) (n : Nat) : Nat → H → List (Iteration K) × Except Err Unit
  | 0, _ => ([], .error .RuntimeError)
  | m + 1, next =>
    match getPoints B useSeed keys next n with
    | .error e => ([], .error e)
    | .ok xs =>
      match calculateEllipse L E (newIteration xs epsMax) with
      | (.error e, _) =>
        if e = .ValueError ∨ e = .LinAlgError then
          if xs.length > n then ([], .error .RuntimeError) else ([], .error .ValueError)
        else ([], .error e)
      | (.ok _, it) =>
        match meanNoise (it.noise.getD []), sigmaNoise E (it.noise.getD []) with
        | .ok mean, .ok sigma =>
          if mean < sigma then ([it], .error .RuntimeError)
          else
            match setAll B (keys.zip (it.centre.getD [])) next with
            | .error e => ([it], .error e)
            | .ok next' =>
              let r := orbitLoop L E B epsMax useSeed keys n m next'
              (it :: r.1, r.2)
        | .error e, _ => ([it], .error e)
        | _, .error e => ([it], .error e)

/-- models _ellipse_closed_orbit_finder.py:93-143 (find_closed_orbit_generator); `iteration < None`
raises TypeError. -/
noncomputable def findClosedOrbit (L : LinAlg K) (E : Ext K) (B : Beam H K) (seed : H) (epsMax : K)
    (useSeed : Bool) (keys : List String) (n : Nat) (maxIterations : Option Nat) :
    List (Iteration K) × Except Err Unit :=
  match maxIterations with
  | none => ([], .error .TypeError)
  | some m => orbitLoop L E B epsMax useSeed keys n m seed

/-- models _ellipse_closed_orbit_finder.py:146-173 (check_closed_orbit); `vars` is the dictionary in
the order of its sorted keys. -/
noncomputable def checkClosedOrbit (L : LinAlg K) (E : Ext K) (B : Beam H K) (seed : H) (epsMax : K)
    (useSeed : Bool) (vars : List (String × K)) (n : Nat) : Except Err (Iteration K) :=
  match setAll B vars seed with
  | .error e => .error e
  | .ok next =>
    match getPoints B useSeed (vars.map (·.1)) next n with
    | .error e => .error e
    | .ok xs =>
      match calculateEllipse L E (newIteration xs epsMax) with
      | (.error e, it) => if e = .ValueError ∨ e = .LinAlgError then .ok it else .error e
      | (.ok _, it) => .ok it

/-! ### scan_generator -/

/-- One variable of a scan: its name, step_start_dict, step_end_dict and step_size_dict. -/
structure Axis (K : Type) where
  key : String
  first : K
  last : K
  size : K

/-- models the while loop of _ellipse_closed_orbit_finder.py:84-91 for the variables behind the first
one, from the right: the new values, and whether the variable to the left has to be stepped.  The
last variable is always stepped; one that is then beyond its end is set to its start. -/
def advance : List (Axis K) → List K → List K × Bool
  | a :: r, x :: xs =>
    match advance r xs with
    | (xs', true) => if x + a.size > a.last then (a.first :: xs', true) else ((x + a.size) :: xs', false)
    | (xs', false) => (x :: xs', false)
  | _, _ => ([], true)

/-- models _ellipse_closed_orbit_finder.py:84-91: the first variable (i = 0) is not set back. -/
def nextStep : List (Axis K) → List K → List K
  | a :: r, x :: xs =>
    match advance r xs with
    | (xs', true) => (x + a.size) :: xs'
    | (xs', false) => x :: xs'
  | _, _ => []

/-- models _ellipse_closed_orbit_finder.py:75-78: the variables of the hit are set to the values of
the step, unless one of them has reached its end. -/
def setStep (B : Beam H K) : List (Axis K × K) → H → Except Err H
  | [], h => .ok h
  | (a, x) :: r, h =>
    if x ≥ a.last then .error .RuntimeError
    else
      match B.set h a.key x with
      | .error e => .error e
      | .ok h' => setStep B r h'

/-- models _ellipse_closed_orbit_finder.py:74-91 (the loop of scan_generator), for `m` calls of
next(): for each of them the hit that is tracked and the points of the iteration that is yielded;
and the exception, if one is raised. -/
def scanLoop (B : Beam H K) (axes : List (Axis K)) : Nat → H → List K → List (H × List (List K)) × Option Err
  | 0, _, _ => ([], none)
  | m + 1, next, step =>
    match setStep B (axes.zip step) next with
    | .error e => ([], some e)
    | .ok h =>
      match B.track h with
      | .error e => ([], some e)
      | .ok t =>
        match FFTTune.mapErr (values B (axes.map (·.key))) t with
        | .error e => ([], some e)
        | .ok xs =>
          if axes = [] then ([(h, xs)], some .IndexError)
          else
            let r := scanLoop B axes m h (nextStep axes step)
            ((h, xs) :: r.1, r.2)

/-- models _ellipse_closed_orbit_finder.py:57-91 (scan_generator); the axes are in the order of their
names. -/
def scan (B : Beam H K) (seed : H) (axes : List (Axis K)) (m : Nat) :
    List (H × List (List K)) × Option Err :=
  scanLoop B axes m seed (axes.map (·.first))

end ClosedOrbit
end Xboa
