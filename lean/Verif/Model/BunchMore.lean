import Verif.Model.Optics
import Verif.Model.Common
/-
Model of more methods of class Bunch, xboa/bunch/_bunch.py: standard_deviation, cuts in numbers of
standard deviations, clear_local_weights, clear_weights, set_covariance_matrix, covariances_set,
get_dispersion, get_dispersion_rsquared, get_dispersion_prime, get_kinetic_angular_momentum,
get_canonical_angular_momentum, transform_to, get_hits, hit_equality, get, list_get, histogram,
histogram_var_bins, and n_bins of xboa/common/_common.py.
-/
namespace Xboa
variable {K : Type} [Field K] [LinearOrder K]

namespace Bunch

/-! ### standard deviations -/

/-- The argument variable_mean of standard_deviation: a dict or a value. -/
inductive SDMean (K : Type)
  | dict (d : List (String × PyVal K))
  | num (m : PyVal K)

/-- models _bunch.py:644-667 (standard_deviation) for a variable given by name (for a list the first
one is taken).  A negative moment (negative weights) gives a complex number: not modelled further. -/
def standardDeviation (E : Ext K) (w : BWorld K) (b : Bunch K) (v : String) (m : SDMean K) :
    Except Err K :=
  match moment E w b [v, v] (match m with | .dict d => d | .num p => [(v, p)]) with
  | .error e => .error e
  | .ok x => if x < 0 then .error .Unmodelled else .ok (E.sqrt x)

/-- models _bunch.py:830-831: the cut value of `cut` for value_is_nsigma_bool = True. -/
def cutSigma (E : Ext K) (w : BWorld K) (b : Bunch K) (v : String) (c : K) : Except Err K :=
  match mean E w b [v] with
  | .error e => .error e
  | .ok d =>
    match moment E w b [v, v] d with
    | .error e => .error e
    | .ok x => if x < 0 then .error .Unmodelled else .ok (c * E.sqrt x)

/-- models _bunch.py:814-838 (cut) for value_is_nsigma_bool = True. -/
def cutNsigma (E : Ext K) (b : Bunch K) (comp : K → K → Option Bool) (isGlobal : Bool) :
    List (String × K) → BWorld K → Except Err Unit × BWorld K
  | [], w => (.ok (), w)
  | (v, c) :: r, w =>
    match cutSigma E w b v c with
    | .error e => (.error e, w)
    | .ok c' =>
      match cut1 E b v comp c' isGlobal w with
      | (.error e, w') => (.error e, w')
      | (.ok _, w') => cutNsigma E b comp isGlobal r w'

/-- models _bunch.py:629-630: the cut value of `conditional_remove` for value_is_nsigma_bool = True. -/
def removeSigma (E : Ext K) (w : BWorld K) (b : Bunch K) (v : String) (c : K) : Except Err K :=
  match mean E w b [v] with
  | .error e => .error e
  | .ok d =>
    match standardDeviation E w b v (.dict d) with
    | .error e => .error e
    | .ok x => if x < 0 then .error .Unmodelled else .ok (c * E.sqrt x)

/-- models _bunch.py:613-641 (conditional_remove) for value_is_nsigma_bool = True. -/
def removeNsigma (E : Ext K) (w : BWorld K) (comp : K → K → Option Bool) :
    List (String × K) → Bunch K → Except Err Unit × Bunch K
  | [], b => (.ok (), b)
  | (v, c) :: r, b =>
    match removeSigma E w b v c with
    | .error e => (.error e, b)
    | .ok c' =>
      match conditionalRemove1 E w v comp c' b with
      | (.error e, b') => (.error e, b')
      | (.ok _, b') => removeNsigma E w comp r b'

/-! ### weights -/

/-- models _bunch.py:799-802 (clear_local_weights). -/
def clearLocal (E : Ext K) : List Nat → BWorld K → Except Err Unit × BWorld K
  | [], w => (.ok (), w)
  | i :: r, w =>
    match w.onHit i (Hit.set E "local_weight" (.int 1)) with
    | (.error e, w') => (.error e, w')
    | (.ok _, w') => clearLocal E r w'

/-- models _bunch.py:804-807 and _hit.py:659-662 (clear_global_weights): the context of _hitcore is cleared. -/
def clearGlobal (w : BWorld K) : BWorld K :=
  { w with ctx := fun c => if c = w.hcur then (w.ctx c).clearWeights else w.ctx c }

/-- models _bunch.py:809-812 (clear_weights). -/
def clearWeights (E : Ext K) (b : Bunch K) (w : BWorld K) : Except Err Unit × BWorld K :=
  match clearLocal E b.hits w with
  | (.error e, w') => (.error e, w')
  | (.ok _, w') => (.ok (), clearGlobal w')

/-! ### internal covariances -/

/-- models _bunch.py:759-781 (set_covariance_matrix).  `covariance_matrix == None` of a numpy matrix
compares element by element: its truth value raises ValueError unless it has one element. -/
def setCovarianceMatrix (E : Ext K) (w : BWorld K) (use : Bool) (cov : Option (Mat K))
    (meanDict : List (String × PyVal K)) (b : Bunch K) : Except Err Unit × Bunch K :=
  if use then
    match (match cov with
      | none => covarianceMatrix E w b (covNames w.geo) []
      | some m => if m.rows * m.cols ≠ 1 then .error .ValueError else .ok m) with
    | .error e => (.error e, b)
    | .ok m =>
      let b1 := { b with covs := some m }
      match meanDict with
      | [] =>
        match mean E w b1 (covNames w.geo) with
        | .error e => (.error e, b1)
        | .ok d => (.ok (), { b1 with means := d })
      | _ => (.ok (), { b1 with means := meanDict })
  else (.ok (), { b with covs := none, means := [] })

/-- models `if bunch.covariances_set()`, _bunch.py:783-785: the result is the element by element
comparison, whose truth value raises ValueError unless it has one element. -/
def covariancesSet (b : Bunch K) : Except Err Bool :=
  match b.covs with
  | none => .ok false
  | some m => if m.rows * m.cols ≠ 1 then .error .ValueError else .ok true

/-- models _bunch.py:788-790 (means_set). -/
def meansSet (b : Bunch K) : Bool := !b.means.isEmpty

/-! ### dispersion -/

/-- models _bunch.py:970-983 (get_dispersion). -/
def getDispersion (E : Ext K) (w : BWorld K) (b : Bunch K) (axis : String) : Except Err K := do
  let c ← moment E w b [axis, "energy"] []
  let e ← meanOf E w b "energy"
  let v ← moment E w b ["energy", "energy"] []
  pyDiv (c * e) v

/-- models _bunch.py:985-995 (get_dispersion_rsquared). -/
def getDispersionRsquared (E : Ext K) (w : BWorld K) (b : Bunch K) : Except Err K := do
  let re ← moment E w b ["r_squared", "energy"] [("r_squared", .flt 0), ("energy", .flt 0)]
  let xx ← moment E w b ["x", "x"] []
  let yy ← moment E w b ["y", "y"] []
  let e ← meanOf E w b "energy"
  let v ← moment E w b ["energy", "energy"] []
  pyDiv ((re - (xx + yy) * e) * e) v

/-- models _bunch.py:998-1012 (get_dispersion_prime); geometric None is false. -/
def getDispersionPrime (E : Ext K) (w : BWorld K) (b : Bunch K) (axis : String) (geometric : Bool) :
    Except Err K := do
  let m ← momVar geometric axis
  let c ← moment E w b [m, "energy"] []
  let e ← meanOf E w b "energy"
  let v ← moment E w b ["energy", "energy"] []
  pyDiv (c * e) v

/-! ### angular momentum -/

/-- models the default rotation axis of _bunch.py:1118. -/
def kineticAxis : List (String × PyVal K) :=
  [("x", .int 0), ("y", .int 0), ("px", .int 0), ("py", .int 0), ("x'", .int 0), ("y'", .int 0)]

/-- models the default rotation axis of _bunch.py:1132. -/
def canonicalAxis : List (String × PyVal K) :=
  [("x", .int 0), ("y", .int 0), ("px", .int 0), ("py", .int 0)]

/-- models the default field axis of _bunch.py:1132. -/
def fieldAxis : List (String × PyVal K) := [("x", .int 0), ("y", .int 0)]

/-- models _bunch.py:1118-1130 (get_kinetic_angular_momentum). -/
def kineticAngularMomentum (E : Ext K) (w : BWorld K) (b : Bunch K)
    (axis : List (String × PyVal K)) : Except Err K :=
  if !w.geo then do
    let a ← moment E w b ["x", "py"] axis
    let c ← moment E w b ["y", "px"] axis
    return a - c
  else do
    let a ← moment E w b ["x", "y'"] axis
    let c ← moment E w b ["y", "x'"] axis
    let p ← meanOf E w b "pz"
    return (a - c) * p

/-- models _bunch.py:1132-1146 (get_canonical_angular_momentum). -/
def canonicalAngularMomentum (E : Ext K) (w : BWorld K) (b : Bunch K) (bz : Option K)
    (field axis : List (String × PyVal K)) : Except Err K := do
  let bz ← match bz with
    | some z => .ok z
    | none =>
      match b.hits with
      | [] => .error .IndexError
      | h :: _ => .ok ((w.hits h).d .bz)
  let l ← kineticAngularMomentum E w b axis
  let xx ← moment E w b ["x", "x"] field
  let yy ← moment E w b ["y", "y"] field
  return l + E.cLight * bz * (xx + yy) / 2

/-! ### transform_to -/

/-- The n x n block of a numpy matrix. -/
def toM (n : Nat) (M : Mat K) : Matrix (Fin n) (Fin n) K := Matrix.of fun i j => M.entry i j

/-- What is assumed of numpy.linalg.eigh: a symmetric matrix M is V diag(d) V^T with V^T V = 1. -/
def EighLawful (L : LinAlg K) : Prop :=
  ∀ (n : Nat) (M : Mat K), M.rows = n → M.cols = n → (toM n M).transpose = toM n M →
    (L.eigh M).2.rows = n ∧ (L.eigh M).2.cols = n ∧
    (toM n (L.eigh M).2).transpose * toM n (L.eigh M).2 = 1 ∧
    toM n (L.eigh M).2 * Matrix.diagonal (fun i : Fin n => (L.eigh M).1 i) *
      (toM n (L.eigh M).2).transpose = toM n M

/-- A diagonal n x n matrix -/
def diagMat (n : Nat) (f : Nat → K) : Mat K := ⟨n, n, fun i j => if i = j then f i else 0⟩

/-- Whether numpy gives nan for a square root among the first n -/
def anyNegative (n : Nat) (f : Nat → K) : Bool := (List.range n).any (fun i => decide (f i < 0))

/-- models _bunch.py:545-559 (transform_to up to the transformation): the matrix `transform`.  A negative
eigenvalue or a determinant 0 give a matrix of nan: not modelled further. -/
def transformMatrix (L : LinAlg K) (E : Ext K) (n : Nat) (cov target : Mat K) : Except Err (Mat K) :=
  let s := L.eigh cov
  if anyNegative n s.1 then .error .Unmodelled
  else
    match L.inv (s.2.mul (diagMat n fun i => E.sqrt (s.1 i))) with
    | none => .error .LinAlgError
    | some unite =>
      let t := L.eigh target
      if anyNegative n t.1 then .error .Unmodelled
      else
        let transform := (t.2.mul (diagMat n fun i => E.sqrt (t.1 i))).mul unite
        if n = 0 then .error .ZeroDivisionError
        else if transform.det = 0 then .error .Unmodelled
        else
          let k := L.root n |transform.det|
          .ok ⟨transform.rows, transform.cols, fun i j => transform.entry i j / k⟩

/-- models _bunch.py:527-560 (transform_to).  The origin is a dict of floats. -/
def transformTo (L : LinAlg K) (E : Ext K) (b : Bunch K) (vars : List String) (target : Mat K)
    (trans origin : List (String × K)) (msv : String) (w : BWorld K) : Except Err Unit × BWorld K :=
  match covarianceMatrix E w b vars (origin.map fun p => (p.1, PyVal.flt p.2)) with
  | .error e => (.error e, w)
  | .ok cov =>
    match transformMatrix L E vars.length cov target with
    | .error e => (.error e, w)
    | .ok R => abelian E vars R trans origin msv b.hits w

/-! ### lists of hits -/

/-- models the loop of _bunch.py:597-600 (get_hits). -/
def getHits (E : Ext K) (w : BWorld K) (v : String) (value : K) (comp : K → K → Option Bool) :
    List Nat → Except Err (List Nat)
  | [] => .ok []
  | i :: r =>
    match hitNum E w i v with
    | .error e => .error e
    | .ok x =>
      match comp x value with
      | none => .error .TypeError
      | some c =>
        match getHits E w v value comp r with
        | .error e => .error e
        | .ok l => .ok (if c then i :: l else l)

/-- models _bunch.py:602-611 (hit_equality), Hit.__ne__ of _hit.py:121-123; `dflt` is
Common.float_tolerance, which Hit.__ne__ uses; the argument float_tolerance is not used. -/
def hitEquality (w : BWorld K) (dflt : K) (a b : Bunch K) (_floatTolerance : K) : Bool :=
  if a.hits.length ≠ b.hits.length then false
  else (a.hits.zip b.hits).all fun p => Hit.eq (w.ctx w.hcur) (w.hits p.1) (w.hits p.2) dflt

/-! ### get and list_get -/

/-- models _bunch.py:1304-1325 (get) with the table of _bunch.py:1908-1910 and the functions of
_bunch.py:1865-1879.  For standard_deviation the first variable of the list is used, without dict. -/
def get (L : LinAlg K) (E : Ext K) (w : BWorld K) (b : Bunch K) (name : String) (vars : List String) :
    Except Err K :=
  if name = "angular_momentum" then kineticAngularMomentum E w b kineticAxis
  else if name = "emittance" then getEmittance L E w b vars none
  else if name = "dispersion" then
    match vars with
    | [] => .error .IndexError
    | v :: _ => getDispersion E w b v
  else if name = "dispersion_prime" then
    match vars with
    | [] => .error .IndexError
    | v :: _ => getDispersionPrime E w b v false
  else if name = "beta" then getBeta L E w b vars w.geo
  else if name = "alpha" then getAlpha L E w b vars w.geo
  else if name = "gamma" then getGamma L E w b vars w.geo
  else if name = "moment" then moment E w b vars []
  else if name = "mean" then
    match mean E w b vars with
    | .error e => .error e
    | .ok d =>
      match vars with
      | [] => .error .IndexError
      | v :: _ =>
        match d.lookup v with
        | some (.flt a) => .ok a
        | some (.int n) => .ok (n : K)
        | some _ => .error .Unmodelled
        | none => .error .KeyError
  else if name = "bunch_weight" then .ok (bunchWeight w b)
  else if name = "standard_deviation" then
    match vars with
    | [] => .error .IndexError
    | v :: _ => standardDeviation E w b v (.dict [])
  else .error .KeyError

/-- models the loop of _bunch.py:1345-1347: column i, one value for each bunch. -/
def column (L : LinAlg K) (E : Ext K) (w : BWorld K) (name : String) (vars : List String) :
    List (Bunch K) → Except Err (List K)
  | [] => .ok []
  | b :: r =>
    match get L E w b name vars with
    | .error e => .error e
    | .ok x =>
      match column L E w name vars r with
      | .error e => .error e
      | .ok xs => .ok (x :: xs)

/-- all columns; simplified: the order in which an error is found is by column. -/
def columns (L : LinAlg K) (E : Ext K) (w : BWorld K) (bs : List (Bunch K)) :
    List (String × List String) → Except Err (List (List K))
  | [] => .ok []
  | (name, vars) :: r =>
    match column L E w name vars bs with
    | .error e => .error e
    | .ok c =>
      match columns L E w bs r with
      | .error e => .error e
      | .ok cs => .ok (c :: cs)

/-- models _bunch.py:1328-1350 (list_get); `bs` are the values of the dict of bunches, `reqs` the
variables with their axis lists. -/
def listGetTable (L : LinAlg K) (E : Ext K) (w : BWorld K) (bs : List (Bunch K))
    (reqs : List (String × List String)) : Except Err (List (List K)) :=
  match columns L E w bs reqs with
  | .error e => .error e
  | .ok cs => Common.multisort cs

/-! ### histograms -/

/-- models _common.py:299-320 (n_bins) for n_dimensions = 1, the only value used by Bunch.histogram
(_bunch.py:1532, 1535 give 1 and 2 as ny_bins and nz_bins). -/
def nBins [FloorRing K] (n : Nat) (nx ny nz : Option Int) : Int × Int × Int :=
  ((nx.getD (⌊(n : K) / 10⌋ + 1)), ny.getD 0, nz.getD 0)

/-- `values[i][-1] /= Common.units[unit]` for all hits, _bunch.py:1276-1302; `unit` is the value. -/
def listGetUnits (E : Ext K) (w : BWorld K) (b : Bunch K) (v : String) (unit : K) :
    Except Err (List K) :=
  match listGet E w v b.hits with
  | .error e => .error e
  | .ok xs => .ok (xs.map fun x => x / unit)

/-- models _bunch.py:1541-1565 (histogram_var_bins); `ux`, `uy` are the values of the units, all of
them non zero. -/
def histogramVarBins (E : Ext K) (w : BWorld K) (b : Bunch K) (x : String) (xb : List K) (ux : K)
    (y : Option (String × List K × K)) : Except Err ((Nat → Nat → K) × List K × List K) := do
  let ws ← listGet E w "weight" b.hits
  let xs ← listGetUnits E w b x ux
  match y with
  | none => Common.histogram xs xb none none (some ws)
  | some (y, yb, uy) => do
    let ys ← listGetUnits E w b y uy
    Common.histogram xs xb (some ys) (some yb) (some ws)

/-- models _bunch.py:1507-1539 (histogram) without y axis. -/
def histogram1 [FloorRing K] (E : Ext K) (w : BWorld K) (b : Bunch K) (x : String) (ux : K)
    (nx : Option Int) (xmin xmax : Option K) : Except Err ((Nat → Nat → K) × List K × List K) := do
  let xs ← listGetUnits E w b x ux
  let n := nBins (K := K) xs.length nx (some 1) none
  let xb ← Common.getBinEdges xs n.1 (xmin.map (· * ux)) (xmax.map (· * ux))
  histogramVarBins E w b x xb ux none

/-- models _bunch.py:1507-1539 (histogram) with a y axis. -/
def histogram2 [FloorRing K] (E : Ext K) (w : BWorld K) (b : Bunch K) (x : String) (ux : K)
    (y : String) (uy : K) (nx ny : Option Int) (xmin xmax ymin ymax : Option K) :
    Except Err ((Nat → Nat → K) × List K × List K) := do
  let xs ← listGetUnits E w b x ux
  let ys ← listGetUnits E w b y uy
  let n := nBins (K := K) ys.length nx ny (some 2)
  let yb ← Common.getBinEdges ys n.2.1 (ymin.map (· * uy)) (ymax.map (· * uy))
  let xb ← Common.getBinEdges xs n.1 (xmin.map (· * ux)) (xmax.map (· * ux))
  histogramVarBins E w b x xb ux (some (y, yb, uy))

end Bunch
end Xboa
