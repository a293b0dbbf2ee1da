import Verif.Model.HullContent
import Verif.Model.BoundingEllipse
import Verif.Model.Multipole
/-
Model of xboa/bunch/weighting/_voronoi_weighting.py: VoronoiWeighting without the plots.
scipy.spatial.Voronoi is a parameter, and so are math.exp and math.pi.  There is at least one weight
variable.  Variable names are those of Model/Bunch.lean.
-/
namespace Xboa
namespace Voronoi
variable {K : Type} [Field K] [LinearOrder K]

/-- math.exp and math.pi -/
structure Gauss (K : Type) where
  exp : K → K
  pi : K

/-- the attributes of VoronoiWeighting that outlive a call -/
structure VW (K : Type) where
  vars : List String
  bound : Option (BoundingEllipse K)
  inv : Mat K
  det : K
  mean : List K

/-- models _voronoi_weighting.py:74-128 (__init__) for a two dimensional weight_ellipse and a one
dimensional weight_mean.  `weight_mean == None` is False in Python 2; with a current numpy it is an array,
the truth of which raises ValueError unless it has one element (or none, which counts as False). -/
def new (v : Tracking.PyVer) (L : LinAlg K) (vars : List String) (ellipse : Mat K)
    (mean : Option (List K)) (bound : Option (BoundingEllipse K)) : Except Err (VW K) :=
  let dim := vars.length
  if v = .py3 ∧ 2 ≤ (mean.getD []).length then .error .ValueError
  else
    let mean := mean.getD (List.replicate dim 0)
    if mean.length ≠ dim then .error .ValueError
    else if ellipse.rows ≠ dim ∨ ellipse.cols ≠ dim then .error .ValueError
    else if (bound.elim false fun b => decide (b.dim ≠ dim)) then .error .ValueError
    else
      match L.inv ellipse with
      | none => .error .LinAlgError
      | some N => .ok ⟨vars, bound, N, ellipse.det, mean⟩

/-- models _voronoi_weighting.py:174-187 (get_pdf).  If the determinant is not positive the result is nan
or infinite, which is left out. -/
def getPdf (G : Gauss K) (E : Ext K) (m : VW K) (point : List K) : Except Err K :=
  let norm := (2 * G.pi) ^ point.length * m.det
  if norm ≤ 0 then .error .Unmodelled
  else
    let delta := List.zipWith (· - ·) point m.mean
    .ok (G.exp (-(1 / 2) * Bunch.quad m.inv delta) / E.sqrt norm)

/-- models _voronoi_weighting.py:149-156: the points that are kept, the points of the tesselation and
not_cut. -/
def kept (m : VW K) (points : List (List K)) : List (List K) × List (List K) × List Nat :=
  match m.bound with
  | some b =>
    let r := b.cutOnBound points
    (r.1, r.1 ++ b.boundingPoints, r.2)
  | none => (points, points, List.range points.length)

/-- models _voronoi_weighting.py:130-172 (apply_weights).  In Python 3 numpy.array of a zip object has no
length, so that cut_on_bound (_bounding_ellipse.py:93) and len (:156) raise TypeError.  A bunch without
hits raises ValueError (:152 or :157).  get_pdf fails for all points or for none, so that it can be
called before the loop that sets the weights. -/
def applyWeights (v : Tracking.PyVer) (G : Gauss K) (E : Ext K)
    (voronoi : List (List K) → Except Err (HullContent.Tesselation K))
    (delaunay : List (List K) → List (List Nat)) (m : VW K) (b : Bunch K) (globalCut : Bool)
    (w : BWorld K) : Except Err Unit × BWorld K :=
  match Multipole.collect (fun v => Bunch.listGet E w v b.hits) m.vars with
  | .error e => (.error e, w)
  | .ok data =>
    if v = .py3 then (.error .TypeError, w)
    else if b.hits = [] then (.error .ValueError, w)
    else
      let points := (List.range b.hits.length).map fun i : Nat => data.map fun col => col.getD i 0
      let k := kept m points
      match voronoi k.2.1 with
      | .error e => (.error e, w)
      | .ok t =>
        match HullContent.recalculate v E delaunay t (List.range k.1.length) with
        | .error e => (.error e, w)
        | .ok contents =>
          match FFTTune.mapErr (getPdf G E m) k.1 with
          | .error e => (.error e, w)
          | .ok pdfs =>
            let weights := List.zipWith (· * ·) pdfs contents
            let set := fun x : K => Hit.set E (Bunch.wtName globalCut) (.flt x)
            match Multipole.forHits set ((k.2.2.map fun j => b.hits.getD j 0).zip weights) w with
            | (.error e, w') => (.error e, w')
            | (.ok _, w') =>
              Multipole.forHits set (((List.range b.hits.length).filter fun j : Nat => decide (j ∉ k.2.2)).map
                fun j => (b.hits.getD j 0, 0)) w'

end Voronoi
end Xboa
