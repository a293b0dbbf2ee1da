import Verif.Model.Tracking
import Verif.Model.FFTTune
import Verif.Model.Optics
import Mathlib.Data.Nat.Factorial.Basic
/-
Model of xboa/bunch/weighting/_hull_content.py.  The tesselation of scipy is a parameter, with its
attributes point_region, regions and vertices; so is scipy.spatial.Delaunay, which gives the simplices
as lists of indices of points.  multiprocessing.Pool.map is a map; the first exception is raised.
Numbers do not overflow: the tests for nan of :114 and :117 are never true.
-/
namespace Xboa
namespace HullContent
variable {K : Type} [Field K] [LinearOrder K]

/-- (point_i[d] - point_j[d])**2, summed over d, _hull_content.py:89-92. -/
def lengthSq (points : List (List K)) (dim i j : Nat) : K :=
  ((List.range dim).map fun d : Nat => ((points.getD i []).getD d 0 - (points.getD j []).getD d 0) ^ 2).sum

/-- models _hull_content.py:80-95 (_get_cm_matrix), for simplices of dim + 1 vertices.  `xrange` is not
defined in Python 3; it is used if there are two vertices or more. -/
def cmMatrix (v : Tracking.PyVer) (points : List (List K)) (dim : Nat) (simplex : List Nat) :
    Except Err (Mat K) :=
  if v = .py3 ∧ 2 ≤ simplex.length then .error .NameError
  else
    .ok ⟨dim + 2, dim + 2, fun a b =>
      if a = 0 ∧ b = 0 then 0
      else if a = 0 ∨ b = 0 then 1
      else if a = b then 0
      else lengthSq points dim (simplex.getD (a - 1) 0) (simplex.getD (b - 1) 0)⟩

/-- models _hull_content.py:108-109: the coefficient of the Cayley-Menger determinant. -/
def coefficient (dim : Nat) : K := (-1) ^ (dim + 1) / 2 ^ dim / (Nat.factorial dim : K) ^ 2

/-- models _hull_content.py:110-118: the sum over the simplices. -/
def addContents (v : Tracking.PyVer) (E : Ext K) (points : List (List K)) (dim : Nat) :
    List (List Nat) → K → Except Err K
  | [], content => .ok content
  | s :: r, content =>
    match cmMatrix v points dim s with
    | .error e => .error e
    | .ok M => addContents v E points dim r (content + E.sqrt (coefficient dim * M.det))

/-- models _hull_content.py:97-125 (_tile_content). -/
def tileContent (v : Tracking.PyVer) (E : Ext K) (delaunay : List (List K) → List (List Nat))
    (region : List Int) (points : List (List K)) : Except Err K :=
  if region.contains (-1) ∨ region.length = 0 then .ok 0
  else addContents v E points (points.getD 0 []).length (delaunay points) 0

/-- scipy.spatial.Voronoi: the region of every point, the vertices of every region, the vertices. -/
structure Tesselation (K : Type) where
  pointRegion : List Nat
  regions : List (List Int)
  vertices : List (List K)

/-- `vertices[j]` in Python -/
def vertex (t : Tesselation K) (j : Int) : Except Err (List K) :=
  match t.vertices[(if j < 0 then j + t.vertices.length else j).toNat]? with
  | some x => if j < -(t.vertices.length : Int) then .error .IndexError else .ok x
  | none => .error .IndexError

/-- models _hull_content.py:68-73: the job of the point `i`. -/
def job (t : Tesselation K) (i : Nat) : Except Err (List Int × List (List K)) :=
  match t.pointRegion[i]? with
  | none => .error .IndexError
  | some tile =>
    match t.regions[tile]? with
    | none => .error .IndexError
    | some region =>
      match FFTTune.mapErr (vertex t) region with
      | .error e => .error e
      | .ok points => .ok (region, points)

/-- models _hull_content.py:67-74: the loop over region_list, which fills job_list at the same indices. -/
def fillJobs (t : Tesselation K) : List Nat → List (Option (List Int × List (List K))) →
    Except Err (List (Option (List Int × List (List K))))
  | [], jobs => .ok jobs
  | i :: r, jobs =>
    match job t i with
    | .error e => .error e
    | .ok j => if i < jobs.length then fillJobs t r (jobs.set i (some j)) else .error .IndexError

/-- models _hull_content.py:63-75 (recalculate) and :42-60 (__init__): tile_content_list.  A job that
was not filled is None, and unpacking it raises TypeError. -/
def recalculate (v : Tracking.PyVer) (E : Ext K) (delaunay : List (List K) → List (List Nat))
    (t : Tesselation K) (regionList : List Nat) : Except Err (List K) :=
  match fillJobs t regionList (List.replicate regionList.length none) with
  | .error e => .error e
  | .ok jobs =>
    FFTTune.mapErr (fun
      | none => .error .TypeError
      | some (region, points) => tileContent v E delaunay region points) jobs

end HullContent
end Xboa
