import Verif.Model.Optics
/-
Model of make_root_ellipse_function, xboa/common/_common.py.  Drawing is external: what is modelled are the
function, its range and its contour levels as they are handed to ROOT.
-/
namespace Xboa
namespace EllipseFunction
variable {K : Type} [Field K] [LinearOrder K]

/-- the ROOT TF2: parameters 0 to 4, contour levels (none: ROOT's own) and the range xmin, ymin, xmax, ymax -/
structure Fn (K : Type) where
  p0 : K
  p1 : K
  p2 : K
  p3 : K
  p4 : K
  contours : Option (List K)
  range : K × K × K × K

/-- models the formula _common.py:1058 -/
def Fn.eval (f : Fn K) (x y : K) : K :=
  f.p2 * (x - f.p0) ^ 2 + f.p4 * (y - f.p1) ^ 2 + 2 * f.p3 * (x - f.p0) * (y - f.p1)

/-- models _common.py:1039-1078 (make_root_ellipse_function); contours is a list or None; limits that are
None replace all four limits.  Colour and style of the line are left out. -/
def makeRootEllipseFunction (L : LinAlg K) (mean : List K) (cov : Mat K) (contours : Option (List K))
    (xmin xmax ymin ymax : Option K) : Except Err (Fn K) :=
  match L.inv cov with
  | none => .error .LinAlgError
  | some inv =>
    match mean with
    | m0 :: m1 :: _ =>
      let range := match xmin, xmax, ymin, ymax with
        | some a, some b, some c, some d => (a, c, b, d)
        | _, _, _, _ => (-1000 + m0, -1000 + m1, 1000 + m0, 1000 + m1)
      if inv.rows < 2 ∨ inv.cols < 2 then .error .IndexError
      else .ok ⟨m0, m1, inv.entry 0 0, inv.entry 0 1, inv.entry 1 1, contours, range⟩
    | _ => .error .IndexError

end EllipseFunction
end Xboa
