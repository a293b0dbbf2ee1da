import Verif.Model.Hist
import Mathlib.Algebra.Order.Floor.Ring
/-
Model of the plots of bunches: make_root_histogram, make_root_graph, make_root_multigraph,
make_matplot_graph, make_matplot_multigraph and make_matplot_scatter of xboa/common/_common.py and
root_histogram, root_scatter_graph, root_graph, matplot_scatter_graph and matplot_graph of
xboa/bunch/_bunch.py.  Drawing is external: what is modelled are the numbers and labels handed to
ROOT and matplotlib.  Names of ROOT objects, canvases, colours and line styles are left out.
-/
namespace Xboa
namespace Plots
variable {K : Type} [Field K] [LinearOrder K] {H : Type}

/-! ### _common.py, ROOT -/

/-- What is handed to a ROOT histogram: the number of bins and the limits of the axes (no y axis for
TH1D), the arguments of the calls of Fill in order (weight 1 if none is given) and the labels. -/
structure RootHist (K : Type) where
  nx : Int
  xlim : K × K
  y : Option (Int × K × K)
  fills : List (K × Option K × K)
  xlabel : String
  ylabel : String
deriving DecidableEq

/-- models _common.py:393-445 (make_root_histogram).  The state are the caller's x_float_list and
y_float_list, to which min_max may append.  A number of bins that is None makes the ROOT constructor
raise TypeError.  `rg.histo_margin` is 0 (_common.py:126). -/
def makeRootHistogram (xlabel : String) (nx : Option Int) (ylabel : String) (ny : Option Int)
    (ws : List K) (xmin xmax ymin ymax : Option K) : PyM (List K × List K) (RootHist K) :=
  fun (xs, ys) =>
    if ys.length = xs.length then
      match Common.minMax ws 0 xmin xmax xs with
      | (.error e, xs) => (.error e, (xs, ys))
      | (.ok xl, xs) =>
        match Common.minMax ws 0 ymin ymax ys with
        | (.error e, ys) => (.error e, (xs, ys))
        | (.ok yl, ys) =>
          match nx, ny with
          | some nx, some ny =>
            let w := if ws.length = xs.length then ws else List.replicate xs.length 1
            let fills := (xs.zip (ys.zip w)).map fun p => (p.1, some p.2.1, p.2.2)
            (.ok ⟨nx, xl, some (ny, yl), fills, xlabel, ylabel⟩, (xs, ys))
          | _, _ => (.error .TypeError, (xs, ys))
    else
      match Common.minMax ws 0 xmin xmax xs with
      | (.error e, xs) => (.error e, (xs, ys))
      | (.ok xl, xs) =>
        match nx with
        | some nx =>
          let w := if ws.length = xs.length then ws else List.replicate xs.length 1
          let fills := (xs.zip w).map fun p => (p.1, none, p.2)
          (.ok ⟨nx, xl, none, fills, xlabel, ""⟩, (xs, ys))
        | none => (.error .TypeError, (xs, ys))

/-- What make_root_graph returns: the histogram with the axes and the points of the TGraph. -/
structure RootGraph (K : Type) where
  axes : RootHist K
  points : List (K × K)

/-- models _common.py:564-610 (make_root_graph).  The lists are deep copies, so the caller's lists,
the state, do not change.  `rg.graph_margin` is 0.1 (_common.py:127). -/
def makeRootGraph (xlabel ylabel : String) (sort : Bool) (xmin xmax ymin ymax : Option K) :
    PyM (List K × List K) (RootGraph K) :=
  fun (xs0, ys0) =>
    (if xs0.length = 0 ∨ xs0.length ≠ ys0.length then .error .IndexError
    else
      match (if sort then Common.multisort [xs0, ys0] else .ok [xs0, ys0]) with
      | .ok [xs, ys] =>
        match Common.minMax [] (1 / 10) xmin xmax xs, Common.minMax [] (1 / 10) ymin ymax ys with
        | (.ok xl, xs), (.ok yl, ys) =>
          match makeRootHistogram xlabel (some 1000) ylabel (some 1000) [] (some xl.1) (some xl.2)
              (some yl.1) (some yl.2) ([], []) with
          | (.ok h, _) => .ok ⟨h, xs.zip ys⟩
          | (.error e, _) => .error e
        | (.error e, _), _ => .error e
        | _, (.error e, _) => .error e
      | .ok _ => .error .ValueError
      | .error e => .error e, (xs0, ys0))

/-- the loop over i of _common.py:667-668: point i is (x[i], y[i]). -/
def setPoints : List K → List K → Except Err (List (K × K))
  | [], _ => .ok []
  | _ :: _, [] => .error .IndexError
  | x :: xs, y :: ys =>
    match setPoints xs ys with
    | .error e => .error e
    | .ok pts => .ok ((x, y) :: pts)

/-- the loop over index of _common.py:663-669. -/
def setGraphs : List (List K) → List (List K) → Except Err (List (List (K × K)))
  | [], _ => .ok []
  | [] :: xss, [] =>  -- without points the list of y values is not looked up
    match setGraphs xss [] with
    | .error e => .error e
    | .ok gs => .ok ([] :: gs)
  | (_ :: _) :: _, [] => .error .IndexError
  | xs :: xss, ys :: yss =>
    match setPoints xs ys with
    | .error e => .error e
    | .ok g =>
      match setGraphs xss yss with
      | .error e => .error e
      | .ok gs => .ok (g :: gs)

/-- models _common.py:641-672 (make_root_multigraph): the limits of the axes and the points of the
graphs.  The caller's lists are only read. -/
def makeRootMultigraph (xss yss : List (List K)) :
    Except Err ((K × K) × (K × K) × List (List (K × K))) :=
  match (Common.minMax [] (1 / 10) none none xss.flatten).1,
      (Common.minMax [] (1 / 10) none none yss.flatten).1 with
  | .ok xl, .ok yl =>
    match setGraphs xss yss with
    | .error e => .error e
    | .ok gs => .ok (xl, yl, gs)
  | .error e, _ => .error e
  | _, .error e => .error e

/-! ### _common.py, matplotlib -/

/-- models _common.py:611-639 (make_matplot_graph): the argument `sort` is not used, the lists of the
caller, the state, are sorted in place. -/
def makeMatplotGraph (_sort : Bool) : PyM (List K × List K) (Hist.Graph K) :=
  fun (xs, ys) =>
    if xs.length = 0 ∨ xs.length ≠ ys.length then (.error .IndexError, (xs, ys))
    else
      match Common.multisort [xs, ys] with
      | .ok [xs, ys] =>
        match Common.minMax [] (1 / 10) none none xs, Common.minMax [] (1 / 10) none none ys with
        | (.ok xl, xs), (.ok yl, ys) => (.ok ⟨xs, ys, xl, yl⟩, (xs, ys))
        | (.error e, xs), _ => (.error e, (xs, ys))
        | (_, xs), (.error e, ys) => (.error e, (xs, ys))
      | .ok _ => (.error .ValueError, (xs, ys))
      | .error e => (.error e, (xs, ys))

/-- the loop of _common.py:694-697: what is plotted, and the caller's lists afterwards.
pyplot.plot raises ValueError for lists of different length. -/
def plotAll : List (List K) → List (List K) →
    Except Err (List (List K × List K)) × List (List K) × List (List K)
  | [], yss => (.ok [], [], yss)
  | xs :: xss, [] => (.error .IndexError, xs :: xss, [])
  | xs :: xss, ys :: yss =>
    match Common.multisort [xs, ys] with
    | .ok [xs, ys] =>
      if xs.length = ys.length then
        match plotAll xss yss with
        | (.ok gs, xss, yss) => (.ok ((xs, ys) :: gs), xs :: xss, ys :: yss)
        | (.error e, xss, yss) => (.error e, xs :: xss, ys :: yss)
      else (.error .ValueError, xs :: xss, ys :: yss)
    | .ok _ => (.error .ValueError, xs :: xss, ys :: yss)
    | .error e => (.error e, xs :: xss, ys :: yss)

/-- models _common.py:674-702 (make_matplot_multigraph): the limits of the axes and what is plotted.
The state are the caller's lists. -/
def makeMatplotMultigraph : PyM (List (List K) × List (List K))
    ((K × K) × (K × K) × List (List K × List K)) :=
  fun (xss, yss) =>
    match (Common.minMax [] (1 / 10) none none xss.flatten).1,
        (Common.minMax [] (1 / 10) none none yss.flatten).1 with
    | .ok xl, .ok yl =>
      match plotAll xss yss with
      | (.ok gs, s) => (.ok (xl, yl, gs), s)
      | (.error e, s) => (.error e, s)
    | .error e, _ => (.error e, (xss, yss))
    | _, .error e => (.error e, (xss, yss))

/-- what is drawn by make_matplot_scatter: the points and the labels of the axes -/
structure Scatter (K : Type) where
  xs : List K
  ys : List K
  xlabel : String
  ylabel : String

/-- models _common.py:704-724 (make_matplot_scatter): both axes get the label of x.  The value
returned is the matplotlib collection, represented by what it shows; pyplot.scatter raises ValueError
for lists of different length. -/
def makeMatplotScatter (xs : List K) (xlabel : String) (ys : List K) (_ylabel : String) :
    Except Err (Scatter K) :=
  if xs.length = 0 then .error .IndexError
  else if xs.length ≠ ys.length then .error .ValueError
  else .ok ⟨xs, ys, xlabel, xlabel⟩

/-! ### _bunch.py -/

/-- An axis of a plot: what is plotted, `value` (get_hit_variable of a hit, or get of a bunch; it
does not change anything), the name and the units with their value in Common.units, none if the
units are not in there. -/
structure Axis (H K : Type) where
  name : String
  units : String
  unit : Option K
  value : H → Except Err K

/-- `self.get_hit_variable(hit, x_axis_string)/Common.units[x_axis_units]` -/
def Axis.get (a : Axis H K) (h : H) : Except Err K :=
  match a.value h with
  | .error e => .error e
  | .ok v =>
    match a.unit with
    | none => .error .KeyError
    | some u => .ok (v / u)

/-- the label: the name and the units in brackets, e.g. _bunch.py:1665; `tail` is what the matplotlib
versions append (_bunch.py:1820). -/
def Axis.label (a : Axis H K) (tail : String) : String :=
  if a.units = "" then a.name else a.name ++ " [" ++ a.units ++ "]" ++ tail

/-- list_get_hit_variable for one variable, _bunch.py:1276-1302. -/
def Axis.list (a : Axis H K) : List H → Except Err (List K)
  | [] => .ok []
  | h :: hs =>
    match a.get h with
    | .error e => .error e
    | .ok v =>
      match a.list hs with
      | .error e => .error e
      | .ok vs => .ok (v :: vs)

/-- models _bunch.py:1565-1626 (root_histogram).  `y` is none for an empty y_axis_string; `pow07` is
x ** 0.7; `draw` is draw_option. -/
def rootHistogram [FloorRing K] (pow07 : K → K) (weight : H → K) (hits : List H) (x : Axis H K)
    (y : Option (Axis H K)) (nx ny : Option Int) (draw : String) (xmin xmax ymin ymax : Option K) :
    Except Err (RootHist K) :=
  let n : K := (hits.length : K)
  match x.list hits with
  | .error e => .error e
  | .ok xs =>
    match y with
    | none =>
      let nx := nx.getD ⌊n / 10⌋
      (makeRootHistogram (x.label "") (some nx) "" ny (hits.map weight) xmin xmax ymin ymax (xs, [])).1
    | some y =>
      if draw = "" then
        match y.list hits with
        | .error e => .error e
        | .ok ys =>
          let nx := nx.getD ⌊pow07 n / 10⌋
          let ny := ny.getD ⌊pow07 n / 10⌋
          (makeRootHistogram (x.label "") (some nx) (y.label "") (some ny) (hits.map weight)
            xmin xmax ymin ymax (xs, ys)).1
      else
        (makeRootHistogram (x.label "") nx (y.label "") ny (hits.map weight) xmin xmax ymin ymax
          (xs, [])).1

/-- the loop of _bunch.py:1660-1663 and 1816-1819; float_tolerance is 1e-9 (_common.py:62). -/
def scatterLoop (weight : H → K) (x y : Axis H K) (includeWeightless : Bool) :
    List H → List K → List K → Except Err (List K × List K)
  | [], xs, ys => .ok (xs, ys)
  | h :: hs, xs, ys =>
    if |weight h| > 1 / 1000000000 ∨ includeWeightless = true then
      match x.get h with
      | .error e => .error e
      | .ok a =>
        match y.get h with
        | .error e => .error e
        | .ok b => scatterLoop weight x y includeWeightless hs (xs ++ [a]) (ys ++ [b])
    else scatterLoop weight x y includeWeightless hs xs ys

/-- models _bunch.py:1628-1687 (root_scatter_graph): the axes and the graph. -/
def rootScatterGraph (weight : H → K) (hits : List H) (x y : Axis H K) (includeWeightless : Bool)
    (xmin xmax ymin ymax : Option K) : Except Err (RootGraph K) :=
  match scatterLoop weight x y includeWeightless hits [] [] with
  | .error e => .error e
  | .ok p => (makeRootGraph (x.label "") (y.label "") true xmin xmax ymin ymax p).1

/-- models _bunch.py:1798-1823 (matplot_scatter_graph): what is drawn, if something is, and the
result.  The collection returned by make_matplot_scatter is given to pyplot.figure, which takes the
number or name of a figure and raises TypeError for anything else. -/
def matplotScatterGraph (weight : H → K) (hits : List H) (x y : Axis H K)
    (includeWeightless : Bool) : Option (Scatter K) × Except Err Unit :=
  match scatterLoop weight x y includeWeightless hits [] [] with
  | .error e => (none, .error e)
  | .ok (xs, ys) =>
    match makeMatplotScatter xs (x.label " ") ys (y.label " ") with
    | .error e => (none, .error e)
    | .ok s => (some s, .error .TypeError)

/-- the handler of _bunch.py:1730-1734 -/
def dropUnpaired (xs ys : List K) : List K × List K :=
  (if xs.length > ys.length then xs.dropLast else xs, ys)

/-- the loop of _bunch.py:1726-1734 -/
def graphLoop (x y : Axis H K) : List H → List K → List K → List K × List K
  | [], xs, ys => (xs, ys)
  | b :: bs, xs, ys =>
    match x.get b with
    | .error _ => graphLoop x y bs (dropUnpaired xs ys).1 (dropUnpaired xs ys).2
    | .ok v =>
      match y.get b with
      | .error _ => graphLoop x y bs (dropUnpaired (xs ++ [v]) ys).1 (dropUnpaired (xs ++ [v]) ys).2
      | .ok u => graphLoop x y bs (xs ++ [v]) (ys ++ [u])

/-- the labels of _bunch.py:1735-1743: variable( axes ), then the units -/
def graphLabel (a : Axis H K) (axes : List String) : String :=
  let s := axes.foldl (fun s v => s ++ (v ++ " ")) (a.name ++ "( ") ++ ")"
  if a.units = "" then s else s ++ " [" ++ a.units ++ "]"

/-- models _bunch.py:1689-1754 (root_graph): the axes and the graph; `bunches` are the values of the
dictionary or the items of the list.  `list.sort` takes no positional argument, so a comparator
makes it raise TypeError. -/
def rootGraph (bunches : List H) (x y : Axis H K) (xaxes yaxes : List String) (comparator : Bool)
    (xmin xmax ymin ymax : Option K) : Except Err (RootGraph K) :=
  if comparator then .error .TypeError
  else
    (makeRootGraph (graphLabel x xaxes) (graphLabel y yaxes) (!comparator) xmin xmax ymin ymax
      (graphLoop x y bunches [] [])).1

/-- models _bunch.py:1757-1796 (matplot_histogram) without y axis, through _common.py:538-555
(make_matplot_histogram), which is the same code as make_histogram of matplotlib_wrapper.py: the
points of the line drawn.  The number of bins grows with the hits of non-zero weight. -/
def matplotHistogram [FloorRing K] (weight : H → K) (hits : List H) (x : Axis H K) :
    Except Err (List (K × K)) :=
  let n : K := ((hits.filter fun h => decide (|weight h| > 0)).length : K)
  match x.list hits with
  | .error e => .error e
  | .ok xs => Hist.makeHistogram xs ⌊n / 10 + 1⌋.toNat (hits.map weight)

/-- models _bunch.py:1825-1861 (matplot_graph): the points and the axes.  The loop is that of a
scatter plot of all items. -/
def matplotGraph (bunches : List H) (x y : Axis H K) (comparator : Bool) :
    Except Err (Hist.Graph K) :=
  if comparator then .error .TypeError
  else
    match scatterLoop (fun _ => (0 : K)) x y true bunches [] [] with
    | .error e => .error e
    | .ok p => (makeMatplotGraph true p).1

end Plots
end Xboa
