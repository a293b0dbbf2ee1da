import Verif.Model.Plots
/-
Model of the matplotlib figures used by xboa/common/matplotlib_wrapper.py (get_figure_index,
make_histogram, make_graph, make_multigraph, make_scatter) and by make_matplot_histogram,
make_matplot_graph and make_matplot_scatter of xboa/common/_common.py.  Drawing is external: a figure
is its number and what was put on it, in order.  Figures are named by integers; matplotlib also takes
names that are strings and figure objects, these are left out.  Two dimensional histograms, and the
keywords apart from 's', are left out.
-/
namespace Xboa
namespace Figures
variable {K : Type} [Field K] [LinearOrder K]

/-- What one call puts on a figure. -/
inductive Art (K : Type)
  | hist (points : List (K × K))
  | graph (xs ys : List K) (xlim ylim : K × K)
  | scatter (xs ys : List K) (xlabel ylabel : String)
deriving DecidableEq

/-- The counter of matplotlib_wrapper.py:261 (FIGURE_INDEX) and the figures that exist in pyplot.  The
figures are in the order of the OrderedDict `Gcf.figs` of matplotlib: the last one is the current one,
on which pyplot draws. -/
structure State (K : Type) where
  counter : Int
  figs : List (Int × List (Art K))

/-- matplotlib_wrapper.py:261: when the module has been imported -/
def start : State K := ⟨0, []⟩

/-- What is on figure n; none if there is no such figure. -/
def State.content (s : State K) (n : Int) : Option (List (Art K)) := s.figs.lookup n

/-- models matplotlib_wrapper.py:253-259 (get_figure_index) -/
def getFigureIndex (figIndex : Option Int) (s : State K) : Int × State K :=
  match figIndex with
  | some n => (n, s)
  | none => (s.counter + 1, { s with counter := s.counter + 1 })

/-- all figures but n -/
def others (n : Int) (figs : List (Int × List (Art K))) : List (Int × List (Art K)) :=
  figs.filter fun f => decide (f.1 ≠ n)

/-- `pyplot.figure(n)`: make figure n if there is none, and make it the current one. -/
def pyplotFigure (n : Int) (s : State K) : State K :=
  { s with figs := others n s.figs ++ [(n, (s.figs.lookup n).getD [])] }

/-- put something on the last figure -/
def addLast (a : Art K) : List (Int × List (Art K)) → List (Int × List (Art K))
  | [] => []
  | [(n, l)] => [(n, l ++ [a])]
  | f :: r => f :: addLast a r

/-- A drawing command of pyplot: it goes to the current figure; if there are no figures pyplot makes
figure 1. -/
def pyplotDraw (a : Art K) (s : State K) : State K :=
  { s with figs := if s.figs.isEmpty then [(1, [a])] else addLast a s.figs }

/-- `pyplot.close(n)` -/
def pyplotClose (n : Int) (s : State K) : State K := { s with figs := others n s.figs }

/-! ### the functions -/

/-- What all functions begin with, matplotlib_wrapper.py:51-52, 104-105, 147-148, 186-187 and
_common.py:536-537, 625-626, 717-718; then the body makes its drawing or raises. -/
def plotOn (figIndex : Option Int) (body : Except Err (Art K)) (s : State K) : Except Err Int × State K :=
  let (n, s) := getFigureIndex figIndex s
  let s := pyplotFigure n s
  match body with
  | .error e => (.error e, s)
  | .ok a => (.ok n, pyplotDraw a s)

/-- models matplotlib_wrapper.py:29-77 (make_histogram), one dimension -/
def makeHistogram (xs : List K) (nbins : Nat) (ws : List K) (figIndex : Option Int) (s : State K) :
    Except Err Int × State K :=
  plotOn figIndex (match Hist.makeHistogram xs nbins ws with
    | .ok p => .ok (.hist p)
    | .error e => .error e) s

/-- models matplotlib_wrapper.py:79-122 (make_graph); what happens to the caller's lists is in
Model/Hist.lean. -/
def makeGraph (xs ys : List K) (sort : Bool) (figIndex : Option Int) (s : State K) :
    Except Err Int × State K :=
  plotOn figIndex (match (Hist.makeGraph sort (xs, ys)).1 with
    | .ok g => .ok (.graph g.xs g.ys g.xlim g.ylim)
    | .error e => .error e) s

/-- models matplotlib_wrapper.py:124-167 (make_multigraph): `min_max` and `rg` of line 154 are not
defined in the module. -/
def makeMultigraph (_xss _yss : List (List K)) (figIndex : Option Int) (s : State K) :
    Except Err Int × State K :=
  plotOn figIndex (.error .NameError) s

/-- models matplotlib_wrapper.py:169-196 (make_scatter).  `size` tells that kwds has the key 's', which
is given twice then (line 193). -/
def makeScatter (xs : List K) (xlabel : String) (ys : List K) (ylabel : String) (size : Bool)
    (figIndex : Option Int) (s : State K) : Except Err Int × State K :=
  plotOn figIndex
    (if xs.length = 0 ∨ xs.length ≠ ys.length then .error .IndexError
    else if size then .error .TypeError
    else .ok (.scatter xs ys xlabel ylabel)) s

/-- models _common.py:522-562 (make_matplot_histogram), one dimension: the number of the figure is not
returned, but the figure is the same. -/
def matplotHistogram (xs : List K) (nbins : Nat) (ws : List K) (s : State K) : Except Err Int × State K :=
  makeHistogram xs nbins ws none s

/-- models _common.py:611-639 (make_matplot_graph) -/
def matplotGraph (xs ys : List K) (sort : Bool) (s : State K) : Except Err Int × State K :=
  plotOn none (match (Plots.makeMatplotGraph sort (xs, ys)).1 with
    | .ok g => .ok (.graph g.xs g.ys g.xlim g.ylim)
    | .error e => .error e) s

/-- models _common.py:704-724 (make_matplot_scatter) -/
def matplotScatter (xs : List K) (xlabel : String) (ys : List K) (ylabel : String) (s : State K) :
    Except Err Int × State K :=
  plotOn none (match Plots.makeMatplotScatter xs xlabel ys ylabel with
    | .ok p => .ok (.scatter p.xs p.ys p.xlabel p.ylabel)
    | .error e => .error e) s

/-! ### programs -/

/-- A plot of xboa, with its arguments. -/
inductive Call (K : Type)
  | histogram (xs : List K) (nbins : Nat) (ws : List K) (fig : Option Int)
  | graph (xs ys : List K) (sort : Bool) (fig : Option Int)
  | multigraph (xss yss : List (List K)) (fig : Option Int)
  | scatter (xs : List K) (xlabel : String) (ys : List K) (ylabel : String) (size : Bool) (fig : Option Int)
  | matplotHistogram (xs : List K) (nbins : Nat) (ws : List K)
  | matplotGraph (xs ys : List K) (sort : Bool)
  | matplotScatter (xs : List K) (xlabel : String) (ys : List K) (ylabel : String)

def call : Call K → State K → Except Err Int × State K
  | .histogram xs n ws f => makeHistogram xs n ws f
  | .graph xs ys b f => makeGraph xs ys b f
  | .multigraph xss yss f => makeMultigraph xss yss f
  | .scatter xs xl ys yl b f => makeScatter xs xl ys yl b f
  | .matplotHistogram xs n ws => matplotHistogram xs n ws
  | .matplotGraph xs ys b => matplotGraph xs ys b
  | .matplotScatter xs xl ys yl => matplotScatter xs xl ys yl

/-- A statement of a program: a plot of xboa, whose exceptions are caught, or pyplot used directly. -/
inductive Op (K : Type)
  | plot (c : Call K)
  | figure (n : Int)
  | draw (a : Art K)
  | close (n : Int)

def step (s : State K) : Op K → State K
  | .plot c => (call c s).2
  | .figure n => pyplotFigure n s
  | .draw a => pyplotDraw a s
  | .close n => pyplotClose n s

def run : State K → List (Op K) → State K
  | s, [] => s
  | s, op :: r => run (step s op) r

end Figures
end Xboa
