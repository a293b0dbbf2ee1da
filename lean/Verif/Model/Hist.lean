import Verif.Model.Common
/-
Model of xboa/common/matplotlib_wrapper.py: make_histogram (one dimension), make_graph and
plot_hist2d_ratio.  Drawing is external: what is modelled are the numbers handed to matplotlib and
returned to the caller.
-/
namespace Xboa
namespace Hist
variable {K : Type} [Field K] [LinearOrder K]

/-! ### numpy -/

/-- The bins of numpy.histogram and numpy.histogram2d: half open, the last one closed. -/
def inBin (edges : List K) (i : Nat) (x : K) : Bool :=
  decide (edges.getD i 0 ≤ x) &&
    (decide (x < edges.getD (i + 1) 0) || (decide (i + 2 = edges.length) && decide (x = edges.getD (i + 1) 0)))

/-- numpy.histogram with given edges: the weight in each bin. -/
def binned (edges : List K) (pts : List (K × K)) : List K :=
  (List.range (edges.length - 1)).map fun i =>
    ((pts.filter fun p => inBin edges i p.1).map fun p => p.2).sum

/-- the edges of numpy.histogram(a, bins=n): n bins of equal width from the smallest to the largest
value, of width 1 / n around it if there is only one value. -/
def equalEdges (a : K) (r : List K) (n : Nat) : List K :=
  let lo := Common.pyMin a r
  let hi := Common.pyMax a r
  let lohi := if lo = hi then (lo - 1 / 2, hi + 1 / 2) else (lo, hi)
  (List.range (n + 1)).map fun (i : Nat) => lohi.1 + (i : K) * ((lohi.2 - lohi.1) / (n : K))

/-- numpy.histogram2d with given edges; the points carry x, y and weight. -/
def binned2 (xe ye : List K) (pts : List (K × K × K)) : List (List K) :=
  (List.range (xe.length - 1)).map fun i => (List.range (ye.length - 1)).map fun j =>
    ((pts.filter fun p => inBin xe i p.1 && inBin ye j p.2.1).map fun p => p.2.2).sum

/-- true if the edges do not decrease (numpy raises ValueError otherwise). -/
def nondecreasing : List K → Bool
  | a :: b :: r => decide (a ≤ b) && nondecreasing (b :: r)
  | _ => true

/-- models axes.hist2d(x, y, bins=[xe, ye], weights=w), without the image. -/
def hist2d (xe ye xs ys ws : List K) : Except Err (List (List K) × List K × List K) :=
  if xs.length ≠ ys.length ∨ ws.length ≠ xs.length then .error .ValueError
  else if !(nondecreasing xe && nondecreasing ye) then .error .ValueError
  else .ok (binned2 xe ye (xs.zip (ys.zip ws)), xe, ye)

/-! ### plot_hist2d_ratio -/

/-- `numpy.array(h).transpose().flatten()`, matplotlib_wrapper.py:221-222: the columns one after the
other. -/
def flatT (h : List (List K)) : List K :=
  (List.range (h.headD []).length).flatMap fun j => h.map fun row => row.getD j 0

/-- models matplotlib_wrapper.py:224-228: the index of the next element, h1, h2 and nan_index. -/
def zeroLoop : Nat → List K → List K → List K → List Nat → List K × List K × List Nat
  | _, [], h1, h2, nan => (h1, h2, nan)
  | i, x2 :: r, h1, h2, nan =>
    if x2 = 0 then zeroLoop (i + 1) r (h1.set i 0) (h2.set i 1) (nan ++ [i])
    else zeroLoop (i + 1) r h1 h2 nan

/-- `[(edges[i]+e1)/2 for i, e1 in enumerate(edges[1:])]`, matplotlib_wrapper.py:233, 237-238. -/
def centres (edges : List K) : List K := edges.zipWith (fun a b => (a + b) / 2) edges.tail

/-- models matplotlib_wrapper.py:198-241 (plot_hist2d_ratio).  A nested list with rows of different
length is ValueError in numpy.array. -/
def ratio (h1 h2 : List (List K)) (xe ye : List K) (onNan : K) :
    Except Err (List (List K) × List K × List K) :=
  if h1.length ≠ h2.length then .error .ValueError
  else if (h1.zip h2).any (fun p => decide (p.1.length ≠ p.2.length)) then .error .ValueError
  else if h1.any (fun r => decide (r.length ≠ (h1.headD []).length)) then .error .ValueError
  else
    let f1 := flatT h1
    let f2 := flatT h2
    let (g1, g2, nan) := zeroLoop 0 f2 f1 f2 []
    let h3 := g1.zipWith (· / ·) g2
    let h3 := nan.foldl (fun l i => l.set i onNan) h3
    let xa := (List.replicate (ye.length - 1) (centres xe)).flatten
    let ya := (centres ye).flatMap fun y => List.replicate (xe.length - 1) y
    hist2d xe ye xa ya h3

/-! ### make_histogram -/

/-- models matplotlib_wrapper.py:64-65: the first index from `index` on whose content is not 0; the
content is looked at before the index is compared with the length. -/
def skipEmpty (n : List K) : Nat → Nat → Except Err Nat
  | 0, _ => .error .IndexError
  | fuel + 1, index =>
    match n[index]? with
    | none => .error .IndexError
    | some c => if |c| < 1 / 1000000000 ∧ index < n.length then skipEmpty n fuel (index + 1) else .ok index

/-- models matplotlib_wrapper.py:29-70, one dimension: the bin centres and contents that are drawn.
`ws` is weight_list. -/
def makeHistogram (xs : List K) (nbins : Nat) (ws : List K) : Except Err (List (K × K)) :=
  match xs with
  | [] => .error .IndexError
  | a :: r =>
    if ws ≠ [] ∧ ws.length ≠ xs.length then .error .ValueError
    else if nbins = 0 then .error .ValueError
    else
      let w := if ws = [] then List.replicate xs.length 1 else ws
      let edges := equalEdges a r nbins
      let n := binned edges (xs.zip w)
      match skipEmpty n (n.length + 1) 0 with
      | .error e => .error e
      | .ok index =>
        .ok ((List.range' index (n.length - 1 - index)).map fun i =>
          ((edges.getD i 0 + edges.getD (i + 1) 0) / 2, n.getD i 0))

/-! ### make_graph -/

/-- what make_graph draws: the points in order and the limits of the axes -/
structure Graph (K : Type) where
  xs : List K
  ys : List K
  xlim : K × K
  ylim : K × K

/-- models matplotlib_wrapper.py:79-122 (make_graph).  The state are the caller's two lists, which are
sorted in place. -/
def makeGraph (sort : Bool) : PyM (List K × List K) (Graph K) :=
  fun (xs, ys) =>
    if xs.length = 0 ∨ xs.length ≠ ys.length then (.error .IndexError, (xs, ys))
    else
      match (if sort then Common.multisort [xs, ys] else .ok [xs, ys]) with
      | .ok [xs', ys'] =>
        match Common.minMax [] (1 / 10) none none xs', Common.minMax [] (1 / 10) none none ys' with
        | (.ok xl, xs''), (.ok yl, ys'') => (.ok ⟨xs'', ys'', xl, yl⟩, (xs'', ys''))
        | (.error e, xs''), _ => (.error e, (xs'', ys'))
        | (_, xs''), (.error e, ys'') => (.error e, (xs'', ys''))
      | .ok _ => (.error .ValueError, (xs, ys))
      | .error e => (.error e, (xs, ys))

end Hist
end Xboa
