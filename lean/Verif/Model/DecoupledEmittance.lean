import Verif.Model.Optics
/-
Model of Bunch.get_decoupled_emittance.
-/
namespace Xboa
namespace Bunch
variable {K : Type} [Field K] [LinearOrder K] [IsStrictOrderedRing K]

/-- models one step of the loop _bunch.py:1021-1025: coupled_axis_list2 and emit_var -/
def axisStep (coupled emit : List String) (s : List String × List Nat) (ax : String) :
    List String × List Nat :=
  (if ax ∈ coupled ∨ ax ∈ emit then s.1 ++ [ax] else s.1,
   if ax ∈ emit then s.2 ++ [s.1.length] else s.2)

/-- models the loop _bunch.py:1036-1037: the two eigenvalues of each axis -/
def pickPairs (ev : List K) : List Nat → Except Err (List K)
  | [] => .ok []
  | p :: r =>
    match ev[2 * p]?, ev[2 * p + 1]? with
    | some a, some b =>
      match pickPairs ev r with
      | .error e => .error e
      | .ok l => .ok (a :: b :: l)
    | _, _ => .error .IndexError

/-- numpy.diagflat, _bunch.py:1043 -/
def diagflat (l : List K) : Mat K := ⟨l.length, l.length, fun i j => if i = j then l.getD i 0 else 0⟩

/-- models _bunch.py:1014-1044 (get_decoupled_emittance).  `eig` stands for the eigenvalues of
numpy.linalg.eig.  The argument `geometric` has no effect.  `my_cov == None` (line 1028) of a numpy matrix is
an array whose truth value raises ValueError unless it has one element (not modelled further).  What is
printed (lines 1038-1042) and the eigenvectors are left out. -/
def getDecoupledEmittance (L : LinAlg K) (eig : Mat K → Except Err (List K)) (E : Ext K) (w : BWorld K)
    (b : Bunch K) (coupled emit : List String) (cov : Option (Mat K)) : Except Err K :=
  let s := axisList.foldl (axisStep coupled emit) ([], [])
  match covList w.geo s.1 with
  | .error e => .error e
  | .ok cl =>
    match cov with
    | some m => if m.rows * m.cols ≠ 1 then .error .ValueError else .error .Unmodelled
    | none =>
      match emitCov E w b cl none with
      | .error e => .error e
      | .ok M =>
        match eig M with
        | .error e => .error e
        | .ok ev =>
          match pickPairs ev s.2 with
          | .error e => .error e
          | .ok out => getEmittance L E w b emit (some (diagflat out))

end Bunch
end Xboa
