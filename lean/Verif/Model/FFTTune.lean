import Verif.Model.PeakFinder
import Mathlib.Data.List.Sort
/-
Model of xboa/algorithms/tune/_fft_tune.py: FFTTuneFinder.get_tune and what it calls.  Plotting is
left out.
-/
namespace Xboa
namespace FFTTune
variable {K : Type} [Field K] [LinearOrder K]

/-- External functions: math.pi, math.cos, math.sin, numpy.fft.rfft (real and imaginary parts), and
int() of a float. -/
structure Fourier (K : Type) where
  pi : K
  cos : K → K
  sin : K → K
  rfft : List K → List (K × K)
  trunc : K → Int

/-- The attributes of an FFTTuneFinder.  `kx`, `ky` are k_mag_x and k_mag_y; get_tune sets them before
it reads them, so their first value None is represented by []. -/
structure State (K : Type) where
  u : Option (List K)
  up : Option (List K)
  hanning : Bool
  tune : Option K
  px : List K
  py : List K
  kx : List K
  ky : List K

/-- models _fft_tune.py:39-61 (__init__) -/
def new (u up : Option (List K)) (hanning : Bool) : State K :=
  { u, up, hanning, tune := none, px := [], py := [], kx := [], ky := [] }

/-- Python `l.index(x)` -/
def indexOf (x : K) : List K → Except Err Nat
  | [] => .error .ValueError
  | a :: r => if a = x then .ok 0 else (indexOf x r).map (· + 1)

/-- Python `l[i]`, negative indices count from the end -/
def pyAt (l : List K) (i : Int) : Except Err K :=
  let j := if i < 0 then i + l.length else i
  if j < 0 then .error .IndexError
  else match l[j.toNat]? with
    | none => .error .IndexError
    | some x => .ok x

/-- models _fft_tune.py:323-345 (_sft) -/
def sft (F : Fourier K) (E : Ext K) (hanning : Bool) (u : List K) (k : K) : K :=
  let n : K := (u.length : K)
  let yz := u.zipIdx.foldl (fun (acc : K × K) (p : K × Nat) =>
    let h := if hanning then 2 * F.sin (F.pi * (p.2 : K) / n) ^ 2 else 1
    let f := 2 * F.pi * (p.2 : K) * k * (n + 1) / n
    (acc.1 + h * p.1 * F.cos f, acc.2 + h * p.1 * F.sin f)) (0, 0)
  E.sqrt (yz.1 ^ 2 + yz.2 ^ 2)

/-- a Python list comprehension whose element expression may raise -/
def mapErr {α β : Type} (f : α → Except Err β) : List α → Except Err (List β)
  | [] => .ok []
  | a :: r =>
    match f a with
    | .error e => .error e
    | .ok b =>
      match mapErr f r with
      | .error e => .error e
      | .ok bs => .ok (b :: bs)

/-- models _fft_tune.py:258-268 (_find_peaks); `pf` is find_peaks of the peak finder. -/
def findPeaks (pf : List K → Except Err (List Nat)) : PyM (State K) Unit := fun s =>
  match pf s.ky with
  | .error e => (.error e, s)
  | .ok found =>
    match found.insertionSort (· ≤ ·) with
    | [] => (.ok (), s)
    | a :: r =>
      let peaks := if a = 0 then r else a :: r
      match mapErr (fun i : Nat => pyAt s.kx i) peaks with
      | .error e => (.error e, s)
      | .ok xs =>
        match mapErr (fun i : Nat => pyAt s.ky i) peaks with
        | .error e => (.error e, { s with px := xs })
        | .ok ys => (.ok (), { s with px := xs, py := ys })

/-- models _fft_tune.py:248-256 (_fft_find_peaks) -/
def fftFindPeaks (F : Fourier K) (E : Ext K) (pf : List K → Except Err (List Nat)) :
    PyM (State K) Unit := fun s =>
  let fft := F.rfft (s.u.getD [])
  let ky := fft.map fun z => E.sqrt (z.1 ^ 2 + z.2 ^ 2)
  let kx := (List.range fft.length).map fun (i : Nat) => (i : K) / 2 / (fft.length : K)
  findPeaks pf { s with kx, ky }

/-- models _fft_tune.py:239-246 (_sft_find_peaks), for a non-zero interval. -/
def sftFindPeaks (F : Fourier K) (E : Ext K) (pf : List K → Except Err (List Nat)) (interval : K) :
    PyM (State K) Unit := fun s =>
  let kx := (List.range (F.trunc (1 / interval / 2)).toNat).map fun (i : Nat) => (i : K) * interval
  findPeaks pf { s with kx, ky := kx.map (sft F E s.hanning (s.u.getD [])) }

/-- Python `max` of a list with first element `a` -/
def maxOf (a : K) (r : List K) : K := r.foldl (fun m x => if m < x then x else m) a

/-- models _fft_tune.py:226-237 (_get_max_peak) -/
def getMaxPeak : PyM (State K) Nat := fun s =>
  match mapErr (fun x => indexOf x s.kx) s.px with
  | .error e => (.error e, s)
  | .ok is =>
    match mapErr (fun i : Nat => pyAt s.ky i) is with
    | .error e => (.error e, s)
    | .ok [] => (.error .ValueError, s)
    | .ok (a :: r) =>
      match indexOf (maxOf a r) s.ky with
      | .error e => (.error e, s)
      | .ok i =>
        match pyAt s.kx i with
        | .error e => (.error e, s)
        | .ok t => (.ok i, { s with tune := some t })

/-- What _fft_tune.py:283-298 works out: the point `i` refined, the two values and positions between
which a point is added, and where it is inserted. -/
structure Bracket (K : Type) where
  i : Int
  ya : K
  yb : K
  xa : K
  xb : K
  right : Int

/-- models _fft_tune.py:283-298, the first half of _recursive_refine_peak. -/
def bracket (s : State K) (k : K) : Except Err (Bracket K) :=
  match indexOf k s.kx with
  | .error e => .error e
  | .ok i0 =>
    let i : Int := if i0 + 1 = s.ky.length then (i0 : Int) - 1 else i0
    match pyAt s.ky (i - 1), pyAt s.ky i, pyAt s.ky (i + 1) with
    | .ok y0, .ok y1, .ok y2 =>
      if y2 > y0 then
        match pyAt s.kx i, pyAt s.kx (i + 1) with
        | .ok xa, .ok xb => .ok { i, ya := y1, yb := y2, xa, xb, right := i + 1 }
        | _, _ => .error .IndexError
      else
        match pyAt s.kx (i - 1), pyAt s.kx i with
        | .ok xa, .ok xb => .ok { i, ya := y0, yb := y1, xa, xb, right := i }
        | _, _ => .error .IndexError
    | _, _, _ => .error .IndexError

/-- Python `l.insert(i, x)` for i >= 0 (at the end if i is past the end) -/
def pyInsert (l : List K) (i : Int) (x : K) : List K :=
  l.take i.toNat ++ x :: l.drop i.toNat

/-- models _fft_tune.py:270-321 (_recursive_refine_peak).  The first argument is the number of nested
calls Python still allows; running out of it is RecursionError, a RuntimeError. -/
def refine (F : Fourier K) (E : Ext K) (tol : K) : Nat → K → PyM (State K) K
  | 0, _ => fun s => (.error .RuntimeError, s)
  | fuel + 1, k => fun s =>
    match bracket s k with
    | .error e => (.error e, s)
    | .ok b =>
      let newX := (b.xa + b.xb) / 2
      let newY := sft F E s.hanning (s.u.getD []) newX
      if |b.xb - b.xa| < tol then (pyAt s.kx b.i, s)
      else
        let s1 := { s with kx := pyInsert s.kx b.right newX, ky := pyInsert s.ky b.right newY }
        if newY > b.ya ∧ newY > b.yb then
          match pyAt s1.kx b.right with
          | .error e => (.error e, s1)
          | .ok x => refine F E tol fuel x s1
        else if b.ya > newY ∧ b.yb > newY then
          match indexOf b.ya s1.ky with
          | .error e => (.error e, s1)
          | .ok ia =>
            match pyAt s1.kx ia with
            | .error e => (.error e, s1)
            | .ok xa' =>
              match refine F E tol fuel xa' s1 with
              | (.error e, s2) => (.error e, s2)
              | (.ok _, s2) =>
                match indexOf b.yb s2.ky with
                | .error e => (.error e, s2)
                | .ok ib =>
                  match pyAt s2.kx ib with
                  | .error e => (.error e, s2)
                  | .ok xb' => refine F E tol fuel xb' s2
        else if b.ya > b.yb then
          match pyAt s1.kx b.i with
          | .error e => (.error e, s1)
          | .ok x => refine F E tol fuel x s1
        else
          match pyAt s1.kx (b.i + 1) with
          | .error e => (.error e, s1)
          | .ok x => refine F E tol fuel x s1

/-- models the body of the loop of _fft_tune.py:96-102: a ValueError is printed and the loop goes on. -/
def refineOne (F : Fourier K) (E : Ext K) (tol : K) (fuel : Nat) (i : Nat) : PyM (State K) Unit :=
  fun s =>
    match pyAt s.px i with
    | .error e => (.error e, s)
    | .ok k =>
      match refine F E tol fuel k s with
      | (.error .ValueError, s1) => (.ok (), s1)
      | (.error e, s1) => (.error e, s1)
      | (.ok x, s1) =>
        let s2 := { s1 with px := s1.px.set i x }
        match indexOf x s2.kx with
        | .error .ValueError => (.ok (), s2)
        | .error e => (.error e, s2)
        | .ok j =>
          match pyAt s2.ky j with
          | .error .ValueError => (.ok (), s2)
          | .error e => (.error e, s2)
          | .ok y => (.ok (), { s2 with py := s2.py.set i y })

/-- models the loop of _fft_tune.py:95-102 -/
def refineAll (F : Fourier K) (E : Ext K) (tol : K) (fuel : Nat) : List Nat → PyM (State K) Unit
  | [] => fun s => (.ok (), s)
  | i :: r => fun s =>
    match refineOne F E tol fuel i s with
    | (.error e, s1) => (.error e, s1)
    | (.ok _, s1) => refineAll F E tol fuel r s1

/-- models _fft_tune.py:81-86: an even number of values loses its last one, in the caller's lists. -/
def trim : PyM (State K) Unit := fun s =>
  match s.u with
  | none => (.error .ValueError, s)
  | some u =>
    if u.length % 2 = 0 then
      match s.up with
      | some [] => (.error .IndexError, s)
      | up =>
        let s1 := { s with up := up.map List.dropLast }
        if u = [] then (.error .IndexError, s1)
        else (.ok (), { s1 with u := some u.dropLast })
    else (.ok (), s)

/-- models _fft_tune.py:63-104 (get_tune); `fuel` is the number of nested calls Python allows. -/
def getTune (F : Fourier K) (E : Ext K) (pf : List K → Except Err (List Nat)) (fuel : Nat)
    (tolerance : Option K) : PyM (State K) (Option K) := fun s =>
  match trim s with
  | (.error e, s1) => (.error e, s1)
  | (.ok _, s1) =>
    let tol := tolerance.getD (1 / ((s1.u.getD []).length : K) / 100)
    match fftFindPeaks F E pf s1 with
    | (.error e, s2) => (.error e, s2)
    | (.ok _, s2) =>
      match getMaxPeak s2 with
      | (.error e, s3) => (.error e, s3)
      | (.ok _, s3) =>
        match (if s3.px = [] then sftFindPeaks F E pf tol s3 else (.ok (), s3)) with
        | (.error e, s4) => (.error e, s4)
        | (.ok _, s4) =>
          match getMaxPeak s4 with
          | (.error e, s5) => (.error e, s5)
          | (.ok _, s5) =>
            if tol < 1 / (s5.kx.length : K) then
              match refineAll F E tol fuel (List.range s5.px.length) s5 with
              | (.error e, s6) => (.error e, s6)
              | (.ok _, s6) =>
                match getMaxPeak s6 with
                | (.error e, s7) => (.error e, s7)
                | (.ok _, s7) => (.ok s7.tune, s7)
            else (.ok s5.tune, s5)

end FFTTune
end Xboa
