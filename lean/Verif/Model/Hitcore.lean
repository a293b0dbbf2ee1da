import Verif.Model.Py
/-
Model of xboa/core/cpplib/Hitcore.{hh,cc} and xboa/core/pylib/PyHitcore.cc (get, set),
and of the storage part of Hit.get / Hit.set (xboa/hit/_hit.py).
The number type is arbitrary (no arithmetic law is used).
-/
namespace Xboa

/-- Stored double members, Hitcore.cc:35-42. -/
inductive DVar
  | x | y | z | t | px | py | pz | energy | bx | by | bz | ex | ey | ez | sx | sy | sz
  | path_length | proper_time | e_dep | charge | mass | local_weight
deriving DecidableEq, Repr

/-- Stored int members, Hitcore.cc:35-42. -/
inductive IVar | spill | event | particle | station | status | pid
deriving DecidableEq, Repr

/-- One `Hitcore` object (the double members and the int members). -/
structure Core (K : Type) where
  d : DVar → K
  i : IVar → Int

namespace Core
variable {K : Type}
/-- Assignment to one double member. -/
def setD (c : Core K) (v : DVar) (a : K) : Core K :=
  { c with d := fun v' => if v' = v then a else c.d v' }
/-- Assignment to one int member. -/
def setI (c : Core K) (v : IVar) (a : Int) : Core K :=
  { c with i := fun v' => if v' = v then a else c.i v' }
/-- models Hitcore.cc:35-42 (constructor). -/
def new [Zero K] [One K] : Core K :=
  { d := fun v => if v = .local_weight then 1 else 0, i := fun _ => 0 }
/-- The key under which the global weight of a hit is stored.  models Hitcore.hh:439 and
444: `HitId hitid(spill_, particle_, event_)` where the constructor (WeightContext.hh:111)
is `HitId(int spill, int event, int particle)`. -/
def weightId (c : Core K) : HitId :=
  { spill := c.i .spill, event := c.i .particle, particle := c.i .event }
end Core

/-- A Hitcore together with the current weight context it refers to. -/
structure HS (K : Type) where
  core : Core K
  wc : WC K

/-- What a row of `get_dbl_map` points to. -/
inductive DGet | field (v : DVar) | global | total
deriving DecidableEq, Repr
/-- What a row of `set_dbl_map` points to. -/
inductive DSet | field (v : DVar) | global
deriving DecidableEq, Repr

/-- models Hitcore.cc:54-84 (get_dbl_map). -/
def getDblMap : List (String × DGet) :=
  [("x", .field .x), ("y", .field .y), ("z", .field .z), ("t", .field .t),
   ("px", .field .px), ("py", .field .py), ("pz", .field .pz), ("energy", .field .energy),
   ("bx", .field .bx), ("by", .field .by), ("bz", .field .bz),
   ("ex", .field .ex), ("ey", .field .ey), ("ez", .field .ez),
   ("sx", .field .sx), ("sy", .field .sy), ("sz", .field .sz),
   ("path_length", .field .path_length), ("proper_time", .field .proper_time),
   ("e_dep", .field .e_dep), ("charge", .field .charge), ("mass", .field .mass),
   ("local_weight", .field .local_weight), ("global_weight", .global), ("weight", .total)]

/-- models Hitcore.cc:97-126 (set_dbl_map). -/
def setDblMap : List (String × DSet) :=
  [("x", .field .x), ("y", .field .y), ("z", .field .z), ("t", .field .t),
   ("px", .field .px), ("py", .field .py), ("pz", .field .pz), ("energy", .field .energy),
   ("bx", .field .bx), ("by", .field .by), ("bz", .field .bz),
   ("ex", .field .ex), ("ey", .field .ey), ("ez", .field .ez),
   ("sx", .field .sx), ("sy", .field .sy), ("sz", .field .sz),
   ("path_length", .field .path_length), ("proper_time", .field .proper_time),
   ("e_dep", .field .e_dep), ("charge", .field .charge), ("mass", .field .mass),
   ("local_weight", .field .local_weight), ("global_weight", .global)]

/-- models Hitcore.cc:45-52 (get_int_map). -/
def getIntMap : List (String × IVar) :=
  [("spill", .spill), ("event_number", .event), ("eventNumber", .event),
   ("particle_number", .particle), ("particleNumber", .particle),
   ("station", .station), ("status", .status), ("pid", .pid)]

/-- models Hitcore.cc:88-95 (set_int_map). -/
def setIntMap : List (String × IVar) :=
  [("spill", .spill), ("event_number", .event), ("eventNumber", .event),
   ("particle_number", .particle), ("particleNumber", .particle),
   ("station", .station), ("status", .status), ("pid", .pid)]

/-- models Hitcore.cc:140-158 (get_names = double names followed by int names). -/
def getNames : List String :=
  ["x", "y", "z", "t", "px", "py", "pz", "energy", "bx", "by", "bz", "ex", "ey", "ez",
   "sx", "sy", "sz", "path_length", "proper_time", "e_dep", "charge", "mass",
   "local_weight", "global_weight"] ++
  ["spill", "event_number", "particle_number", "station", "status", "pid"]

/-- models Hitcore.cc:160-183 (set_names): keys of set_dbl_map in std::map (ASCII) order,
then keys of set_int_map in std::map order. -/
def setNames : List String :=
  ["bx", "by", "bz", "charge", "e_dep", "energy", "ex", "ey", "ez", "global_weight",
   "local_weight", "mass", "path_length", "proper_time", "px", "py", "pz",
   "sx", "sy", "sz", "t", "x", "y", "z"] ++
  ["eventNumber", "event_number", "particleNumber", "particle_number", "pid", "spill",
   "station", "status"]

/-- A Python value handed to `set`: a float, an int, a complex number or anything else
that is not a number. -/
inductive PyVal (K : Type) | flt (v : K) | int (n : Int) | cplx | other

/-- A Python value returned by `get`. -/
inductive Val (K : Type) | flt (v : K) | int (n : Int) | none
deriving DecidableEq

/-- Narrowing `long` -> `int` (two's complement), PyHitcore.cc:107. -/
def wrap32 (n : Int) : Int := (n + 2147483648) % 4294967296 - 2147483648

/-- `PyLong_AsLong`: value and whether an error is pending (Python >= 3.10: only ints). -/
def asLong {K : Type} : PyVal K → Int × Bool
  | .int n => if -9223372036854775808 ≤ n ∧ n < 9223372036854775808 then (n, false) else (-1, true)
  | _ => (-1, true)

/-- `PyFloat_AsDouble`: value and whether an error is pending. -/
def asDouble {K : Type} [IntCast K] : PyVal K → K × Bool
  | .flt v => (v, false)
  | .int n => ((n : K), false)
  | _ => (((-1 : Int) : K), true)




section
variable {K : Type}

/-- models Hitcore.hh:443-447. -/
def HS.globalWeight (s : HS K) : K := s.wc.getWeight s.core.weightId
/-- models Hitcore.hh:438-441. -/
def HS.setGlobalWeight (s : HS K) (w : K) : HS K :=
  { s with wc := s.wc.setWeight s.core.weightId w }
/-- models Hitcore.hh total_weight (local_weight_*global_weight()). -/
def HS.totalWeight [Mul K] (s : HS K) : K := s.core.d .local_weight * s.globalWeight

/-- The value a row of get_dbl_map gives. -/
def DGet.eval [Mul K] (s : HS K) : DGet → K
  | .field v => s.core.d v
  | .global => s.globalWeight
  | .total => s.totalWeight

/-- The effect of a row of set_dbl_map. -/
def DSet.exec (s : HS K) (w : K) : DSet → HS K
  | .field v => { s with core := s.core.setD v w }
  | .global => s.setGlobalWeight w

/-- models PyHitcore.cc:45-71 (Hitcore.get): double table first, then int table. -/
def Hitcore.get [Mul K] (s : HS K) (name : String) : Except Err (Val K) :=
  match getDblMap.lookup name with
  | some g => .ok (.flt (g.eval s))
  | none =>
    match getIntMap.lookup name with
    | some v => .ok (.int (s.core.i v))
    | none => .error .KeyError

/-- models PyHitcore.cc:87-113 (Hitcore.set).  The conversions are performed without
checking for errors; a pending error after a successful store surfaces as SystemError. -/
def Hitcore.set [IntCast K] (s : HS K) (name : String) (value : PyVal K) : Except Err Unit × HS K :=
  match setDblMap.lookup name with
  | some r => (if (asDouble value).2 then .error .SystemError else .ok (),
               r.exec s (asDouble value).1)
  | none =>
    match setIntMap.lookup name with
    | some v => (if (asDouble value).2 || (asLong value).2 then .error .SystemError else .ok (),
                 { s with core := s.core.setI v (wrap32 (asLong value).1) })
    | none => (.error .KeyError, s)

end
end Xboa
