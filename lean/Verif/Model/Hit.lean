import Verif.Model.Hitcore
import Mathlib.Algebra.Order.Field.Basic
/-
Model of class Hit, xboa/hit/_hit.py.

Numbers are elements of a linearly ordered field `K`; `**0.5`, `atan2` and the speed of
light come from a parameter `Ext K`.
-/
namespace Xboa

/-- External numerical functions used by Hit: `x**0.5` for x >= 0, math.atan2, and
Common.constants['c_light'] (_common.py:94). -/
structure Ext (K : Type) where
  sqrt : K → K
  atan2 : K → K → K
  cLight : K

/-- What is assumed of the external functions. -/
structure Ext.Lawful {K : Type} [Field K] [LinearOrder K] (E : Ext K) : Prop where
  sqrt_nonneg : ∀ a, 0 ≤ a → 0 ≤ E.sqrt a
  sqrt_mul_self : ∀ a, 0 ≤ a → E.sqrt a * E.sqrt a = a
  cLight_pos : 0 < E.cLight

variable {K : Type} [Field K] [LinearOrder K]

/-- `value <op> float` for a Python value: numbers compute, a complex stays complex, anything
else raises TypeError. -/
def PyVal.arith (f : K → K) : PyVal K → Except Err (PyVal K)
  | .flt v => .ok (.flt (f v))
  | .int n => .ok (.flt (f (n : K)))
  | .cplx => .ok .cplx
  | .other => .error .TypeError

/-- `a ** 0.5`: complex for negative `a`. -/
def powHalf (E : Ext K) (a : K) : PyVal K := if a < 0 then .cplx else .flt (E.sqrt a)

/-- What `dict_from_hit` stores for a value returned by `get`. -/
def Val.toPy : Val K → PyVal K
  | .flt v => .flt v
  | .int n => .int n
  | .none => .other

namespace Hit

/-- `self.get(name)` for a name of the Hitcore tables, as a number.
models _hit.py:342-343. -/
def getF (name : String) : PyM (HS K) K := fun s =>
  match Hitcore.get s name with
  | .ok (.flt v) => (.ok v, s)
  | .ok (.int n) => (.ok (n : K), s)
  | _ => (.error .IndexError, s)

/-- `self.set(name, v)` / `self[name] = v` for a name that is not in Hit.__set_variables.
models _hit.py:358-365: any exception of Hitcore.set is swallowed and IndexError raised. -/
def setF (name : String) (v : PyVal K) : PyM (HS K) Unit := fun s =>
  match Hitcore.set s name v with
  | (.ok _, s') => (.ok (), s')
  | (.error _, s') => (.error .IndexError, s')

variable (E : Ext K)

/-- models _hit.py:561-563. -/
def get_p : PyM (HS K) K := do
  let px ← getF "px"; let py ← getF "py"; let pz ← getF "pz"
  return E.sqrt (px ^ 2 + py ^ 2 + pz ^ 2)
/-- models _hit.py:565-567. -/
def get_r : PyM (HS K) K := do
  let x ← getF "x"; let y ← getF "y"
  return E.sqrt (x ^ 2 + y ^ 2)
/-- models _hit.py:569-571. -/
def get_phi : PyM (HS K) K := do
  let y ← getF "y"; let x ← getF "x"
  return E.atan2 y x
/-- models _hit.py:573-575. -/
def get_pt : PyM (HS K) K := do
  let px ← getF "px"; let py ← getF "py"
  return E.sqrt (px ^ 2 + py ^ 2)
/-- models _hit.py:577-579. -/
def get_pphi : PyM (HS K) K := do
  let py ← getF "py"; let px ← getF "px"
  return E.atan2 py px
/-- models _hit.py:581-583. -/
def get_r_squared : PyM (HS K) K := do
  let x ← getF "x"; let y ← getF "y"
  return x ^ 2 + y ^ 2
/-- Python float division raises ZeroDivisionError. -/
def divF (a b : K) : PyM (HS K) K := if b = 0 then PyM.raise .ZeroDivisionError else return a / b
/-- models _hit.py:585-587. -/
def get_xP : PyM (HS K) K := do
  let px ← getF "px"; let pz ← getF "pz"
  divF px pz
/-- models _hit.py:589-591. -/
def get_yP : PyM (HS K) K := do
  let py ← getF "py"; let pz ← getF "pz"
  divF py pz
/-- models _hit.py:593-595. -/
def get_tP : PyM (HS K) K := do
  let e ← getF "energy"; let pz ← getF "pz"
  divF (-e) pz
/-- models _hit.py:597-599. -/
def get_rP : PyM (HS K) K := do
  let pt ← get_pt E; let pz ← getF "pz"
  divF pt pz
/-- models _hit.py:601-603. -/
def get_spin : PyM (HS K) K := do
  let sx ← getF "sx"; let sy ← getF "sy"; let sz ← getF "sz"
  return E.sqrt (sx ^ 2 + sy ^ 2 + sz ^ 2)
/-- models _hit.py:605-607. -/
def get_ct : PyM (HS K) K := do
  let t ← getF "t"
  return t * E.cLight
/-- models _hit.py:609-611. -/
def get_ek : PyM (HS K) K := do
  let e ← getF "energy"; let m ← getF "mass"
  return e - m
/-- models _hit.py:617-620. -/
def get_l_kin : PyM (HS K) K := do
  let x ← getF "x"; let py ← getF "py"; let y ← getF "y"; let px ← getF "px"
  return x * py - y * px
/-- models _hit.py:655-657. -/
def get_weight : PyM (HS K) K := do
  let g ← getF "global_weight"; let l ← getF "local_weight"
  return g * l

/-- models _hit.py:613-615 (a number plus the mass). -/
def set_ek (value : PyVal K) : PyM (HS K) Unit := do
  let m ← getF "mass"
  let v ← PyM.lift (value.arith (fun a => a + m))
  setF "energy" v
/-- models _hit.py:622-624. -/
def set_ct (value : PyVal K) : PyM (HS K) Unit := do
  let v ← PyM.lift (value.arith (fun a => a / E.cLight))
  setF "t" v
/-- models _hit.py:626-634. -/
def set_p (value : PyVal K) : PyM (HS K) Unit := do
  let p ← get_p E
  if p = 0 then setF "pz" (.flt 1)
  let p' ← get_p E
  if p' = 0 then PyM.raise .ZeroDivisionError
  let scale ← PyM.lift (value.arith (fun a => a / p'))
  let px ← getF "px"; let px' ← PyM.lift (scale.arith (fun a => px * a)); setF "px" px'
  let py ← getF "py"; let py' ← PyM.lift (scale.arith (fun a => py * a)); setF "py" py'
  let pz ← getF "pz"; let pz' ← PyM.lift (scale.arith (fun a => pz * a)); setF "pz" pz'
/-- `math.fabs(self['pz']) < 1e-9` guard of _hit.py:638, 643, 648. -/
def pzTiny (pz : K) : Prop := |pz| < 1 / 1000000000
instance (pz : K) : Decidable (pzTiny pz) := inferInstanceAs (Decidable (_ < _))
/-- models _hit.py:636-639. -/
def set_xP (value : PyVal K) : PyM (HS K) Unit := do
  let pz ← getF "pz"
  if pzTiny pz then PyM.raise .FloatingPointError
  else
    let v ← PyM.lift (value.arith (fun a => a * pz))
    setF "px" v
/-- models _hit.py:641-644. -/
def set_yP (value : PyVal K) : PyM (HS K) Unit := do
  let pz ← getF "pz"
  if pzTiny pz then PyM.raise .FloatingPointError
  else
    let v ← PyM.lift (value.arith (fun a => a * pz))
    setF "py" v
/-- models _hit.py:646-653. -/
def set_tP (value : PyVal K) : PyM (HS K) Unit := do
  let pz ← getF "pz"
  if pzTiny pz then PyM.raise .FloatingPointError
  else
    let v ← PyM.lift (value.arith (fun a => -a * pz))
    setF "energy" v
    let pz ← getF "pz"
    if pz < 0 then
      let e ← getF "energy"; setF "energy" (.flt (e * -1))
      let pz ← getF "pz"; setF "pz" (.flt (pz * -1))
    let e ← getF "energy"; let m ← getF "mass"
    if e < m then PyM.raise .FloatingPointError

/-- Wrap a number result as a Python value. -/
def ret (m : PyM (HS K) K) : PyM (HS K) (Val K) := do let v ← m; return .flt v

/-- models the table Hit.__get_variables, _hit.py:817-819. -/
def getVariables : List (String × PyM (HS K) (Val K)) :=
  [("p", ret (get_p E)), ("r", ret (get_r E)), ("phi", ret (get_phi E)), ("pt", ret (get_pt E)),
   ("pphi", ret (get_pphi E)), ("x'", ret get_xP), ("y'", ret get_yP), ("t'", ret get_tP),
   ("ct'", ret get_tP), ("r'", ret (get_rP E)), ("spin", ret (get_spin E)),
   ("weight", ret get_weight), ("ct", ret (get_ct E)), ("r_squared", ret get_r_squared),
   ("z'", ret (return 1)), ("kinetic_energy", ret get_ek), ("l_kin", ret get_l_kin),
   ("", return .none)]

/-- models the table Hit.__set_variables, _hit.py:820. -/
def setVariables : List (String × (PyVal K → PyM (HS K) Unit)) :=
  [("p", set_p E), ("x'", set_xP), ("y'", set_yP), ("t'", set_tP), ("ct", set_ct E),
   ("kinetic_energy", set_ek), ("", fun _ => return ())]

/-- models _hit.py:336-349 (Hit.get). -/
def get (key : String) : PyM (HS K) (Val K) := fun s =>
  match Hitcore.get s key with
  | .ok v => (.ok v, s)
  | .error _ =>
    match (getVariables E).lookup key with
    | some f => f s
    | none => (.error .IndexError, s)

/-- models _hit.py:351-365 (Hit.set). -/
def set (key : String) (value : PyVal K) : PyM (HS K) Unit := fun s =>
  match Hitcore.set s key value with
  | (.ok _, s') => (.ok (), s')
  | (.error _, s') =>
    match (setVariables E).lookup key with
    | some f => f value s'
    | none => (.error .IndexError, s')

/-- `float_tolerance = 1.e-6` of _hit.py:290. -/
def shellTol : K := 1 / 1000000

/-- `abs(val)**1.5/val` for val > 0, written with the square root. -/
def pow15Over (val : K) : K := |val| * E.sqrt |val| / val

/-- models _hit.py:290-332; the result is None, False or True. -/
def mass_shell_condition (variable_string : String) : PyM (HS K) (Option Bool) := do
  if variable_string = "" then return none
  else
    let px ← getF "px"
    let py ← getF "py"
    let pz ← getF "pz"
    let e ← getF "energy"
    let m ← getF "mass"
    if variable_string = "p" then
      set E "p" (powHalf E ((e - m) * (e + m)))
      return some true
    else if variable_string = "px" then
      let val := e * e - m * m - py * py - pz * pz
      if val > shellTol then
        set E "px" (.flt (pow15Over E val))
        return some true
      else
        set E "px" (.flt 0)
        return some false
    else if variable_string = "py" then
      let val := e * e - m * m - px * px - pz * pz
      if val > shellTol then
        set E "py" (.flt (pow15Over E val))
        return some true
      else
        set E "py" (.flt 0)
        return some false
    else if variable_string = "pz" then
      let val := e * e - m * m - px * px - py * py
      if val > shellTol then
        set E "pz" (.flt (pow15Over E val))
        return some true
      else
        set E "pz" (.flt 0)
        return some false
    else if variable_string = "energy" then
      set E "energy" (.flt (E.sqrt (m * m + px * px + py * py + pz * pz)))
      return some true
    else PyM.raise .IndexError

/-- models Hit.__mass_shell_variables, _hit.py:816. -/
def massShellVariables : List String := ["", "p", "px", "py", "pz", "energy"]

/-- models _hit.py:381-388 (dict_from_hit); a Python dict is an insertion ordered list.
All names are in the Hitcore tables so `get` cannot fail; the fallback is unreachable
(`Xboa.Hitcore.get_setNames`). -/
def dict_from_hit (s : HS K) : List (String × PyVal K) :=
  setNames.map (fun n => (n, match Hitcore.get s n with
    | .ok v => v.toPy
    | .error _ => .other))

/-- `for k,v in set_dict.items(): my_hit.set(k, v)`, _hit.py:148-149 and 713-714. -/
def setAll : List (String × PyVal K) → PyM (HS K) Unit
  | [] => return ()
  | (k, v) :: r => do
    set E k v
    setAll r

/-- `my_hit = Hit()`, _hit.py:147; Hit.__init__ sets local_weight to 1. -/
def fresh : PyM (HS K) Unit := fun s => (.ok (), { s with core := Core.new })

/-- models _hit.py:138-153 (new_from_dict): the core of the state passed in is ignored, a
fresh Hit is made; the weight context is the shared one. -/
def new_from_dict (d : List (String × PyVal K)) (mass_shell_string : String) : PyM (HS K) Unit := do
  fresh
  setAll E d
  if mass_shell_string ≠ "" then
    let _ ← mass_shell_condition E mass_shell_string

/-- models _hit.py:109-112 (__deepcopy__): the copy's core and the context afterwards.
`__getstate__`/`__setstate__` (698-714) perform the same assignments. -/
def deepcopy (s : HS K) : Except Err Unit × HS K := new_from_dict E (dict_from_hit s) "" s

/-- `v + self.get(k)` with Python's number types; None or a non number raises TypeError. -/
def addVal : PyVal K → Val K → Except Err (PyVal K)
  | .flt v, .flt a => .ok (.flt (v + a))
  | .flt v, .int n => .ok (.flt (v + (n : K)))
  | .int m, .flt a => .ok (.flt ((m : K) + a))
  | .int m, .int n => .ok (.int (m + n))
  | .cplx, .flt _ => .ok .cplx
  | .cplx, .int _ => .ok .cplx
  | _, _ => .error .TypeError

/-- models _hit.py:251-260 (translate). -/
def translate (d : List (String × PyVal K)) (mass_shell_string : String) : PyM (HS K) Unit := do
  go d
  let _ ← mass_shell_condition E mass_shell_string
where
  /-- the loop of _hit.py:258-259 -/
  go : List (String × PyVal K) → PyM (HS K) Unit
    | [] => return ()
    | (k, v) :: r => do
      let old ← get E k
      let new ← PyM.lift (addVal v old)
      set E k new
      go r

end Hit
end Xboa

namespace Xboa
variable {K : Type} [Field K] [LinearOrder K]

/-- The number behind a value returned by Hitcore.get (Python compares ints and floats). -/
def Val.num : Val K → K
  | .flt v => v
  | .int n => (n : K)
  | .none => 0

/-- models _hit.py:114-119 (Hit.__eq__ for two Hits; both read the shared context). -/
def Hit.eq (wc : WC K) (a b : Core K) (tol : K) : Bool :=
  getNames.all (fun n =>
    match Hitcore.get ⟨a, wc⟩ n, Hitcore.get ⟨b, wc⟩ n with
    | .ok u, .ok v => ! decide (tol < |u.num - v.num|)
    | _, _ => true)

/-- Several hits and the current weight context they share. -/
structure World (K : Type) where
  hits : Nat → Core K
  wc : WC K

namespace World

/-- The view hit `i` has. -/
def view (w : World K) (i : Nat) : HS K := ⟨w.hits i, w.wc⟩

/-- Store back what a method of hit `i` did. -/
def put (w : World K) (i : Nat) (s : HS K) : World K :=
  { hits := fun j => if j = i then s.core else w.hits j, wc := s.wc }

/-- Run a method of hit `i`. -/
def onHit {α : Type} (w : World K) (i : Nat) (m : PyM (HS K) α) : Except Err α × World K :=
  match m (w.view i) with
  | (r, s) => (r, w.put i s)

/-- User operations on hits; objects are numbered. -/
inductive Op (K : Type)
  | set (i : Nat) (name : String) (v : PyVal K)           -- hit[i].set(name, v)
  | massShell (i : Nat) (v : String)                      -- hit[i].mass_shell_condition(v)
  | copyTo (i j : Nat)                                    -- hit[j] = hit[i].deepcopy()
  | create (i : Nat)                                      -- hit[i] = Hit()
  | ctxSet (w : K) (id : HitId)                           -- current_context.set_weight
  | setContext (c : WC K)                                 -- Hit.set_weight_context
  | clearGlobal                                           -- Hit.clear_global_weights()

/-- One operation on the world. -/
def step (E : Ext K) (w : World K) : Op K → World K
  | .set i n v => (w.onHit i (Hit.set E n v)).2
  | .massShell i v => (w.onHit i (Hit.mass_shell_condition E v)).2
  | .copyTo i j => w.put j (Hit.deepcopy E (w.view i)).2
  | .create i => { w with hits := fun j => if j = i then Core.new else w.hits j }
  | .ctxSet k id => { w with wc := w.wc.setWeight id k }
  | .setContext c => { w with wc := c }
  | .clearGlobal => { w with wc := w.wc.clearWeights }

/-- models the state after `import xboa`: fresh hits, one empty context. -/
def init : World K := ⟨fun _ => Core.new, WC.new⟩

/-- Run a history. -/
def run (E : Ext K) (w : World K) (ops : List (Op K)) : World K := ops.foldl (step E) w

end World
end Xboa
