import Verif.Model.TextIO
/-
Model of HitFactoryBase.hit_generator (xboa/hit/factory/_hit_factory_base.py) and of the functions that use
it, Hit.new_list_from_maus_root and Hit.new_list_from_maus_json.
A generator is modelled by everything it yields, the way it ends and the state of the factory afterwards.
-/
namespace Xboa
namespace Generator
open TextIO
variable {S H : Type}

/-- models _hit_factory_base.py:35-47 (hit_generator) for a factory with the methods `makeHit` and
`newSpill`, if all is taken from the generator.  After the first `yield` nothing else is done.
`raise StopIteration` inside a generator becomes RuntimeError. -/
def hitGenerator (makeHit : PyM S H) (newSpill : PyM S Unit) (s : S) : List H × Except Err Unit × S :=
  match makeHit s with
  | (.ok h, s) => ([h], .ok (), s)
  | (.error e, s) =>
    if e = .EOFError ∨ e = .BadEventError then
      match newSpill s with
      | (.error e, s) => ([], .error e, s)
      | (.ok _, s) =>
        match makeHit s with
        | (.ok h, s) => ([h], .ok (), s)
        | (.error e, s) =>
          if e = .EOFError ∨ e = .BadEventError then ([], .error .RuntimeError, s) else ([], .error e, s)
    else ([], .error e, s)

/-- models _hit_factory_base.py:49-56 (new_spill), which the line factories inherit. -/
def noSpill : PyM S Unit := fun s => (.ok (), s)

section
variable {K W : Type} [Field K] [LinearOrder K] [FloorRing K]

/-- models BuiltinHitFactory.make_hit on a file handle that has the given lines left
(_line_factory_base.py:47-50 for the end of the file, TextIO.makeHit for the line); the state is what is
left and the weight context. -/
def lineHit (E : Ext K) (T : Text K W) (format : String) : PyM (List (List W) × WC K) (Core K) :=
  fun (lines, wc) =>
    match lines with
    | [] => (.error .EOFError, ([], wc))
    | ws :: r =>
      match makeHit E T format ws ⟨Core.new, wc⟩ with
      | (.error e, s) => (.error e, (r, s.wc))
      | (.ok _, s) => (.ok s.core, (r, s.wc))

/-- `[hit for hit in factory.hit_generator()]`, once for every element of a range of length n, appended:
what is collected, how it ends. -/
def collect (E : Ext K) (T : Text K W) (format : String) :
    Nat → List (List W) × WC K → List (Core K) × Except Err Unit × (List (List W) × WC K)
  | 0, s => ([], .ok (), s)
  | n + 1, s =>
    match hitGenerator (lineHit E T format) noSpill s with
    | (hs, .error e, s) => (hs, .error e, s)
    | (hs, .ok _, s) =>
      match collect E T format n s with
      | (hs', r, s) => (hs ++ hs', r, s)
end

/-- the names in the package xboa.hit.factory after the imports of hit/factory/__init__.py:42-56 (imports
of submodules bind the name of the submodule); with or without ROOT. -/
def factoryNames (root : Bool) : List String :=
  ["all", "HitFactoryBase", "_hit_factory_base", "LineFactoryBase", "_line_factory_base",
   "MausJsonHitFactory", "_maus_json_hit_factory", "BuiltinHitFactory", "_builtin_hit_factory",
   "UserHitFactory", "_user_hit_factory", "OpalHitFactory", "_opal_hit_factory"] ++
  (if root then ["MausRootHitFactory", "_maus_root_hit_factory", "MausRootReconHitFactory",
    "_maus_root_recon_hit_factory"] else [])

/-- models _hit.py:192-205 (new_list_from_maus_root) and 208-221 (new_list_from_maus_json):
`xboa.hit.factory.factory` is looked up first; `rest` is what would follow. -/
def newListFromMaus (root : Bool) (rest : Except Err (List H)) : Except Err (List H) :=
  if "factory" ∈ factoryNames root then rest else .error .AttributeError

end Generator
end Xboa
