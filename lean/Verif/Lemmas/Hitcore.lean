import Verif.Model.Hitcore
import Verif.Lemmas.WeightContext
/-! Helper lemmas about the Hitcore tables. -/
namespace Xboa
variable {K : Type}

/-- The getter corresponding to a setter. -/
def DSet.toGet : DSet → DGet
  | .field v => .field v
  | .global => .global

/-- The row of the two accessor tables a name resolves to. -/
def getRow (n : String) : Option (DGet ⊕ IVar) :=
  match getDblMap.lookup n with
  | some g => some (.inl g)
  | none => (getIntMap.lookup n).map .inr

/-- Names of double variables documented for Hit (class docstring, _hit.py:56-91). -/
def dblNames : List String :=
  ["x", "y", "z", "t", "px", "py", "pz", "energy", "local_weight", "mass", "bx", "by", "bz",
   "ex", "ey", "ez", "sx", "sy", "sz", "path_length", "proper_time", "e_dep", "charge",
   "global_weight"]

/-- Names of integer variables, with both spellings. -/
def intNames : List String :=
  ["station", "pid", "status", "spill", "event_number", "eventNumber", "particle_number",
   "particleNumber"]

theorem row_dbl : ∀ n ∈ dblNames, ∃ r, setDblMap.lookup n = some r ∧
    getRow n = some (.inl r.toGet) := by
  simp only [dblNames, List.forall_mem_cons]
  refine ⟨⟨_, rfl, rfl⟩, ⟨_, rfl, rfl⟩, ⟨_, rfl, rfl⟩, ⟨_, rfl, rfl⟩, ⟨_, rfl, rfl⟩, ⟨_, rfl, rfl⟩,
    ⟨_, rfl, rfl⟩, ⟨_, rfl, rfl⟩, ⟨_, rfl, rfl⟩, ⟨_, rfl, rfl⟩, ⟨_, rfl, rfl⟩, ⟨_, rfl, rfl⟩,
    ⟨_, rfl, rfl⟩, ⟨_, rfl, rfl⟩, ⟨_, rfl, rfl⟩, ⟨_, rfl, rfl⟩, ⟨_, rfl, rfl⟩, ⟨_, rfl, rfl⟩,
    ⟨_, rfl, rfl⟩, ⟨_, rfl, rfl⟩, ⟨_, rfl, rfl⟩, ⟨_, rfl, rfl⟩, ⟨_, rfl, rfl⟩, ⟨_, rfl, rfl⟩, by simp⟩

theorem row_int : ∀ n ∈ intNames, ∃ v, setDblMap.lookup n = none ∧ setIntMap.lookup n = some v ∧
    getRow n = some (.inr v) := by
  simp only [intNames, List.forall_mem_cons]
  refine ⟨⟨_, rfl, rfl, rfl⟩, ⟨_, rfl, rfl, rfl⟩, ⟨_, rfl, rfl, rfl⟩, ⟨_, rfl, rfl, rfl⟩,
    ⟨_, rfl, rfl, rfl⟩, ⟨_, rfl, rfl, rfl⟩, ⟨_, rfl, rfl, rfl⟩, ⟨_, rfl, rfl, rfl⟩, by simp⟩

/-- Rows of distinct listed names are distinct and none is the total weight. -/
theorem row_distinct : ∀ n ∈ getNames, ∀ m ∈ getNames, m ≠ n → getRow m ≠ getRow n := by
  decide +kernel

theorem row_not_total : ∀ n ∈ getNames, getRow n ≠ some (.inl .total) ∧ getRow n ≠ none := by
  decide +kernel

theorem dblNames_sub : ∀ n ∈ dblNames, n ∈ getNames := by decide +kernel

/-- A name resolves in the Hitcore tables or not. -/
theorem Hitcore.get_eq [Mul K] (s : HS K) (n : String) :
    Hitcore.get s n = match getRow n with
      | some (.inl g) => .ok (.flt (g.eval s))
      | some (.inr v) => .ok (.int (s.core.i v))
      | none => .error .KeyError := by
  unfold Hitcore.get getRow
  cases getDblMap.lookup n with
  | some g => rfl
  | none => cases getIntMap.lookup n <;> rfl

theorem DSet.eval_exec [Mul K] (s : HS K) (hwf : s.wc.WF) (r : DSet) (w : K) (g : DGet)
    (hg : g ≠ .total) :
    g.eval (r.exec s w) = if g = r.toGet then w else g.eval s := by
  cases r with
  | field v =>
    cases g with
    | field v' =>
      simp only [DGet.eval, DSet.exec, Core.setD, DSet.toGet, DGet.field.injEq]
    | global => simp [DGet.eval, DSet.exec, DSet.toGet, HS.globalWeight, Core.setD, Core.weightId]
    | total => exact absurd rfl hg
  | global =>
    cases g with
    | field v' => simp [DGet.eval, DSet.exec, DSet.toGet, HS.setGlobalWeight]
    | global =>
      simp [DGet.eval, DSet.exec, DSet.toGet, HS.setGlobalWeight, HS.globalWeight,
        WC.getWeight_setWeight hwf]
    | total => exact absurd rfl hg

theorem DSet.exec_int (s : HS K) (r : DSet) (w : K) : (r.exec s w).core.i = s.core.i := by
  cases r <;> rfl

theorem DSet.exec_wf (s : HS K) (hwf : s.wc.WF) (r : DSet) (w : K) : (r.exec s w).wc.WF := by
  cases r with
  | field v => exact hwf
  | global => exact hwf.setWeight _ _

theorem wrap32_id {n : Int} (h : -2147483648 ≤ n ∧ n < 2147483648) : wrap32 n = n := by
  unfold wrap32; omega

end Xboa
