import Verif.Lemmas.Hitcore
import Verif.Model.Hit
/-! Unfolding lemmas for Hit.get / Hit.set on the literal variable names. -/
set_option linter.unusedSectionVars false
namespace Xboa
variable {K : Type} [Field K] [LinearOrder K] (E : Ext K) (s : HS K)

@[simp] theorem Hitcore.get_x : Hitcore.get s "x" = .ok (.flt (s.core.d .x)) := rfl
@[simp] theorem Hit.get_x : Hit.get E "x" s = (.ok (.flt (s.core.d .x)), s) := rfl
@[simp] theorem Hit.getF_x : Hit.getF "x" s = (.ok (s.core.d .x), s) := rfl
@[simp] theorem Hit.set_x (v : K) :
    Hit.set E "x" (.flt v) s = (.ok (), { s with core := s.core.setD .x v }) := rfl
@[simp] theorem Hit.setF_x (v : K) :
    Hit.setF "x" (.flt v) s = (.ok (), { s with core := s.core.setD .x v }) := rfl

@[simp] theorem Hitcore.get_y : Hitcore.get s "y" = .ok (.flt (s.core.d .y)) := rfl
@[simp] theorem Hit.get_y : Hit.get E "y" s = (.ok (.flt (s.core.d .y)), s) := rfl
@[simp] theorem Hit.getF_y : Hit.getF "y" s = (.ok (s.core.d .y), s) := rfl
@[simp] theorem Hit.set_y (v : K) :
    Hit.set E "y" (.flt v) s = (.ok (), { s with core := s.core.setD .y v }) := rfl
@[simp] theorem Hit.setF_y (v : K) :
    Hit.setF "y" (.flt v) s = (.ok (), { s with core := s.core.setD .y v }) := rfl

@[simp] theorem Hitcore.get_z : Hitcore.get s "z" = .ok (.flt (s.core.d .z)) := rfl
@[simp] theorem Hit.get_z : Hit.get E "z" s = (.ok (.flt (s.core.d .z)), s) := rfl
@[simp] theorem Hit.getF_z : Hit.getF "z" s = (.ok (s.core.d .z), s) := rfl
@[simp] theorem Hit.set_z (v : K) :
    Hit.set E "z" (.flt v) s = (.ok (), { s with core := s.core.setD .z v }) := rfl
@[simp] theorem Hit.setF_z (v : K) :
    Hit.setF "z" (.flt v) s = (.ok (), { s with core := s.core.setD .z v }) := rfl

@[simp] theorem Hitcore.get_t : Hitcore.get s "t" = .ok (.flt (s.core.d .t)) := rfl
@[simp] theorem Hit.get_t : Hit.get E "t" s = (.ok (.flt (s.core.d .t)), s) := rfl
@[simp] theorem Hit.getF_t : Hit.getF "t" s = (.ok (s.core.d .t), s) := rfl
@[simp] theorem Hit.set_t (v : K) :
    Hit.set E "t" (.flt v) s = (.ok (), { s with core := s.core.setD .t v }) := rfl
@[simp] theorem Hit.setF_t (v : K) :
    Hit.setF "t" (.flt v) s = (.ok (), { s with core := s.core.setD .t v }) := rfl

@[simp] theorem Hitcore.get_px : Hitcore.get s "px" = .ok (.flt (s.core.d .px)) := rfl
@[simp] theorem Hit.get_px : Hit.get E "px" s = (.ok (.flt (s.core.d .px)), s) := rfl
@[simp] theorem Hit.getF_px : Hit.getF "px" s = (.ok (s.core.d .px), s) := rfl
@[simp] theorem Hit.set_px (v : K) :
    Hit.set E "px" (.flt v) s = (.ok (), { s with core := s.core.setD .px v }) := rfl
@[simp] theorem Hit.setF_px (v : K) :
    Hit.setF "px" (.flt v) s = (.ok (), { s with core := s.core.setD .px v }) := rfl

@[simp] theorem Hitcore.get_py : Hitcore.get s "py" = .ok (.flt (s.core.d .py)) := rfl
@[simp] theorem Hit.get_py : Hit.get E "py" s = (.ok (.flt (s.core.d .py)), s) := rfl
@[simp] theorem Hit.getF_py : Hit.getF "py" s = (.ok (s.core.d .py), s) := rfl
@[simp] theorem Hit.set_py (v : K) :
    Hit.set E "py" (.flt v) s = (.ok (), { s with core := s.core.setD .py v }) := rfl
@[simp] theorem Hit.setF_py (v : K) :
    Hit.setF "py" (.flt v) s = (.ok (), { s with core := s.core.setD .py v }) := rfl

@[simp] theorem Hitcore.get_pz : Hitcore.get s "pz" = .ok (.flt (s.core.d .pz)) := rfl
@[simp] theorem Hit.get_pz : Hit.get E "pz" s = (.ok (.flt (s.core.d .pz)), s) := rfl
@[simp] theorem Hit.getF_pz : Hit.getF "pz" s = (.ok (s.core.d .pz), s) := rfl
@[simp] theorem Hit.set_pz (v : K) :
    Hit.set E "pz" (.flt v) s = (.ok (), { s with core := s.core.setD .pz v }) := rfl
@[simp] theorem Hit.setF_pz (v : K) :
    Hit.setF "pz" (.flt v) s = (.ok (), { s with core := s.core.setD .pz v }) := rfl

@[simp] theorem Hitcore.get_energy : Hitcore.get s "energy" = .ok (.flt (s.core.d .energy)) := rfl
@[simp] theorem Hit.get_energy : Hit.get E "energy" s = (.ok (.flt (s.core.d .energy)), s) := rfl
@[simp] theorem Hit.getF_energy : Hit.getF "energy" s = (.ok (s.core.d .energy), s) := rfl
@[simp] theorem Hit.set_energy (v : K) :
    Hit.set E "energy" (.flt v) s = (.ok (), { s with core := s.core.setD .energy v }) := rfl
@[simp] theorem Hit.setF_energy (v : K) :
    Hit.setF "energy" (.flt v) s = (.ok (), { s with core := s.core.setD .energy v }) := rfl

@[simp] theorem Hitcore.get_bx : Hitcore.get s "bx" = .ok (.flt (s.core.d .bx)) := rfl
@[simp] theorem Hit.get_bx : Hit.get E "bx" s = (.ok (.flt (s.core.d .bx)), s) := rfl
@[simp] theorem Hit.getF_bx : Hit.getF "bx" s = (.ok (s.core.d .bx), s) := rfl
@[simp] theorem Hit.set_bx (v : K) :
    Hit.set E "bx" (.flt v) s = (.ok (), { s with core := s.core.setD .bx v }) := rfl
@[simp] theorem Hit.setF_bx (v : K) :
    Hit.setF "bx" (.flt v) s = (.ok (), { s with core := s.core.setD .bx v }) := rfl

@[simp] theorem Hitcore.get_by : Hitcore.get s "by" = .ok (.flt (s.core.d .by)) := rfl
@[simp] theorem Hit.get_by : Hit.get E "by" s = (.ok (.flt (s.core.d .by)), s) := rfl
@[simp] theorem Hit.getF_by : Hit.getF "by" s = (.ok (s.core.d .by), s) := rfl
@[simp] theorem Hit.set_by (v : K) :
    Hit.set E "by" (.flt v) s = (.ok (), { s with core := s.core.setD .by v }) := rfl
@[simp] theorem Hit.setF_by (v : K) :
    Hit.setF "by" (.flt v) s = (.ok (), { s with core := s.core.setD .by v }) := rfl

@[simp] theorem Hitcore.get_bz : Hitcore.get s "bz" = .ok (.flt (s.core.d .bz)) := rfl
@[simp] theorem Hit.get_bz : Hit.get E "bz" s = (.ok (.flt (s.core.d .bz)), s) := rfl
@[simp] theorem Hit.getF_bz : Hit.getF "bz" s = (.ok (s.core.d .bz), s) := rfl
@[simp] theorem Hit.set_bz (v : K) :
    Hit.set E "bz" (.flt v) s = (.ok (), { s with core := s.core.setD .bz v }) := rfl
@[simp] theorem Hit.setF_bz (v : K) :
    Hit.setF "bz" (.flt v) s = (.ok (), { s with core := s.core.setD .bz v }) := rfl

@[simp] theorem Hitcore.get_ex : Hitcore.get s "ex" = .ok (.flt (s.core.d .ex)) := rfl
@[simp] theorem Hit.get_ex : Hit.get E "ex" s = (.ok (.flt (s.core.d .ex)), s) := rfl
@[simp] theorem Hit.getF_ex : Hit.getF "ex" s = (.ok (s.core.d .ex), s) := rfl
@[simp] theorem Hit.set_ex (v : K) :
    Hit.set E "ex" (.flt v) s = (.ok (), { s with core := s.core.setD .ex v }) := rfl
@[simp] theorem Hit.setF_ex (v : K) :
    Hit.setF "ex" (.flt v) s = (.ok (), { s with core := s.core.setD .ex v }) := rfl

@[simp] theorem Hitcore.get_ey : Hitcore.get s "ey" = .ok (.flt (s.core.d .ey)) := rfl
@[simp] theorem Hit.get_ey : Hit.get E "ey" s = (.ok (.flt (s.core.d .ey)), s) := rfl
@[simp] theorem Hit.getF_ey : Hit.getF "ey" s = (.ok (s.core.d .ey), s) := rfl
@[simp] theorem Hit.set_ey (v : K) :
    Hit.set E "ey" (.flt v) s = (.ok (), { s with core := s.core.setD .ey v }) := rfl
@[simp] theorem Hit.setF_ey (v : K) :
    Hit.setF "ey" (.flt v) s = (.ok (), { s with core := s.core.setD .ey v }) := rfl

@[simp] theorem Hitcore.get_ez : Hitcore.get s "ez" = .ok (.flt (s.core.d .ez)) := rfl
@[simp] theorem Hit.get_ez : Hit.get E "ez" s = (.ok (.flt (s.core.d .ez)), s) := rfl
@[simp] theorem Hit.getF_ez : Hit.getF "ez" s = (.ok (s.core.d .ez), s) := rfl
@[simp] theorem Hit.set_ez (v : K) :
    Hit.set E "ez" (.flt v) s = (.ok (), { s with core := s.core.setD .ez v }) := rfl
@[simp] theorem Hit.setF_ez (v : K) :
    Hit.setF "ez" (.flt v) s = (.ok (), { s with core := s.core.setD .ez v }) := rfl

@[simp] theorem Hitcore.get_sx : Hitcore.get s "sx" = .ok (.flt (s.core.d .sx)) := rfl
@[simp] theorem Hit.get_sx : Hit.get E "sx" s = (.ok (.flt (s.core.d .sx)), s) := rfl
@[simp] theorem Hit.getF_sx : Hit.getF "sx" s = (.ok (s.core.d .sx), s) := rfl
@[simp] theorem Hit.set_sx (v : K) :
    Hit.set E "sx" (.flt v) s = (.ok (), { s with core := s.core.setD .sx v }) := rfl
@[simp] theorem Hit.setF_sx (v : K) :
    Hit.setF "sx" (.flt v) s = (.ok (), { s with core := s.core.setD .sx v }) := rfl

@[simp] theorem Hitcore.get_sy : Hitcore.get s "sy" = .ok (.flt (s.core.d .sy)) := rfl
@[simp] theorem Hit.get_sy : Hit.get E "sy" s = (.ok (.flt (s.core.d .sy)), s) := rfl
@[simp] theorem Hit.getF_sy : Hit.getF "sy" s = (.ok (s.core.d .sy), s) := rfl
@[simp] theorem Hit.set_sy (v : K) :
    Hit.set E "sy" (.flt v) s = (.ok (), { s with core := s.core.setD .sy v }) := rfl
@[simp] theorem Hit.setF_sy (v : K) :
    Hit.setF "sy" (.flt v) s = (.ok (), { s with core := s.core.setD .sy v }) := rfl

@[simp] theorem Hitcore.get_sz : Hitcore.get s "sz" = .ok (.flt (s.core.d .sz)) := rfl
@[simp] theorem Hit.get_sz : Hit.get E "sz" s = (.ok (.flt (s.core.d .sz)), s) := rfl
@[simp] theorem Hit.getF_sz : Hit.getF "sz" s = (.ok (s.core.d .sz), s) := rfl
@[simp] theorem Hit.set_sz (v : K) :
    Hit.set E "sz" (.flt v) s = (.ok (), { s with core := s.core.setD .sz v }) := rfl
@[simp] theorem Hit.setF_sz (v : K) :
    Hit.setF "sz" (.flt v) s = (.ok (), { s with core := s.core.setD .sz v }) := rfl

@[simp] theorem Hitcore.get_path_length : Hitcore.get s "path_length" = .ok (.flt (s.core.d .path_length)) := rfl
@[simp] theorem Hit.get_path_length : Hit.get E "path_length" s = (.ok (.flt (s.core.d .path_length)), s) := rfl
@[simp] theorem Hit.getF_path_length : Hit.getF "path_length" s = (.ok (s.core.d .path_length), s) := rfl
@[simp] theorem Hit.set_path_length (v : K) :
    Hit.set E "path_length" (.flt v) s = (.ok (), { s with core := s.core.setD .path_length v }) := rfl
@[simp] theorem Hit.setF_path_length (v : K) :
    Hit.setF "path_length" (.flt v) s = (.ok (), { s with core := s.core.setD .path_length v }) := rfl

@[simp] theorem Hitcore.get_proper_time : Hitcore.get s "proper_time" = .ok (.flt (s.core.d .proper_time)) := rfl
@[simp] theorem Hit.get_proper_time : Hit.get E "proper_time" s = (.ok (.flt (s.core.d .proper_time)), s) := rfl
@[simp] theorem Hit.getF_proper_time : Hit.getF "proper_time" s = (.ok (s.core.d .proper_time), s) := rfl
@[simp] theorem Hit.set_proper_time (v : K) :
    Hit.set E "proper_time" (.flt v) s = (.ok (), { s with core := s.core.setD .proper_time v }) := rfl
@[simp] theorem Hit.setF_proper_time (v : K) :
    Hit.setF "proper_time" (.flt v) s = (.ok (), { s with core := s.core.setD .proper_time v }) := rfl

@[simp] theorem Hitcore.get_e_dep : Hitcore.get s "e_dep" = .ok (.flt (s.core.d .e_dep)) := rfl
@[simp] theorem Hit.get_e_dep : Hit.get E "e_dep" s = (.ok (.flt (s.core.d .e_dep)), s) := rfl
@[simp] theorem Hit.getF_e_dep : Hit.getF "e_dep" s = (.ok (s.core.d .e_dep), s) := rfl
@[simp] theorem Hit.set_e_dep (v : K) :
    Hit.set E "e_dep" (.flt v) s = (.ok (), { s with core := s.core.setD .e_dep v }) := rfl
@[simp] theorem Hit.setF_e_dep (v : K) :
    Hit.setF "e_dep" (.flt v) s = (.ok (), { s with core := s.core.setD .e_dep v }) := rfl

@[simp] theorem Hitcore.get_charge : Hitcore.get s "charge" = .ok (.flt (s.core.d .charge)) := rfl
@[simp] theorem Hit.get_charge : Hit.get E "charge" s = (.ok (.flt (s.core.d .charge)), s) := rfl
@[simp] theorem Hit.getF_charge : Hit.getF "charge" s = (.ok (s.core.d .charge), s) := rfl
@[simp] theorem Hit.set_charge (v : K) :
    Hit.set E "charge" (.flt v) s = (.ok (), { s with core := s.core.setD .charge v }) := rfl
@[simp] theorem Hit.setF_charge (v : K) :
    Hit.setF "charge" (.flt v) s = (.ok (), { s with core := s.core.setD .charge v }) := rfl

@[simp] theorem Hitcore.get_mass : Hitcore.get s "mass" = .ok (.flt (s.core.d .mass)) := rfl
@[simp] theorem Hit.get_mass : Hit.get E "mass" s = (.ok (.flt (s.core.d .mass)), s) := rfl
@[simp] theorem Hit.getF_mass : Hit.getF "mass" s = (.ok (s.core.d .mass), s) := rfl
@[simp] theorem Hit.set_mass (v : K) :
    Hit.set E "mass" (.flt v) s = (.ok (), { s with core := s.core.setD .mass v }) := rfl
@[simp] theorem Hit.setF_mass (v : K) :
    Hit.setF "mass" (.flt v) s = (.ok (), { s with core := s.core.setD .mass v }) := rfl

@[simp] theorem Hitcore.get_local_weight : Hitcore.get s "local_weight" = .ok (.flt (s.core.d .local_weight)) := rfl
@[simp] theorem Hit.get_local_weight : Hit.get E "local_weight" s = (.ok (.flt (s.core.d .local_weight)), s) := rfl
@[simp] theorem Hit.getF_local_weight : Hit.getF "local_weight" s = (.ok (s.core.d .local_weight), s) := rfl
@[simp] theorem Hit.set_local_weight (v : K) :
    Hit.set E "local_weight" (.flt v) s = (.ok (), { s with core := s.core.setD .local_weight v }) := rfl
@[simp] theorem Hit.setF_local_weight (v : K) :
    Hit.setF "local_weight" (.flt v) s = (.ok (), { s with core := s.core.setD .local_weight v }) := rfl

@[simp] theorem Hitcore.get_global_weight :
    Hitcore.get s "global_weight" = .ok (.flt s.globalWeight) := rfl
@[simp] theorem Hit.get_global_weight : Hit.get E "global_weight" s = (.ok (.flt s.globalWeight), s) := rfl
@[simp] theorem Hit.getF_global_weight : Hit.getF "global_weight" s = (.ok s.globalWeight, s) := rfl
@[simp] theorem Hit.set_global_weight (v : K) :
    Hit.set E "global_weight" (.flt v) s = (.ok (), s.setGlobalWeight v) := rfl
@[simp] theorem Hit.get_weight_total : Hit.get E "weight" s = (.ok (.flt s.totalWeight), s) := rfl

@[simp] theorem Hitcore.get_spill : Hitcore.get s "spill" = .ok (.int (s.core.i .spill)) := rfl
@[simp] theorem Hit.get_spill : Hit.get E "spill" s = (.ok (.int (s.core.i .spill)), s) := rfl
@[simp] theorem Hit.getF_spill : Hit.getF "spill" s = (.ok (s.core.i .spill : K), s) := rfl
theorem Hit.set_spill (k : Int) (h : -2147483648 ≤ k ∧ k < 2147483648) :
    Hit.set E "spill" (.int k) s = (.ok (), { s with core := s.core.setI .spill k }) := by
  have h1 : asLong (K := K) (.int k) = (k, false) := by simp only [asLong]; rw [if_pos]; omega
  have h2 : Hit.set E "spill" (.int k) s =
    match (if (asLong (K := K) (.int k)).2 then (.error .SystemError : Except Err Unit) else .ok (),
      { s with core := s.core.setI .spill (wrap32 (asLong (K := K) (.int k)).1) }) with
    | (.ok _, s') => (.ok (), s')
    | (.error _, s') => (.error .IndexError, s') := rfl
  rw [h2, h1, wrap32_id h]; rfl

@[simp] theorem Hitcore.get_event_number : Hitcore.get s "event_number" = .ok (.int (s.core.i .event)) := rfl
@[simp] theorem Hit.get_event_number : Hit.get E "event_number" s = (.ok (.int (s.core.i .event)), s) := rfl
@[simp] theorem Hit.getF_event_number : Hit.getF "event_number" s = (.ok (s.core.i .event : K), s) := rfl
theorem Hit.set_event_number (k : Int) (h : -2147483648 ≤ k ∧ k < 2147483648) :
    Hit.set E "event_number" (.int k) s = (.ok (), { s with core := s.core.setI .event k }) := by
  have h1 : asLong (K := K) (.int k) = (k, false) := by simp only [asLong]; rw [if_pos]; omega
  have h2 : Hit.set E "event_number" (.int k) s =
    match (if (asLong (K := K) (.int k)).2 then (.error .SystemError : Except Err Unit) else .ok (),
      { s with core := s.core.setI .event (wrap32 (asLong (K := K) (.int k)).1) }) with
    | (.ok _, s') => (.ok (), s')
    | (.error _, s') => (.error .IndexError, s') := rfl
  rw [h2, h1, wrap32_id h]; rfl

@[simp] theorem Hitcore.get_eventNumber : Hitcore.get s "eventNumber" = .ok (.int (s.core.i .event)) := rfl
@[simp] theorem Hit.get_eventNumber : Hit.get E "eventNumber" s = (.ok (.int (s.core.i .event)), s) := rfl
@[simp] theorem Hit.getF_eventNumber : Hit.getF "eventNumber" s = (.ok (s.core.i .event : K), s) := rfl
theorem Hit.set_eventNumber (k : Int) (h : -2147483648 ≤ k ∧ k < 2147483648) :
    Hit.set E "eventNumber" (.int k) s = (.ok (), { s with core := s.core.setI .event k }) := by
  have h1 : asLong (K := K) (.int k) = (k, false) := by simp only [asLong]; rw [if_pos]; omega
  have h2 : Hit.set E "eventNumber" (.int k) s =
    match (if (asLong (K := K) (.int k)).2 then (.error .SystemError : Except Err Unit) else .ok (),
      { s with core := s.core.setI .event (wrap32 (asLong (K := K) (.int k)).1) }) with
    | (.ok _, s') => (.ok (), s')
    | (.error _, s') => (.error .IndexError, s') := rfl
  rw [h2, h1, wrap32_id h]; rfl

@[simp] theorem Hitcore.get_particle_number : Hitcore.get s "particle_number" = .ok (.int (s.core.i .particle)) := rfl
@[simp] theorem Hit.get_particle_number : Hit.get E "particle_number" s = (.ok (.int (s.core.i .particle)), s) := rfl
@[simp] theorem Hit.getF_particle_number : Hit.getF "particle_number" s = (.ok (s.core.i .particle : K), s) := rfl
theorem Hit.set_particle_number (k : Int) (h : -2147483648 ≤ k ∧ k < 2147483648) :
    Hit.set E "particle_number" (.int k) s = (.ok (), { s with core := s.core.setI .particle k }) := by
  have h1 : asLong (K := K) (.int k) = (k, false) := by simp only [asLong]; rw [if_pos]; omega
  have h2 : Hit.set E "particle_number" (.int k) s =
    match (if (asLong (K := K) (.int k)).2 then (.error .SystemError : Except Err Unit) else .ok (),
      { s with core := s.core.setI .particle (wrap32 (asLong (K := K) (.int k)).1) }) with
    | (.ok _, s') => (.ok (), s')
    | (.error _, s') => (.error .IndexError, s') := rfl
  rw [h2, h1, wrap32_id h]; rfl

@[simp] theorem Hitcore.get_particleNumber : Hitcore.get s "particleNumber" = .ok (.int (s.core.i .particle)) := rfl
@[simp] theorem Hit.get_particleNumber : Hit.get E "particleNumber" s = (.ok (.int (s.core.i .particle)), s) := rfl
@[simp] theorem Hit.getF_particleNumber : Hit.getF "particleNumber" s = (.ok (s.core.i .particle : K), s) := rfl
theorem Hit.set_particleNumber (k : Int) (h : -2147483648 ≤ k ∧ k < 2147483648) :
    Hit.set E "particleNumber" (.int k) s = (.ok (), { s with core := s.core.setI .particle k }) := by
  have h1 : asLong (K := K) (.int k) = (k, false) := by simp only [asLong]; rw [if_pos]; omega
  have h2 : Hit.set E "particleNumber" (.int k) s =
    match (if (asLong (K := K) (.int k)).2 then (.error .SystemError : Except Err Unit) else .ok (),
      { s with core := s.core.setI .particle (wrap32 (asLong (K := K) (.int k)).1) }) with
    | (.ok _, s') => (.ok (), s')
    | (.error _, s') => (.error .IndexError, s') := rfl
  rw [h2, h1, wrap32_id h]; rfl

@[simp] theorem Hitcore.get_station : Hitcore.get s "station" = .ok (.int (s.core.i .station)) := rfl
@[simp] theorem Hit.get_station : Hit.get E "station" s = (.ok (.int (s.core.i .station)), s) := rfl
@[simp] theorem Hit.getF_station : Hit.getF "station" s = (.ok (s.core.i .station : K), s) := rfl
theorem Hit.set_station (k : Int) (h : -2147483648 ≤ k ∧ k < 2147483648) :
    Hit.set E "station" (.int k) s = (.ok (), { s with core := s.core.setI .station k }) := by
  have h1 : asLong (K := K) (.int k) = (k, false) := by simp only [asLong]; rw [if_pos]; omega
  have h2 : Hit.set E "station" (.int k) s =
    match (if (asLong (K := K) (.int k)).2 then (.error .SystemError : Except Err Unit) else .ok (),
      { s with core := s.core.setI .station (wrap32 (asLong (K := K) (.int k)).1) }) with
    | (.ok _, s') => (.ok (), s')
    | (.error _, s') => (.error .IndexError, s') := rfl
  rw [h2, h1, wrap32_id h]; rfl

@[simp] theorem Hitcore.get_status : Hitcore.get s "status" = .ok (.int (s.core.i .status)) := rfl
@[simp] theorem Hit.get_status : Hit.get E "status" s = (.ok (.int (s.core.i .status)), s) := rfl
@[simp] theorem Hit.getF_status : Hit.getF "status" s = (.ok (s.core.i .status : K), s) := rfl
theorem Hit.set_status (k : Int) (h : -2147483648 ≤ k ∧ k < 2147483648) :
    Hit.set E "status" (.int k) s = (.ok (), { s with core := s.core.setI .status k }) := by
  have h1 : asLong (K := K) (.int k) = (k, false) := by simp only [asLong]; rw [if_pos]; omega
  have h2 : Hit.set E "status" (.int k) s =
    match (if (asLong (K := K) (.int k)).2 then (.error .SystemError : Except Err Unit) else .ok (),
      { s with core := s.core.setI .status (wrap32 (asLong (K := K) (.int k)).1) }) with
    | (.ok _, s') => (.ok (), s')
    | (.error _, s') => (.error .IndexError, s') := rfl
  rw [h2, h1, wrap32_id h]; rfl

@[simp] theorem Hitcore.get_pid : Hitcore.get s "pid" = .ok (.int (s.core.i .pid)) := rfl
@[simp] theorem Hit.get_pid : Hit.get E "pid" s = (.ok (.int (s.core.i .pid)), s) := rfl
@[simp] theorem Hit.getF_pid : Hit.getF "pid" s = (.ok (s.core.i .pid : K), s) := rfl
theorem Hit.set_pid (k : Int) (h : -2147483648 ≤ k ∧ k < 2147483648) :
    Hit.set E "pid" (.int k) s = (.ok (), { s with core := s.core.setI .pid k }) := by
  have h1 : asLong (K := K) (.int k) = (k, false) := by simp only [asLong]; rw [if_pos]; omega
  have h2 : Hit.set E "pid" (.int k) s =
    match (if (asLong (K := K) (.int k)).2 then (.error .SystemError : Except Err Unit) else .ok (),
      { s with core := s.core.setI .pid (wrap32 (asLong (K := K) (.int k)).1) }) with
    | (.ok _, s') => (.ok (), s')
    | (.error _, s') => (.error .IndexError, s') := rfl
  rw [h2, h1, wrap32_id h]; rfl

@[simp] theorem Core.setD_d (c : Core K) (v v' : DVar) (a : K) :
    (c.setD v a).d v' = if v' = v then a else c.d v' := rfl
@[simp] theorem Core.setD_i (c : Core K) (v : DVar) (a : K) : (c.setD v a).i = c.i := rfl
@[simp] theorem Core.setI_i (c : Core K) (v v' : IVar) (a : Int) :
    (c.setI v a).i v' = if v' = v then a else c.i v' := rfl
@[simp] theorem Core.setI_d (c : Core K) (v : IVar) (a : Int) : (c.setI v a).d = c.d := rfl
@[simp] theorem Core.setD_weightId (c : Core K) (v : DVar) (a : K) :
    (c.setD v a).weightId = c.weightId := rfl

end Xboa
