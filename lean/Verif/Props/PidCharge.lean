import Verif.Props.MinMax
/-
C63 (particle charges).
-/
namespace Xboa

/-! ### Specification: the numbering scheme of the particle data group

A nucleus is 10LZZZAAAI.  A hadron carries the flavours of its quarks (d, u, s, c, b, t = 1..6) in
its decimal digits. -/

/-- three times the charge of quark `q` -/
def quarkCharge3 (q : Nat) : Int := if q % 2 = 0 then 2 else -1

/-- three times the charge of the particle with number `p` -/
def pdgCharge3 (p : Nat) : Int :=
  if 1000000000 ≤ p then 3 * ((p / 10000 % 1000 : Nat) : Int)
  else if p < 100 then
    if p = 11 ∨ p = 13 ∨ p = 15 then -3 else 0
  else
    let q1 := p / 1000 % 10
    let q2 := p / 100 % 10
    let q3 := p / 10 % 10
    if q1 = 0 then
      if q2 % 2 = 0 then quarkCharge3 q2 - quarkCharge3 q3 else quarkCharge3 q3 - quarkCharge3 q2
    else quarkCharge3 q1 + quarkCharge3 q2 + quarkCharge3 q3

/-- three times the charge, antiparticles having negative numbers -/
def pdgIntCharge3 (a : Int) : Int := if a < 0 then -pdgCharge3 a.natAbs else pdgCharge3 a.natAbs

/-- C63 as stated is false: the charge of each of the four nuclei in the table is listed as 0 (an
alpha particle has charge 2), and one particle that the MARS reader knows has no charge. -/
theorem C63_false :
    Common.pdgPidToCharge.lookup 1000020040 = some 0 ∧ pdgIntCharge3 1000020040 = 3 * 2 ∧
    (∀ a ∈ [1000010020, 1000010030, 1000020030, 1000020040],
      Common.pdgPidToCharge.lookup a = some 0 ∧ pdgIntCharge3 a ≠ 0) ∧
    Common.marsPidToPdg.lookup 25 = some (-311) ∧
    Common.pdgPidToCharge.lookup (-311) = none := by decide +kernel

/-- C63_partial: for every listed particle that is not a nucleus the charge is the charge of the
numbering scheme.  Missing: nuclei (false, see C63_false). -/
theorem C63_partial (a c : Int) (h : Common.pdgPidToCharge.lookup a = some c)
    (hn : a < 1000000000) : 3 * c = pdgIntCharge3 a := by
  have := (by decide +kernel : ∀ p ∈ Common.pdgPidToCharge, p.1 < 1000000000 →
    3 * p.2 = pdgIntCharge3 p.1)
  exact this _ (lookup_mem_keys _ _ _ h) hn

example : Common.pdgPidToCharge.lookup (-321) = some (-1) ∧ pdgIntCharge3 (-321) = 3 * (-1) ∧
    Common.pdgPidToCharge.lookup 3122 = some 0 ∧ pdgIntCharge3 3122 = 0 := by decide +kernel

end Xboa
