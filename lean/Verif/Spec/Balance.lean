import Verif.Spec.Spa
/-!
# Specification: the energy balance of a post-Newtonian binary (C103)

Written without reference to the model.  The orbital energy and the energy radiated per unit time of a quasi-circular binary of black holes with spins along the orbital axis, as functions of the
orbital velocity (Blanchet, Living Rev. Relativ. 17, 2; spin-orbit terms Bohé et al. 2013 and Marsat et al. 2014; spin-spin terms Bohé et al. 2015, for black holes `κ = 1`).  The binary loses
the energy it radiates, `dE/dt = -F`, and a stationary-phase transform has `ψ''(f) = 2π dt/df`.
-/
namespace Verif.BalanceSpec
open PNSpec SpaSpec

/-- The total spin over the squared total mass. -/
noncomputable def spinS (m1 m2 c1 c2 : ℝ) : ℝ := (m1 ^ 2 * c1 + m2 ^ 2 * c2) / (m1 + m2) ^ 2

/-- The mass-weighted difference `D` of the spins. -/
noncomputable def spinD (m1 m2 c1 c2 : ℝ) : ℝ := (m2 * c2 - m1 * c1) / (m1 + m2)

/-- The orbital energy over the total mass, from the symmetric mass ratio, the mass difference and the two spin combinations. -/
noncomputable def energy (η δ S D v : ℝ) : ℝ :=
  -η / 2 * v ^ 2 * (1 + (-3 / 4 - η / 12) * v ^ 2 + (14 / 3 * S + 2 * δ * D) * v ^ 3
    + (-27 / 8 + 19 / 8 * η - η ^ 2 / 24 - 4 * S ^ 2 - 4 * δ * S * D + (4 * η - 1) * D ^ 2) * v ^ 4
    + ((11 - 61 / 9 * η) * S + δ * (3 - 10 / 3 * η) * D) * v ^ 5
    + (-675 / 64 + (34445 / 576 - 205 / 96 * Real.pi ^ 2) * η - 155 / 96 * η ^ 2 - 35 / 5184 * η ^ 3
      + (-25 / 9 + 10 / 3 * η) * S ^ 2 + δ * (10 / 3 + 10 / 3 * η) * S * D + (5 / 2 - 15 / 2 * η - 10 / 3 * η ^ 2) * D ^ 2) * v ^ 6
    + ((135 / 4 - 367 / 4 * η + 29 / 12 * η ^ 2) * S + δ * (27 / 4 - 39 * η + 5 / 4 * η ^ 2) * D) * v ^ 7)

/-- The energy radiated per unit time (in units of `c⁵/G`). -/
noncomputable def flux (η δ S D v : ℝ) : ℝ :=
  32 / 5 * η ^ 2 * v ^ 10 * (1 + (-1247 / 336 - 35 / 12 * η) * v ^ 2 + (4 * Real.pi - 4 * S - 5 / 4 * δ * D) * v ^ 3
    + (-44711 / 9072 + 9271 / 504 * η + 65 / 18 * η ^ 2 + 8 * S ^ 2 + 8 * δ * S * D + (33 / 16 - 8 * η) * D ^ 2) * v ^ 4
    + (Real.pi * (-8191 / 672 - 583 / 24 * η) + (-9 / 2 + 272 / 9 * η) * S + δ * (-13 / 16 + 43 / 4 * η) * D) * v ^ 5
    + (6643739519 / 69854400 + 16 / 3 * Real.pi ^ 2 - 1712 / 105 * gammaE - 856 / 105 * Real.log (16 * v ^ 2) + (-134543 / 7776 + 41 / 48 * Real.pi ^ 2) * η - 94403 / 3024 * η ^ 2
      - 775 / 324 * η ^ 3 + Real.pi * (-16 * S - 31 / 6 * δ * D)
      + (-3839 / 252 - 43 * η) * S ^ 2 + δ * (-1375 / 56 - 43 * η) * S * D + (-227 / 28 + 3481 / 168 * η + 43 * η ^ 2) * D ^ 2) * v ^ 6
    + (Real.pi * (-16285 / 504 + 214745 / 1728 * η + 193385 / 3024 * η ^ 2) + (476645 / 6804 + 6172 / 189 * η - 2810 / 27 * η ^ 2) * S
      + δ * (9535 / 336 + 1849 / 126 * η - 1501 / 36 * η ^ 2) * D) * v ^ 7)

/-- How long the binary (masses in seconds) spends per unit of gravitational-wave frequency: the energy it has to lose over the rate at which it loses it. -/
noncomputable def timePerFrequency (m1 m2 c1 c2 f : ℝ) : ℝ :=
  (m1 + m2) * -deriv (fun x => energy (eta m1 m2) (delta m1 m2) (spinS m1 m2 c1 c2) (spinD m1 m2 c1 c2) (velocity (m1 + m2) x)) f
    / flux (eta m1 m2) (delta m1 m2) (spinS m1 m2 c1 c2) (spinD m1 m2 c1 c2) (velocity (m1 + m2) f)

end Verif.BalanceSpec
