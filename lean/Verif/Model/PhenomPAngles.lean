import Verif.Model.PhenomD
import Verif.Model.Conversion
/-!
# Model of the NNLO Euler-angle coefficients of `IMRPhenomPv2` (ml4gw/waveforms/cbc/phenom_p.py, `ComputeNNLOanglecoeffs`)

Translated expression by expression from the source; decimal literals are the rationals they denote and `PI` is π.
-/
set_option linter.unusedVariables false
namespace Verif.PhenomP

/-- The abbreviations of `ComputeNNLOanglecoeffs` (phenom_p.py:656-679) in terms of `q`; the powers `mtot2` ... `mtot8` of `mtot = 1.0` are spelled out. -/
structure Abbr where
  m2 : ℝ
  dm : ℝ
  eta : ℝ

/-- phenom_p.py:656-660. -/
noncomputable def abbr (q : ℝ) : Abbr := ⟨q / (1 + q), 1 / (1 + q) - q / (1 + q), 1 / (1 + q) * (q / (1 + q))⟩

/-- `angcoeffs["alphacoeff1"]` (phenom_p.py:682-684). -/
noncomputable def alphaC1 (q chil chip : ℝ) : ℝ :=
  let m2 := (abbr q).m2; let dm := (abbr q).dm; let eta := (abbr q).eta
  let mtot2 := (1 : ℝ); let mtot4 := (1 : ℝ); let mtot6 := (1 : ℝ); let mtot8 := (1 : ℝ)
  let eta2 := eta * eta; let eta3 := eta2 * eta; let eta4 := eta3 * eta
  let chil2 := chil * chil; let chip2 := chip * chip; let chip4 := chip2 * chip2
  let dm2 := dm * dm; let dm3 := dm2 * dm
  let m2_2 := m2 * m2; let m2_3 := m2_2 * m2; let m2_4 := m2_3 * m2; let m2_5 := m2_4 * m2; let m2_6 := m2_5 * m2; let m2_7 := m2_6 * m2; let m2_8 := m2_7 * m2;
  (-0.18229166666666666) - 5 * dm / (64 * m2)

/-- `angcoeffs["alphacoeff2"]` (phenom_p.py:686-688). -/
noncomputable def alphaC2 (q chil chip : ℝ) : ℝ :=
  let m2 := (abbr q).m2; let dm := (abbr q).dm; let eta := (abbr q).eta
  let mtot2 := (1 : ℝ); let mtot4 := (1 : ℝ); let mtot6 := (1 : ℝ); let mtot8 := (1 : ℝ)
  let eta2 := eta * eta; let eta3 := eta2 * eta; let eta4 := eta3 * eta
  let chil2 := chil * chil; let chip2 := chip * chip; let chip4 := chip2 * chip2
  let dm2 := dm * dm; let dm3 := dm2 * dm
  let m2_2 := m2 * m2; let m2_3 := m2_2 * m2; let m2_4 := m2_3 * m2; let m2_5 := m2_4 * m2; let m2_6 := m2_5 * m2; let m2_7 := m2_6 * m2; let m2_8 := m2_7 * m2;
  (-15) * dm * m2 * chil / (128 * mtot2 * eta) - 35 * m2_2 * chil / (128 * mtot2 * eta)

/-- `angcoeffs["alphacoeff3"]` (phenom_p.py:690-698). -/
noncomputable def alphaC3 (q chil chip : ℝ) : ℝ :=
  let m2 := (abbr q).m2; let dm := (abbr q).dm; let eta := (abbr q).eta
  let mtot2 := (1 : ℝ); let mtot4 := (1 : ℝ); let mtot6 := (1 : ℝ); let mtot8 := (1 : ℝ)
  let eta2 := eta * eta; let eta3 := eta2 * eta; let eta4 := eta3 * eta
  let chil2 := chil * chil; let chip2 := chip * chip; let chip4 := chip2 * chip2
  let dm2 := dm * dm; let dm3 := dm2 * dm
  let m2_2 := m2 * m2; let m2_3 := m2_2 * m2; let m2_4 := m2_3 * m2; let m2_5 := m2_4 * m2; let m2_6 := m2_5 * m2; let m2_7 := m2_6 * m2; let m2_8 := m2_7 * m2;
  (-1.7952473958333333) - 4555 * dm / (7168 * m2) - 15 * chip2 * dm * m2_3 / (128 * mtot4 * eta2) - 35 * chip2 * m2_4 / (128 * mtot4 * eta2) - 515 * eta / 384 - 15 * dm2 * eta / (256 * m2_2) - 175 * dm * eta / (256 * m2)

/-- `angcoeffs["alphacoeff4"]` (phenom_p.py:700-710). -/
noncomputable def alphaC4 (q chil chip : ℝ) : ℝ :=
  let m2 := (abbr q).m2; let dm := (abbr q).dm; let eta := (abbr q).eta
  let mtot2 := (1 : ℝ); let mtot4 := (1 : ℝ); let mtot6 := (1 : ℝ); let mtot8 := (1 : ℝ)
  let eta2 := eta * eta; let eta3 := eta2 * eta; let eta4 := eta3 * eta
  let chil2 := chil * chil; let chip2 := chip * chip; let chip4 := chip2 * chip2
  let dm2 := dm * dm; let dm3 := dm2 * dm
  let m2_2 := m2 * m2; let m2_3 := m2_2 * m2; let m2_4 := m2_3 * m2; let m2_5 := m2_4 * m2; let m2_6 := m2_5 * m2; let m2_7 := m2_6 * m2; let m2_8 := m2_7 * m2;
  (-(35 * Real.pi)) / 48 - 5 * dm * Real.pi / (16 * m2) + 5 * dm2 * chil / (16 * mtot2) + 5 * dm * m2 * chil / (3 * mtot2) + 2545 * m2_2 * chil / (1152 * mtot2) - 5 * chip2 * dm * m2_5 * chil / (128 * mtot6 * eta3) - 35 * chip2 * m2_6 * chil / (384 * mtot6 * eta3)
    + 2035 * dm * m2 * chil / (21504 * mtot2 * eta) + 2995 * m2_2 * chil / (9216 * mtot2 * eta)

/-- `angcoeffs["alphacoeff5"]` (phenom_p.py:712-736). -/
noncomputable def alphaC5 (q chil chip : ℝ) : ℝ :=
  let m2 := (abbr q).m2; let dm := (abbr q).dm; let eta := (abbr q).eta
  let mtot2 := (1 : ℝ); let mtot4 := (1 : ℝ); let mtot6 := (1 : ℝ); let mtot8 := (1 : ℝ)
  let eta2 := eta * eta; let eta3 := eta2 * eta; let eta4 := eta3 * eta
  let chil2 := chil * chil; let chip2 := chip * chip; let chip4 := chip2 * chip2
  let dm2 := dm * dm; let dm3 := dm2 * dm
  let m2_2 := m2 * m2; let m2_3 := m2_2 * m2; let m2_4 := m2_3 * m2; let m2_5 := m2_4 * m2; let m2_6 := m2_5 * m2; let m2_7 := m2_6 * m2; let m2_8 := m2_7 * m2;
  4.318908476114694 + 27895885 * dm / (2.1676032e7 * m2) - 15 * chip4 * dm * m2_7 / (512 * mtot8 * eta4) - 35 * chip4 * m2_8 / (512 * mtot8 * eta4) - 485 * chip2 * dm * m2_3 / (14336 * mtot4 * eta2) + 475 * chip2 * m2_4 / (6144 * mtot4 * eta2)
    + 15 * chip2 * dm2 * m2_2 / (256 * mtot4 * eta) + 145 * chip2 * dm * m2_3 / (512 * mtot4 * eta) + 575 * chip2 * m2_4 / (1536 * mtot4 * eta) + 39695 * eta / 86016 + 1615 * dm2 * eta / (28672 * m2_2) - 265 * dm * eta / (14336 * m2)
    + 955 * eta2 / 576 + 15 * dm3 * eta2 / (1024 * m2_3) + 35 * dm2 * eta2 / (256 * m2_2) + 2725 * dm * eta2 / (3072 * m2) - 15 * dm * m2 * Real.pi * chil / (16 * mtot2 * eta) - 35 * m2_2 * Real.pi * chil / (16 * mtot2 * eta) + 15 * chip2 * dm * m2_7 * chil2 / (128 * mtot8 * eta4)
    + 35 * chip2 * m2_8 * chil2 / (128 * mtot8 * eta4) + 375 * dm2 * m2_2 * chil2 / (256 * mtot4 * eta) + 1815 * dm * m2_3 * chil2 / (256 * mtot4 * eta) + 1645 * m2_4 * chil2 / (192 * mtot4 * eta)

/-- `angcoeffs["epsiloncoeff1"]` (phenom_p.py:738-740). -/
noncomputable def epsC1 (q chil chip : ℝ) : ℝ :=
  let m2 := (abbr q).m2; let dm := (abbr q).dm; let eta := (abbr q).eta
  let mtot2 := (1 : ℝ); let mtot4 := (1 : ℝ); let mtot6 := (1 : ℝ); let mtot8 := (1 : ℝ)
  let eta2 := eta * eta; let eta3 := eta2 * eta; let eta4 := eta3 * eta
  let chil2 := chil * chil; let chip2 := chip * chip; let chip4 := chip2 * chip2
  let dm2 := dm * dm; let dm3 := dm2 * dm
  let m2_2 := m2 * m2; let m2_3 := m2_2 * m2; let m2_4 := m2_3 * m2; let m2_5 := m2_4 * m2; let m2_6 := m2_5 * m2; let m2_7 := m2_6 * m2; let m2_8 := m2_7 * m2;
  (-0.18229166666666666) - 5 * dm / (64 * m2)

/-- `angcoeffs["epsiloncoeff2"]` (phenom_p.py:741-743). -/
noncomputable def epsC2 (q chil chip : ℝ) : ℝ :=
  let m2 := (abbr q).m2; let dm := (abbr q).dm; let eta := (abbr q).eta
  let mtot2 := (1 : ℝ); let mtot4 := (1 : ℝ); let mtot6 := (1 : ℝ); let mtot8 := (1 : ℝ)
  let eta2 := eta * eta; let eta3 := eta2 * eta; let eta4 := eta3 * eta
  let chil2 := chil * chil; let chip2 := chip * chip; let chip4 := chip2 * chip2
  let dm2 := dm * dm; let dm3 := dm2 * dm
  let m2_2 := m2 * m2; let m2_3 := m2_2 * m2; let m2_4 := m2_3 * m2; let m2_5 := m2_4 * m2; let m2_6 := m2_5 * m2; let m2_7 := m2_6 * m2; let m2_8 := m2_7 * m2;
  (-15) * dm * m2 * chil / (128 * mtot2 * eta) - 35 * m2_2 * chil / (128 * mtot2 * eta)

/-- `angcoeffs["epsiloncoeff3"]` (phenom_p.py:744-750). -/
noncomputable def epsC3 (q chil chip : ℝ) : ℝ :=
  let m2 := (abbr q).m2; let dm := (abbr q).dm; let eta := (abbr q).eta
  let mtot2 := (1 : ℝ); let mtot4 := (1 : ℝ); let mtot6 := (1 : ℝ); let mtot8 := (1 : ℝ)
  let eta2 := eta * eta; let eta3 := eta2 * eta; let eta4 := eta3 * eta
  let chil2 := chil * chil; let chip2 := chip * chip; let chip4 := chip2 * chip2
  let dm2 := dm * dm; let dm3 := dm2 * dm
  let m2_2 := m2 * m2; let m2_3 := m2_2 * m2; let m2_4 := m2_3 * m2; let m2_5 := m2_4 * m2; let m2_6 := m2_5 * m2; let m2_7 := m2_6 * m2; let m2_8 := m2_7 * m2;
  (-1.7952473958333333) - 4555 * dm / (7168 * m2) - 515 * eta / 384 - 15 * dm2 * eta / (256 * m2_2) - 175 * dm * eta / (256 * m2)

/-- `angcoeffs["epsiloncoeff4"]` (phenom_p.py:751-759). -/
noncomputable def epsC4 (q chil chip : ℝ) : ℝ :=
  let m2 := (abbr q).m2; let dm := (abbr q).dm; let eta := (abbr q).eta
  let mtot2 := (1 : ℝ); let mtot4 := (1 : ℝ); let mtot6 := (1 : ℝ); let mtot8 := (1 : ℝ)
  let eta2 := eta * eta; let eta3 := eta2 * eta; let eta4 := eta3 * eta
  let chil2 := chil * chil; let chip2 := chip * chip; let chip4 := chip2 * chip2
  let dm2 := dm * dm; let dm3 := dm2 * dm
  let m2_2 := m2 * m2; let m2_3 := m2_2 * m2; let m2_4 := m2_3 * m2; let m2_5 := m2_4 * m2; let m2_6 := m2_5 * m2; let m2_7 := m2_6 * m2; let m2_8 := m2_7 * m2;
  (-(35 * Real.pi)) / 48 - 5 * dm * Real.pi / (16 * m2) + 5 * dm2 * chil / (16 * mtot2) + 5 * dm * m2 * chil / (3 * mtot2) + 2545 * m2_2 * chil / (1152 * mtot2) + 2035 * dm * m2 * chil / (21504 * mtot2 * eta) + 2995 * m2_2 * chil / (9216 * mtot2 * eta)

/-- `angcoeffs["epsiloncoeff5"]` (phenom_p.py:760-775). -/
noncomputable def epsC5 (q chil chip : ℝ) : ℝ :=
  let m2 := (abbr q).m2; let dm := (abbr q).dm; let eta := (abbr q).eta
  let mtot2 := (1 : ℝ); let mtot4 := (1 : ℝ); let mtot6 := (1 : ℝ); let mtot8 := (1 : ℝ)
  let eta2 := eta * eta; let eta3 := eta2 * eta; let eta4 := eta3 * eta
  let chil2 := chil * chil; let chip2 := chip * chip; let chip4 := chip2 * chip2
  let dm2 := dm * dm; let dm3 := dm2 * dm
  let m2_2 := m2 * m2; let m2_3 := m2_2 * m2; let m2_4 := m2_3 * m2; let m2_5 := m2_4 * m2; let m2_6 := m2_5 * m2; let m2_7 := m2_6 * m2; let m2_8 := m2_7 * m2;
  4.318908476114694 + 27895885 * dm / (2.1676032e7 * m2) + 39695 * eta / 86016 + 1615 * dm2 * eta / (28672 * m2_2) - 265 * dm * eta / (14336 * m2) + 955 * eta2 / 576 + 15 * dm3 * eta2 / (1024 * m2_3) + 35 * dm2 * eta2 / (256 * m2_2)
    + 2725 * dm * eta2 / (3072 * m2) - 15 * dm * m2 * Real.pi * chil / (16 * mtot2 * eta) - 35 * m2_2 * Real.pi * chil / (16 * mtot2 * eta) + 375 * dm2 * m2_2 * chil2 / (256 * mtot4 * eta) + 1815 * dm * m2_3 * chil2 / (256 * mtot4 * eta)
    + 1645 * m2_4 * chil2 / (192 * mtot4 * eta)

end Verif.PhenomP
