import Verif.Model.CbcUtils
import Mathlib.Analysis.SpecialFunctions.Log.Basic
import Mathlib.Analysis.SpecialFunctions.Complex.Circle
/-!
# Model of `TaylorF2` (ml4gw/waveforms/cbc/taylorf2.py)

Exact real arithmetic for each batch element and frequency; `PI` is π, other decimal literals are the rationals they denote.  A batch is a list.
-/
namespace Verif.TaylorF2
open CbcUtils

/-- `EulerGamma` (constants.py:5). -/
noncomputable def eulerGamma : ℝ := 0.577215664901532860606512090082402431

/-- `MPC_SEC` (constants.py:30-33). -/
noncomputable def mpcSec : ℝ := 3.085677581491367278913937957796471611e22 / cLight

/-- The masses and aligned spins of a binary. (taylorf2.py:14-26) -/
structure Bin where
  m1 : ℝ
  m2 : ℝ
  chi1 : ℝ
  chi2 : ℝ

namespace Bin
variable (b : Bin)

/-- `eta` of `taylorf2_phase` (taylorf2.py:150-151). -/
noncomputable def eta : ℝ := b.m1 * b.m2 / (b.m1 + b.m2) / (b.m1 + b.m2)

/-- `m1byM`, `m2byM` (taylorf2.py:152-153). -/
noncomputable def x1 : ℝ := b.m1 / (b.m1 + b.m2)
/-- `m2byM`, taylorf2.py:153. -/
noncomputable def x2 : ℝ := b.m2 / (b.m1 + b.m2)

/-- `pfaN` (taylorf2.py:169). -/
noncomputable def pfaN : ℝ := 3 / (128 * b.eta)

/-- `pfa_v2` (taylorf2.py:172). -/
noncomputable def pfa2 : ℝ := 5 * (74.3 / 8.4 + 11 * b.eta) / 9

/-- `pfa_v3` (taylorf2.py:173-178). -/
noncomputable def pfa3 : ℝ := -16 * Real.pi + (b.x1 * (25 + 38 / 3 * b.x1) * b.chi1 + b.x2 * (25 + 38 / 3 * b.x2) * b.chi2)

/-- `pfa_v4` (taylorf2.py:179-196). -/
noncomputable def pfa4 : ℝ :=
  5 * (3058.673 / 7.056 + 5429 / 7 * b.eta + 617 * b.eta * b.eta) / 72
    + (247 / 4.8 * b.eta * b.chi1 * b.chi2 + -721 / 4.8 * b.eta * b.chi1 * b.chi2
      + (-720 / 9.6 * b.x1 * b.x1 + 1 / 9.6 * b.x1 * b.x1) * (b.chi1 * b.chi1)
      + (-720 / 9.6 * b.x2 * b.x2 + 1 / 9.6 * b.x2 * b.x2) * (b.chi2 * b.chi2)
      + (240 / 9.6 * b.x1 * b.x1 + -7 / 9.6 * b.x1 * b.x1) * (b.chi1 * b.chi1)
      + (240 / 9.6 * b.x2 * b.x2 + -7 / 9.6 * b.x2 * b.x2) * (b.chi2 * b.chi2))

/-- The spin-orbit bracket at 2.5PN (taylorf2.py:202-206). -/
noncomputable def so5 (x : ℝ) : ℝ := 1391.5 / 8.4 - 10 / 3 * x * (1 - x) + x * (1276 / 8.1 + 170 / 9 * x * (1 - x))

/-- `pfa_v5logv` (taylorf2.py:197, 200-215). -/
noncomputable def pfa5log : ℝ := 5 / 3 * (772.9 / 8.4 - 13 * b.eta) * Real.pi + 3 * (-b.x1 * so5 b.x1 * b.chi1 - b.x2 * so5 b.x2 * b.chi2)

/-- `pfa_v5` (taylorf2.py:198, 216-231). -/
noncomputable def pfa5 : ℝ := 5 / 9 * (772.9 / 8.4 - 13 * b.eta) * Real.pi + (-b.x1 * so5 b.x1 * b.chi1 + -b.x2 * so5 b.x2 * b.chi2)

/-- `pfa_v6logv` (taylorf2.py:232). -/
noncomputable def pfa6log : ℝ := -684.8 / 2.1

/-- The spin-squared bracket at 3PN (taylorf2.py:248-257). -/
noncomputable def ss6 (x : ℝ) : ℝ :=
  (4703.5 / 8.4 + 2935 / 6 * x - 120 * x * x) * x * x + (-4108.25 / 6.72 - 108.5 / 1.2 * x + 125.5 / 3.6 * x * x) * x * x

/-- `pfa_v6` (taylorf2.py:233-273). -/
noncomputable def pfa6 : ℝ :=
  (11583.231236531 / 4.694215680 - 640 / 3 * Real.pi * Real.pi - 684.8 / 2.1 * eulerGamma
    + b.eta * (-15737.765635 / 3.048192 + 225.5 / 1.2 * Real.pi * Real.pi)
    + b.eta * b.eta * 76.055 / 1.728 - b.eta * b.eta * b.eta * 127.825 / 1.296 + pfa6log * Real.log 4)
  + (Real.pi * b.x1 * (1490 / 3 + b.x1 * 260) * b.chi1 + Real.pi * b.x2 * (1490 / 3 + b.x2 * 260) * b.chi2
    + (326.75 / 1.12 + 557.5 / 1.8 * b.eta) * b.eta * b.chi1 * b.chi2 + ss6 b.x1 * (b.chi1 * b.chi1) + ss6 b.x2 * (b.chi2 * b.chi2))

/-- The spin-orbit bracket at 3.5PN (taylorf2.py:282-292). -/
noncomputable def so7 (x : ℝ) : ℝ :=
  x * (-17097.8035 / 4.8384 + b.eta * 28764.25 / 6.72 + b.eta * b.eta * 47.35 / 1.44
    + x * (-7189.233785 / 1.524096 + b.eta * 458.555 / 3.024 - b.eta * b.eta * 534.5 / 7.2))

/-- `pfa_v7` (taylorf2.py:274-306). -/
noncomputable def pfa7 : ℝ :=
  Real.pi * (770.96675 / 2.54016 + 378.515 / 1.512 * b.eta - 740.45 / 7.56 * b.eta * b.eta) + (b.so7 b.x1 * b.chi1 + b.so7 b.x2 * b.chi2)

/-- `v1` (taylorf2.py:157). -/
noncomputable def v (mf : ℝ) : ℝ := (Real.pi * mf) ^ ((1 : ℝ) / 3)

/-- `phasing` (taylorf2.py:308-319). -/
noncomputable def phasing (mf : ℝ) : ℝ :=
  (v mf ^ 7 * b.pfa7 + (v mf ^ 6 * b.pfa6 + v mf ^ 6 * Real.log (v mf) * pfa6log) + (v mf ^ 5 * b.pfa5 + v mf ^ 5 * Real.log (v mf) * b.pfa5log)
    + v mf ^ 4 * b.pfa4 + v mf ^ 3 * b.pfa3 + v mf ^ 2 * b.pfa2 + 1) / v mf ^ 5 * b.pfaN

/-- `Dphasing` (taylorf2.py:323-333). -/
noncomputable def dPhasing (mf : ℝ) : ℝ :=
  (2 * v mf ^ 7 * b.pfa7 + v mf ^ 6 * (b.pfa6 + pfa6log) + v mf ^ 6 * Real.log (v mf) * pfa6log + v mf ^ 5 * b.pfa5log
    + -1 * v mf ^ 4 * b.pfa4 + -2 * v mf ^ 3 * b.pfa3 + -3 * v mf ^ 2 * b.pfa2 - 5) / (3 * v mf * v mf ^ 7) * Real.pi * b.pfaN

/-- `M_s` (taylorf2.py:94-96). -/
noncomputable def mSec : ℝ := b.m1 * mtsun + b.m2 * mtsun

/-- `eta` of `taylorf2_htilde` (taylorf2.py:97). -/
noncomputable def etaSec : ℝ := (b.m1 * mtsun) * (b.m2 * mtsun) / b.mSec / b.mSec

/-- `taylorf2_amplitude` (taylorf2.py:112-137). -/
noncomputable def amplitude (mf distance : ℝ) : ℝ :=
  let fTaN := 32 * b.etaSec * b.etaSec / 5
  let dETaN := 2 * (-b.etaSec / 2)
  let amp0 := -4 * (b.m1 * mtsun) * (b.m2 * mtsun) * (Real.pi / 12) ^ (0.5 : ℝ) / (distance * mpcSec)
  let flux := v mf ^ 10 * fTaN
  let dEnergy := v mf * dETaN
  Real.sqrt (-dEnergy / flux) * v mf * amp0

/-- `taylorf2_htilde` (taylorf2.py:83-110) at one frequency. -/
noncomputable def htilde (f distance phic fRef : ℝ) : ℂ :=
  let psi := b.phasing (b.mSec * f) - 2 * phic - b.phasing (b.mSec * fRef)
  b.amplitude (b.mSec * f) distance * Complex.exp (-Complex.I * (psi - Real.pi / 4 : ℝ))

end Bin

/-- The batch parameters of `forward` (taylorf2.py:14-24). -/
structure Params where
  chirpMass : List ℝ
  massRatio : List ℝ
  chi1 : List ℝ
  chi2 : List ℝ
  distance : List ℝ
  phic : List ℝ
  inclination : List ℝ

/-- Batch element `i` as a binary (taylorf2.py:67-69). -/
noncomputable def Params.bin (p : Params) (i : ℕ) : Bin :=
  let m := Conversion.toComponents (p.chirpMass.getD i 0) (p.massRatio.getD i 0)
  ⟨m.1, m.2, p.chi1.getD i 0, p.chi2.getD i 0⟩

/-- `forward` (taylorf2.py:55-81): cross and plus polarizations, one row per batch element. -/
noncomputable def forward (f : List ℝ) (p : Params) (fRef : ℝ) : Res (List (List ℂ) × List (List ℂ)) := do
  raiseIf (¬ (p.chirpMass.length = p.massRatio.length ∧ p.massRatio.length = p.chi1.length ∧ p.chi1.length = p.chi2.length ∧
    p.chi2.length = p.distance.length ∧ p.distance.length = p.phic.length ∧ p.phic.length = p.inclination.length)) .value
  let h := fun (i : ℕ) (x : ℝ) => (p.bin i).htilde x (p.distance.getD i 0) (p.phic.getD i 0) fRef
  let cfac := fun i : ℕ => Real.cos (p.inclination.getD i 0)
  let pfac := fun i : ℕ => 0.5 * (1 + cfac i * cfac i)
  return ((List.range p.chirpMass.length).map fun i => f.map fun x => -Complex.I * (h i x * (cfac i : ℂ)),
    (List.range p.chirpMass.length).map fun i => f.map fun x => h i x * (pfac i : ℂ))

end Verif.TaylorF2
