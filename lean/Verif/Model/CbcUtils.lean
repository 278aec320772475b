import Verif.Model.Conversion
/-!
# Model of the conditioning bounds (ml4gw/waveforms/cbc/utils.py, coefficients.py)

One batch element, exact real arithmetic: `.float()` is the identity and decimal literals are the rationals they denote.
-/
namespace Verif.CbcUtils

/-- `G` (constants.py:14). -/
noncomputable def gNewton : ℝ := 6.67430e-11
/-- `C`, constants.py:17. -/
noncomputable def cLight : ℝ := 299792458
/-- `MSUN`, constants.py:8. -/
noncomputable def msun : ℝ := 1.988409902147041637325262574352366540e30
/-- `MRSUN`, constants.py:11. -/
noncomputable def mrsun : ℝ := 1.476625038050124729627979840144936351e3
/-- `MTSUN_SI`, constants.py:27. -/
noncomputable def mtsun : ℝ := Conversion.mtsun

/-- `taylor_t2_timing_0pn_coeff` (coefficients.py:7-13). -/
noncomputable def t2Timing0 (totalMass eta : ℝ) : ℝ := -5 * (totalMass * gNewton / cLight ^ 3) / (256 * eta)

/-- `taylor_t2_timing_2pn_coeff` (coefficients.py:16-20). -/
noncomputable def t2Timing2 (eta : ℝ) : ℝ := 7.43 / 2.52 + 11 / 3 * eta

/-- `taylor_t2_timing_4pn_coeff` (coefficients.py:23-27). -/
noncomputable def t2Timing4 (eta : ℝ) : ℝ := 30.58673 / 5.08032 + 54.29 / 5.04 * eta + 61.7 / 7.2 * eta ^ 2

/-- `taylor_t3_frequency_0pn_coeff` (coefficients.py:30-35). -/
noncomputable def t3Frequency0 (totalMass : ℝ) : ℝ := 1 / (8 * Real.pi * (totalMass * gNewton / cLight ^ 3))

/-- `chirp_time_bound` (utils.py:13-38). -/
noncomputable def chirpTimeBound (fstart mass1 mass2 s1 s2 : ℝ) : ℝ :=
  let totalMass := mass1 + mass2
  let reducedMass := mass1 * mass2 / totalMass
  let eta := reducedMass / totalMass
  let chi := abs (max (abs s1) (abs s2))
  let c0 := abs (t2Timing0 totalMass eta)
  let c2 := t2Timing2 eta
  let c3 := 226 / 15 * chi
  let c4 := t2Timing4 eta
  let v := (Real.pi * totalMass * fstart * gNewton) ^ ((1 : ℝ) / 3) / cLight
  c0 * (v ^ 8)⁻¹ * (1 + (c2 + (c3 + c4 * v) * v) * v * v)

/-- `chirp_start_frequency_bound` (utils.py:41-57). -/
noncomputable def chirpStartFrequencyBound (tchirp mass1 mass2 : ℝ) : ℝ :=
  let totalMass := mass1 + mass2
  let mu := mass1 * mass2 / totalMass
  let eta := mu / totalMass
  let c0 := t3Frequency0 totalMass
  c0 * (5 * totalMass * (mtsun / msun) / (eta * tchirp)) ^ ((3 : ℝ) / 8)

/-- `final_black_hole_spin_bound` (utils.py:60-70). -/
noncomputable def finalSpinBound (s1z s2z : ℝ) : ℝ :=
  let s := 0.686 + 0.15 * (s1z + s2z)
  let s := max (max s (abs s1z)) (abs s2z)
  min s 0.998

/-- `merge_time_bound` (utils.py:73-82). -/
noncomputable def mergeTimeBound (mass1 mass2 : ℝ) : ℝ :=
  let nOrbits := 1
  let totalMass := mass1 + mass2
  let r := 9 * totalMass * mrsun / msun
  let v := cLight / 3
  nOrbits * (2 * Real.pi * r / v)

/-- `ringdown_time_bound` (utils.py:85-103). -/
noncomputable def ringdownTimeBound (totalMass s : ℝ) : ℝ :=
  let omega := (1.5251 + -1.1568 * (1 - s) ^ (0.1292 : ℝ)) / (totalMass * mtsun / msun)
  let Q := 0.7 + 1.4187 * (1 - s) ^ (-0.4990 : ℝ)
  let tau := 2 * Q / omega
  11 * tau

/-- `frequency_isco` (utils.py:106-110). -/
noncomputable def frequencyIsco (mass1 mass2 : ℝ) : ℝ := 1 / ((9 : ℝ) ^ (1.5 : ℝ) * Real.pi * (mass1 + mass2) * mtsun / msun)

end Verif.CbcUtils
