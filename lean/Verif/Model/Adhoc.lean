import Verif.Model.CbcUtils
import Verif.Model.Whiten
import Mathlib.Analysis.SpecialFunctions.Complex.Circle
/-!
# Model of the ad-hoc waveforms (ml4gw/waveforms/adhoc/sine_gaussian.py, ringdown.py)

Exact real arithmetic; final casts to the input or double precision are the identity.  A batch tensor is a list.
-/
namespace Verif.Adhoc
open Whiten CbcUtils

/-- Broadcast of two sizes; incompatible sizes raise RuntimeError.
(sizes of the `view(-1, 1)` tensors, sine_gaussian.py:65-69, ringdown.py:57-62) -/
def bsize2 (a b : ℕ) : Res ℕ := if a = b then .ok a else if a = 1 then .ok b else if b = 1 then .ok a else .error .runtime

/-- Broadcast of several sizes. (sine_gaussian.py:65-69, ringdown.py:57-62) -/
def bsize : List ℕ → Res ℕ
  | [] => .ok 1
  | a :: l => do
    let b ← bsize l
    bsize2 a b

/-- Entry `i` of a broadcast tensor. (sine_gaussian.py:65-69, ringdown.py:57-62) -/
noncomputable def at' (l : List ℝ) (i : ℕ) : ℝ := if l.length = 1 then l.getD 0 0 else l.getD i 0

/-- `num` (sine_gaussian.py:27, ringdown.py:22); `torch.arange` of a negative number raises RuntimeError. -/
noncomputable def num (duration sampleRate : ℝ) : Res ℕ :=
  if pyInt (duration * sampleRate) < 0 then .error .runtime else .ok (pyInt (duration * sampleRate)).toNat

/-- `semi_major_minor_from_e` (sine_gaussian.py:7-10). -/
noncomputable def semiMajorMinor (e : ℝ) : ℝ × ℝ :=
  let a := 1 / Real.sqrt (2 - e * e)
  (a, a * Real.sqrt (1 - e * e))

/-- One sine-Gaussian's parameters. (sine_gaussian.py:33-40) -/
structure SG where
  quality : ℝ
  frequency : ℝ
  hrss : ℝ
  phase : ℝ
  eccentricity : ℝ

/-- `norm_prefactor`, `cosine_norm`, `sine_norm` (sine_gaussian.py:77-79). -/
noncomputable def SG.prefactor (s : SG) : ℝ := s.quality / (4 * s.frequency * Real.sqrt Real.pi)
/-- `cosine_norm`, sine_gaussian.py:78. -/
noncomputable def SG.cosineNorm (s : SG) : ℝ := s.prefactor * (1 + Real.exp (-s.quality * s.quality))
/-- `sine_norm`, sine_gaussian.py:79. -/
noncomputable def SG.sineNorm (s : SG) : ℝ := s.prefactor * (1 - Real.exp (-s.quality * s.quality))

/-- `h0_plus`, `h0_cross` (sine_gaussian.py:81-96). -/
noncomputable def SG.h0Plus (s : SG) : ℝ :=
  s.hrss * (semiMajorMinor s.eccentricity).1 / Real.sqrt (s.cosineNorm * Real.cos s.phase ^ 2 + s.sineNorm * Real.sin s.phase ^ 2)
/-- `h0_cross`, sine_gaussian.py:90-96. -/
noncomputable def SG.h0Cross (s : SG) : ℝ :=
  s.hrss * (semiMajorMinor s.eccentricity).2 / Real.sqrt (s.cosineNorm * Real.sin s.phase ^ 2 + s.sineNorm * Real.cos s.phase ^ 2)

/-- `fac` at time `t` (sine_gaussian.py:99-103). -/
noncomputable def SG.fac (s : SG) (t : ℝ) : ℂ :=
  let phi := 2 * Real.pi * s.frequency * t
  Complex.exp (((phi ^ 2 / (-2 * s.quality ^ 2) : ℝ) : ℂ) + ⟨0, phi - s.phase⟩)

/-- The polarizations at time `t` (sine_gaussian.py:105-106). -/
noncomputable def SG.cross (s : SG) (t : ℝ) : ℝ := (s.fac t).im * s.h0Cross
/-- `plus`, sine_gaussian.py:106. -/
noncomputable def SG.plus (s : SG) (t : ℝ) : ℝ := (s.fac t).re * s.h0Plus

/-- Entry `i` of `times` (sine_gaussian.py:28-29). -/
noncomputable def sgTime (duration sampleRate : ℝ) (i : ℕ) : ℝ := i / sampleRate - duration / 2

/-- `SineGaussian.forward` (sine_gaussian.py:33-111): rows of cross and plus. -/
noncomputable def sineGaussian (sampleRate duration : ℝ) (quality frequency hrss phase eccentricity : List ℝ) : Res (List (List ℝ) × List (List ℝ)) := do
  let n ← num duration sampleRate
  let b ← bsize [frequency.length, quality.length, hrss.length, phase.length, eccentricity.length]
  let s := fun i : ℕ => (⟨at' quality i, at' frequency i, at' hrss i, at' phase i, at' eccentricity i⟩ : SG)
  return ((List.range b).map fun i => (List.range n).map fun j => (s i).cross (sgTime duration sampleRate j),
    (List.range b).map fun i => (List.range n).map fun j => (s i).plus (sgTime duration sampleRate j))

/-- One ringdown's parameters. (ringdown.py:27-35) -/
structure Ring where
  frequency : ℝ
  quality : ℝ
  epsilon : ℝ
  phase : ℝ
  inclination : ℝ
  distance : ℝ

/-- `m_per_Mpc` (constants.py:30). -/
noncomputable def mPerMpc : ℝ := 3.085677581491367278913937957796471611e22

/-- `spin` (ringdown.py:71). -/
noncomputable def Ring.spin (r : Ring) : ℝ := 1 - (2 / r.quality) ^ ((20 : ℝ) / 9)

/-- `mass` in kilogrammes (ringdown.py:72-76). -/
noncomputable def Ring.mass (r : Ring) : ℝ :=
  1 / (2 * Real.pi) * (cLight ^ 3 / (gNewton * r.frequency)) * (1 - 0.63 * (2 / r.quality) ^ ((2 : ℝ) / 3))

/-- `F_Q`, `g_a` (ringdown.py:79-80). -/
noncomputable def Ring.fQ (r : Ring) : ℝ := 1 + 7 / 24 / r.quality ^ 2
/-- `g_a`, ringdown.py:80. -/
noncomputable def Ring.gA (r : Ring) : ℝ := 1 - 0.63 * (1 - r.spin) ^ ((3 : ℝ) / 10)

/-- `amplitude` (ringdown.py:81-88). -/
noncomputable def Ring.amplitude (r : Ring) : ℝ :=
  Real.sqrt (5 / 2) * r.epsilon * (gNewton * r.mass / cLight ^ 2) * r.quality ^ (-0.5 : ℝ) * r.fQ ^ (-0.5 : ℝ) * r.gA ^ (-0.5 : ℝ)

/-- The polarizations at time `t` (ringdown.py:91-103). -/
noncomputable def Ring.plus (r : Ring) (t : ℝ) : ℝ :=
  r.amplitude / (r.distance * mPerMpc) * (1 + Real.cos r.inclination ^ 2) * Real.exp (-Real.pi * r.frequency * t / r.quality) *
    Real.cos (2 * Real.pi * r.frequency * t + r.phase)
/-- `h_cross`, ringdown.py:100-103. -/
noncomputable def Ring.cross (r : Ring) (t : ℝ) : ℝ :=
  r.amplitude / (r.distance * mPerMpc) * (2 * Real.sin r.inclination) * Real.exp (-Real.pi * r.frequency * t / r.quality) *
    Real.sin (2 * Real.pi * r.frequency * t + r.phase)

/-- `Ringdown.forward` (ringdown.py:27-109). -/
noncomputable def ringdown (sampleRate duration : ℝ) (frequency quality epsilon phase inclination distance : List ℝ) : Res (List (List ℝ) × List (List ℝ)) := do
  let n ← num duration sampleRate
  let b ← bsize [frequency.length, quality.length, epsilon.length, phase.length, inclination.length, distance.length]
  let r := fun i : ℕ => (⟨at' frequency i, at' quality i, at' epsilon i, at' phase i, at' inclination i, at' distance i⟩ : Ring)
  return ((List.range b).map fun i => (List.range n).map fun j : ℕ => (r i).cross (j / sampleRate),
    (List.range b).map fun i => (List.range n).map fun j : ℕ => (r i).plus (j / sampleRate))

end Verif.Adhoc
