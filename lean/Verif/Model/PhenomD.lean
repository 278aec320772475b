import Verif.Model.PhenomDFits
import Verif.Model.PhenomDData
import Verif.Model.TaylorF2
import Mathlib.Analysis.SpecialFunctions.Trigonometric.Arctan
/-!
# Model of `IMRPhenomD` (ml4gw/waveforms/cbc/phenom_d.py)

One batch element and one frequency at a time, exact real arithmetic; batches are lists.  The masks `(cond).type_as(Mf)` are the numbers 0 and 1.  Simplification: floating-point overflow, where the code's `0 * inf` would give `nan`, is not modelled.
-/
namespace Verif.PhenomD
open CbcUtils TaylorF2

/-- A boolean mask cast to the number type, `(cond).type_as(Mf)`. (phenom_d.py:200-203, 447-450) -/
noncomputable def mask (p : Prop) [Decidable p] : ℝ := if p then 1 else 0

/-- The quantities of one batch element that the amplitude and phase methods take as arguments (phenom_d.py:91-109). -/
structure Ctx where
  m1 : ℝ
  m2 : ℝ
  eta : ℝ
  seta : ℝ
  chi1 : ℝ
  chi2 : ℝ
  chi12 : ℝ
  chi22 : ℝ
  xi : ℝ
  fRD : ℝ
  fDM : ℝ
  gamma1 : ℝ
  gamma2 : ℝ
  gamma3 : ℝ
  peak : ℝ

namespace Ctx
variable (c : Ctx)

/-- `eta2` (phenom_d.py:95). -/
noncomputable def eta2 : ℝ := c.eta * c.eta

/-- The masses and spins as passed to `taylorf2_phase` (phenom_d.py:554-556). -/
def bin : Bin := ⟨c.m1, c.m2, c.chi1, c.chi2⟩

/-- `phenom_d_inspiral_amp` (phenom_d.py:275-398), first output. -/
noncomputable def insAmp (mf : ℝ) : ℝ :=
  let r := mf ^ ((1 : ℝ) / 3)
  let r2 := r * r
  let r4 := r2 * r2
  let r5 := r4 * r
  let r7 := r5 * r2
  let r8 := r7 * r
  1 + (r2 * pre23 c.eta c.eta2 c.seta c.chi1 c.chi2 + r4 * pre43 c.eta c.eta2 c.seta c.chi1 c.chi2 c.chi12 c.chi22 + r5 * pre53 c.eta c.eta2 c.seta c.chi1 c.chi2
    + r7 * rho1 c.eta c.eta2 c.xi + r8 * rho2 c.eta c.eta2 c.xi + mf * pre1 c.eta c.eta2 c.seta c.chi1 c.chi2
    + mf * mf * pre2 c.eta c.eta2 c.seta c.chi1 c.chi2 c.chi12 c.chi22 + mf * mf * mf * rho3 c.eta c.eta2 c.xi)

/-- `phenom_d_inspiral_amp` (phenom_d.py:275-398), second output. -/
noncomputable def insDamp (mf : ℝ) : ℝ :=
  let r := mf ^ ((1 : ℝ) / 3)
  let r2 := r * r
  let r4 := r2 * r2
  let r5 := r4 * r
  2 / 3 / r * pre23 c.eta c.eta2 c.seta c.chi1 c.chi2 + 4 / 3 * r * pre43 c.eta c.eta2 c.seta c.chi1 c.chi2 c.chi12 c.chi22 + 5 / 3 * r2 * pre53 c.eta c.eta2 c.seta c.chi1 c.chi2
    + 7 / 3 * r4 * rho1 c.eta c.eta2 c.xi + 8 / 3 * r5 * rho2 c.eta c.eta2 c.xi + pre1 c.eta c.eta2 c.seta c.chi1 c.chi2
    + 2 * mf * pre2 c.eta c.eta2 c.seta c.chi1 c.chi2 c.chi12 c.chi22 + 3 * (mf * mf) * rho3 c.eta c.eta2 c.xi

/-- `phenom_d_mrd_amp` (phenom_d.py:261-273), first output. -/
noncomputable def mrdAmp (mf : ℝ) : ℝ :=
  1 / (Real.exp ((mf - c.fRD) * c.gamma2 / (c.fDM * c.gamma3)) * ((mf - c.fRD) ^ 2 + c.fDM * c.gamma3 * (c.fDM * c.gamma3))) * c.gamma1 * c.gamma3 * c.fDM

/-- `phenom_d_mrd_amp` (phenom_d.py:261-273), second output. -/
noncomputable def mrdDamp (mf : ℝ) : ℝ :=
  (((mf - c.fRD) * -2 * c.fDM * c.gamma1 * c.gamma3) / ((mf - c.fRD) * (mf - c.fRD) + c.fDM * c.gamma3 * (c.fDM * c.gamma3)) - c.gamma2 * c.gamma1)
    / (Real.exp ((mf - c.fRD) * c.gamma2 / (c.fDM * c.gamma3)) * ((mf - c.fRD) ^ 2 + c.fDM * c.gamma3 * (c.fDM * c.gamma3)))

/-- `AMP_fJoin_INS`, `Mf_join_ins` (phenom_d.py:197, 234). -/
noncomputable def ampJoin : ℝ := 0.014

/-- `Mf2` (phenom_d.py:236-239). -/
noncomputable def ampMid : ℝ := ampJoin + 0.5 * (c.peak - ampJoin)

/-- The arguments of `delta_values` (phenom_d.py:241-249), applied to one of its five results. -/
noncomputable def withDelta (d : ℝ → ℝ → ℝ → ℝ → ℝ → ℝ → ℝ → ℝ → ℝ) : ℝ :=
  d ampJoin c.ampMid c.peak (c.insAmp ampJoin) (ampIntCol c.eta c.eta2 c.xi) (c.mrdAmp c.peak) (c.insDamp ampJoin) (c.mrdDamp c.peak)

/-- `phenom_d_int_amp` (phenom_d.py:215-259), first output. -/
noncomputable def intAmp (mf : ℝ) : ℝ :=
  c.withDelta delta0 + mf * c.withDelta delta1 + mf ^ 2 * (c.withDelta delta2 + mf * c.withDelta delta3 + mf ^ 2 * c.withDelta delta4)

/-- `phenom_d_int_amp` (phenom_d.py:215-259), second output. -/
noncomputable def intDamp (mf : ℝ) : ℝ :=
  c.withDelta delta1 + mf * (2 * c.withDelta delta2 + 3 * mf * c.withDelta delta3 + 4 * mf ^ 2 * c.withDelta delta4)

/-- `phenom_d_amp` (phenom_d.py:153-213), first output. -/
noncomputable def amp (mf : ℝ) : ℝ :=
  mask (mf ≤ ampJoin) * c.insAmp mf + mask (mf > ampJoin) * c.intAmp mf * mask (mf ≤ c.peak) + mask (mf > c.peak) * c.mrdAmp mf

/-- `phenom_d_amp` (phenom_d.py:153-213), second output. -/
noncomputable def dAmp (mf : ℝ) : ℝ :=
  mask (mf ≤ ampJoin) * c.insDamp mf + mask (mf > ampJoin) * c.intDamp mf * mask (mf ≤ c.peak) + mask (mf > c.peak) * c.mrdDamp mf

/-- `subtract3PNSS` (phenom_d.py:505-549), first output. -/
noncomputable def ss3 (mf : ℝ) : ℝ :=
  Bin.v mf ^ 6 * pnSS3 (c.m1 / (c.m1 + c.m2)) (c.m2 / (c.m1 + c.m2)) c.eta c.chi1 c.chi2 / Bin.v mf ^ 5 * (3 / (128 * c.eta))

/-- `subtract3PNSS` (phenom_d.py:505-549), second output. -/
noncomputable def dSs3 (mf : ℝ) : ℝ :=
  Real.pi * (Bin.v mf ^ 6 * pnSS3 (c.m1 / (c.m1 + c.m2)) (c.m2 / (c.m1 + c.m2)) c.eta c.chi1 c.chi2) / (3 * Bin.v mf * Bin.v mf ^ 7) * (3 / (128 * c.eta))

/-- `phenom_d_inspiral_phase` (phenom_d.py:551-581), first output. -/
noncomputable def insPhase (mf : ℝ) : ℝ :=
  c.bin.phasing mf - c.ss3 mf + mf * sigma1 c.eta c.eta2 c.xi / c.eta + mf ^ ((4 : ℝ) / 3) * 0.75 * sigma2 c.eta c.eta2 c.xi / c.eta
    + mf ^ ((5 : ℝ) / 3) * 0.6 * sigma3 c.eta c.eta2 c.xi / c.eta + mf ^ (2 : ℝ) * 0.5 * sigma4 c.eta c.eta2 c.xi / c.eta

/-- `phenom_d_inspiral_phase` (phenom_d.py:551-581), second output. -/
noncomputable def insDphase (mf : ℝ) : ℝ :=
  c.bin.dPhasing mf - c.dSs3 mf + sigma1 c.eta c.eta2 c.xi / c.eta + mf ^ ((1 : ℝ) / 3) * sigma2 c.eta c.eta2 c.xi / c.eta
    + mf ^ ((2 : ℝ) / 3) * sigma3 c.eta c.eta2 c.xi / c.eta + mf * sigma4 c.eta c.eta2 c.xi / c.eta

/-- `phenom_d_int_phase` (phenom_d.py:486-503), first output: not yet divided by `eta`. -/
noncomputable def intPhase (mf : ℝ) : ℝ :=
  mf * beta1 c.eta c.eta2 c.xi + Real.log mf * beta2 c.eta c.eta2 c.xi - mf ^ (-3 : ℝ) / 3 * beta3 c.eta c.eta2 c.xi

/-- `phenom_d_int_phase` (phenom_d.py:486-503), second output: divided by `eta`. -/
noncomputable def intDphase (mf : ℝ) : ℝ :=
  (mf ^ (-4 : ℝ) * beta3 c.eta c.eta2 c.xi + mf ^ (-1 : ℝ) * beta2 c.eta c.eta2 c.xi + beta1 c.eta c.eta2 c.xi) / c.eta

/-- `phenom_d_mrd_phase` (phenom_d.py:462-484), first output: not yet divided by `eta`. -/
noncomputable def mrdPhase (mf : ℝ) : ℝ :=
  mf * alpha1 c.eta c.eta2 c.xi - 1 / mf * alpha2 c.eta c.eta2 c.xi + 4 / 3 * (mf ^ ((3 : ℝ) / 4) * alpha3 c.eta c.eta2 c.xi)
    + Real.arctan ((mf - alpha5 c.eta c.eta2 c.xi * c.fRD) / c.fDM) * alpha4 c.eta c.eta2 c.xi

/-- `phenom_d_mrd_phase` (phenom_d.py:462-484), second output: divided by `eta`. -/
noncomputable def mrdDphase (mf : ℝ) : ℝ :=
  (alpha4 c.eta c.eta2 c.xi * c.fDM / ((mf - alpha5 c.eta c.eta2 c.xi * c.fRD) ^ 2 + c.fDM ^ 2) + mf ^ (-(1 : ℝ) / 4) * alpha3 c.eta c.eta2 c.xi
    + mf ^ (-2 : ℝ) * alpha2 c.eta c.eta2 c.xi + alpha1 c.eta c.eta2 c.xi) / c.eta

/-- `PHI_fJoin_INS` (phenom_d.py:414). -/
noncomputable def phiJoin : ℝ := 0.018

/-- `fRDJoin` (phenom_d.py:426). -/
noncomputable def rdJoin : ℝ := 0.5 * c.fRD

/-- `C2Int` (phenom_d.py:421). -/
noncomputable def c2Int : ℝ := c.insDphase phiJoin - c.intDphase phiJoin

/-- `C1Int` (phenom_d.py:422-424). -/
noncomputable def c1Int : ℝ := c.insPhase phiJoin - c.intPhase phiJoin / c.eta - c.c2Int * phiJoin

/-- `C2MRD` (phenom_d.py:435). -/
noncomputable def c2Mrd : ℝ := c.c2Int + c.intDphase c.rdJoin - c.mrdDphase c.rdJoin

/-- `C1MRD` (phenom_d.py:433, 436). -/
noncomputable def c1Mrd : ℝ := (c.intPhase c.rdJoin / c.eta + c.c1Int + c.c2Int * c.rdJoin) - c.mrdPhase c.rdJoin / c.eta - c.c2Mrd * c.rdJoin

/-- `phenom_d_phase` (phenom_d.py:400-460), first output. -/
noncomputable def phase (mf : ℝ) : ℝ :=
  mask (mf ≤ phiJoin) * c.insPhase mf + mask (mf > phiJoin) * (c.intPhase mf / c.eta + c.c1Int + mf * c.c2Int) * mask (mf ≤ c.rdJoin)
    + mask (mf > c.rdJoin) * (c.mrdPhase mf / c.eta + c.c1Mrd + mf * c.c2Mrd)

/-- `phenom_d_phase` (phenom_d.py:400-460), second output. -/
noncomputable def dPhase (mf : ℝ) : ℝ :=
  mask (mf ≤ phiJoin) * c.insDphase mf + mask (mf > phiJoin) * c.intDphase mf * mask (mf ≤ c.rdJoin) + mask (mf > c.rdJoin) * c.mrdDphase mf

end Ctx

/-- `fmaxCalc` (phenom_d.py:593-596). -/
noncomputable def fmaxCalc (fRD fDM gamma2 gamma3 : ℝ) : ℝ := |fRD + fDM * (-1 + Real.sqrt (max (1 - gamma2 ^ 2) 0)) * gamma3 / gamma2|

/-- Entries of the tables as numbers (phenom_d_data.py). (phenom_d_data.py:4-1010) -/
noncomputable def qnmA (i : ℕ) : ℝ := ((tabA.getD i 0 : ℤ) : ℝ) / 10 ^ 3
/-- phenom_d_data.py:1012-2018. -/
noncomputable def qnmRing (i : ℕ) : ℝ := ((tabRing.getD i 0 : ℤ) : ℝ) / 10 ^ 7
/-- phenom_d_data.py:2020-3026. -/
noncomputable def qnmDamp (i : ℕ) : ℝ := ((tabDamp.getD i 0 : ℤ) : ℝ) / 10 ^ 8

/-- `torch.bucketize(x, qnmdata_a)` (phenom_d.py:610): for an increasing table, the number of entries below `x`. -/
noncomputable def bucketize (x : ℝ) : ℕ := ((List.range tabA.length).filter fun i => qnmA i < x).length

/-- `right_spin_idx` (phenom_d.py:610-612). -/
noncomputable def rightIdx (x : ℝ) : ℕ := min (max (bucketize x) 1) (tabA.length - 1)

/-- The interpolation of `_linear_interp_finspin` (phenom_d.py:613-630) in the table `t`. -/
noncomputable def interp (t : ℕ → ℝ) (x : ℝ) : ℝ :=
  let r := rightIdx x
  let l := r - 1
  (t r - t l) / (qnmA r - qnmA l) * (x - qnmA l) + t l

/-- `_linear_interp_finspin` (phenom_d.py:598-630) on a batch of final spins. -/
noncomputable def interpFinspin (spins : List ℝ) : Res (List (ℝ × ℝ)) := do
  raiseIf (spins.any (fun x => decide (x < qnmA 0)) ∨ spins.any (fun x => decide (qnmA (tabA.length - 1) < x))) .runtime
  return spins.map fun x => (interp qnmRing x, interp qnmDamp x)

/-- `total_mass`, `mass_1`, `mass_2`, `eta` (phenom_d.py:91-94). -/
noncomputable def totalMass (mc q : ℝ) : ℝ := mc * (1 + q) ^ (1.2 : ℝ) / q ^ (0.6 : ℝ)
/-- `mass_1`, phenom_d.py:92. -/
noncomputable def mass1 (mc q : ℝ) : ℝ := totalMass mc q / (1 + q)
/-- `mass_2`, phenom_d.py:93. -/
noncomputable def mass2 (mc q : ℝ) : ℝ := mass1 mc q * q
/-- `eta`, phenom_d.py:94. -/
noncomputable def etaOf (mc q : ℝ) : ℝ := (mc / totalMass mc q) ^ ((5 : ℝ) / 3)

/-- The arguments of the amplitude and phase (phenom_d.py:91-109); `rd` is the interpolated pair of `_linear_interp_finspin`, divided by `1 - Erad` as in `fring_fdamp` (phenom_d.py:583-591). -/
noncomputable def mkCtx (mc q chi1 chi2 : ℝ) (rd : ℝ × ℝ) : Ctx :=
  let eta := etaOf mc q
  let eta2 := eta * eta
  let seta := setaOf eta
  let xi := -1 + chiPN seta eta chi1 chi2
  let fRD := rd.1 / (1 - erad eta chi1 chi2)
  let fDM := rd.2 / (1 - erad eta chi1 chi2)
  let g1 := gamma1 eta eta2 xi
  let g2 := gamma2 eta eta2 xi
  let g3 := gamma3 eta eta2 xi;
  ⟨mass1 mc q, mass2 mc q, eta, seta, chi1, chi2, chi1 * chi1, chi2 * chi2, xi, fRD, fDM, g1, g2, g3, (fmaxCalc fRD fDM g2 g3)⟩

/-- `taylorf2_amplitude` (taylorf2.py:112-137) as called at phenom_d.py:147-149, with the caller's `eta`. -/
noncomputable def newtonAmp (mf m1 m2 eta distance : ℝ) : ℝ :=
  let fTaN := 32 * eta * eta / 5
  let dETaN := 2 * (-eta / 2)
  let amp0 := -4 * (m1 * mtsun) * (m2 * mtsun) * (Real.pi / 12) ^ (0.5 : ℝ) / (distance * mpcSec)
  Real.sqrt (-(Bin.v mf * dETaN) / (Bin.v mf ^ 10 * fTaN)) * Bin.v mf * amp0

/-- `phenom_d_htilde` (phenom_d.py:80-151) at one frequency, after the ringdown frequencies are known. -/
noncomputable def htilde (mc q : ℝ) (c : Ctx) (f distance phic fRef : ℝ) : ℂ :=
  let ms := totalMass mc q * mtsun
  let t0 := c.mrdDphase c.peak
  let psi := c.phase (ms * f) - 2 * phic - c.phase (ms * fRef) - (ms * f - ms * fRef) * t0;
  -(newtonAmp (ms * f) c.m1 c.m2 c.eta distance : ℂ) * (c.amp (ms * f) : ℂ) * Complex.exp (-Complex.I * (psi : ℂ))

/-- `forward` (phenom_d.py:17-78). -/
noncomputable def forward (f : List ℝ) (p : Params) (fRef : ℝ) : Res (List (List ℂ) × List (List ℂ)) := do
  raiseIf (¬ (p.chirpMass.length = p.massRatio.length ∧ p.massRatio.length = p.chi1.length ∧ p.chi1.length = p.chi2.length ∧
    p.chi2.length = p.distance.length ∧ p.distance.length = p.phic.length ∧ p.phic.length = p.inclination.length)) .value
  let n := p.chirpMass.length
  let mc := fun i : ℕ => p.chirpMass.getD i 0
  let q := fun i : ℕ => p.massRatio.getD i 0
  let x1 := fun i : ℕ => p.chi1.getD i 0
  let x2 := fun i : ℕ => p.chi2.getD i 0
  let rd ← interpFinspin ((List.range n).map fun i => finalSpin (etaOf (mc i) (q i)) (x1 i) (x2 i))
  let h := fun (i : ℕ) (x : ℝ) =>
    htilde (mc i) (q i) (mkCtx (mc i) (q i) (x1 i) (x2 i) (rd.getD i (0, 0))) x (p.distance.getD i 0) (p.phic.getD i 0) fRef
  let cfac := fun i : ℕ => Real.cos (p.inclination.getD i 0)
  let pfac := fun i : ℕ => 0.5 * (1 + cfac i * cfac i)
  return ((List.range n).map fun i => f.map fun x => -Complex.I * (h i x * (cfac i : ℂ)),
    (List.range n).map fun i => f.map fun x => h i x * (pfac i : ℂ))

end Verif.PhenomD
