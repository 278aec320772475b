import Verif.Model.PhenomPAngles
/-!
# Model of `IMRPhenomPv2` (ml4gw/waveforms/cbc/phenom_p.py)

One batch element and one frequency at a time, exact real arithmetic; a batch is a list of parameter records, so the nine tensors of parameters have the same length (the code does not check this).  Floating-point overflow and `nan` (a vanishing total angular momentum, `1 - 4 eta` rounded below zero) are not modelled.
-/
namespace Verif.PhenomP
open CbcUtils TaylorF2 PhenomD
open Conversion hiding mtsun

/-- The parameters of one batch element (phenom_p.py:24-40); `tc = None` is zero (lines 81-82). -/
structure Par where
  chirpMass : ℝ
  massRatio : ℝ
  s1 : Vec
  s2 : Vec
  distance : ℝ
  phic : ℝ
  inclination : ℝ
  tc : ℝ

/-- `L2PNR` (phenom_p.py:434-451). -/
noncomputable def l2PNR (v eta : ℝ) : ℝ :=
  let eta2 := eta ^ 2
  let x := v ^ 2
  let x2 := x ^ 2;
  eta * (1 + (1.5 + eta / 6) * x + (3.375 - 19 * eta / 8 - eta2 / 24) * x2) / x ^ (0.5 : ℝ)

/-- `WignerdCoefficients` (phenom_p.py:633-648): the cosine and sine of half the opening angle. -/
noncomputable def wigner (v sl eta sp : ℝ) : ℝ × ℝ :=
  let s := sp / (l2PNR v eta + sl)
  let s2 := s ^ 2
  let cosBeta := 1 / (1 + s2) ^ (0.5 : ℝ);
  (((1 + cosBeta) / 2) ^ (0.5 : ℝ), ((1 - cosBeta) / 2) ^ (0.5 : ℝ))

/-- `SpinWeightedY(theta, phi, -2, 2, m)` (phenom_p.py:590-631). -/
noncomputable def spinY (theta phi : ℝ) (m : ℤ) : Res ℂ := do
  let fac ← (if m = -2 then .ok (Real.sqrt (5 / (64 * Real.pi)) * (1 - Real.cos theta) * (1 - Real.cos theta))
    else if m = -1 then .ok (Real.sqrt (5 / (16 * Real.pi)) * Real.sin theta * (1 - Real.cos theta))
    else if m = 0 then .ok (Real.sqrt (15 / (32 * Real.pi)) * Real.sin theta * Real.sin theta)
    else if m = 1 then .ok (Real.sqrt (5 / (16 * Real.pi)) * Real.sin theta * (1 + Real.cos theta))
    else if m = 2 then .ok (Real.sqrt (5 / (64 * Real.pi)) * (1 + Real.cos theta) * (1 + Real.cos theta))
    else .error .value : Res ℝ)
  return (fac : ℂ) * ⟨Real.cos (m * phi), Real.sin (m * phi)⟩

/-- The result of `convert_spins`. (phenom_p.py:453-476) -/
structure Conv where
  chi1l : ℝ
  chi2l : ℝ
  chip : ℝ
  thetaJN : ℝ
  alpha0 : ℝ
  phiAligned : ℝ
  zeta : ℝ

/-- `chip` (phenom_p.py:494-503). -/
noncomputable def chipOf (m1 m2 : ℝ) (s1 s2 : Vec) : ℝ :=
  let s1perp := m1 * m1 * Real.sqrt (s1.x ^ 2 + s1.y ^ 2)
  let s2perp := m2 * m2 * Real.sqrt (s2.x ^ 2 + s2.y ^ 2)
  let a1 := 2 + 3 * m2 / (2 * m1)
  let a2 := 2 + 3 * m1 / (2 * m2)
  max (a1 * s1perp) (a2 * s2perp) / (a2 * (m2 * m2))

/-- `J0x_sf`, `J0y_sf`, `J0z_sf` (phenom_p.py:505-512). -/
noncomputable def totalJ (m1 m2 fRef : ℝ) (s1 s2 : Vec) : Vec :=
  let m := m1 + m2
  let vRef := (Real.pi * (m * mtsun) * fRef) ^ ((1 : ℝ) / 3)
  let l0 := m * m * l2PNR vRef (m1 * m2 / (m * m));
  ⟨m1 * m1 * s1.x + m2 * m2 * s2.x, m1 * m1 * s1.y + m2 * m2 * s2.y, l0 + m1 * m1 * s1.z + m2 * m2 * s2.z⟩

/-- `convert_spins` (phenom_p.py:453-587). -/
noncomputable def convertSpins (m1 m2 fRef phic inclination : ℝ) (s1 s2 : Vec) : Conv :=
  let j := totalJ m1 m2 fRef s1 s2
  let j0 := Real.sqrt (j.x * j.x + j.y * j.y + j.z * j.z)
  let thetaJ := Real.arccos (j.z / j0)
  let phiJ := atan2 j.y j.x
  let n : Vec := ⟨Real.sin inclination * Real.cos (Real.pi / 2 - phic), Real.sin inclination * Real.sin (Real.pi / 2 - phic), Real.cos inclination⟩
  let n1 := rotateY (-thetaJ) (rotateZ (-phiJ) n)
  let kappa := -atan2 n1.y n1.x
  let ln := rotateZ kappa (rotateY (-thetaJ) (rotateZ (-phiJ) ⟨0, 0, 1⟩))
  let alpha0 := atan2 ln.y ln.x
  let nJ := rotateZ kappa (rotateY (-thetaJ) (rotateZ (-phiJ) n))
  let x : Vec := ⟨-Real.cos inclination * Real.sin phic, -Real.cos inclination * Real.cos phic, Real.sin inclination⟩
  let xJ := rotateZ kappa (rotateY (-thetaJ) (rotateZ (-phiJ) x))
  let xP := xJ.x * 0 + xJ.y * -1 + xJ.z * 0
  let xQ := xJ.x * nJ.z + xJ.y * 0 + xJ.z * -nJ.x
  ⟨s1.z, s2.z, chipOf m1 m2 s1 s2, Real.arccos nJ.z, alpha0, -phiJ, atan2 xQ xP⟩

/-- The sum of the five terms of an Euler angle at `omega = π M f` (phenom_p.py:128-142, 230-251). -/
noncomputable def angleSum (c1 c2 c3 c4 c5 omega : ℝ) : ℝ :=
  let r := omega ^ ((1 : ℝ) / 3)
  c1 / omega + c2 / (r * r) + c3 / r + c4 * Real.log omega + c5 * r

/-- The first Euler angle before its offset. (phenom_p.py:231-238) -/
noncomputable def alphaSum (q chil chip omega : ℝ) : ℝ :=
  angleSum (alphaC1 q chil chip) (alphaC2 q chil chip) (alphaC3 q chil chip) (alphaC4 q chil chip) (alphaC5 q chil chip) omega

/-- The third Euler angle before its offset. (phenom_p.py:242-249) -/
noncomputable def epsSum (q chil chip omega : ℝ) : ℝ :=
  angleSum (epsC1 q chil chip) (epsC2 q chil chip) (epsC3 q chil chip) (epsC4 q chil chip) (epsC5 q chil chip) omega

/-- `FinalSpin_inplane` (phenom_p.py:778-797). -/
noncomputable def finalSpinInplane (m1 m2 chi1 chi2 chip : ℝ) : ℝ :=
  let m := m1 + m2
  let eta := m1 * m2 / (m * m)
  let qf := m1 / m
  let par := finalSpin eta chi1 chi2
  let sperp := chip * qf * qf
  (if par < 0 then -1 else 1) * Real.sqrt (sperp * sperp + par * par)

/-- `interpolate(x, qnmdata_a, t)` at one point (phenom_p.py:395-432): slopes and intercepts of the segments, indexed by `searchsorted(xp, x) - 1` as Python indexes, so `-1` is the last segment. -/
noncomputable def lookup (t : ℕ → ℝ) (x : ℝ) : Res ℝ := do
  let n := tabA.length - 1
  let i : ℤ := (bucketize x : ℤ) - 1
  raiseIf (i < -(n : ℤ) ∨ (n : ℤ) ≤ i) .index
  let k := (if i < 0 then i + n else i).toNat
  let m := (t (k + 1) - t k) / (qnmA (k + 1) - qnmA k)
  let b := t k - m * qnmA k
  return m * x + b

/-- `phP_get_fRD_fdamp` (phenom_p.py:799-818), in Hz. -/
noncomputable def ringdown (m1 m2 chi1 chi2 chip : ℝ) : Res (ℝ × ℝ) := do
  let a := finalSpinInplane m1 m2 chi1 chi2 chip
  let ms := m1 * mtsun + m2 * mtsun
  let er := erad (m1 * mtsun * (m2 * mtsun) / ms ^ 2) chi1 chi2
  let r ← lookup qnmRing a
  let d ← lookup qnmDamp a
  return (r / (1 - er) / ms, d / (1 - er) / ms)

/-- The arguments of the PhenomD amplitude and phase in `PhenomPOneFrequency` (phenom_p.py:307-367), for the ringdown pair `rd` in Hz. -/
noncomputable def ctxP (m1 m2 eta seta chi1 chi2 chi12 chi22 m xi : ℝ) (rd : ℝ × ℝ) : Ctx :=
  let ms := m * mtsun
  let fRD := ms * rd.1
  let fDM := ms * rd.2
  let g1 := gamma1 eta (eta * eta) xi
  let g2 := gamma2 eta (eta * eta) xi
  let g3 := gamma3 eta (eta * eta) xi;
  ⟨m1, m2, eta, seta, chi1, chi2, chi12, chi22, xi, fRD, fDM, g1, g2, g3, fmaxCalc fRD fDM g2 g3⟩

/-- `get_Amp0` (phenom_p.py:820-826). -/
noncomputable def amp0 (mf eta : ℝ) : ℝ := (2 / 3 * eta) ^ ((1 : ℝ) / 2) * mf ^ (-(7 : ℝ) / 6) * Real.pi ^ (-(1 : ℝ) / 6)

/-- `hPhenom` (phenom_p.py:342-369). -/
noncomputable def hPhenom (c : Ctx) (m phic distance f : ℝ) : ℂ :=
  let ms := m * mtsun
  let phase := c.phase (ms * f) - (phic + Real.pi / 4)
  let a := amp0 (ms * f) c.eta * c.amp (ms * f) * ms ^ (2 : ℝ) / (distance * mpcSec);
  (a : ℂ) * Complex.exp (-Complex.I * (phase : ℂ))

/-- The grid of `linspace(0.8, 1.2, 1000)` times the ringdown frequency (phenom_p.py:373-375). -/
noncomputable def rdGrid (fRD : ℝ) (i : ℕ) : ℝ := fRD * (0.8 + i * ((1.2 - 0.8) / (1000 - 1)))

/-- Column `j` of the central differences of the phase (phenom_p.py:376-384). -/
noncomputable def rdSlope (c : Ctx) (ms fRD : ℝ) (j : ℕ) : ℝ :=
  let phi := fun i => c.phase (ms * rdGrid fRD i)
  let diff := fun i => phi (i + 1) - phi i
  let delta := (1.2 * fRD - 0.8 * fRD) / (1000 - 1)
  (diff (j + 1) + diff j) / (2 * delta)

/-- `diffRDphase` (phenom_p.py:390). -/
noncomputable def diffRD (c : Ctx) (ms fRD : ℝ) : ℝ := -(rdSlope c ms fRD 498 + rdSlope c ms fRD 499) / 2

/-- The modes of one batch element, `Y2` (phenom_p.py:144-149). -/
noncomputable def modes (theta : ℝ) : Res (List ℂ) := [-2, -1, 0, 1, 2].mapM fun m => spinY theta 0 m

/-- The Euler angles and opening angle at one frequency (phenom_p.py:214-255): `(alpha, epsilon, (cBetah, sBetah))`. -/
noncomputable def angles (f eta chi1l chi2l chip m q chil alphaOff epsOff : ℝ) : ℝ × ℝ × (ℝ × ℝ) :=
  let g := f * mtsun * m
  let qq := (1 + Real.sqrt (1 - 4 * eta) - 2 * eta) / (2 * eta)
  let m1 := 1 / (1 + qq)
  let m2 := qq / (1 + qq)
  let sperp := chip * (m2 * m2)
  let sl := chi1l * m1 * m1 + chi2l * m2 * m2
  let omega := Real.pi * g
  (alphaSum q chil chip omega - alphaOff, epsSum q chil chip omega - epsOff, wigner (omega ^ ((1 : ℝ) / 3)) sl eta sperp)

/-- `T2m` and `Tm2m` (phenom_p.py:267-296). -/
noncomputable def twist (y : List ℂ) (alpha : ℝ) (b : ℝ × ℝ) : ℂ × ℂ :=
  let c : ℂ := b.1
  let s : ℂ := b.2
  let e1 := Complex.exp (Complex.I * (alpha : ℂ))
  let e2 := e1 * e1
  let m1 := 1 / e1
  let m2 := m1 * m1
  let r6 : ℂ := (Real.sqrt 6 : ℝ)
  let y := fun i : ℕ => y.getD i 0
  (e2 * c ^ 4 * y 0 - e1 * 2 * c ^ 3 * s * y 1 + 1 * r6 * s ^ 2 * c ^ 2 * y 2 - m1 * 2 * c * s ^ 3 * y 3 + m2 * s ^ 4 * y 4,
    m2 * s ^ 4 * star (y 0) + m1 * 2 * c * s ^ 3 * star (y 1) + 1 * r6 * s ^ 2 * c ^ 2 * star (y 2) + e1 * 2 * c ^ 3 * s * star (y 3) + e2 * c ^ 4 * star (y 4))

/-- `PhenomPCoreTwistUp` after the angles (phenom_p.py:256-305): `(hp, hc)`. -/
noncomputable def twistUp (h : ℂ) (y : List ℂ) (a : ℝ × ℝ × (ℝ × ℝ)) : ℂ × ℂ :=
  let t := twist y a.1 a.2.2
  let e := Complex.exp (-2 * Complex.I * (a.2.1 : ℂ)) * h / 2
  (e * (t.1 + t.2), e * (Complex.I * (t.1 - t.2)))

/-- What `forward` computes for one batch element before the frequencies enter (phenom_p.py:84-167). -/
structure Elem where
  conv : Conv
  m1 : ℝ
  m2 : ℝ
  q : ℝ
  chil : ℝ
  eta : ℝ
  ctx : Ctx
  alphaOff : ℝ
  epsOff : ℝ
  y : List ℂ
  diffRD : ℝ

/-- phenom_p.py:84-167 for one batch element: the masses and spins are exchanged first. -/
noncomputable def elem (p : Par) (fRef : ℝ) : Res Elem := do
  let m1 := (toComponents p.chirpMass p.massRatio).2
  let m2 := (toComponents p.chirpMass p.massRatio).1
  let s1 := p.s2
  let s2 := p.s1
  let v := convertSpins m1 m2 fRef p.phic p.inclination s1 s2
  let q := m2 / m1
  let m := m1 + m2
  let chiEff := (m1 * v.chi1l + m2 * v.chi2l) / m
  let chil := (1 + q) / q * chiEff
  let eta := m1 * m2 / (m * m)
  let seta := Real.sqrt (1 - 4 * eta)
  let xi := -1 + chiPN seta eta v.chi2l v.chi1l
  let omegaRef := Real.pi * (m * mtsun) * fRef
  let aOff := alphaSum q chil v.chip omegaRef
  let eOff := epsSum q chil v.chip omegaRef
  let y ← modes v.thetaJN
  let rd ← ringdown m2 m1 v.chi2l v.chi1l v.chip
  let c := ctxP m2 m1 eta seta v.chi2l v.chi1l (v.chi1l * v.chi1l) (v.chi2l * v.chi2l) m xi rd
  return ⟨v, m1, m2, q, chil, eta, c, aOff - v.alpha0, eOff, y, diffRD c (m * mtsun) rd.1⟩

/-- The polarizations of one batch element at one frequency (phenom_p.py:151-197): `(hcross, hplus)`. -/
noncomputable def polarizations (p : Par) (e : Elem) (f : ℝ) : ℂ × ℂ :=
  let m := e.m1 + e.m2
  let h := hPhenom e.ctx m (2 * e.conv.phiAligned) p.distance f
  let a := angles f e.eta e.conv.chi1l e.conv.chi2l e.conv.chip m e.q e.chil e.alphaOff e.epsOff
  let t := twistUp h e.y a
  let t0 := e.diffRD / (2 * Real.pi)
  let corr : ℂ := (Real.cos (2 * Real.pi * f * t0) : ℂ) - Complex.I * (Real.sin (2 * Real.pi * f * t0) : ℂ)
  let corrTc := Complex.exp (-Complex.I * (f : ℂ) * ((m * mtsun : ℝ) : ℂ) * (p.tc : ℂ))
  let hp := t.1 * (corr * corrTc)
  let hc := t.2 * (corr * corrTc)
  let c2 : ℂ := (Real.cos (2 * e.conv.zeta) : ℝ)
  let s2 : ℂ := (Real.sin (2 * e.conv.zeta) : ℝ)
  (c2 * hc - s2 * hp, c2 * hp + s2 * hc)

/-- `forward` (phenom_p.py:24-197): cross and plus polarizations, batch by frequency. -/
noncomputable def forward (fs : List ℝ) (ps : List Par) (fRef : ℝ) : Res (List (List ℂ) × List (List ℂ)) := do
  let es ← ps.mapM fun p => (elem p fRef).map fun e => (p, e)
  return (es.map fun pe => fs.map fun f => (polarizations pe.1 pe.2 f).1, es.map fun pe => fs.map fun f => (polarizations pe.1 pe.2 f).2)

end Verif.PhenomP
