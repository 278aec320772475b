import Verif.Py
import Verif.XR
import Mathlib.Analysis.SpecialFunctions.Pow.Real
import Mathlib.Analysis.SpecialFunctions.Trigonometric.Inverse
import Mathlib.Analysis.SpecialFunctions.Sqrt
import Mathlib.Algebra.BigOperators.Group.Finset.Basic
/-!
# Model of the distributions (ml4gw/distributions.py)

Exact real arithmetic.  A sample is a function of the uniform draw `u ∈ [0, 1)` of `torch.rand`.  `log_prob` is modelled with argument validation on, which is the default.
-/
namespace Verif.Distributions
open Finset

/-! ## Cosine and Sine -/

/-- `self.norm` (distributions.py:41). -/
noncomputable def Cosine.norm (low high : ℝ) : ℝ := 1 / (Real.sin high - Real.sin low)

/-- `Cosine.rsample` (distributions.py:43-46). -/
noncomputable def Cosine.sample (low high u : ℝ) : ℝ := Real.arcsin (u / Cosine.norm low high + Real.sin low)

/-- `Cosine.log_prob` (distributions.py:48-51). -/
noncomputable def Cosine.logProb (low high x : ℝ) : XR :=
  xlog (Real.cos x * (if low ≤ x ∧ x ≤ high then 1 else 0))

/-- `Sine` (distributions.py:54-81): a shifted `Cosine`. -/
noncomputable def Sine.sample (low high u : ℝ) : ℝ := Real.pi / 2 + 1 * Cosine.sample (low - Real.pi / 2) (high - Real.pi / 2) u

/-- `TransformedDistribution.log_prob` for `Sine`: the base density at the preimage, minus the logarithm of the scale.
(distributions.py:54-81) -/
noncomputable def Sine.logProb (low high x : ℝ) : XR :=
  (Cosine.logProb (low - Real.pi / 2) (high - Real.pi / 2) ((x - Real.pi / 2) / 1)).add (.fin (-Real.log |(1 : ℝ)|))

/-! ## Uniform base distributions -/

/-- `torch.distributions.Uniform.rsample`. (the base distribution of distributions.py:90-94, 156) -/
def uniformSample (a b u : ℝ) : ℝ := a + u * (b - a)

/-- `torch.distributions.Uniform.log_prob`: the density lives on `[a, b)`.
(the base distribution of distributions.py:90-94, 156) -/
noncomputable def uniformLogProb (a b x : ℝ) : XR := if a ≤ x ∧ x < b then .fin (-Real.log (b - a)) else .ninf

/-- `LogUniform` (distributions.py:84-99): exponential of a uniform variable. -/
noncomputable def LogUniform.sample (low high u : ℝ) : ℝ := Real.exp (uniformSample (Real.log low) (Real.log high) u)

/-- `TransformedDistribution.log_prob` for `LogUniform`; the log Jacobian of `ExpTransform` at `t` is `t`.  The validation of the transformed
distribution rejects values that are not positive, and that of the base distribution rejects values outside its closed interval.
(distributions.py:84-99) -/
noncomputable def LogUniform.logProb (low high x : ℝ) : Res XR :=
  if x ≤ 0 then .error .value
  else if Real.log x < Real.log low ∨ Real.log high < Real.log x then .error .value
  else .ok ((uniformLogProb (Real.log low) (Real.log high) (Real.log x)).add (.fin (-Real.log x)))

/-- `LogNormal` (distributions.py:102-115) as a function of a standard normal draw: `low` is not used for sampling. -/
noncomputable def LogNormal.sample (mean std : ℝ) (_low : Option ℝ) (z : ℝ) : ℝ := Real.exp (mean + std * z)

/-- `LogNormal.log_prob` with argument validation (the default): `support` is overridden by a method, not a property, so that
`self.support.check` raises AttributeError (distributions.py:113-115, `torch.distributions.Distribution._validate_sample`). -/
def LogNormal.logProb (_mean _std : ℝ) (_low : Option ℝ) (_x : ℝ) : Res XR := .error .attribute

/-- A constructed `PowerLaw` (distributions.py:118-161): the uniform base range and the exponent, `none` for the exponential case. -/
structure PowerLaw where
  baseMin : ℝ
  baseMax : ℝ
  exponent : Option ℝ

/-- `PowerLaw.__init__`. (distributions.py:139-161) -/
noncomputable def PowerLaw.init (minimum maximum index : ℝ) : Res PowerLaw :=
  if index = 0 then .error .value
  else if index = -1 then .ok ⟨Real.log minimum, Real.log maximum, none⟩
  else .ok ⟨minimum ^ (index + 1) / (index + 1), maximum ^ (index + 1) / (index + 1), some (index + 1)⟩

/-- Sampling: the transforms applied to the uniform sample. (distributions.py:147, 152-161) -/
noncomputable def PowerLaw.sample (d : PowerLaw) (u : ℝ) : ℝ :=
  match d.exponent with
  | none => Real.exp (uniformSample d.baseMin d.baseMax u)
  | some p => (0 + p * uniformSample d.baseMin d.baseMax u) ^ (1 / p)

/-- `TransformedDistribution.log_prob`: base density at the preimage minus the log Jacobians, which are `t` for `ExpTransform`,
`log |(1/p) y / t|` for `PowerTransform(1/p)` taking `t` to `y`, and `log |p|` for `AffineTransform`.  Values outside the declared support (negative ones)
are rejected; at zero the terms are `0 / 0` or `inf - inf`. (distributions.py:137, 147, 152-161) -/
noncomputable def PowerLaw.logProb (d : PowerLaw) (y : ℝ) : Res XR :=
  if y < 0 then .error .value
  else if y = 0 then .ok .nan
  else .ok (match d.exponent with
    | none => (uniformLogProb d.baseMin d.baseMax (Real.log y)).add (.fin (-Real.log y))
    | some p => ((uniformLogProb d.baseMin d.baseMax ((y ^ (1 / (1 / p)) - 0) / p)).add
        (.fin (-Real.log |1 / p * y / y ^ (1 / (1 / p))|))).add (.fin (-Real.log |p|)))

/-- `DeltaFunction.rsample` (distributions.py:164-180). -/
def Delta.sample (peak : ℝ) : ℝ := peak * 1

/-! ## UniformComovingVolume and RateEvolution -/

/-- The accepted values of `distance_type`, distributions.py:218-226. -/
inductive DistanceType where
  | redshift | comoving | luminosity
  deriving DecidableEq

/-- The check of `distance_type` (distributions.py:218-226). -/
def parseType (s : String) : Res DistanceType :=
  if s = "redshift" then .ok .redshift
  else if s = "comoving_distance" then .ok .comoving
  else if s = "luminosity_distance" then .ok .luminosity
  else .error .value

/-- `C` (constants.py:17). -/
def speedOfLight : ℝ := 299792458

/-- `_hubble_function` (distributions.py:255-262). -/
noncomputable def hubble (h0 om z : ℝ) : ℝ := h0 * Real.sqrt (om * (1 + z) ^ 3 + (1 - om))

/-- Entry `i` of `torch.linspace(0, z_max, n)`. (distributions.py:283-285) -/
noncomputable def zAt (zmax : ℝ) (n i : ℕ) : ℝ := i * (zmax / ((n : ℝ) - 1))

/-- Entry `i` of `torch.cumulative_trapezoid(y, x)` with a leading zero. (distributions.py:288-297, 325-329) -/
noncomputable def cumTrap (x y : ℕ → ℝ) (i : ℕ) : ℝ := ∑ j ∈ range i, (y j + y (j + 1)) / 2 * (x (j + 1) - x j)

/-- A point of the grids: redshift, comoving distance, distance of the chosen type. (distributions.py:283-305) -/
structure Node where
  z : ℝ
  dc : ℝ
  dist : ℝ

/-- Point `i` of the grids (distributions.py:279-305). -/
noncomputable def nodeAt (t : DistanceType) (h0 om zmax : ℝ) (n i : ℕ) : Node :=
  let z := zAt zmax n
  let dc := cumTrap z (fun j => speedOfLight / hubble h0 om (z j)) i / 1000
  ⟨z i, dc, match t with
    | .redshift => z i
    | .comoving => dc
    | .luminosity => dc * (1 + z i)⟩

/-- `torch.bucketize(q, x, right=True)`: the number of boundaries that do not exceed `q`. (distributions.py:333) -/
noncomputable def bucketize (n : ℕ) (x : ℕ → ℝ) (q : ℝ) : ℕ := ((range n).filter fun i => x i ≤ q).card

/-- The index used by `_linear_interp_1d` (distributions.py:333-334), for at least two grid points. -/
noncomputable def interpIdx (n : ℕ) (x : ℕ → ℝ) (q : ℝ) : ℕ := min (max (bucketize n x q) 1) (n - 1)

/-- `_linear_interp_1d` (distributions.py:332-342). -/
noncomputable def interp (n : ℕ) (x y : ℕ → ℝ) (q : ℝ) : ℝ :=
  let i := interpIdx n x q
  let t := (q - x (i - 1)) / (x i - x (i - 1))
  y (i - 1) + t * (y i - y (i - 1))

/-- `_linear_interp_1d` on a table with infinite entries. (distributions.py:332-342) -/
noncomputable def interpX (n : ℕ) (x : ℕ → ℝ) (y : ℕ → XR) (q : ℝ) : XR :=
  let i := interpIdx n x q
  let t := (q - x (i - 1)) / (x i - x (i - 1))
  (y (i - 1)).add (((y i).add (y (i - 1)).neg).smul t)

/-- `torch.gradient(d, spacing=dz)` of `n ≥ 2` values. (distributions.py:313) -/
noncomputable def gradient (n : ℕ) (d : ℕ → ℝ) (dz : ℝ) (i : ℕ) : ℝ :=
  if i = 0 then (d 1 - d 0) / dz
  else if i + 1 = n then (d i - d (i - 1)) / dz
  else (d (i + 1) - d (i - 1)) / (2 * dz)

/-- A constructed `UniformComovingVolume` or `RateEvolution`. (distributions.py:228-253, 383) -/
structure Volume where
  minimum : ℝ
  maximum : ℝ
  h0 : ℝ
  om : ℝ
  dz : ℝ
  rate : ℝ → ℝ
  nodes : List Node

/-- Accessors. (`len(x_grid)`, distributions.py:334) -/
def Volume.n (v : Volume) : ℕ := v.nodes.length
/-- `z_grid[i]`, distributions.py:249. -/
def Volume.z (v : Volume) (i : ℕ) : ℝ := (v.nodes.getD i ⟨0, 0, 0⟩).z
/-- `comoving_dist_grid[i]`, distributions.py:250. -/
def Volume.dc (v : Volume) (i : ℕ) : ℝ := (v.nodes.getD i ⟨0, 0, 0⟩).dc
/-- `distance_grid[i]`, distributions.py:248. -/
def Volume.dist (v : Volume) (i : ℕ) : ℝ := (v.nodes.getD i ⟨0, 0, 0⟩).dist

/-- `_p_of_distance` (distributions.py:307-314, 386-393); `rate` is constantly one for `UniformComovingVolume`. -/
noncomputable def Volume.p (v : Volume) (i : ℕ) : ℝ :=
  v.dc i ^ 2 / hubble v.h0 v.om (v.z i) / gradient v.n v.dist v.dz i * v.rate (v.z i)

/-- `self.pdf` (distributions.py:321-324). -/
noncomputable def Volume.pdf (v : Volume) (i : ℕ) : ℝ := v.p i / cumTrap v.dist v.p (v.n - 1)

/-- `self.cdf` (distributions.py:325-329). -/
noncomputable def Volume.cdf (v : Volume) (i : ℕ) : ℝ := cumTrap v.dist v.pdf i

/-- `__init__` (distributions.py:206-253, 377-384).  A grid with fewer than two points has no `z_grid[1]` (IndexError); fewer than two points inside the
range make `torch.gradient` fail (RuntimeError). -/
noncomputable def Volume.init (rate : ℝ → ℝ) (minimum maximum : ℝ) (distanceType : String) (h0 om zmax : ℝ) (n : ℕ) : Res Volume := do
  let t ← parseType distanceType
  if n < 2 then .error .index
  else
    let d := fun i => (nodeAt t h0 om zmax n i).dist
    let zlo := interp n d (zAt zmax n) minimum
    let zhi := interp n d (zAt zmax n) maximum
    if zmax < zhi then .error .value
    else
      let nodes := ((List.range n).map (nodeAt t h0 om zmax n)).filter fun p => decide (zlo ≤ p.z ∧ p.z ≤ zhi)
      if nodes.length < 2 then .error .runtime
      else .ok ⟨minimum, maximum, h0, om, zAt zmax n 1 - zAt zmax n 0, rate, nodes⟩

/-- `rsample` (distributions.py:344-347). -/
noncomputable def Volume.sample (v : Volume) (u : ℝ) : ℝ := interp v.n v.cdf v.dist u

/-- `log_prob` (distributions.py:349-357). -/
noncomputable def Volume.logProb (v : Volume) (x : ℝ) : XR :=
  if v.minimum ≤ x ∧ x ≤ v.maximum then interpX v.n v.dist (fun i => xlog (v.pdf i)) x else .ninf

end Verif.Distributions
