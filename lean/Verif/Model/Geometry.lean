import Verif.TensorMore
import Verif.Model.Whiten
/-!
# Model of the projection functions (ml4gw/gw.py:29-269), `InterferometerGeometry`
(ml4gw/utils/interferometer.py) and `WaveformProjector` (ml4gw/transforms/waveforms.py:62-86)

Exact real arithmetic; the constants of the interferometers are the decimal numbers of the source (the code
rounds them to float32).  Vectors are functions of the component `0, 1, 2`.
-/
namespace Verif.Geometry
open Finset Verif.Whiten

/-- `outer(x, y)` (gw.py:29-33). -/
def outer (x y : ℕ → ℝ) (j k : ℕ) : ℝ := x j * y k
/-- `plus(m, n)` (gw.py:36-37). -/
def plus (m n : ℕ → ℝ) (j k : ℕ) : ℝ := outer m m j k - outer n n j k
/-- `cross(m, n)` (gw.py:40-41). -/
def cross (m n : ℕ → ℝ) (j k : ℕ) : ℝ := outer m n j k + outer n m j k
/-- `breathing(m, n)` (gw.py:44-45). -/
def breathing (m n : ℕ → ℝ) (j k : ℕ) : ℝ := outer m m j k + outer n n j k

/-- The type of the functions `plus`, `cross`, `breathing`. (gw.py:36-52) -/
abbrev PolFunc := (ℕ → ℝ) → (ℕ → ℝ) → ℕ → ℕ → ℝ

/-- `polarization_funcs[mode]` with the KeyError turned into ValueError (gw.py:48-52, 123-126). -/
def polarizationFunc (mode : String) : Res PolFunc :=
  if mode = "plus" then .ok plus
  else if mode = "cross" then .ok cross
  else if mode = "breathing" then .ok breathing
  else .error .value

/-- A vector given by its three components. (gw.py:109-112, interferometer.py:26-60) -/
def vec3 (a b c : ℝ) (j : ℕ) : ℝ := if j = 0 then a else if j = 1 then b else c

/-- `u` (gw.py:109-111). -/
noncomputable def uVec (θ φ : ℝ) : ℕ → ℝ :=
  vec3 (Real.cos φ * Real.cos θ) (Real.cos θ * Real.sin φ) (-Real.sin θ)
/-- `v` (gw.py:112). -/
noncomputable def vVec (φ : ℝ) : ℕ → ℝ := vec3 (-Real.sin φ) (Real.cos φ) 0
/-- `m` (gw.py:116). -/
noncomputable def mVec (θ ψ φ : ℝ) (j : ℕ) : ℝ := -uVec θ φ j * Real.sin ψ - vVec φ j * Real.cos ψ
/-- `n` (gw.py:117). -/
noncomputable def nVec (θ ψ φ : ℝ) (j : ℕ) : ℝ := -uVec θ φ j * Real.cos ψ + vVec φ j * Real.sin ψ

/-- The contraction of line 139. (gw.py:139) -/
def contract (e : ℕ → ℕ → ℝ) (D : ℕ → ℕ → ℝ) : ℝ := ∑ j ∈ range 3, ∑ k ∈ range 3, e j k * D j k

/-- `compute_antenna_responses` (gw.py:55-139) for `theta`, `psi`, `phi` with the same number of elements
(they are flattened, lines 96-98; the broadcast of a one-element `psi` is not modelled: RuntimeError) and
detector tensors `(I, 3, 3)`.  `torch.stack([])` raises RuntimeError.  Result: `(B, P, I)`. -/
noncomputable def antennaResponses (theta psi phi D : Tensor ℝ) (modes : List String) : Res (Tensor ℝ) := do
  let B := numel theta.shape
  let ang (x : Tensor ℝ) (b : ℕ) : ℝ := x.get (unravel x.shape b)
  if numel psi.shape ≠ B ∨ numel phi.shape ≠ B then .error .runtime
  else do
    let pols ← modes.mapM polarizationFunc                                      -- lines 121-129
    if pols.length = 0 then .error .runtime                                     -- line 132
    else match D.shape with
      | [I, 3, 3] => .ok ⟨[B, pols.length, I], fun i =>
          let b := i.getD 0 0
          let f := pols.getD (i.getD 1 0) plus
          contract (f (mVec (ang theta b) (ang psi b) (ang phi b)) (nVec (ang theta b) (ang psi b) (ang phi b)))
            fun j k => D.get [i.getD 2 0, j, k]⟩                                -- line 139
      | _ => .error .runtime

/-- `C` (constants.py:17). -/
def speedOfLight : ℝ := 299792458

/-- `omega` (gw.py:149-155). -/
noncomputable def omega (θ φ : ℝ) : ℕ → ℝ :=
  vec3 (Real.sin θ * Real.cos φ) (Real.sin θ * Real.sin φ) (Real.cos θ)

/-- The delay in samples (gw.py:162-164). -/
noncomputable def delay (θ φ sr : ℝ) (vertex : ℕ → ℝ) : Int :=
  pyInt (-(∑ j ∈ range 3, omega θ φ j * vertex j) * (sr / speedOfLight))

/-- `shift_responses` (gw.py:142-172) for 1-d `theta`, `phi` of equal size `B`, vertices `(I, 3)` and responses
`(B', I', n)`.  `torch.gather` needs `B ≤ B'`, `I ≤ I'` and returns the shape of the index, `(B, I, n)`. -/
noncomputable def shiftResponses (responses theta phi vertices : Tensor ℝ) (sr : ℝ) : Res (Tensor ℝ) :=
  match responses.shape, theta.shape, vertices.shape with
  | [B', I', n], [B], [I, 3] =>
    if phi.shape ≠ [B] ∨ B' < B ∨ I' < I then .error .runtime
    else .ok ⟨[B, I, n], fun i =>
      let b := i.getD 0 0
      let ifo := i.getD 1 0
      let dt := delay (theta.get [b]) (phi.get [b]) sr (fun j => vertices.get [ifo, j])
      responses.get [b, ifo, (Int.emod ((i.getD 2 0 : ℕ) - dt) n).toNat]⟩        -- lines 169-172
  | _, _, _ => .error .runtime

/-- `torch.einsum("...pi,...pt->...it", antenna, pols)` for shapes `(B, P, I)` and `(B', P, T)`, where the
batch dimensions broadcast. (gw.py:236-238) -/
noncomputable def project (antenna pols : Tensor ℝ) : Res (Tensor ℝ) :=
  match antenna.shape, pols.shape with
  | [B, P, I], [B', P', T] =>
    if P ≠ P' ∨ ¬ (B = B' ∨ B = 1 ∨ B' = 1) then .error .runtime
    else .ok ⟨[if B = 1 then B' else B, I, T], fun i =>
      ∑ p ∈ range P, antenna.get [if B = 1 then 0 else i.getD 0 0, p, i.getD 1 0] *
        pols.get [if B' = 1 then 0 else i.getD 0 0, p, i.getD 2 0]⟩
  | _, _ => .error .runtime

/-- `torch.stack(list(polarizations.values()), axis=1)` of 2-d tensors (RuntimeError if there are none or
their shapes differ). (gw.py:233) -/
def stack1 (ps : List (Tensor ℝ)) : Res (Tensor ℝ) :=
  match ps with
  | [] => .error .runtime
  | p :: rest =>
    match p.shape with
    | [B, T] =>
      if rest.all fun q => decide (q.shape = [B, T]) then
        .ok ⟨[B, ps.length, T], fun i => (ps.getD (i.getD 1 0) p).get [i.getD 0 0, i.getD 2 0]⟩
      else .error .runtime
    | _ => .error .runtime

/-- `compute_observed_strain` (gw.py:175-242); the keyword arguments are an ordered list of names and tensors. -/
noncomputable def observedStrain (dec psi phi D vertices : Tensor ℝ) (sr : ℝ)
    (pols : List (String × Tensor ℝ)) : Res (Tensor ℝ) := do
  let theta := dec.map (Real.pi / 2 - ·)                                        -- line 228
  let antenna ← antennaResponses theta psi phi D (pols.map (·.1))               -- lines 229-231
  let stacked ← stack1 (pols.map (·.2))                                         -- line 233
  let waveforms ← project antenna stacked                                       -- lines 236-238
  shiftResponses waveforms theta phi vertices sr                                -- lines 240-242

/-- The data of an `InterferometerGeometry`. (interferometer.py:24-60) -/
structure Ifo where
  xArm : ℕ → ℝ
  yArm : ℕ → ℝ
  vertex : ℕ → ℝ

/-- `InterferometerGeometry(name)` (interferometer.py:24-64). -/
noncomputable def interferometer (name : String) : Res Ifo :=
  if name = "H1" then .ok
    ⟨vec3 (-0.22389266154) 0.79983062746 0.55690487831, vec3 (-0.91397818574) 0.02609403989 (-0.40492342125),
      vec3 (-2161414.92636) (-3834695.17889) 4600350.22664⟩
  else if name = "L1" then .ok
    ⟨vec3 (-0.95457412153) (-0.14158077340) (-0.26218911324), vec3 0.29774156894 (-0.48791033647) (-0.82054461286),
      vec3 (-74276.0447238) (-5496283.71971) 3224257.01744⟩
  else if name = "V1" then .ok
    ⟨vec3 (-0.70045821479) 0.20848948619 0.68256166277, vec3 (-0.05379255368) (-0.96908180549) 0.24080451708,
      vec3 4546374.09900 842989.697626 4378576.96241⟩
  else if name = "K1" then .ok
    ⟨vec3 (-0.3759040) (-0.8361583) 0.3994189, vec3 0.7164378 0.01114076 0.6975620,
      vec3 (-3777336.024) 3484898.411 3765313.697⟩
  else .error .value

/-- The detector tensor `plus(x_arm, y_arm) / 2` (gw.py:263). -/
noncomputable def Ifo.detector (g : Ifo) (j k : ℕ) : ℝ := plus g.xArm g.yArm j k / 2

/-- `get_ifo_geometry(*ifos)` (gw.py:245-269): stacked detector tensors `(I, 3, 3)` and vertices `(I, 3)`. -/
noncomputable def ifoGeometry (ifos : List String) : Res (Tensor ℝ × Tensor ℝ) := do
  let gs ← ifos.mapM interferometer                                             -- lines 261-265
  if gs.length = 0 then .error .runtime                                         -- line 267
  else .ok (⟨[gs.length, 3, 3], fun i => ((gs.map Ifo.detector).getD (i.getD 0 0) fun _ _ => 0) (i.getD 1 0) (i.getD 2 0)⟩,
    ⟨[gs.length, 3], fun i => ((gs.map Ifo.vertex).getD (i.getD 0 0) fun _ => 0) (i.getD 1 0)⟩)

/-- `WaveformProjector(ifos, sample_rate)(dec, psi, phi, **polarizations)` (waveforms.py:62-86). -/
noncomputable def waveformProjector (ifos : List String) (sr : ℝ) (dec psi phi : Tensor ℝ)
    (pols : List (String × Tensor ℝ)) : Res (Tensor ℝ) := do
  let (tensors, vertices) ← ifoGeometry ifos
  observedStrain dec psi phi tensors vertices sr pols

end Verif.Geometry
