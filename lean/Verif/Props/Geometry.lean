import Verif.Model.Geometry
import Verif.Spec.Geometry
import Verif.Lemmas.Ravel
import Verif.Lemmas.Chunk
import Verif.Lemmas.Whiten
import Mathlib.Tactic.IntervalCases
/-!
# Properties of the projection functions (C36, C37, C38)
-/
set_option linter.unusedSimpArgs false
set_option linter.unusedVariables false
namespace Verif.Geometry
open Finset Verif.Whiten Spec.Geometry

theorem mVec_eq (θ ψ φ : ℝ) : mVec θ ψ φ = axisM θ ψ φ := by
  funext j
  unfold mVec axisM uVec vVec eTheta ePhi vec3
  split_ifs <;> ring

theorem nVec_eq (θ ψ φ : ℝ) : nVec θ ψ φ = axisN θ ψ φ := by
  funext j
  unfold nVec axisN uVec vVec eTheta ePhi vec3
  split_ifs <;> ring

theorem omega_eq (θ φ : ℝ) : omega θ φ = direction θ φ := by
  funext j
  unfold omega direction vec3
  rfl

/-- The function a mode stands for. -/
def funcOf (mode : String) : PolFunc :=
  if mode = "plus" then plus else if mode = "cross" then cross else breathing

theorem polarizationFunc_ok (mode : String) (h : Known mode) : polarizationFunc mode = .ok (funcOf mode) := by
  rcases h with rfl | rfl | rfl <;> rfl

theorem funcOf_eq (mode : String) (m n : ℕ → ℝ) : funcOf mode m n = tensor mode m n := by
  funext j k
  unfold funcOf tensor
  split_ifs <;> simp [plus, cross, breathing, outer]

/-- **C36 (value).**  For angles of shape `(B,)`, detector tensors `(I, 3, 3)` and at least one mode, all known,
entry `(b, p, i)` is the response of detector `i` to mode `p` for source `b`. -/
theorem antenna_correct (theta psi phi D : Tensor ℝ) (B I : ℕ) (modes : List String)
    (ht : theta.shape = [B]) (hps : psi.shape = [B]) (hph : phi.shape = [B]) (hD : D.shape = [I, 3, 3])
    (hne : modes ≠ []) (hm : ∀ m ∈ modes, Known m) :
    ∃ F, antennaResponses theta psi phi D modes = .ok F ∧ F.shape = [B, modes.length, I] ∧
      ∀ b p i, b < B → (hp : p < modes.length) → i < I →
        F.get [b, p, i] = response modes[p] (theta.get [b]) (psi.get [b]) (phi.get [b]) (fun j k => D.get [i, j, k]) := by
  have h1 := mapM_ok polarizationFunc funcOf modes (fun m hmm => polarizationFunc_ok m (hm m hmm))
  have hl : ¬ ((modes.map funcOf).length = 0) := by
    rw [List.length_map, List.length_eq_zero_iff]; exact hne
  unfold antennaResponses
  dsimp only
  rw [ht, hps, hph, if_neg (by simp), h1]
  simp only [res_bind_ok, hl, if_false, hD]
  refine ⟨_, rfl, by simp [numel], ?_⟩
  intro b p i hb hp hi
  have hu : ∀ b < B, unravel [B] b = [b] := by
    intro b hb; simp [unravel, numel]
  simp only [List.getD_cons_zero, List.getD_cons_succ, hu b hb]
  rw [List.getD_eq_getElem _ _ (by simpa using hp), List.getElem_map, funcOf_eq, mVec_eq, nVec_eq]
  rfl

theorem mapM_error {β γ : Type _} (f : β → Res γ) (e : Err) (l : List β) (h : ∀ x ∈ l, (∃ y, f x = .ok y) ∨ f x = .error e)
    (x : β) (hx : x ∈ l) (hf : f x = .error e) : l.mapM f = .error e := by
  induction l with
  | nil => simp at hx
  | cons a l ih =>
    rw [List.mapM_cons]
    rcases h a (by simp) with ⟨y, hy⟩ | he
    · rw [hy]
      simp only [res_bind_ok]
      rcases List.mem_cons.1 hx with rfl | hx
      · rw [hf] at hy; cases hy
      · rw [ih (fun z hz => h z (by simp [hz])) hx]; rfl
    · rw [he]; rfl

theorem polarizationFunc_cases (m : String) : (∃ f, polarizationFunc m = .ok f) ∨ polarizationFunc m = .error .value := by
  unfold polarizationFunc
  split_ifs <;> simp

/-- **C36 (unknown mode).**  One unknown mode among the requested ones raises ValueError. -/
theorem antenna_unknown_mode (theta psi phi D : Tensor ℝ) (B : ℕ) (modes : List String)
    (ht : theta.shape = [B]) (hps : psi.shape = [B]) (hph : phi.shape = [B])
    (mode : String) (hmem : mode ∈ modes) (h : ¬ Known mode) :
    antennaResponses theta psi phi D modes = .error .value := by
  have h1 : polarizationFunc mode = .error .value := by
    unfold Known at h
    push Not at h
    unfold polarizationFunc
    rw [if_neg h.1, if_neg h.2.1, if_neg h.2.2]
  have h2 := mapM_error polarizationFunc .value modes (fun x _ => polarizationFunc_cases x) mode hmem h1
  unfold antennaResponses
  dsimp only
  rw [ht, hps, hph, if_neg (by simp), h2]
  rfl

example : antennaResponses ⟨[2], fun _ => 0⟩ ⟨[2], fun _ => 0⟩ ⟨[2], fun _ => 0⟩ ⟨[1, 3, 3], fun _ => 0⟩ ["plus", "x"] = .error .value :=
  antenna_unknown_mode _ _ _ _ 2 _ rfl rfl rfl "x" (by simp) (by unfold Known; decide)

/-- **C36 (basis).**  The polarization basis is orthonormal and perpendicular to the line of sight. -/
theorem basis_orthonormal (θ ψ φ : ℝ) :
    dot (mVec θ ψ φ) (mVec θ ψ φ) = 1 ∧ dot (nVec θ ψ φ) (nVec θ ψ φ) = 1 ∧ dot (mVec θ ψ φ) (nVec θ ψ φ) = 0 ∧
    dot (mVec θ ψ φ) (direction θ φ) = 0 ∧ dot (nVec θ ψ φ) (direction θ φ) = 0 ∧
    dot (direction θ φ) (direction θ φ) = 1 := by
  rw [mVec_eq, nVec_eq]
  have h1 := Real.sin_sq_add_cos_sq θ
  have h2 := Real.sin_sq_add_cos_sq φ
  have h3 := Real.sin_sq_add_cos_sq ψ
  simp only [dot, axisM, axisN, eTheta, ePhi, direction, if_true, one_ne_zero, if_false, OfNat.ofNat_ne_zero,
    OfNat.ofNat_ne_one]
  generalize Real.sin θ = a at *
  generalize Real.cos θ = b at *
  generalize Real.sin φ = c at *
  generalize Real.cos φ = d at *
  generalize Real.sin ψ = e at *
  generalize Real.cos ψ = f at *
  have hb : b ^ 2 = 1 - a ^ 2 := by linarith
  have hd : d ^ 2 = 1 - c ^ 2 := by linarith
  have hf : f ^ 2 = 1 - e ^ 2 := by linarith
  refine ⟨?_, ?_, ?_, ?_, ?_, ?_⟩
  · linear_combination (e ^ 2 * b ^ 2 + f ^ 2) * h2 + e ^ 2 * h1 + h3
  · linear_combination (f ^ 2 * b ^ 2 + e ^ 2) * h2 + f ^ 2 * h1 + h3
  · linear_combination (e * f * b ^ 2 - e * f) * h2 + e * f * h1
  · linear_combination (-e * b * a) * h2
  · linear_combination (-f * b * a) * h2
  · linear_combination a ^ 2 * h2 + h1

/-- **C36 (tensors).**  Plus and cross are symmetric, traceless and transverse; breathing is symmetric with
trace 2. -/
theorem tensors_symmetric_traceless (θ ψ φ : ℝ) :
    (∀ mode, Known mode → ∀ j k, tensor mode (axisM θ ψ φ) (axisN θ ψ φ) j k = tensor mode (axisM θ ψ φ) (axisN θ ψ φ) k j) ∧
    (∀ mode, mode = "plus" ∨ mode = "cross" → ∑ j ∈ range 3, tensor mode (axisM θ ψ φ) (axisN θ ψ φ) j j = 0) ∧
    (∑ j ∈ range 3, tensor "breathing" (axisM θ ψ φ) (axisN θ ψ φ) j j = 2) ∧
    (∀ mode, Known mode → ∀ j, ∑ k ∈ range 3, tensor mode (axisM θ ψ φ) (axisN θ ψ φ) j k * direction θ φ k = 0) := by
  obtain ⟨h1, h2, h3, h4, h5, h6⟩ := basis_orthonormal θ ψ φ
  rw [mVec_eq, nVec_eq] at *
  generalize axisM θ ψ φ = m at *
  generalize axisN θ ψ φ = n at *
  generalize direction θ φ = k at *
  unfold dot at *
  refine ⟨?_, ?_, ?_, ?_⟩
  · rintro mode (rfl | rfl | rfl) j k <;> simp [tensor] <;> ring
  · rintro mode (rfl | rfl) <;> simp [tensor, Finset.sum_range_succ] <;> linarith
  · simp [tensor, Finset.sum_range_succ]; linarith
  · rintro mode (rfl | rfl | rfl) j <;> simp [tensor, Finset.sum_range_succ]
    · linear_combination m j * h4 - n j * h5
    · linear_combination n j * h4 + m j * h5
    · linear_combination m j * h4 + n j * h5

theorem axisM_rot (θ ψ φ δ : ℝ) (j : ℕ) :
    axisM θ (ψ + δ) φ j = Real.cos δ * axisM θ ψ φ j + Real.sin δ * axisN θ ψ φ j := by
  unfold axisM axisN; rw [Real.sin_add, Real.cos_add]; ring

theorem axisN_rot (θ ψ φ δ : ℝ) (j : ℕ) :
    axisN θ (ψ + δ) φ j = Real.cos δ * axisN θ ψ φ j - Real.sin δ * axisM θ ψ φ j := by
  unfold axisM axisN; rw [Real.sin_add, Real.cos_add]; ring

/-- **C36 (rotation).**  Rotating the polarization angle by `δ` rotates the pair (plus, cross) by `2δ` and
leaves breathing unchanged. -/
theorem response_rotation (θ ψ φ δ : ℝ) (D : ℕ → ℕ → ℝ) :
    response "plus" θ (ψ + δ) φ D = Real.cos (2 * δ) * response "plus" θ ψ φ D + Real.sin (2 * δ) * response "cross" θ ψ φ D ∧
    response "cross" θ (ψ + δ) φ D = Real.cos (2 * δ) * response "cross" θ ψ φ D - Real.sin (2 * δ) * response "plus" θ ψ φ D ∧
    response "breathing" θ (ψ + δ) φ D = response "breathing" θ ψ φ D := by
  have hc := Real.sin_sq_add_cos_sq δ
  unfold response
  refine ⟨?_, ?_, ?_⟩
  · rw [Finset.mul_sum, Finset.mul_sum, ← Finset.sum_add_distrib]
    refine Finset.sum_congr rfl fun j _ => ?_
    rw [Finset.mul_sum, Finset.mul_sum, ← Finset.sum_add_distrib]
    refine Finset.sum_congr rfl fun k _ => ?_
    simp only [tensor, if_true, axisM_rot, axisN_rot, Real.cos_two_mul, Real.sin_two_mul, String.reduceEq, if_false]
    linear_combination (axisM θ ψ φ j * axisM θ ψ φ k - axisN θ ψ φ j * axisN θ ψ φ k) * D j k * (-hc)
  · rw [Finset.mul_sum, Finset.mul_sum, ← Finset.sum_sub_distrib]
    refine Finset.sum_congr rfl fun j _ => ?_
    rw [Finset.mul_sum, Finset.mul_sum, ← Finset.sum_sub_distrib]
    refine Finset.sum_congr rfl fun k _ => ?_
    simp only [tensor, if_true, axisM_rot, axisN_rot, Real.cos_two_mul, Real.sin_two_mul, String.reduceEq, if_false]
    linear_combination (axisM θ ψ φ j * axisN θ ψ φ k + axisN θ ψ φ j * axisM θ ψ φ k) * D j k * (-hc)
  · refine Finset.sum_congr rfl fun j _ => Finset.sum_congr rfl fun k _ => ?_
    simp only [tensor, axisM_rot, axisN_rot, String.reduceEq, if_false]
    linear_combination (axisM θ ψ φ j * axisM θ ψ φ k + axisN θ ψ φ j * axisN θ ψ φ k) * D j k * hc

/-- **C36 (symmetries in ψ, on the API).**  For any sources and detectors: with `psi` shifted by `π` all
responses are the same, with `psi` shifted by `π/2` plus and cross change sign, and for every shift
`F₊² + F×²` and the breathing response do not change. -/
theorem antenna_psi_symmetry (theta psi phi D : Tensor ℝ) (B I : ℕ) (δ : ℝ)
    (ht : theta.shape = [B]) (hps : psi.shape = [B]) (hph : phi.shape = [B]) (hD : D.shape = [I, 3, 3]) :
    ∃ F F' : Tensor ℝ, antennaResponses theta psi phi D ["plus", "cross", "breathing"] = .ok F ∧
      antennaResponses theta (psi.map (· + δ)) phi D ["plus", "cross", "breathing"] = .ok F' ∧
      ∀ b i, b < B → i < I →
        (δ = Real.pi → ∀ p < 3, F'.get [b, p, i] = F.get [b, p, i]) ∧
        (δ = Real.pi / 2 → ∀ p < 2, F'.get [b, p, i] = -F.get [b, p, i]) ∧
        F'.get [b, 0, i] ^ 2 + F'.get [b, 1, i] ^ 2 = F.get [b, 0, i] ^ 2 + F.get [b, 1, i] ^ 2 ∧
        F'.get [b, 2, i] = F.get [b, 2, i] := by
  have hk : ∀ m ∈ (["plus", "cross", "breathing"] : List String), Known m := by
    intro m hm; simp only [List.mem_cons, List.not_mem_nil, or_false] at hm; exact hm
  obtain ⟨F, h1, -, h3⟩ := antenna_correct theta psi phi D B I _ ht hps hph hD (by simp) hk
  obtain ⟨F', h1', -, h3'⟩ := antenna_correct theta (psi.map (· + δ)) phi D B I _ ht (by simpa [Tensor.map] using hps) hph hD (by simp) hk
  refine ⟨F, F', h1, h1', ?_⟩
  intro b i hb hi
  obtain ⟨r0, r1, r2⟩ := response_rotation (theta.get [b]) (psi.get [b]) (phi.get [b]) δ (fun j k => D.get [i, j, k])
  have e0 := h3 b 0 i hb (by simp) hi
  have e1 := h3 b 1 i hb (by simp) hi
  have e2 := h3 b 2 i hb (by simp) hi
  have f0 := h3' b 0 i hb (by simp) hi
  have f1 := h3' b 1 i hb (by simp) hi
  have f2 := h3' b 2 i hb (by simp) hi
  simp only [List.getElem_cons_zero, List.getElem_cons_succ, Tensor.map] at e0 e1 e2 f0 f1 f2
  rw [r0] at f0
  rw [r1] at f1
  rw [r2, ← e2] at f2
  rw [← e0, ← e1] at f0 f1
  refine ⟨?_, ?_, ?_, f2⟩
  · rintro rfl p hp
    rw [Real.cos_two_pi, Real.sin_two_pi] at f0 f1
    interval_cases p
    · rw [f0]; ring
    · rw [f1]; ring
    · exact f2
  · rintro rfl p hp
    rw [show 2 * (Real.pi / 2) = Real.pi by ring, Real.cos_pi, Real.sin_pi] at f0 f1
    interval_cases p
    · rw [f0]; ring
    · rw [f1]; ring
  · rw [f0, f1]
    have := Real.sin_sq_add_cos_sq (2 * δ)
    linear_combination (F.get [b, 0, i] ^ 2 + F.get [b, 1, i] ^ 2) * this

/-- Non-vacuity of `antenna_correct`: an overhead source and a detector with arms along the axes. -/
example : ∃ F, antennaResponses ⟨[1], fun _ => 0⟩ ⟨[1], fun _ => 0⟩ ⟨[1], fun _ => 0⟩
    ⟨[1, 3, 3], fun i => if i = [0, 0, 0] then 1/2 else if i = [0, 1, 1] then -1/2 else 0⟩ ["cross", "plus"] = .ok F ∧
    F.get [0, 1, 0] = -1 ∧ F.get [0, 0, 0] = 0 := by
  obtain ⟨F, h1, -, h3⟩ := antenna_correct (⟨[1], fun _ => 0⟩ : Tensor ℝ) ⟨[1], fun _ => 0⟩ ⟨[1], fun _ => 0⟩
    ⟨[1, 3, 3], fun i => if i = [0, 0, 0] then 1/2 else if i = [0, 1, 1] then -1/2 else 0⟩ 1 1 ["cross", "plus"] rfl rfl rfl rfl
    (by simp) (by intro m hm; simp at hm; rcases hm with rfl | rfl <;> simp [Known])
  refine ⟨F, h1, ?_, ?_⟩
  · rw [h3 0 1 0 (by norm_num) (by simp) (by norm_num)]
    simp [response, tensor, axisM, axisN, eTheta, ePhi, Finset.sum_range_succ]; norm_num
  · rw [h3 0 0 0 (by norm_num) (by simp) (by norm_num)]
    simp [response, tensor, axisM, axisN, eTheta, ePhi, Finset.sum_range_succ]

/-- **C36 (sensitivity bound).**  For a detector tensor built from two arms, `F₊² + F×²` is at most the square
of the mean of the squared arm lengths (1 for unit arms), for every source and polarization angle. -/
theorem antenna_bound (θ ψ φ : ℝ) (g : Ifo) :
    response "plus" θ ψ φ g.detector ^ 2 + response "cross" θ ψ φ g.detector ^ 2 ≤
      ((dot g.xArm g.xArm + dot g.yArm g.yArm) / 2) ^ 2 := by
  obtain ⟨h1, h2, h3, -, -, -⟩ := basis_orthonormal θ ψ φ
  rw [mVec_eq, nVec_eq] at *
  have hp : response "plus" θ ψ φ g.detector =
      (dot (axisM θ ψ φ) g.xArm ^ 2 - dot (axisN θ ψ φ) g.xArm ^ 2 - (dot (axisM θ ψ φ) g.yArm ^ 2 - dot (axisN θ ψ φ) g.yArm ^ 2)) / 2 := by
    simp [response, tensor, Ifo.detector, plus, outer, dot, Finset.sum_range_succ]; ring
  have hc : response "cross" θ ψ φ g.detector =
      dot (axisM θ ψ φ) g.xArm * dot (axisN θ ψ φ) g.xArm - dot (axisM θ ψ φ) g.yArm * dot (axisN θ ψ φ) g.yArm := by
    simp [response, tensor, Ifo.detector, plus, outer, dot, Finset.sum_range_succ]; ring
  rw [hp, hc]
  generalize axisM θ ψ φ = m at *
  generalize axisN θ ψ φ = n at *
  -- Bessel's inequality
  have bessel : ∀ x : ℕ → ℝ, dot m x ^ 2 + dot n x ^ 2 ≤ dot x x := by
    intro x
    have : 0 ≤ (x 0 - dot m x * m 0 - dot n x * n 0) ^ 2 + (x 1 - dot m x * m 1 - dot n x * n 1) ^ 2 +
        (x 2 - dot m x * m 2 - dot n x * n 2) ^ 2 := by positivity
    have e : (x 0 - dot m x * m 0 - dot n x * n 0) ^ 2 + (x 1 - dot m x * m 1 - dot n x * n 1) ^ 2 +
        (x 2 - dot m x * m 2 - dot n x * n 2) ^ 2 = dot x x - 2 * dot m x ^ 2 - 2 * dot n x ^ 2 + dot m x ^ 2 * dot m m
          + dot n x ^ 2 * dot n n + 2 * dot m x * dot n x * dot m n := by
      unfold dot; ring
    rw [e, h1, h2, h3] at this
    linarith
  have b1 := bessel g.xArm
  have b2 := bessel g.yArm
  generalize dot m g.xArm = a at *
  generalize dot n g.xArm = b at *
  generalize dot m g.yArm = c at *
  generalize dot n g.yArm = d at *
  generalize dot g.xArm g.xArm = X at *
  generalize dot g.yArm g.yArm = Y at *
  have key : ((a ^ 2 - b ^ 2 - (c ^ 2 - d ^ 2)) / 2) ^ 2 + (a * b - c * d) ^ 2 ≤ ((a ^ 2 + b ^ 2 + (c ^ 2 + d ^ 2)) / 2) ^ 2 := by
    nlinarith [sq_nonneg (a * c + b * d), sq_nonneg (a * d - b * c)]
  refine le_trans key ?_
  apply pow_le_pow_left₀ (by positivity)
  linarith

/-- **C37 (value).**  With `B` sources, `I` interferometers and responses `(B, I, n)`, the output at time `t` is the
response at `(t - d) mod n`, `d` being the truncated delay of the source at that interferometer. -/
theorem shift_correct (x theta phi v : Tensor ℝ) (B I n : ℕ) (sr : ℝ) (hx : x.shape = [B, I, n])
    (ht : theta.shape = [B]) (hp : phi.shape = [B]) (hv : v.shape = [I, 3]) :
    ∃ y, shiftResponses x theta phi v sr = .ok y ∧ y.shape = x.shape ∧
      ∀ b i t, t < n → ∃ s : ℕ, s < n ∧ y.get [b, i, t] = x.get [b, i, s] ∧
        ((s : ℤ) + pyInt (-(dot (direction (theta.get [b]) (phi.get [b])) fun j => v.get [i, j]) * (sr / 299792458)) - t) % n = 0 := by
  unfold shiftResponses
  rw [hx, ht, hv]
  simp only [hp, ne_eq, not_true_eq_false, lt_self_iff_false, or_self, if_false]
  refine ⟨_, rfl, rfl, ?_⟩
  intro b i t htn
  have hn : (n : ℤ) ≠ 0 := by omega
  have hd : delay (theta.get [b]) (phi.get [b]) sr (fun j => v.get [i, j]) =
      pyInt (-(dot (direction (theta.get [b]) (phi.get [b])) fun j => v.get [i, j]) * (sr / 299792458)) := by
    unfold delay
    rw [omega_eq]
    simp [Finset.sum_range_succ, dot, speedOfLight]
  dsimp only
  simp only [List.getD_cons_zero, List.getD_cons_succ]
  rw [hd]
  generalize pyInt (-(dot (direction (theta.get [b]) (phi.get [b])) fun j => v.get [i, j]) * (sr / 299792458)) = d
  have h0 : 0 ≤ ((t : ℤ) - d) % n := Int.emod_nonneg _ hn
  have h1 : ((t : ℤ) - d) % n < n := Int.emod_lt_of_pos _ (by omega)
  refine ⟨(((t : ℤ) - d) % n).toNat, by omega, rfl, ?_⟩
  rw [Int.toNat_of_nonneg h0]
  have := Int.emod_add_mul_ediv ((t : ℤ) - d) n
  have e : ((t : ℤ) - d) % n + d - t = n * (-(((t : ℤ) - d) / n)) := by linarith
  rw [e, Int.mul_emod_right]

/-- The roll by `d` as a map of positions. -/
def rollIdx (n : ℕ) (d : ℤ) (t : ℕ) : ℕ := (Int.emod ((t : ℤ) - d) n).toNat

theorem rollIdx_lt (n : ℕ) (d : ℤ) (t : ℕ) (h : 0 < n) : rollIdx n d t < n := by
  unfold rollIdx
  have h0 := Int.emod_nonneg ((t : ℤ) - d) (b := n) (by omega)
  have h1 := Int.emod_lt_of_pos ((t : ℤ) - d) (b := n) (by omega)
  have e : Int.emod ((t : ℤ) - d) n = ((t : ℤ) - d) % n := rfl
  omega

theorem rollIdx_inv (n : ℕ) (d : ℤ) (t : ℕ) (h : t < n) : rollIdx n (-d) (rollIdx n d t) = t := by
  unfold rollIdx
  have h0 := Int.emod_nonneg ((t : ℤ) - d) (b := n) (by omega)
  have e : Int.emod ((t : ℤ) - d) n = ((t : ℤ) - d) % n := rfl
  rw [e, Int.toNat_of_nonneg h0]
  have e2 : Int.emod (((t : ℤ) - d) % n - -d) n = (((t : ℤ) - d) % n - -d) % n := rfl
  rw [e2, sub_neg_eq_add, Int.emod_add_emod, sub_add_cancel, Int.emod_eq_of_lt (by omega) (by omega)]
  simp

/-- **C37 (no sample lost).**  Every interferometer's output samples are a permutation of its input samples. -/
theorem shift_permutes (x theta phi v y : Tensor ℝ) (B I n : ℕ) (sr : ℝ) (hx : x.shape = [B, I, n])
    (ht : theta.shape = [B]) (hp : phi.shape = [B]) (hv : v.shape = [I, 3])
    (hy : shiftResponses x theta phi v sr = .ok y) (b i : ℕ) :
    ((List.range n).map fun t => y.get [b, i, t]).Perm ((List.range n).map fun t => x.get [b, i, t]) := by
  have hyg : ∃ d : ℤ, ∀ t, y.get [b, i, t] = x.get [b, i, rollIdx n d t] := by
    unfold shiftResponses at hy
    rw [hx, ht, hv] at hy
    simp only [hp, ne_eq, not_true_eq_false, lt_self_iff_false, or_self, if_false] at hy
    obtain rfl := Except.ok.inj hy
    exact ⟨delay (theta.get [b]) (phi.get [b]) sr (fun j => v.get [i, j]), fun t => rfl⟩
  obtain ⟨d, hd⟩ := hyg
  simp only [hd]
  rw [show (fun t => x.get [b, i, rollIdx n d t]) = (fun t => x.get [b, i, t]) ∘ rollIdx n d from rfl, ← List.map_map]
  apply List.Perm.map
  have hnd : ((List.range n).map (rollIdx n d)).Nodup := by
    refine List.Nodup.map_on ?_ (List.nodup_range)
    intro a ha c hc hac
    have := congrArg (rollIdx n (-d)) hac
    rwa [rollIdx_inv n d a (by simpa using ha), rollIdx_inv n d c (by simpa using hc)] at this
  rw [List.perm_ext_iff_of_nodup hnd List.nodup_range]
  intro a
  simp only [List.mem_map, List.mem_range]
  constructor
  · rintro ⟨t, htn, rfl⟩; exact rollIdx_lt n d t (by omega)
  · intro ha
    refine ⟨rollIdx n (-d) a, rollIdx_lt n _ a (by omega), ?_⟩
    have := rollIdx_inv n (-d) a ha
    rwa [neg_neg] at this

example : ∃ y, shiftResponses ⟨[1, 1, 4], fun i => (i.getD 2 0 : ℝ)⟩ ⟨[1], fun _ => 0⟩ ⟨[1], fun _ => 0⟩
    ⟨[1, 3], fun i => if i.getD 1 0 = 2 then -299792458 else 0⟩ 1 = .ok y ∧ y.get [0, 0, 0] = 3 := by
  obtain ⟨y, h1, -, h3⟩ := shift_correct (⟨[1, 1, 4], fun i => (i.getD 2 0 : ℝ)⟩ : Tensor ℝ) ⟨[1], fun _ => 0⟩ ⟨[1], fun _ => 0⟩
    ⟨[1, 3], fun i => if i.getD 1 0 = 2 then -299792458 else 0⟩ 1 1 4 1 rfl rfl rfl rfl
  refine ⟨y, h1, ?_⟩
  obtain ⟨s, hs, h, hm⟩ := h3 0 0 0 (by norm_num)
  have hd : pyInt (-(dot (direction 0 0) fun j => (if j = 2 then -299792458 else 0 : ℝ)) * (1 / 299792458)) = 1 := by
    unfold pyInt
    norm_num [dot, direction]
  simp only [List.getD_cons_zero, List.getD_cons_succ] at hm
  rw [hd] at hm
  rw [h]
  have : s = 3 := by omega
  subst this
  norm_num

/-- **C37 (rejection).**  Fewer responses than sources or than vertices, or as many `phi` as not `theta`, raise RuntimeError. -/
theorem shift_rejects (x theta phi v : Tensor ℝ) (B B' I I' n : ℕ) (sr : ℝ) (hx : x.shape = [B', I', n]) (ht : theta.shape = [B]) (hv : v.shape = [I, 3])
    (h : phi.shape ≠ [B] ∨ B' < B ∨ I' < I) : shiftResponses x theta phi v sr = .error .runtime := by
  unfold shiftResponses
  rw [hx, ht, hv]
  exact if_pos h

example : shiftResponses ⟨[1, 1, 4], fun i => (i.getD 2 0 : ℝ)⟩ ⟨[1], fun _ => 0⟩ ⟨[1], fun _ => 0⟩ ⟨[2, 3], fun _ => 0⟩ 1 = .error .runtime :=
  shift_rejects _ _ _ _ 1 1 2 1 4 1 rfl rfl rfl (Or.inr (Or.inr (by norm_num)))

/-- **C37 (finding).**  Sky parameters for fewer sources than waveforms are not rejected: only the first
waveforms are returned. -/
theorem shift_drops_waveforms (x theta phi v : Tensor ℝ) (B B' I n : ℕ) (sr : ℝ) (h : B < B') (hx : x.shape = [B', I, n])
    (ht : theta.shape = [B]) (hp : phi.shape = [B]) (hv : v.shape = [I, 3]) :
    ∃ y, shiftResponses x theta phi v sr = .ok y ∧ y.shape = [B, I, n] := by
  unfold shiftResponses
  rw [hx, ht, hv]
  simp only [hp, ne_eq, not_true_eq_false, not_lt.2 h.le, lt_self_iff_false, or_self, if_false]
  exact ⟨_, rfl, rfl⟩

example : ∃ y, shiftResponses ⟨[5, 2, 8], fun _ => 0⟩ ⟨[1], fun _ => 0⟩ ⟨[1], fun _ => 0⟩ ⟨[2, 3], fun _ => 0⟩ 1 = .ok y ∧ y.shape = [1, 2, 8] :=
  shift_drops_waveforms _ _ _ _ 1 5 2 8 1 (by norm_num) rfl rfl rfl rfl

theorem pyInt_abs (r : ℝ) : |(pyInt r : ℝ)| ≤ |r| := by
  unfold pyInt
  split_ifs with h
  · have h1 : (0 : ℝ) ≤ ⌊r⌋ := by exact_mod_cast Int.floor_nonneg.2 h
    rw [abs_of_nonneg h1, abs_of_nonneg h]
    exact Int.floor_le r
  · push Not at h
    have h1 : (⌈r⌉ : ℝ) ≤ 0 := by exact_mod_cast Int.ceil_nonpos.2 h.le
    rw [abs_of_nonpos h1, abs_of_neg h]
    linarith [Int.le_ceil r]

/-- **C37 (causal bound).**  The delay never exceeds the light travel time from the geocenter:
`|d| ≤ R * sample_rate / c` for a vertex at distance at most `R`. -/
theorem delay_bound (θ φ sr R : ℝ) (hsr : 0 ≤ sr) (hR : 0 ≤ R) (v : ℕ → ℝ) (hv : dot v v ≤ R ^ 2) :
    |(delay θ φ sr v : ℝ)| ≤ R * sr / 299792458 := by
  unfold delay
  refine le_trans (pyInt_abs _) ?_
  have h6 := (basis_orthonormal θ 0 φ).2.2.2.2.2
  have hs : ∑ j ∈ range 3, omega θ φ j * v j = dot (direction θ φ) v := by
    rw [omega_eq]; simp [Finset.sum_range_succ, dot]
  rw [hs, abs_mul, abs_neg, abs_of_nonneg (by unfold speedOfLight; positivity : 0 ≤ sr / speedOfLight)]
  have hcs : dot (direction θ φ) v ^ 2 ≤ R ^ 2 := by
    generalize direction θ φ = k at *
    have : dot k v ^ 2 ≤ dot k k * dot v v := by
      unfold dot
      nlinarith [sq_nonneg (k 0 * v 1 - k 1 * v 0), sq_nonneg (k 0 * v 2 - k 2 * v 0), sq_nonneg (k 1 * v 2 - k 2 * v 1)]
    rw [h6, one_mul] at this
    linarith
  have : |dot (direction θ φ) v| ≤ R := abs_le_of_sq_le_sq hcs hR
  unfold speedOfLight
  rw [mul_div_assoc]
  exact mul_le_mul_of_nonneg_right this (by positivity)

/-- At the north pole a vertex one light-second towards the source is ahead by one second. -/
example : |(delay 0 0 16 (vec3 0 0 299792458) : ℝ)| ≤ 16 := by
  have := delay_bound 0 0 16 299792458 (by norm_num) (by norm_num) (vec3 0 0 299792458) (by norm_num [dot, vec3])
  refine le_trans this ?_
  norm_num

/-- **C38 (lookup).**  Exactly the four names are known; everything else raises ValueError. -/
theorem interferometer_known (name : String) :
    (∃ g, interferometer name = .ok g) ↔ name = "H1" ∨ name = "L1" ∨ name = "V1" ∨ name = "K1" := by
  unfold interferometer
  split_ifs with h1 h2 h3 h4 <;> simp_all

theorem interferometer_unknown (name : String) (h : ¬ (name = "H1" ∨ name = "L1" ∨ name = "V1" ∨ name = "K1")) :
    interferometer name = .error .value := by
  push Not at h
  unfold interferometer
  rw [if_neg h.1, if_neg h.2.1, if_neg h.2.2.1, if_neg h.2.2.2]

example : interferometer "G1" = .error .value := interferometer_unknown _ (by decide)

/-- **C38 (sane data).**  Every known interferometer has arms of unit length (to 1e-6), almost perpendicular
(scalar product at most 1/200), and a vertex between 6350 and 6380 km from the geocenter. -/
theorem interferometer_sane (name : String) (g : Ifo) (h : interferometer name = .ok g) :
    |dot g.xArm g.xArm - 1| ≤ 1 / 1000000 ∧ |dot g.yArm g.yArm - 1| ≤ 1 / 1000000 ∧
    |dot g.xArm g.yArm| ≤ 1 / 200 ∧
    6350000 ^ 2 ≤ dot g.vertex g.vertex ∧ dot g.vertex g.vertex ≤ 6380000 ^ 2 := by
  unfold interferometer at h
  split_ifs at h with h1 h2 h3 h4
  all_goals
    obtain rfl := Except.ok.inj h
    simp only [dot, vec3, if_true, one_ne_zero, if_false, OfNat.ofNat_ne_zero, OfNat.ofNat_ne_one, abs_le]
    norm_num

/-- **C37, C38.**  At every known interferometer the delay is below 21.3 ms times the sample rate. -/
theorem known_delay_bound (name : String) (g : Ifo) (h : interferometer name = .ok g) (θ φ sr : ℝ) (hsr : 0 ≤ sr) :
    |(delay θ φ sr g.vertex : ℝ)| ≤ 0.0213 * sr := by
  have := delay_bound θ φ sr 6380000 hsr (by norm_num) g.vertex (interferometer_sane name g h).2.2.2.2
  refine le_trans this ?_
  rw [div_le_iff₀ (by norm_num)]
  nlinarith

/-- **C36, C38.**  The sensitivity `F₊² + F×²` of a known interferometer never exceeds 1 by more than 1e-5. -/
theorem known_sensitivity (name : String) (g : Ifo) (h : interferometer name = .ok g) (θ ψ φ : ℝ) :
    response "plus" θ ψ φ g.detector ^ 2 + response "cross" θ ψ φ g.detector ^ 2 ≤ 1 + 1 / 100000 := by
  have hb := antenna_bound θ ψ φ g
  obtain ⟨h1, h2, -, -, -⟩ := interferometer_sane name g h
  rw [abs_le] at h1 h2
  refine le_trans hb ?_
  nlinarith

example : ∃ g, interferometer "H1" = .ok g := (interferometer_known "H1").2 (Or.inl rfl)

/-- **C38 (order).**  `get_ifo_geometry` stacks the detector tensor `(x⊗x - y⊗y)/2` and vertex of each requested
interferometer in the order requested; the tensors are symmetric. -/
theorem ifo_geometry_correct (ifos : List String) (hne : ifos ≠ [])
    (h : ∀ n ∈ ifos, n = "H1" ∨ n = "L1" ∨ n = "V1" ∨ n = "K1") :
    ∃ D v, ifoGeometry ifos = .ok (D, v) ∧ D.shape = [ifos.length, 3, 3] ∧ v.shape = [ifos.length, 3] ∧
      ∀ i, (hi : i < ifos.length) → ∃ g, interferometer ifos[i] = .ok g ∧
        ∀ j k, D.get [i, j, k] = (g.xArm j * g.xArm k - g.yArm j * g.yArm k) / 2 ∧
          D.get [i, j, k] = D.get [i, k, j] ∧ v.get [i, j] = g.vertex j := by
  obtain ⟨gs, h1, h2⟩ := mapM_ok_exists interferometer (fun n g => interferometer n = .ok g) ifos
    (fun n hn => let ⟨g, hg⟩ := (interferometer_known n).2 (h n hn); ⟨g, hg, hg⟩)
  have hl : gs.length = ifos.length := h2.length_eq.symm
  have h0 : ¬ (gs.length = 0) := by rw [hl, List.length_eq_zero_iff]; exact hne
  unfold ifoGeometry
  simp only [h1, res_bind_ok, h0, if_false]
  refine ⟨_, _, rfl, by rw [hl], by rw [hl], ?_⟩
  intro i hi
  refine ⟨gs[i]'(by omega), ?_, ?_⟩
  · exact (List.forall₂_iff_get.1 h2).2 i hi (by omega)
  · intro j k
    simp only [List.getD_cons_zero, List.getD_cons_succ]
    rw [List.getD_eq_getElem _ _ (by simpa using (by omega : i < gs.length)),
      List.getD_eq_getElem _ _ (by simpa using (by omega : i < gs.length)), List.getElem_map, List.getElem_map]
    refine ⟨rfl, ?_, rfl⟩
    unfold Ifo.detector plus outer
    ring

theorem ifo_geometry_unknown (ifos : List String) (n : String) (hn : n ∈ ifos)
    (h : ¬ (n = "H1" ∨ n = "L1" ∨ n = "V1" ∨ n = "K1")) : ifoGeometry ifos = .error .value := by
  have h2 := mapM_error interferometer .value ifos (fun x _ => by
    by_cases hx : x = "H1" ∨ x = "L1" ∨ x = "V1" ∨ x = "K1"
    · exact Or.inl ((interferometer_known x).2 hx)
    · exact Or.inr (interferometer_unknown x hx)) n hn (interferometer_unknown n h)
  unfold ifoGeometry
  rw [h2]; rfl

example : ifoGeometry ["H1", "X1", "L1"] = .error .value := ifo_geometry_unknown _ "X1" (by simp) (by decide)

example : ∃ D v, ifoGeometry ["L1", "H1"] = .ok (D, v) ∧ v.get [0, 0] = -74276.0447238 := by
  obtain ⟨D, v, h1, -, -, h4⟩ := ifo_geometry_correct ["L1", "H1"] (by simp) (by intro n hn; simp at hn; rcases hn with rfl | rfl <;> simp)
  refine ⟨D, v, h1, ?_⟩
  obtain ⟨g, hg, hv⟩ := h4 0 (by simp)
  rw [(hv 0 0).2.2]
  have : interferometer "L1" = .ok g := hg
  unfold interferometer at this
  rw [if_neg (by decide), if_pos rfl] at this
  obtain rfl := Except.ok.inj this
  simp [vec3]

end Verif.Geometry
