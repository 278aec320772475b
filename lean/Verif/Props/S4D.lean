import Verif.Model.S4D
import Verif.Spec.S4D
import Verif.Lemmas.Convolution
import Verif.Lemmas.Fold
import Verif.Lemmas.Spectral
import Mathlib.Analysis.SpecialFunctions.Pow.Real
import Mathlib.Algebra.BigOperators.Field
import Mathlib.Analysis.SpecificLimits.Basic
import Mathlib.Analysis.SpecificLimits.Normed
import Mathlib.Analysis.SpecialFunctions.ExpDeriv
import Mathlib.Tactic.FieldSimp
import Mathlib.Tactic.Positivity
/-!
# Properties of the S4D layer (C65)
-/
set_option linter.unusedSimpArgs false
set_option linter.unusedVariables false
namespace Verif.S4D
open Finset Fourier Spec

theorem fftConv_eq (L : ℕ) (k u : ℕ → ℝ) (t : ℕ) (ht : t < L) : fftConv L k u t = ∑ j ∈ range (t + 1), k (t - j) * u j := by
  unfold fftConv
  rw [irfft_conv L (padded L k) (padded L u) (fun s hs => if_neg (by omega)) (fun s hs => if_neg (by omega)) t (by omega)]
  unfold causal
  refine Finset.sum_congr rfl fun j hj => ?_
  have : j < t + 1 := by simpa using hj
  rw [padded, padded, if_pos (by omega), if_pos (by omega)]

theorem A_ne_zero (p : Kernel) (h n : ℕ) : p.A h n ≠ 0 := by
  intro e
  have := congrArg Complex.re e
  simp [Kernel.A] at this

theorem state_closed (a : ℂ) (dt : ℝ) (u : ℕ → ℝ) (t : ℕ) :
    state a dt u t = ∑ j ∈ range t, (Complex.exp (a * dt) - 1) / a * Complex.exp (a * dt * ((t - 1 - j : ℕ) : ℂ)) * u j := by
  induction t with
  | zero => simp [state]
  | succ t ih =>
    rw [state, ih, Finset.sum_range_succ, Finset.mul_sum]
    congr 1
    · refine Finset.sum_congr rfl fun j hj => ?_
      have hj' : j < t := by simpa using hj
      have : t + 1 - 1 - j = (t - 1 - j) + 1 := by omega
      rw [this]
      push_cast
      rw [mul_add, Complex.exp_add, mul_one]
      ring
    · simp

/-- **C65 (FFT convolution is the state recurrence).**  The FFT product of kernel and input equals, at every time, the output
`2 Re Σ_n C_n x_n(t+1)` of the recurrence `x_n(t+1) = e^{dt A_n} x_n(t) + (e^{dt A_n} - 1)/A_n u_t`, `x_n(0) = 0`; there is no
wrap-around. -/
theorem s4d_conv_recurrence (p : Kernel) (h L : ℕ) (u : ℕ → ℝ) (t : ℕ) (ht : t < L) :
    fftConv L (p.K h) u t = 2 * (∑ n ∈ range p.half, p.C h n * state (p.A h n) (Real.exp (p.logDt h)) u (t + 1)).re := by
  rw [fftConv_eq L _ u t ht]
  simp only [state_closed, Kernel.K]
  have : ∀ j ∈ range (t + 1), 2 * (∑ n ∈ range p.half, p.C h n * (Complex.exp (p.dtA h n) - 1) / p.A h n * Complex.exp (p.dtA h n * ((t - j : ℕ) : ℂ))).re * u j =
      2 * (∑ n ∈ range p.half, p.C h n * ((Complex.exp (p.dtA h n) - 1) / p.A h n * Complex.exp (p.dtA h n * ((t - j : ℕ) : ℂ)) * u j)).re := by
    intro j _
    rw [mul_assoc, ← Complex.re_mul_ofReal, Finset.sum_mul]
    congr 2
    refine Finset.sum_congr rfl fun n _ => ?_
    ring
  rw [Finset.sum_congr rfl this, ← Finset.mul_sum, ← Complex.re_sum, Finset.sum_comm]
  congr 2
  refine Finset.sum_congr rfl fun n _ => ?_
  rw [← Finset.mul_sum]
  rfl

/-- **C65 (zero-order hold).**  The recurrence is the exact solution of `x' = A x + u` for an input that is constant over each step: the
flow solves the equation and one step of the recurrence is the flow over `dt`. -/
theorem s4d_zero_order_hold (a : ℂ) (ha : a ≠ 0) (dt : ℝ) (u : ℕ → ℝ) :
    (∀ x0 : ℂ, ∀ v s : ℝ, flow a x0 v 0 = x0 ∧ HasDerivAt (flow a x0 v) (a * flow a x0 v s + v) s) ∧
    ∀ t, state a dt u (t + 1) = flow a (state a dt u t) (u t) dt := by
  refine ⟨?_, fun t => rfl⟩
  intro x0 v s
  refine ⟨by simp [flow], ?_⟩
  have h1 : HasDerivAt (fun s : ℝ => a * (s : ℂ)) a s := by
    simpa using (Complex.ofRealCLM.hasDerivAt (x := s)).const_mul a
  have h2 := h1.cexp
  have h3 := (h2.mul_const x0).add (((h2.sub_const 1).div_const a).mul_const (v : ℂ))
  refine h3.congr_deriv ?_
  simp only [flow]
  field_simp
  ring

/-- Non-vacuity: the eigenvalues of the layer are never zero. -/
example (p : Kernel) (h n : ℕ) : ∀ x0 : ℂ, ∀ v s : ℝ, HasDerivAt (flow (p.A h n) x0 v) (p.A h n * flow (p.A h n) x0 v s + v) s :=
  fun x0 v s => ((s4d_zero_order_hold (p.A h n) (A_ne_zero p h n) 1 (fun _ => 0)).1 x0 v s).2

/-- **C65 (stability).**  For every value of the parameters each mode contracts, `|e^{dt A_n}| = e^{-dt exp(log_A_real)} < 1`, and the kernel decays:
`|K_l|` is bounded by a geometric sum and tends to 0. -/
theorem s4d_stable (p : Kernel) (h : ℕ) :
    (∀ n, ‖Complex.exp (p.dtA h n)‖ = Real.exp (-(Real.exp (p.logDt h) * Real.exp (p.logAReal h n))) ∧ ‖Complex.exp (p.dtA h n)‖ < 1) ∧
    (∀ l, |p.K h l| ≤ 2 * ∑ n ∈ range p.half, ‖p.C h n * (Complex.exp (p.dtA h n) - 1) / p.A h n‖ * ‖Complex.exp (p.dtA h n)‖ ^ l) ∧
    Filter.Tendsto (p.K h) Filter.atTop (nhds 0) := by
  have h1 : ∀ n, ‖Complex.exp (p.dtA h n)‖ = Real.exp (-(Real.exp (p.logDt h) * Real.exp (p.logAReal h n))) ∧ ‖Complex.exp (p.dtA h n)‖ < 1 := by
    intro n
    have e : ‖Complex.exp (p.dtA h n)‖ = Real.exp (-(Real.exp (p.logDt h) * Real.exp (p.logAReal h n))) := by
      rw [Complex.norm_exp]
      congr 1
      unfold Kernel.dtA
      rw [Complex.re_mul_ofReal]
      simp only [Kernel.A, Kernel.dt]
      ring
    refine ⟨e, ?_⟩
    rw [e, Real.exp_lt_one_iff]
    have := mul_pos (Real.exp_pos (p.logDt h)) (Real.exp_pos (p.logAReal h n))
    linarith
  have h2 : ∀ l, |p.K h l| ≤ 2 * ∑ n ∈ range p.half, ‖p.C h n * (Complex.exp (p.dtA h n) - 1) / p.A h n‖ * ‖Complex.exp (p.dtA h n)‖ ^ l := by
    intro l
    unfold Kernel.K
    rw [abs_mul, abs_two]
    refine mul_le_mul_of_nonneg_left ?_ (by norm_num)
    refine (Complex.abs_re_le_norm _).trans ((norm_sum_le _ _).trans (le_of_eq ?_))
    refine Finset.sum_congr rfl fun n _ => ?_
    rw [norm_mul, mul_comm (p.dtA h n) (l : ℂ), Complex.exp_nat_mul, norm_pow]
  refine ⟨h1, h2, ?_⟩
  refine squeeze_zero_norm (a := fun l => 2 * ∑ n ∈ range p.half, ‖p.C h n * (Complex.exp (p.dtA h n) - 1) / p.A h n‖ * ‖Complex.exp (p.dtA h n)‖ ^ l)
    (fun l => h2 l) ?_
  rw [show (0 : ℝ) = 2 * ∑ n ∈ range p.half, ‖p.C h n * (Complex.exp (p.dtA h n) - 1) / p.A h n‖ * 0 by simp]
  refine Filter.Tendsto.const_mul _ (tendsto_finsetSum _ fun n _ => Filter.Tendsto.const_mul _ ?_)
  exact tendsto_pow_atTop_nhds_zero_of_lt_one (norm_nonneg _) (h1 n).2

/-- **C65 (initialisation).**  Initial timesteps lie in `[dt_min, dt_max]` and initial eigenvalues are `-1/2 + i π n`. -/
theorem s4d_init (N : ℕ) (dtMin dtMax : ℝ) (h0 : 0 < dtMin) (h1 : dtMin ≤ dtMax) (r : ℕ → ℝ) (hr : ∀ h, 0 ≤ r h ∧ r h < 1) (c : ℕ → ℕ → ℂ) (h n : ℕ) :
    dtMin ≤ (Kernel.init N dtMin dtMax r c).dt h ∧ (Kernel.init N dtMin dtMax r c).dt h ≤ dtMax ∧
      (Kernel.init N dtMin dtMax r c).A h n = -1 / 2 + Real.pi * n * Complex.I := by
  have hl : Real.log dtMin ≤ Real.log dtMax := Real.log_le_log h0 h1
  obtain ⟨ra, rb⟩ := hr h
  refine ⟨?_, ?_, ?_⟩
  · conv_lhs => rw [← Real.exp_log h0]
    apply Real.exp_le_exp.2
    simp only [Kernel.init]
    nlinarith
  · conv_rhs => rw [← Real.exp_log (lt_of_lt_of_le h0 h1)]
    apply Real.exp_le_exp.2
    simp only [Kernel.init]
    nlinarith
  · apply Complex.ext
    · simp only [Kernel.A, Kernel.init]
      rw [Real.exp_log (by norm_num)]
      simp
      norm_num
    · simp [Kernel.A, Kernel.init]

example : (0.001 : ℝ) ≤ (Kernel.init 64 0.001 0.1 (fun _ => 0.5) (fun _ _ => 1)).dt 3 :=
  (s4d_init 64 0.001 0.1 (by norm_num) (by norm_num) _ (fun _ => by norm_num) _ 3 0).1

/-- **C65 (initial kernel).**  A fresh layer of state size `N` has `N / 2` conjugate pairs per channel: its kernel is the sampled impulse response of the modes
`-1/2 + i π n`, `n < N / 2`, with the timestep `dt_min (dt_max / dt_min) ^ r` and the drawn output coefficients. -/
theorem s4d_fresh_kernel (N : ℕ) (dtMin dtMax : ℝ) (h0 : 0 < dtMin) (h1 : dtMin ≤ dtMax) (r : ℕ → ℝ) (c : ℕ → ℕ → ℂ) (h l : ℕ) :
    (Kernel.init N dtMin dtMax r c).K h l = 2 * (∑ n ∈ range (N / 2), c h n *
      ((Complex.exp ((-1 / 2 + Real.pi * n * Complex.I) * (dtMin * (dtMax / dtMin) ^ r h : ℝ)) - 1) / (-1 / 2 + Real.pi * n * Complex.I)) *
      Complex.exp ((-1 / 2 + Real.pi * n * Complex.I) * (dtMin * (dtMax / dtMin) ^ r h : ℝ)) ^ l).re := by
  have hA : ∀ n, (Kernel.init N dtMin dtMax r c).A h n = -1 / 2 + Real.pi * n * Complex.I := by
    intro n
    apply Complex.ext
    · simp only [Kernel.A, Kernel.init]
      rw [Real.exp_log (by norm_num)]
      simp
      norm_num
    · simp [Kernel.A, Kernel.init]
  have hdt : (Kernel.init N dtMin dtMax r c).dt h = dtMin * (dtMax / dtMin) ^ r h := by
    unfold Kernel.dt
    simp only [Kernel.init]
    rw [Real.exp_add, Real.exp_log h0, ← Real.log_div (by linarith) (by linarith), Real.rpow_def_of_pos (div_pos (by linarith) h0), mul_comm (r h), mul_comm]
  unfold Kernel.K
  simp only [Kernel.dtA, hA, hdt]
  congr 2
  refine Finset.sum_congr rfl fun n _ => ?_
  rw [← Complex.exp_nat_mul, mul_comm (l : ℂ), mul_div_assoc]
  rfl

/-- Non-vacuity: a state size of one leaves no conjugate pair and a zero kernel. -/
example (r : ℕ → ℝ) (c : ℕ → ℕ → ℂ) (h l : ℕ) : (Kernel.init 1 0.001 0.1 r c).K h l = 0 := by
  rw [s4d_fresh_kernel 1 0.001 0.1 (by norm_num) (by norm_num)]; simp

/-- The channel that feeds state-space model `h`. -/
def src (C h : ℕ) : ℕ := if C = 1 then 0 else h

/-- **C65 (the layer).**  For a transposed layer and an input `(B, H, L)`, `L > 0` (or one channel broadcast to all), the output is `(B, H, L)` and computed
position by position from `s_h(t) = 2 Re Σ_n C_n x_n(t+1) + D_h u_h(t)` with `x` the state recurrence: activation,
dropout factor, a linear map to `2H` channels and a gate. -/
theorem s4d_layer_correct (l : Layer) (ht : l.transposed = true) (mask : ℕ → ℕ → ℝ) (u : Tensor ℝ) (B C L : ℕ) (hu : u.shape = [B, C, L]) (hL : 0 < L)
    (hC : C = l.H ∨ C = 1) :
    ∃ y, l.forward mask u = .ok y ∧ y.shape = [B, l.H, L] ∧
      ∀ b h t, b < B → h < l.H → t < L →
        ∃ s v : ℕ → ℝ, (∀ j < l.H, s j = 2 * (∑ n ∈ range l.kernel.half, l.kernel.C j n *
              state (l.kernel.A j n) (Real.exp (l.kernel.logDt j)) (fun r => u.get [b, src C j, r]) (t + 1)).re + l.D j * u.get [b, src C j, t]) ∧
          (∀ o, v o = ∑ j ∈ range l.H, l.W o j * (mask b j * l.act (s j)) + l.bias o) ∧
          y.get [b, h, t] = v h * (1 / (1 + Real.exp (-v (h + l.H)))) := by
  unfold Layer.forward Layer.core
  rw [if_pos ht, hu]
  simp only
  rw [if_neg (by omega)]
  refine ⟨_, rfl, rfl, ?_⟩
  intro b h t hb hh htt
  refine ⟨fun j => l.pre u C L b j t, fun o => l.lin mask u C L b o t, ?_, fun o => rfl, rfl⟩
  intro j hj
  simp only [Layer.pre]
  rw [s4d_conv_recurrence _ _ _ _ _ htt, mul_comm (u.get _)]
  rfl

/-- A small layer for the examples. -/
noncomputable def demo : Layer :=
  ⟨2, Kernel.init 4 0.001 0.1 (fun _ => 0.5) (fun _ _ => 1), fun _ => 1, fun x => max x 0, fun _ _ => 1, fun _ => 0, true⟩

example : ∃ y, demo.forward (fun _ _ => 1) ⟨[3, 2, 16], fun i => i.getD 2 0⟩ = .ok y ∧ y.shape = [3, 2, 16] := by
  obtain ⟨y, h1, h2, -⟩ := s4d_layer_correct demo rfl (fun _ _ => 1) ⟨[3, 2, 16], fun i => (i.getD 2 0 : ℝ)⟩ 3 2 16 rfl (by norm_num) (Or.inl rfl)
  exact ⟨y, h1, h2⟩

/-- **C65 (causality).**  The output at time `t` depends only on the sample's own inputs up to time `t`: two batches that agree there (for one row each) give the same
output there, even if their lengths and batch sizes differ. -/
theorem s4d_causal (l : Layer) (ht : l.transposed = true) (mask mask' : ℕ → ℕ → ℝ) (u u' : Tensor ℝ) (B B' C L L' b b' t : ℕ) (hu : u.shape = [B, C, L]) (hu' : u'.shape = [B', C, L'])
    (hC : C = l.H ∨ C = 1) (hb : b < B) (hb' : b' < B') (h1 : t < L) (h2 : t < L')
    (hm : ∀ h, mask b h = mask' b' h) (h : ∀ c s, c < C → s ≤ t → u.get [b, c, s] = u'.get [b', c, s]) :
    ∃ y y', l.forward mask u = .ok y ∧ l.forward mask' u' = .ok y' ∧ ∀ o < l.H, y.get [b, o, t] = y'.get [b', o, t] := by
  unfold Layer.forward Layer.core
  rw [if_pos ht, if_pos ht, hu, hu']
  simp only
  rw [if_neg (by omega), if_neg (by omega)]
  refine ⟨_, _, rfl, rfl, ?_⟩
  have hpre : ∀ j < l.H, l.pre u C L b j t = l.pre u' C L' b' j t := by
    intro j hj
    have hsrc : (if C = 1 then 0 else j) < C := by split <;> omega
    simp only [Layer.pre]
    rw [fftConv_eq _ _ _ _ h1, fftConv_eq _ _ _ _ h2, h _ t hsrc le_rfl]
    congr 1
    refine Finset.sum_congr rfl fun s hs => ?_
    rw [h _ s hsrc (by have : s < t + 1 := by simpa using hs
                       omega)]
  have hlin : ∀ o, l.lin mask u C L b o t = l.lin mask' u' C L' b' o t := by
    intro o
    simp only [Layer.lin]
    congr 1
    refine Finset.sum_congr rfl fun j hj => ?_
    rw [hpre j (by simpa using hj), hm]
  intro o _
  simp only [List.getD_cons_zero, List.getD_cons_succ, hlin]

/-- Non-vacuity: the future of the series and the rest of the batch do not matter. -/
example : ∃ y y', demo.forward (fun _ _ => 1) ⟨[3, 2, 16], fun i => i.getD 2 0⟩ = .ok y ∧
    demo.forward (fun _ _ => 1) ⟨[1, 2, 10], fun i => if i.getD 2 0 ≤ 5 then i.getD 2 0 else 100⟩ = .ok y' ∧ y.get [2, 1, 5] = y'.get [0, 1, 5] := by
  obtain ⟨y, y', h1, h2, h3⟩ := s4d_causal demo rfl (fun _ _ => 1) (fun _ _ => 1) ⟨[3, 2, 16], fun i => (i.getD 2 0 : ℝ)⟩
    ⟨[1, 2, 10], fun i => if i.getD 2 0 ≤ 5 then (i.getD 2 0 : ℝ) else 100⟩ 3 1 2 16 10 2 0 5 rfl rfl (Or.inl rfl) (by norm_num) (by norm_num) (by norm_num) (by norm_num)
    (fun _ => rfl) (by intro c s _ hs; simp [hs])
  exact ⟨y, y', h1, h2, h3 1 (by norm_num [demo])⟩

/-- **C65 (layout).**  A layer with `transposed=False` applied to `(B, L, H)` is the transposed layer with the last two dimensions exchanged. -/
theorem s4d_layout (l : Layer) (ht : l.transposed = false) (mask : ℕ → ℕ → ℝ) (u v : Tensor ℝ) (B C L : ℕ) (hu : u.shape = [B, L, C]) (hv : v.shape = [B, C, L])
    (huv : ∀ b c t, u.get [b, t, c] = v.get [b, c, t]) (hL : 0 < L) (hC : C = l.H ∨ C = 1) :
    ∃ y z, l.forward mask u = .ok y ∧ Layer.forward { l with transposed := true } mask v = .ok z ∧ y.shape = [B, L, l.H] ∧ z.shape = [B, l.H, L] ∧
      ∀ b h t, y.get [b, t, h] = z.get [b, h, t] := by
  unfold Layer.forward
  rw [ht]
  simp only [Bool.false_eq_true, if_false, if_true]
  unfold Layer.core
  have hs : (u.transpose 1 2).shape = [B, C, L] := by simp [Tensor.transpose, swapAt, hu]
  rw [hs, hv]
  simp only
  rw [if_neg (by omega), if_neg (by omega)]
  simp only [res_bind_ok]
  refine ⟨_, _, rfl, rfl, by simp [Tensor.transpose, swapAt], rfl, ?_⟩
  intro b h t
  have hget : ∀ b c t, (u.transpose 1 2).get [b, c, t] = v.get [b, c, t] := by
    intro b c t
    simp [Tensor.transpose, swapAt, huv]
  have hlin : ∀ o, l.lin mask (u.transpose 1 2) C L b o t = Layer.lin { l with transposed := true } mask v C L b o t := by
    intro o
    simp only [Layer.lin, Layer.pre, hget]
  show l.lin mask (u.transpose 1 2) C L b h t * sigmoid (l.lin mask (u.transpose 1 2) C L b (h + l.H) t) = _
  rw [hlin, hlin]
  rfl

/-- **C65 (errors).**  An empty series or a wrong number of channels is a RuntimeError; `dropout` must be a number in `[0, 1]`. -/
theorem s4d_errors (l : Layer) (ht : l.transposed = true) (mask : ℕ → ℕ → ℝ) (u : Tensor ℝ) (B C L : ℕ) (hu : u.shape = [B, C, L]) :
    (L = 0 ∨ (C ≠ l.H ∧ C ≠ 1) → l.forward mask u = .error .runtime) ∧
    (checkDropout .none = .error .value ∧ checkDropout .other = .error .value ∧
      ∀ p : ℝ, (0 ≤ p ∧ p ≤ 1 → checkDropout (.num p) = .ok p) ∧ (p < 0 ∨ 1 < p → checkDropout (.num p) = .error .value)) := by
  refine ⟨?_, rfl, rfl, ?_⟩
  · intro h
    unfold Layer.forward Layer.core
    rw [if_pos ht, hu]
    simp only
    rw [if_pos h]
  · intro p
    refine ⟨fun h => if_pos h, fun h => if_neg ?_⟩
    rintro ⟨a, b⟩
    rcases h with h | h <;> linarith

example : demo.forward (fun _ _ => 1) ⟨[1, 5, 8], fun _ => 0⟩ = .error .runtime :=
  (s4d_errors demo rfl _ _ 1 5 8 rfl).1 (Or.inr ⟨by norm_num [demo], by norm_num⟩)

/-- Row `b` of a `(B, C, L)` tensor equals row `b'` of a `(B', C, L)` tensor. -/
def RowEq (x x' : Tensor ℝ) (b b' C L : ℕ) : Prop := ∀ c t, c < C → t < L → x.get [b, c, t] = x'.get [b', c, t]

theorem step_ok (H L : ℕ) (hL : 0 < L) (p : Layer × LNorm) (hH : p.1.H = H) (htr : p.1.transposed = true) (x x' : Tensor ℝ) (B B' b b' : ℕ)
    (hx : x.shape = [B, H, L]) (hx' : x'.shape = [B', H, L]) (hb : b < B) (hb' : b' < B') (hrow : RowEq x x' b b' H L) :
    ∃ y y', modelStep H x p = .ok y ∧ modelStep H x' p = .ok y' ∧ y.shape = [B, H, L] ∧ y'.shape = [B', H, L] ∧ RowEq y y' b b' H L := by
  have key : ∀ (x : Tensor ℝ) (B : ℕ), x.shape = [B, H, L] → ∃ z s, p.1.forward (fun _ _ => 1) x = .ok z ∧ z.shape = [B, H, L] ∧
      Tensor.zipB (· + ·) z x = .ok s ∧ s.shape = [B, H, L] ∧ (∀ b c t, b < B → c < H → t < L → s.get [b, c, t] = z.get [b, c, t] + x.get [b, c, t]) ∧
      modelStep H x p = .ok ⟨[B, H, L], fun i => p.2.at H (fun h => s.get [i.getD 0 0, h, i.getD 2 0]) (i.getD 1 0)⟩ := by
    intro x B hx
    obtain ⟨z, z1, z2, -⟩ := s4d_layer_correct p.1 htr (fun _ _ => 1) x B H L hx hL (Or.inl hH.symm)
    rw [hH] at z2
    obtain ⟨s, s1, s2, s3⟩ := Verif.Spectral.zipB_same (· + ·) z x (by rw [z2, hx])
    refine ⟨z, s, z1, z2, s1, by rw [s2, z2], ?_, ?_⟩
    · intro b c t hb hc ht
      exact s3 [b, c, t] (by rw [z2]; exact ⟨hb, hc, ht, trivial⟩)
    · unfold modelStep
      simp only [z1, res_bind_ok, s1]
      have : s.shape = [B, H, L] := by rw [s2, z2]
      rw [this]
      simp
  obtain ⟨z, s, z1, z2, -, s2, s3, s4⟩ := key x B hx
  obtain ⟨z', s', z1', z2', -, s2', s3', s4'⟩ := key x' B' hx'
  refine ⟨_, _, s4, s4', rfl, rfl, ?_⟩
  intro c t hc ht
  have hs : ∀ c < H, s.get [b, c, t] = s'.get [b', c, t] := by
    intro c hc
    rw [s3 b c t hb hc ht, s3' b' c t hb' hc ht, hrow c t hc ht]
    obtain ⟨y, y', e1, e2, e3⟩ := s4d_causal p.1 htr (fun _ _ => 1) (fun _ _ => 1) x x' B B' H L L b b' t hx hx' (Or.inl hH.symm) hb hb' ht ht (fun _ => rfl)
      (fun c s hc hs => hrow c s hc (by omega))
    rw [z1] at e1; rw [z1'] at e2
    rw [Except.ok.inj e1, Except.ok.inj e2, e3 c (by omega)]
  have hmean : ∀ f g : ℕ → ℝ, (∀ c < H, f c = g c) → chanMean H f = chanMean H g := by
    intro f g hfg
    unfold chanMean
    rw [Finset.sum_congr rfl fun c hc => hfg c (by simpa using hc)]
  simp only [List.getD_cons_zero, List.getD_cons_succ, LNorm.at]
  have m1 := hmean _ _ hs
  rw [hs c hc, m1, hmean (fun j => (s.get [b, j, t] - chanMean H fun h => s'.get [b', h, t]) ^ 2)
    (fun j => (s'.get [b', j, t] - chanMean H fun h => s'.get [b', h, t]) ^ 2) (fun j hj => by rw [hs j hj])]

/-- **C65 (the model).**  `S4Model` with any number of layers maps `(B, d_input, L)`, `L > 0`, to `(B, d_output)` in evaluation mode, and
each row of the output depends only on its own row of the input (whatever the batch). -/
theorem s4model_correct (m : Model) (hl : ∀ p ∈ m.layers, p.1.H = m.dModel ∧ p.1.transposed = true) (x x' : Tensor ℝ) (B B' L b b' : ℕ)
    (hx : x.shape = [B, m.dIn, L]) (hx' : x'.shape = [B', m.dIn, L]) (hL : 0 < L) (hb : b < B) (hb' : b' < B')
    (hrow : RowEq x x' b b' m.dIn L) :
    ∃ y y', m.forward x = .ok y ∧ m.forward x' = .ok y' ∧ y.shape = [B, m.dOut] ∧ y'.shape = [B', m.dOut] ∧
      ∀ o, y.get [b, o] = y'.get [b', o] := by
  have henc : ∀ (x : Tensor ℝ) (B : ℕ), x.shape = [B, m.dIn, L] → linear1 m.dIn m.dModel m.encW m.encB x =
      .ok ⟨[B, m.dModel, L], fun i => ∑ c ∈ range m.dIn, m.encW (i.getD 1 0) c * x.get [i.getD 0 0, c, i.getD 2 0] + m.encB (i.getD 1 0)⟩ := by
    intro x B hx
    unfold linear1
    rw [hx]
    simp
  have hfold : ∀ (ls : List (Layer × LNorm)), (∀ p ∈ ls, p.1.H = m.dModel ∧ p.1.transposed = true) → ∀ x x' : Tensor ℝ, x.shape = [B, m.dModel, L] → x'.shape = [B', m.dModel, L] →
      RowEq x x' b b' m.dModel L → ∃ y y', ls.foldlM (modelStep m.dModel) x = .ok y ∧ ls.foldlM (modelStep m.dModel) x' = .ok y' ∧
        y.shape = [B, m.dModel, L] ∧ y'.shape = [B', m.dModel, L] ∧ RowEq y y' b b' m.dModel L := by
    intro ls
    induction ls with
    | nil => intro _ x x' h1 h2 h3; exact ⟨x, x', rfl, rfl, h1, h2, h3⟩
    | cons p ls ih =>
      intro hp x x' h1 h2 h3
      obtain ⟨y, y', e1, e2, e3, e4, e5⟩ := step_ok m.dModel L hL p (hp p (by simp)).1 (hp p (by simp)).2 x x' B B' b b' h1 h2 hb hb' h3
      rw [List.foldlM_cons, List.foldlM_cons, e1, e2]
      simp only [res_bind_ok]
      exact ih (fun q hq => hp q (by simp [hq])) y y' e3 e4 e5
  unfold Model.forward
  rw [henc x B hx, henc x' B' hx']
  simp only [res_bind_ok]
  obtain ⟨y, y', e1, e2, e3, e4, e5⟩ := hfold m.layers hl
    ⟨[B, m.dModel, L], fun i => ∑ c ∈ range m.dIn, m.encW (i.getD 1 0) c * x.get [i.getD 0 0, c, i.getD 2 0] + m.encB (i.getD 1 0)⟩
    ⟨[B', m.dModel, L], fun i => ∑ c ∈ range m.dIn, m.encW (i.getD 1 0) c * x'.get [i.getD 0 0, c, i.getD 2 0] + m.encB (i.getD 1 0)⟩ rfl rfl (by
      intro c t hc ht
      simp only [List.getD_cons_zero, List.getD_cons_succ]
      congr 1
      refine Finset.sum_congr rfl fun k hk => ?_
      rw [hrow k t (by simpa using hk) ht])
  rw [e1, e2]
  simp only [res_bind_ok, Model.head]
  rw [e3, e4]
  simp only [ne_eq, not_true_eq_false, if_false]
  refine ⟨_, _, rfl, rfl, rfl, rfl, ?_⟩
  intro o
  simp only [List.getD_cons_zero, List.getD_cons_succ]
  congr 1
  refine Finset.sum_congr rfl fun c hc => ?_
  congr 2
  refine Finset.sum_congr rfl fun t ht => ?_
  exact e5 c t (by simpa using hc) (by simpa using ht)

example : ∃ y, Model.forward ⟨3, 1, 2, fun _ _ => 1, fun _ => 0, fun _ _ => 1, fun _ => 0, [(demo, ⟨1, fun _ => 1, fun _ => 0⟩), (demo, ⟨1, fun _ => 1, fun _ => 0⟩)]⟩
    ⟨[4, 3, 32], fun _ => 1⟩ = .ok y ∧ y.shape = [4, 1] := by
  obtain ⟨y, y', h1, -, h3, -⟩ := s4model_correct
    ⟨3, 1, 2, fun _ _ => 1, fun _ => 0, fun _ _ => 1, fun _ => 0, [(demo, ⟨1, fun _ => 1, fun _ => 0⟩), (demo, ⟨1, fun _ => 1, fun _ => 0⟩)]⟩
    (by intro p hp; simp at hp; rw [hp]; exact ⟨rfl, rfl⟩) ⟨[4, 3, 32], fun _ => 1⟩ ⟨[4, 3, 32], fun _ => 1⟩ 4 4 32 0 0 rfl rfl (by norm_num) (by norm_num) (by norm_num)
    (fun c t _ _ => rfl)
  exact ⟨y, h1, h3⟩

/-- **C65 (normalisation).**  Without weight and bias the layer norm leaves mean zero and mean square `v / (v + eps)` over the channels, `v` being
their variance; weight and bias act entrywise. -/
theorem lnorm_correct (n : LNorm) (H : ℕ) (hH : 0 < H) (x : ℕ → ℝ) (hv : 0 < chanMean H (fun j => (x j - chanMean H x) ^ 2) + n.eps) :
    (∑ h ∈ Finset.range H, (⟨n.eps, fun _ => 1, fun _ => 0⟩ : LNorm).at H x h = 0) ∧
    (∑ h ∈ Finset.range H, (⟨n.eps, fun _ => 1, fun _ => 0⟩ : LNorm).at H x h ^ 2) / H =
      ((∑ h ∈ Finset.range H, (x h - (∑ j ∈ Finset.range H, x j) / H) ^ 2) / H) / ((∑ h ∈ Finset.range H, (x h - (∑ j ∈ Finset.range H, x j) / H) ^ 2) / H + n.eps) ∧
    ∀ h, n.at H x h = (⟨n.eps, fun _ => 1, fun _ => 0⟩ : LNorm).at H x h * n.w h + n.b h := by
  have hH' : (H : ℝ) ≠ 0 := by positivity
  have hr : Real.sqrt (chanMean H (fun j => (x j - chanMean H x) ^ 2) + n.eps) ≠ 0 := (Real.sqrt_pos.2 hv).ne'
  refine ⟨?_, ?_, ?_⟩
  · simp only [LNorm.at, mul_one, add_zero]
    rw [← Finset.sum_div, Finset.sum_sub_distrib, Finset.sum_const, Finset.card_range, nsmul_eq_mul]
    unfold chanMean
    rw [mul_div_cancel₀ _ hH']; simp
  · simp only [LNorm.at, mul_one, add_zero, div_pow, Real.sq_sqrt hv.le]
    rw [← Finset.sum_div]
    unfold chanMean
    rw [div_right_comm]
  · intro h
    simp only [LNorm.at, mul_one, add_zero]

/-- Non-vacuity: two channels. -/
example : 0 < chanMean 2 (fun j => ((if j = 0 then 1 else 3 : ℝ) - chanMean 2 (fun j => if j = 0 then 1 else 3)) ^ 2) + 1e-5 := by
  norm_num [chanMean, Finset.sum_range_succ]

/-- **C65 (residual).**  A step of the model is the layer norm, over the channels, of the layer's output plus its input. -/
theorem model_step_correct (H L : ℕ) (hL : 0 < L) (p : Layer × LNorm) (hH : p.1.H = H) (htr : p.1.transposed = true) (x : Tensor ℝ) (B : ℕ)
    (hx : x.shape = [B, H, L]) :
    ∃ z y, p.1.forward (fun _ _ => 1) x = .ok z ∧ modelStep H x p = .ok y ∧ y.shape = [B, H, L] ∧
      ∀ b c t, b < B → c < H → t < L → y.get [b, c, t] = p.2.at H (fun h => z.get [b, h, t] + x.get [b, h, t]) c := by
  obtain ⟨z, z1, z2, -⟩ := s4d_layer_correct p.1 htr (fun _ _ => 1) x B H L hx hL (Or.inl hH.symm)
  rw [hH] at z2
  obtain ⟨s, s1, s2, s3⟩ := Verif.Spectral.zipB_same (· + ·) z x (by rw [z2, hx])
  have hss : s.shape = [B, H, L] := by rw [s2, z2]
  refine ⟨z, _, z1, by unfold modelStep; simp only [z1, res_bind_ok, s1]; rw [hss]; simp only [ne_eq, not_true_eq_false, if_false]; rfl, rfl, ?_⟩
  intro b c t hb hc ht
  have e : ∀ h < H, s.get [b, h, t] = z.get [b, h, t] + x.get [b, h, t] := fun h hh => s3 [b, h, t] (by rw [z2]; exact ⟨hb, hh, ht, trivial⟩)
  have hmean : ∀ f g : ℕ → ℝ, (∀ c < H, f c = g c) → chanMean H f = chanMean H g := by
    intro f g hfg
    unfold chanMean
    rw [Finset.sum_congr rfl fun c hc => hfg c (by simpa using hc)]
  simp only [List.getD_cons_zero, List.getD_cons_succ, LNorm.at]
  have m1 := hmean _ _ e
  rw [e c hc, m1, hmean (fun j => (s.get [b, j, t] - chanMean H fun h => z.get [b, h, t] + x.get [b, h, t]) ^ 2)
    (fun j => ((z.get [b, j, t] + x.get [b, j, t]) - chanMean H fun h => z.get [b, h, t] + x.get [b, h, t]) ^ 2) (fun j hj => by rw [e j hj])]

/-- **C65 (head).**  The output is the linear decoder applied to the averages over the sequence; a different number of channels is rejected. -/
theorem model_head_correct (m : Model) (x : Tensor ℝ) (B C L : ℕ) (hx : x.shape = [B, C, L]) :
    (C ≠ m.dModel → m.head x = .error .runtime) ∧
    (C = m.dModel → 0 < L → ∃ y, m.head x = .ok y ∧ y.shape = [B, m.dOut] ∧ ∀ b o, ∀ avg : ℕ → ℝ, (∀ c, L * avg c = ∑ t ∈ Finset.range L, x.get [b, c, t]) →
      y.get [b, o] = m.decB o + ∑ c ∈ Finset.range m.dModel, m.decW o c * avg c) := by
  unfold Model.head
  rw [hx]
  refine ⟨fun h => if_pos h, ?_⟩
  rintro rfl hL
  refine ⟨_, if_neg (by simp), rfl, ?_⟩
  intro b o avg havg
  simp only [List.getD_cons_zero, List.getD_cons_succ]
  rw [add_comm]
  congr 1
  refine Finset.sum_congr rfl fun c _ => ?_
  have : (L : ℝ) ≠ 0 := by positivity
  rw [← havg c, mul_div_cancel_left₀ _ this]

example : ∃ y, Model.head ⟨3, 1, 2, fun _ _ => 1, fun _ => 0, fun _ _ => 1, fun _ => 0, []⟩ ⟨[4, 2, 32], fun _ => 1⟩ = .ok y ∧ y.shape = [4, 1] :=
  let ⟨y, h, hs, _⟩ := (model_head_correct ⟨3, 1, 2, fun _ _ => 1, fun _ => 0, fun _ _ => 1, fun _ => 0, []⟩ ⟨[4, 2, 32], fun _ => 1⟩ 4 2 32 rfl).2 rfl (by norm_num)
  ⟨y, h, hs⟩

end Verif.S4D
