import Verif.Props.Fittable
import Verif.Spec.Scaler
/-!
# Properties of `ChannelWiseScaler` (C32)
-/
set_option linter.unusedSimpArgs false
namespace Verif.Fittable
open Finset Spectral Spec.Scaler

/-- A scaler (fresh or fitted) for `C` channels, and one for a single series. -/
def Scaler2 (s : State ℝ) (C : ℕ) : Prop :=
  ∃ m d : Tensor ℝ, s.buffers = [("mean", m), ("std", d)] ∧ m.shape = [C, 1] ∧ d.shape = [C, 1]
def Scaler1 (s : State ℝ) : Prop :=
  ∃ m d : Tensor ℝ, s.buffers = [("mean", m), ("std", d)] ∧ m.shape = [1] ∧ d.shape = [1]

/-- The constructor yields such scalers. -/
theorem scaler_init : (∀ C, 0 < C → Scaler2 (scalerInit (some C)) C) ∧ Scaler1 (scalerInit none) := by
  constructor
  · intro C hC
    exact ⟨⟨[C, 1], fun _ => 0⟩, ⟨[C, 1], fun _ => 1⟩, by simp [scalerInit, hC.ne'], rfl, rfl⟩
  · exact ⟨⟨[1], fun _ => 0⟩, ⟨[1], fun _ => 1⟩, by simp [scalerInit], rfl, rfl⟩

/-- Parameters of a fitted scaler for `C` channels. -/
def Has2 (s : State ℝ) (C : ℕ) (μ σ : ℕ → ℝ) : Prop :=
  s.built = true ∧ ∃ m d : Tensor ℝ, s.buffers = [("mean", m), ("std", d)] ∧ m.shape = [C, 1] ∧ d.shape = [C, 1] ∧
    ∀ c < C, m.get [c, 0] = μ c ∧ d.get [c, 0] = σ c
def Has1 (s : State ℝ) (μ σ : ℝ) : Prop :=
  s.built = true ∧ ∃ m d : Tensor ℝ, s.buffers = [("mean", m), ("std", d)] ∧ m.shape = [1] ∧ d.shape = [1] ∧
    m.get [0] = μ ∧ d.get [0] = σ

theorem meanAt_eq (X : Tensor ℝ) (lead : List ℕ) (T : ℕ) (h : X.shape = lead ++ [T]) (l : List ℕ) :
    X.meanAt l = mean T (fun t => X.get (l ++ [t])) := by
  simp [Tensor.meanAt, mean, h]

/-- **C32 (fit).**  Fitting on `X` of shape `(C, T)` stores, per channel, the mean and the population standard
deviation plus `std_reg`, and makes the scaler usable; whatever was fitted before is replaced. -/
theorem scaler_fit_2d (s : State ℝ) (C T : ℕ) (hs : Scaler2 s C) (X : Tensor ℝ) (hX : X.shape = [C, T]) (reg : ℝ) :
    (scalerFit s X (some reg)).2 = none ∧
    Has2 (scalerFit s X (some reg)).1 C (fun c => mean T fun t => X.get [c, t])
      (fun c => std T (fun t => X.get [c, t]) + reg) := by
  obtain ⟨m, d, hb, hm, hd⟩ := hs
  have hb1 : Tensor.bcShapeRev [1, C] [1, C] = some [1, C] := bcShapeRev_self _
  have key : scalerFit s X (some reg) = (⟨[("mean", ⟨[C, 1], fun i => X.meanLastKeep.get (Tensor.bcIdx [C, 1] i)⟩),
      ("std", ⟨[C, 1], fun i => (stdKeep X reg).get (Tensor.bcIdx [C, 1] i)⟩)], true⟩, none) := by
    simp [scalerFit, Tensor.ndim, hX, rankOf, sizeOf0, lookup, hb, hm, hd, build, copyLoop, copyInto, setBuf,
      Tensor.meanLastKeep, stdKeep, hb1]
  rw [key]
  refine ⟨rfl, rfl, _, _, rfl, rfl, rfl, fun c hc => ?_⟩
  dsimp only
  rw [bcIdx_self [C, 1] [c, 0] ⟨hc, by norm_num, trivial⟩]
  have hm' : X.meanAt [c] = mean T (fun t => X.get [c, t]) := meanAt_eq X [C] T hX [c]
  constructor
  · simp [Tensor.meanLastKeep, hm']
  · simp [stdKeep, std, var, mean, hm', hX]

/-- **C32 (fit, single series).** -/
theorem scaler_fit_1d (s : State ℝ) (T : ℕ) (hs : Scaler1 s) (X : Tensor ℝ) (hX : X.shape = [T]) (reg : ℝ) :
    (scalerFit s X (some reg)).2 = none ∧
    Has1 (scalerFit s X (some reg)).1 (mean T fun t => X.get [t]) (std T (fun t => X.get [t]) + reg) := by
  obtain ⟨m, d, hb, hm, hd⟩ := hs
  have key : scalerFit s X (some reg) = (⟨[("mean", ⟨[1], fun i => X.meanLastKeep.get (Tensor.bcIdx [1] i)⟩),
      ("std", ⟨[1], fun i => (stdKeep X reg).get (Tensor.bcIdx [1] i)⟩)], true⟩, none) := by
    simp [scalerFit, Tensor.ndim, hX, rankOf, sizeOf0, lookup, hb, hm, hd, build, copyLoop, copyInto, setBuf,
      Tensor.meanLastKeep, stdKeep, Tensor.bcShapeRev]
  rw [key]
  refine ⟨rfl, rfl, _, _, rfl, rfl, rfl, ?_⟩
  dsimp only
  rw [bcIdx_self [1] [0] ⟨by norm_num, trivial⟩]
  have hm' : X.meanAt [] = mean T (fun t => X.get [t]) := meanAt_eq X [] T hX []
  constructor
  · simp [Tensor.meanLastKeep, hm']
  · simp [stdKeep, std, var, mean, hm', hX]

/-- **C32 (rejection).**  `fit` on a tensor with a number of dimensions other than 1 and 2 raises ValueError, a
rank or channel count not matching the constructor raises AssertionError, and `std_reg=None` raises
TypeError; in all these cases the scaler is unchanged. -/
theorem scaler_fit_rejects (s : State ℝ) (C : ℕ) (X : Tensor ℝ) (reg : Option ℝ) :
    (X.ndim ≠ 1 → X.ndim ≠ 2 → scalerFit s X reg = (s, some .value)) ∧
    (Scaler2 s C → X.ndim = 1 → scalerFit s X reg = (s, some .assertion)) ∧
    (Scaler1 s → X.ndim = 2 → scalerFit s X reg = (s, some .assertion)) ∧
    (Scaler2 s C → ∀ c t, X.shape = [c, t] → c ≠ C → scalerFit s X reg = (s, some .assertion)) ∧
    (Scaler2 s C → ∀ t, X.shape = [C, t] → scalerFit s X none = (s, some .type)) := by
  refine ⟨fun h1 h2 => by simp [scalerFit, h1, h2], ?_, ?_, ?_, ?_⟩
  · rintro ⟨m, d, hb, hm, hd⟩ h
    unfold Tensor.ndim at h
    simp [scalerFit, h, rankOf, lookup, hb, Tensor.ndim, hm, hd]
  · rintro ⟨m, d, hb, hm, hd⟩ h
    unfold Tensor.ndim at h
    simp [scalerFit, h, rankOf, lookup, hb, Tensor.ndim, hm, hd]
  · rintro ⟨m, d, hb, hm, hd⟩ c t h hc
    simp [scalerFit, h, rankOf, sizeOf0, lookup, hb, Tensor.ndim, hm, hd, hc]
  · rintro ⟨m, d, hb, hm, hd⟩ t h
    simp [scalerFit, h, rankOf, sizeOf0, lookup, hb, Tensor.ndim, hm, hd]

/-- **C32 (forward and reverse).**  A scaler with parameters `μ, σ` accepts every input of shape `(.., C, T)` and
maps each sample to `(x - μ_c)/σ_c`, or to `σ_c·x + μ_c` with `reverse=True`. -/
theorem scaler_call (s : State ℝ) (C : ℕ) (μ σ : ℕ → ℝ) (hs : Has2 s C μ σ) (X : Tensor ℝ) (lead : List ℕ) (T : ℕ)
    (hX : X.shape = lead ++ [C, T]) (rev : Bool) :
    ∃ y, scalerCall s X rev = .ok y ∧ y.shape = X.shape ∧ ∀ l c t, InB l lead → c < C → t < T →
      y.get (l ++ [c, t]) = if rev then σ c * X.get (l ++ [c, t]) + μ c else (X.get (l ++ [c, t]) - μ c) / σ c := by
  obtain ⟨hbuilt, m, d, hb, hm, hd, hv⟩ := hs
  have h1 : lookup s.buffers "mean" = some m := by simp [lookup, hb]
  have h2 : lookup s.buffers "std" = some d := by simp [lookup, hb]
  unfold scalerCall
  simp only [checkBuilt, hbuilt, if_true, res_bind_ok, h1, h2]
  cases rev with
  | true =>
    obtain ⟨y1, e1, s1, g1⟩ := zipB_chan (fun (x s : ℝ) => s * x) X d lead C T hX hd
    obtain ⟨y2, e2, s2, g2⟩ := zipB_chan (fun (x m : ℝ) => x + m) y1 m lead C T (s1.trans hX) hm
    simp only [if_true, e1, res_bind_ok]
    refine ⟨y2, e2, s2.trans s1, fun l c t hl hc ht => ?_⟩
    rw [g2 l c t hl hc ht, g1 l c t hl hc ht, (hv c hc).1, (hv c hc).2]
  | false =>
    obtain ⟨y1, e1, s1, g1⟩ := zipB_chan (fun (x m : ℝ) => x - m) X m lead C T hX hm
    obtain ⟨y2, e2, s2, g2⟩ := zipB_chan (fun (x s : ℝ) => x / s) y1 d lead C T (s1.trans hX) hd
    simp only [Bool.false_eq_true, if_false, e1, res_bind_ok]
    refine ⟨y2, e2, s2.trans s1, fun l c t hl hc ht => ?_⟩
    rw [g2 l c t hl hc ht, g1 l c t hl hc ht, (hv c hc).1, (hv c hc).2]

/-- **C32 (round trip).**  If every scale `σ_c` is nonzero, reverse scaling undoes scaling and vice versa, for
inputs of any batch shape and length. -/
theorem scaler_round_trip (s : State ℝ) (C : ℕ) (μ σ : ℕ → ℝ) (hs : Has2 s C μ σ) (hσ : ∀ c < C, σ c ≠ 0)
    (X : Tensor ℝ) (lead : List ℕ) (T : ℕ) (hX : X.shape = lead ++ [C, T]) (rev : Bool) :
    ∃ y z, scalerCall s X rev = .ok y ∧ scalerCall s y (!rev) = .ok z ∧ z.shape = X.shape ∧
      ∀ l c t, InB l lead → c < C → t < T → z.get (l ++ [c, t]) = X.get (l ++ [c, t]) := by
  obtain ⟨y, e1, s1, g1⟩ := scaler_call s C μ σ hs X lead T hX rev
  obtain ⟨z, e2, s2, g2⟩ := scaler_call s C μ σ hs y lead T (s1.trans hX) (!rev)
  refine ⟨y, z, e1, e2, s2.trans s1, fun l c t hl hc ht => ?_⟩
  rw [g2 l c t hl hc ht, g1 l c t hl hc ht]
  have := hσ c hc
  cases rev
  · simp; field_simp; ring
  · simp; field_simp

/-- Mean and variance of a standardised series. -/
theorem standardised (T : ℕ) (hT : 0 < T) (x : ℕ → ℝ) (σ : ℝ) :
    mean T (fun t => (x t - mean T x) / σ) = 0 ∧
    var T (fun t => (x t - mean T x) / σ) = var T x / σ ^ 2 := by
  have hT' : (T : ℝ) ≠ 0 := by positivity
  have h0 : mean T (fun t => (x t - mean T x) / σ) = 0 := by
    unfold mean
    rw [← Finset.sum_div, Finset.sum_sub_distrib]
    simp only [Finset.sum_const, Finset.card_range, nsmul_eq_mul]
    field_simp
    simp
  refine ⟨h0, ?_⟩
  unfold var
  rw [h0]
  unfold mean
  simp only [sub_zero, div_pow]
  rw [← Finset.sum_div]
  ring

/-- **C32 (standardisation).**  After fitting on `X` (with `std_reg = 0`), scaling `X` itself gives every channel
mean zero, and variance one if the channel is not constant. -/
theorem scaler_standardises (s : State ℝ) (C T : ℕ) (hT : 0 < T) (hs : Scaler2 s C) (X : Tensor ℝ) (hX : X.shape = [C, T]) :
    ∃ y, scalerCall (scalerFit s X (some 0)).1 X false = .ok y ∧ y.shape = [C, T] ∧ ∀ c < C,
      mean T (fun t => y.get [c, t]) = 0 ∧
      (std T (fun t => X.get [c, t]) ≠ 0 → var T (fun t => y.get [c, t]) = 1) := by
  obtain ⟨-, h⟩ := scaler_fit_2d s C T hs X hX 0
  obtain ⟨y, e, sh, g⟩ := scaler_call _ C _ _ h X [] T hX false
  refine ⟨y, e, sh.trans hX, fun c hc => ?_⟩
  have hg : ∀ t ∈ range T, y.get [c, t] = (X.get [c, t] - mean T fun t => X.get [c, t]) / std T (fun t => X.get [c, t]) := by
    intro t ht
    have := g [] c t trivial hc (mem_range.1 ht)
    simpa using this
  have hm : ∀ f g : ℕ → ℝ, (∀ t ∈ range T, f t = g t) → mean T f = mean T g := by
    intro f g hfg; unfold mean; rw [Finset.sum_congr rfl hfg]
  have hv : ∀ f g : ℕ → ℝ, (∀ t ∈ range T, f t = g t) → var T f = var T g := by
    intro f g hfg
    unfold var
    rw [hm f g hfg]
    exact hm _ _ fun t ht => by rw [hfg t ht]
  rw [hm _ _ hg, hv _ _ hg]
  obtain ⟨h1, h2⟩ := standardised T hT (fun t => X.get [c, t]) (std T fun t => X.get [c, t])
  refine ⟨h1, fun hne => ?_⟩
  rw [h2]
  have hpos : 0 ≤ var T fun t => X.get [c, t] := by
    unfold var mean
    exact div_nonneg (Finset.sum_nonneg fun t _ => sq_nonneg _) (Nat.cast_nonneg _)
  unfold std at hne ⊢
  rw [Real.sq_sqrt hpos]
  exact div_self fun h0 => hne (by rw [h0, Real.sqrt_zero])

/-- Non-vacuity: a fresh two-channel scaler fitted on a nontrivial series. -/
example : ∃ y, scalerCall (scalerFit (scalerInit (some 2)) ⟨[2, 3], fun i => (ravel [2, 3] i : ℝ)⟩ (some 0)).1
    ⟨[2, 3], fun i => (ravel [2, 3] i : ℝ)⟩ false = .ok y ∧ y.shape = [2, 3] :=
  let ⟨y, h, hs, _⟩ := scaler_standardises (scalerInit (some 2)) 2 3 (by norm_num) (scaler_init.1 2 (by norm_num))
    ⟨[2, 3], fun i => (ravel [2, 3] i : ℝ)⟩ rfl
  ⟨y, h, hs⟩
example : Has2 ⟨[("mean", ⟨[2, 1], fun _ => 3⟩), ("std", ⟨[2, 1], fun _ => 5⟩)], true⟩ 2 (fun _ => 3) (fun _ => 5) :=
  ⟨rfl, _, _, rfl, rfl, rfl, fun _ _ => ⟨rfl, rfl⟩⟩

end Verif.Fittable
