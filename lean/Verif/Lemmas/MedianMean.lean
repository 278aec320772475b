import Verif.Lemmas.OrderStat
import Verif.Lemmas.Spectral
import Mathlib.Probability.Independence.Basic
/-! # The expected median of independent exponential variables -/
namespace Verif.OrderStat
open MeasureTheory ProbabilityTheory Finset Verif.Spectral Verif.Spec

/-- Expected order statistic in units of the mean. -/
noncomputable def rank (n k : ℕ) : ℝ := ∑ j ∈ range (k + 1), 1 / ((n : ℝ) - j)

theorem rank_succ (n k : ℕ) : rank (n + 1) (k + 1) = 1 / ((n : ℝ) + 1) + rank n k := by
  unfold rank
  rw [sum_range_succ' _ (k + 1), add_comm]
  congr 1
  · push_cast; ring
  · exact sum_congr rfl fun j _ => by push_cast; congr 1; ring

theorem rank_last (n k : ℕ) : rank n (k + 1) = rank n k + 1 / ((n : ℝ) - (k + 1 : ℕ)) := by
  unfold rank
  rw [sum_range_succ]

theorem rank_odd : ∀ m : ℕ, rank (2 * m + 1) m = medianBias (2 * m + 1)
  | 0 => by simp [rank, medianBias]
  | m + 1 => by
    have h1 := rank_succ (2 * m + 2) m
    have ih := rank_odd m
    have hb : medianBias (2 * (m + 1) + 1) = medianBias (2 * m + 1) + (1 / ((2 * (m + 1) : ℕ) + 1 : ℝ) - 1 / ((2 * (m + 1) : ℕ) : ℝ)) := by
      unfold medianBias
      have e1 : (2 * (m + 1) + 1 - 1) / 2 = m + 1 := by omega
      have e2 : (2 * m + 1 - 1) / 2 = m := by omega
      rw [e1, e2, sum_range_succ]; ring
    have h2 : rank (2 * m + 2) m = rank (2 * m + 1) m - 1 / (2 * m + 2 : ℝ) := by
      have h3 := rank_succ (2 * m + 1) m
      have h4 := rank_last (2 * m + 2) m
      have h5 : ((2 * m + 2 : ℕ) : ℝ) - (m + 1 : ℕ) = m + 1 := by push_cast; ring
      rw [h5] at h4
      have h6 : 1 / ((m : ℝ) + 1) = 2 * (1 / (2 * m + 2 : ℝ)) := by field_simp
      have h7 : 1 / (((2 * m + 1 : ℕ) : ℝ) + 1) = 1 / (2 * m + 2 : ℝ) := by push_cast; congr 1; ring
      rw [h7] at h3
      rw [h6] at h4
      linarith
    have e : 2 * (m + 1) + 1 = 2 * m + 2 + 1 := by ring
    rw [hb, ← ih, e, h1, h2]
    push_cast
    have : (2 * (m : ℝ) + 2 + 1) = 2 * ((m : ℝ) + 1) + 1 := by ring
    rw [this]
    have : (2 * (m : ℝ) + 2) = 2 * ((m : ℝ) + 1) := by ring
    rw [this]
    ring

/-- The mean of the two middle ranks is the bias the code divides by. -/
theorem rank_middle (n : ℕ) (hn : 0 < n) : (rank n ((n - 1) / 2) + rank n (n / 2)) / 2 = medianBias n := by
  obtain ⟨m, rfl | rfl⟩ : ∃ m, n = 2 * m + 1 ∨ n = 2 * m + 2 := ⟨(n - 1) / 2, by omega⟩
  · have e1 : (2 * m + 1 - 1) / 2 = m := by omega
    have e2 : (2 * m + 1) / 2 = m := by omega
    rw [e1, e2, rank_odd]; ring
  · have e1 : (2 * m + 2 - 1) / 2 = m := by omega
    have e2 : (2 * m + 2) / 2 = m + 1 := by omega
    have hb : medianBias (2 * m + 2) = medianBias (2 * m + 1) := by
      unfold medianBias
      have e3 : (2 * m + 1 - 1) / 2 = m := by omega
      rw [e1, e3]
    rw [e1, e2, hb, ← rank_odd]
    have h3 := rank_succ (2 * m + 1) m
    have h4 := rank_last (2 * m + 2) m
    have h5 : ((2 * m + 2 : ℕ) : ℝ) - (m + 1 : ℕ) = m + 1 := by push_cast; ring
    rw [h5] at h4
    have h6 : 1 / ((m : ℝ) + 1) = 2 * (1 / (2 * m + 2 : ℝ)) := by field_simp
    have h7 : 1 / (((2 * m + 1 : ℕ) : ℝ) + 1) = 1 / (2 * m + 2 : ℝ) := by push_cast; congr 1; ring
    rw [h7] at h3
    rw [h6] at h4
    linarith

/-- Expected conventional median of `n` independent exponential variables of mean `p`. -/
theorem expected_median {Ω : Type*} [MeasurableSpace Ω] (P : Measure Ω) (n : ℕ) (hn : 0 < n) (p : ℝ) (hp : 0 < p)
    (X : Fin n → Ω → ℝ) (hX : ∀ i, AEMeasurable (X i) P) (hind : iIndepFun X P)
    (hlaw : ∀ i, P.map (X i) = expMeasure (1 / p)) :
    Integrable (fun ω => Welch.median (List.ofFn fun i => X i ω)) P ∧
    ∫ ω, Welch.median (List.ofFn fun i => X i ω) ∂P = medianBias n * p := by
  have := hind.isProbabilityMeasure
  have hr : (0 : ℝ) < 1 / p := by positivity
  have hmap := (iIndepFun_iff_map_fun_eq_pi_map hX).1 hind
  simp only [hlaw] at hmap
  have hmeas : AEMeasurable (fun ω i => X i ω) P := aemeasurable_pi_lambda _ hX
  have h1 : (n - 1) / 2 < n := by omega
  have h2 : n / 2 < n := by omega
  have hmed : (fun ω => Welch.median (List.ofFn fun i => X i ω)) =
      fun ω => (ord ((n - 1) / 2) (fun i => X i ω) + ord (n / 2) (fun i => X i ω)) / 2 := by
    funext ω
    unfold Welch.median ord
    simp only [List.length_ofFn]
  have hi : ∀ k, k < n → Integrable (fun ω => ord k (fun i => X i ω)) P ∧
      ∫ ω, ord k (fun i => X i ω) ∂P = rank n k * p := by
    intro k hk
    obtain ⟨a, b⟩ := expected_ord (1 / p) hr n k hk
    rw [← hmap] at a b
    constructor
    · exact a.comp_aemeasurable hmeas
    · rw [integral_map hmeas (measurable_ord k hk).aestronglyMeasurable] at b
      rw [b, rank, sum_mul]
      exact sum_congr rfl fun j _ => by rw [div_div_eq_mul_div, div_one]
  rw [hmed]
  obtain ⟨a1, b1⟩ := hi _ h1
  obtain ⟨a2, b2⟩ := hi _ h2
  refine ⟨(a1.add a2).div_const 2, ?_⟩
  rw [integral_div, integral_add a1 a2, b1, b2, ← rank_middle n hn]
  ring

end Verif.OrderStat
