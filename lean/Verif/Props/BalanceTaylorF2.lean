import Verif.Props.Balance
/-!
# C103: the TaylorF2 phase solves the energy balance, on the waveform itself
-/
set_option linter.unusedSimpArgs false
set_option linter.unusedVariables false
namespace Verif.TaylorF2
open CbcUtils Spa SpaSpec BalanceSpec Filter Topology Asymptotics

theorem phase_series_all (m1 m2 c1 c2 : ℝ) (h1 : 0 < m1) (h2 : 0 < m2) :
    ∃ (b : ℤ → ℝ) (l0 l1 : ℝ), (∀ w, 0 < w → PNSpec.phase m1 m2 c1 c2 w = series b l0 l1 w) ∧ b (-5) = 3 / (128 * PNSpec.eta m1 m2) ∧
      b (-3) = 3 / (128 * PNSpec.eta m1 m2) * PNSpec.psi2 (PNSpec.eta m1 m2) ∧
      b (-2) = 3 / (128 * PNSpec.eta m1 m2) * PNSpec.psi3 (PNSpec.eta m1 m2) (PNSpec.delta m1 m2) (PNSpec.chiS c1 c2) (PNSpec.chiA c1 c2) ∧
      b (-1) = 3 / (128 * PNSpec.eta m1 m2) * PNSpec.psi4 (PNSpec.eta m1 m2) (PNSpec.delta m1 m2) (PNSpec.chiS c1 c2) (PNSpec.chiA c1 c2) ∧
      b 1 = 3 / (128 * PNSpec.eta m1 m2) * PNSpec.psi6 (PNSpec.eta m1 m2) (PNSpec.delta m1 m2) (PNSpec.chiS c1 c2) (PNSpec.chiA c1 c2) 1 ∧
      b 2 = 3 / (128 * PNSpec.eta m1 m2) * PNSpec.psi7 (PNSpec.eta m1 m2) (PNSpec.delta m1 m2) (PNSpec.chiS c1 c2) (PNSpec.chiA c1 c2) ∧
      l0 = 3 / (128 * PNSpec.eta m1 m2) * (3 * PNSpec.psi5 (PNSpec.eta m1 m2) (PNSpec.delta m1 m2) (PNSpec.chiS c1 c2) (PNSpec.chiA c1 c2)) ∧
      l1 = 3 / (128 * PNSpec.eta m1 m2) * (-6848 / 21) := by
  have hη : 0 < PNSpec.eta m1 m2 := by unfold PNSpec.eta; positivity
  refine ⟨fun p => if p = -5 then 3 / (128 * PNSpec.eta m1 m2) else if p = -3 then 3 / (128 * PNSpec.eta m1 m2) * PNSpec.psi2 (PNSpec.eta m1 m2) else
    if p = -2 then 3 / (128 * PNSpec.eta m1 m2) * PNSpec.psi3 (PNSpec.eta m1 m2) (PNSpec.delta m1 m2) (PNSpec.chiS c1 c2) (PNSpec.chiA c1 c2) else
    if p = -1 then 3 / (128 * PNSpec.eta m1 m2) * PNSpec.psi4 (PNSpec.eta m1 m2) (PNSpec.delta m1 m2) (PNSpec.chiS c1 c2) (PNSpec.chiA c1 c2) else
    if p = 0 then 3 / (128 * PNSpec.eta m1 m2) * PNSpec.psi5 (PNSpec.eta m1 m2) (PNSpec.delta m1 m2) (PNSpec.chiS c1 c2) (PNSpec.chiA c1 c2) else
    if p = 1 then 3 / (128 * PNSpec.eta m1 m2) * PNSpec.psi6 (PNSpec.eta m1 m2) (PNSpec.delta m1 m2) (PNSpec.chiS c1 c2) (PNSpec.chiA c1 c2) 1 else
    if p = 2 then 3 / (128 * PNSpec.eta m1 m2) * PNSpec.psi7 (PNSpec.eta m1 m2) (PNSpec.delta m1 m2) (PNSpec.chiS c1 c2) (PNSpec.chiA c1 c2) else 0,
    3 / (128 * PNSpec.eta m1 m2) * (3 * PNSpec.psi5 (PNSpec.eta m1 m2) (PNSpec.delta m1 m2) (PNSpec.chiS c1 c2) (PNSpec.chiA c1 c2)),
    3 / (128 * PNSpec.eta m1 m2) * (-6848 / 21), fun w hw => ?_, by norm_num, by norm_num, by norm_num, by norm_num, by norm_num, by norm_num, rfl, rfl⟩
  unfold PNSpec.phase series
  dsimp only
  have hl : PNSpec.psi6 (PNSpec.eta m1 m2) (PNSpec.delta m1 m2) (PNSpec.chiS c1 c2) (PNSpec.chiA c1 c2) w =
      PNSpec.psi6 (PNSpec.eta m1 m2) (PNSpec.delta m1 m2) (PNSpec.chiS c1 c2) (PNSpec.chiA c1 c2) 1 - 6848 / 21 * Real.log w := by
    unfold PNSpec.psi6
    rw [Real.log_mul (by norm_num) hw.ne', mul_one]
    ring
  rw [hl]
  generalize PNSpec.psi6 (PNSpec.eta m1 m2) (PNSpec.delta m1 m2) (PNSpec.chiS c1 c2) (PNSpec.chiA c1 c2) 1 = p6
  generalize PNSpec.psi2 (PNSpec.eta m1 m2) = p2
  generalize PNSpec.psi3 (PNSpec.eta m1 m2) (PNSpec.delta m1 m2) (PNSpec.chiS c1 c2) (PNSpec.chiA c1 c2) = p3
  generalize PNSpec.psi4 (PNSpec.eta m1 m2) (PNSpec.delta m1 m2) (PNSpec.chiS c1 c2) (PNSpec.chiA c1 c2) = p4
  generalize PNSpec.psi5 (PNSpec.eta m1 m2) (PNSpec.delta m1 m2) (PNSpec.chiS c1 c2) (PNSpec.chiA c1 c2) = p5
  generalize PNSpec.psi7 (PNSpec.eta m1 m2) (PNSpec.delta m1 m2) (PNSpec.chiS c1 c2) (PNSpec.chiA c1 c2) = p7
  generalize PNSpec.eta m1 m2 = η at *
  generalize Real.log w = L
  norm_num
  field_simp
  ring

/-- The phase of the literature up to a 3PN term, in the frequency, against the energy balance. -/
theorem series_balance (m1 m2 c1 c2 q6 α β f0 : ℝ) (h1 : 0 < m1) (h2 : 0 < m2) (h0 : 0 < f0) (ψ : ℝ → ℝ) (b : ℤ → ℝ) (l0 l1 : ℝ)
    (hψ : ∀ f, 0 < f → f < f0 → ψ f = series b l0 l1 (velocity (m1 + m2) f) + α + β * f) (b5 : b (-5) = 3 / (128 * PNSpec.eta m1 m2))
    (b3 : b (-3) = 3 / (128 * PNSpec.eta m1 m2) * PNSpec.psi2 (PNSpec.eta m1 m2))
    (b2 : b (-2) = 3 / (128 * PNSpec.eta m1 m2) * PNSpec.psi3 (PNSpec.eta m1 m2) (PNSpec.delta m1 m2) (PNSpec.chiS c1 c2) (PNSpec.chiA c1 c2))
    (b1 : b (-1) = 3 / (128 * PNSpec.eta m1 m2) * PNSpec.psi4 (PNSpec.eta m1 m2) (PNSpec.delta m1 m2) (PNSpec.chiS c1 c2) (PNSpec.chiA c1 c2))
    (bb1 : b 1 = 3 / (128 * PNSpec.eta m1 m2) * (PNSpec.psi6 (PNSpec.eta m1 m2) (PNSpec.delta m1 m2) (PNSpec.chiS c1 c2) (PNSpec.chiA c1 c2) 1 - q6))
    (bb2 : b 2 = 3 / (128 * PNSpec.eta m1 m2) * PNSpec.psi7 (PNSpec.eta m1 m2) (PNSpec.delta m1 m2) (PNSpec.chiS c1 c2) (PNSpec.chiA c1 c2))
    (e0 : l0 = 3 / (128 * PNSpec.eta m1 m2) * (3 * PNSpec.psi5 (PNSpec.eta m1 m2) (PNSpec.delta m1 m2) (PNSpec.chiS c1 c2) (PNSpec.chiA c1 c2)))
    (e1 : l1 = 3 / (128 * PNSpec.eta m1 m2) * (-6848 / 21)) :
    (fun f => deriv (deriv ψ) f / (2 * Real.pi * timePerFrequency m1 m2 c1 c2 f) - 1 - q6 / 20 * velocity (m1 + m2) f ^ 6 - kk (m1 / (m1 + m2)) c1 c2 * velocity (m1 + m2) f ^ 7)
      =o[𝓝[>] 0] fun f => velocity (m1 + m2) f ^ 7 := by
  have hM : 0 < m1 + m2 := by positivity
  have hη : 0 < PNSpec.eta m1 m2 := by unfold PNSpec.eta; positivity
  have xe : PNSpec.eta m1 m2 = m1 / (m1 + m2) * (1 - m1 / (m1 + m2)) := by unfold PNSpec.eta; field_simp; ring
  have xd : PNSpec.delta m1 m2 = 2 * (m1 / (m1 + m2)) - 1 := by unfold PNSpec.delta; field_simp; ring
  have xs : spinS m1 m2 c1 c2 = cS (m1 / (m1 + m2)) c1 c2 := by unfold spinS cS; field_simp; ring
  have xdd : spinD m1 m2 c1 c2 = cD (m1 / (m1 + m2)) c1 c2 := by unfold spinD cD; field_simp; ring
  unfold timePerFrequency
  rw [xs, xdd]
  rw [xd] at b2 b1 bb1 bb2 e0 ⊢
  have hE := fun f hf => energy_deriv (PNSpec.eta m1 m2) (2 * (m1 / (m1 + m2)) - 1) (cS (m1 / (m1 + m2)) c1 c2) (cD (m1 / (m1 + m2)) c1 c2) (m1 + m2) f hM hf
  have hF := fun v hv => flux_series (PNSpec.eta m1 m2) (2 * (m1 / (m1 + m2)) - 1) (cS (m1 / (m1 + m2)) c1 c2) (cD (m1 / (m1 + m2)) c1 c2) v hv
  rw [xe] at hE hF hη b5 b3 b2 b1 bb1 bb2 e0 e1 ⊢
  clear xe xd xs xdd
  generalize m1 / (m1 + m2) = X at *
  refine balance_core (m1 + m2) (X * (1 - X)) hM hη b l0 l1 α β f0 h0 ψ _ _ hψ b5 _ _ _ _ _ _ hE _ _ _ _ _ _ _ hF
    (9 / 20 * PNSpec.psi2 (X * (1 - X))) (PNSpec.psi3 (X * (1 - X)) (2 * X - 1) (PNSpec.chiS c1 c2) (PNSpec.chiA c1 c2) / 4)
    (PNSpec.psi4 (X * (1 - X)) (2 * X - 1) (PNSpec.chiS c1 c2) (PNSpec.chiA c1 c2) / 10)
    (-9 / 40 * PNSpec.psi5 (X * (1 - X)) (2 * X - 1) (PNSpec.chiS c1 c2) (PNSpec.chiA c1 c2))
    (-(2 * (PNSpec.psi6 (X * (1 - X)) (2 * X - 1) (PNSpec.chiS c1 c2) (PNSpec.chiA c1 c2) 1 - q6) - 6848 / 21) / 40) (1712 / 105)
    (-PNSpec.psi7 (X * (1 - X)) (2 * X - 1) (PNSpec.chiS c1 c2) (PNSpec.chiA c1 c2) / 20) (q6 / 20)
    (by rw [b3]; ring) (by rw [b2]; ring) (by rw [b1]; ring) (by rw [e0]; ring) (by rw [bb1, e1]; ring) (by rw [e1]; ring) (by rw [bb2]; ring)
    (order2 X) (order3 X c1 c2) (order4 X c1 c2) (order5 X c1 c2) (by linear_combination order6 X c1 c2) (by norm_num) (kk X c1 c2) ?_
  unfold kk
  dsimp only
  ring

/-- The phase of the literature, in the frequency, against the energy balance. -/
theorem phase_balance (m1 m2 c1 c2 α f0 : ℝ) (h1 : 0 < m1) (h2 : 0 < m2) (h0 : 0 < f0) (ψ : ℝ → ℝ)
    (hψ : ∀ f, 0 < f → f < f0 → ψ f = PNSpec.phase m1 m2 c1 c2 (velocity (m1 + m2) f) + α) :
    (fun f => deriv (deriv ψ) f / (2 * Real.pi * timePerFrequency m1 m2 c1 c2 f) - 1 - kk (m1 / (m1 + m2)) c1 c2 * velocity (m1 + m2) f ^ 7)
      =o[𝓝[>] 0] fun f => velocity (m1 + m2) f ^ 7 := by
  obtain ⟨b, l0, l1, hb, b5, b3, b2, b1, bb1, bb2, e0, e1⟩ := phase_series_all m1 m2 c1 c2 h1 h2
  have h := series_balance m1 m2 c1 c2 0 α 0 f0 h1 h2 h0 ψ b l0 l1 (fun f hf hf0 => by rw [hψ f hf hf0, hb _ (velocity_pos _ f (by positivity) hf)]; ring)
    b5 b3 b2 b1 (by rw [bb1, sub_zero]) bb2 e0 e1
  simpa using h

/-- **C103.**  The phase of the TaylorF2 strain is the one the binary's energy budget dictates: `ψ''(f) = 2π dt/df`, with the time per frequency computed from the orbital energy and the radiated power, through third post-Newtonian order for any aligned spins, and to three and a half orders in what is linear in the spins: the relative difference starts at `v⁷` with a term quadratic and one cubic in the spins (`t` scales both). -/
theorem phase_solves_balance (b : Bin) (hb : b.Valid) (d phic fRef : ℝ) (hd : 0 < d) (hr : 0 < fRef) :
    ∃ A B : ℝ, ∀ t : ℝ, ∃ ψ : ℝ → ℝ, (∀ f, 0 < f → DifferentiableAt ℝ ψ f) ∧
      (∀ f, 0 < f → Bin.htilde ⟨b.m1, b.m2, t * b.chi1, t * b.chi2⟩ f d phic fRef =
        (‖Bin.htilde ⟨b.m1, b.m2, t * b.chi1, t * b.chi2⟩ f d phic fRef‖ : ℂ) * Complex.exp (-Complex.I * (ψ f : ℂ))) ∧
      (fun f => deriv (deriv ψ) f / (2 * Real.pi * timePerFrequency (b.m1 * mtsun) (b.m2 * mtsun) (t * b.chi1) (t * b.chi2) f) - 1
          - (A * t ^ 2 + B * t ^ 3) * velocity ((b.m1 + b.m2) * mtsun) f ^ 7)
        =o[𝓝[>] 0] fun f => velocity ((b.m1 + b.m2) * mtsun) f ^ 7 := by
  obtain ⟨A, B, hAB⟩ := kk_spins (b.m1 * mtsun / (b.m1 * mtsun + b.m2 * mtsun)) b.chi1 b.chi2
  refine ⟨A, B, fun t => ?_⟩
  obtain ⟨h1, h2⟩ := id hb
  have hb' : (Bin.mk b.m1 b.m2 (t * b.chi1) (t * b.chi2)).Valid := ⟨h1, h2⟩
  have hmt : 0 < mtsun := mtsun_pos
  have hM : 0 < (b.m1 + b.m2) * mtsun := by positivity
  have hms : Bin.mSec ⟨b.m1, b.m2, t * b.chi1, t * b.chi2⟩ = (b.m1 + b.m2) * mtsun := by unfold Bin.mSec; ring
  have hv : ∀ f, Bin.v ((b.m1 + b.m2) * mtsun * f) = velocity ((b.m1 + b.m2) * mtsun) f := fun f => by
    unfold Bin.v velocity; rw [mul_assoc Real.pi]
  refine ⟨fun f => Bin.phasing ⟨b.m1, b.m2, t * b.chi1, t * b.chi2⟩ ((b.m1 + b.m2) * mtsun * f)
    - Bin.phasing ⟨b.m1, b.m2, t * b.chi1, t * b.chi2⟩ ((b.m1 + b.m2) * mtsun * fRef) - 2 * phic - Real.pi / 4 + Real.pi, ?_, ?_, ?_⟩
  · intro f hf
    have hdv := Bin.phasing_deriv hb' ((b.m1 + b.m2) * mtsun * f) (by positivity)
    have : DifferentiableAt ℝ (fun f => Bin.phasing ⟨b.m1, b.m2, t * b.chi1, t * b.chi2⟩ ((b.m1 + b.m2) * mtsun * f)) f :=
      hdv.differentiableAt.comp f ((differentiableAt_id).const_mul _)
    fun_prop
  · intro f hf
    dsimp only
    rw [Bin.htilde_norm hb' f d phic fRef hf hd hr, Bin.htilde_eq hb' f d phic fRef hf hd hr, hms, Bin.phasing_eq hb' _ (by positivity), Bin.phasing_eq hb' _ (by positivity)]
    have e : ∀ y : ℝ, Complex.exp (-Complex.I * ((y + Real.pi : ℝ) : ℂ)) = -Complex.exp (-Complex.I * (y : ℂ)) := by
      intro y
      push_cast
      rw [mul_add, Complex.exp_add, show -Complex.I * (Real.pi : ℂ) = -(Real.pi * Complex.I) by ring, Complex.exp_neg, Complex.exp_pi_mul_I]
      norm_num
    rw [e]
    ring
  · have h := phase_balance (b.m1 * mtsun) (b.m2 * mtsun) (t * b.chi1) (t * b.chi2)
      (-Bin.phasing ⟨b.m1, b.m2, t * b.chi1, t * b.chi2⟩ ((b.m1 + b.m2) * mtsun * fRef) - 2 * phic - Real.pi / 4 + Real.pi) 1 (by positivity) (by positivity) one_pos
      (fun f => Bin.phasing ⟨b.m1, b.m2, t * b.chi1, t * b.chi2⟩ ((b.m1 + b.m2) * mtsun * f)
        - Bin.phasing ⟨b.m1, b.m2, t * b.chi1, t * b.chi2⟩ ((b.m1 + b.m2) * mtsun * fRef) - 2 * phic - Real.pi / 4 + Real.pi) (fun f hf _ => by
        have sEta : PNSpec.eta (b.m1 * mtsun) (b.m2 * mtsun) = PNSpec.eta b.m1 b.m2 := by unfold PNSpec.eta; field_simp
        have sDel : PNSpec.delta (b.m1 * mtsun) (b.m2 * mtsun) = PNSpec.delta b.m1 b.m2 := by unfold PNSpec.delta; field_simp
        rw [Bin.phasing_eq hb' _ (by positivity : 0 < (b.m1 + b.m2) * mtsun * f), hv]
        unfold PNSpec.phase
        rw [sEta, sDel, ← add_mul]
        ring)
    rw [hAB, ← add_mul] at h
    exact h

example : (Bin.mk 36 29 0.5 (-0.3)).Valid ∧ 0 < (400 : ℝ) ∧ 0 < (20 : ℝ) := ⟨⟨by norm_num, by norm_num⟩, by norm_num, by norm_num⟩

/-- Without spins nothing is left through three and a half orders. -/
theorem phase_solves_balance_nonspinning (b : Bin) (hb : b.Valid) (h1 : b.chi1 = 0) (h2 : b.chi2 = 0) (d phic fRef : ℝ) (hd : 0 < d) (hr : 0 < fRef) :
    ∃ ψ : ℝ → ℝ, (∀ f, 0 < f → DifferentiableAt ℝ ψ f) ∧
      (∀ f, 0 < f → b.htilde f d phic fRef = (‖b.htilde f d phic fRef‖ : ℂ) * Complex.exp (-Complex.I * (ψ f : ℂ))) ∧
      (fun f => deriv (deriv ψ) f / (2 * Real.pi * timePerFrequency (b.m1 * mtsun) (b.m2 * mtsun) 0 0 f) - 1)
        =o[𝓝[>] 0] fun f => velocity ((b.m1 + b.m2) * mtsun) f ^ 7 := by
  obtain ⟨A, B, h⟩ := phase_solves_balance b hb d phic fRef hd hr
  obtain ⟨ψ, a, c, e⟩ := h 0
  simp only [zero_mul, ne_eq, OfNat.ofNat_ne_zero, not_false_eq_true, zero_pow, mul_zero, add_zero, sub_zero] at a c e
  refine ⟨ψ, a, fun f hf => ?_, e⟩
  have := c f hf
  rw [show (⟨b.m1, b.m2, 0, 0⟩ : Bin) = b by obtain ⟨m1, m2, x1, x2⟩ := b; simp only at h1 h2; rw [h1, h2]] at this
  exact this

example : (Bin.mk 1.4 1.3 0 0).Valid ∧ (Bin.mk 1.4 1.3 0 0).chi1 = 0 ∧ (Bin.mk 1.4 1.3 0 0).chi2 = 0 := ⟨⟨by norm_num, by norm_num⟩, rfl, rfl⟩

end Verif.TaylorF2
