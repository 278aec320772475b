import Verif.Props.Butter
/-!
# The generator with its own highpass filter (C78)
-/
namespace Verif.Generator
open Finset IIRSpec IIRFilter GenSpec

/-- The closed form of the gain in terms of a frequency in hertz. -/
theorem gain_hz (wn sr f : ℝ) (hsr : 0 < sr) (h0 : 0 < wn) (h1 : wn < 1) (hf : 0 < f) (hf2 : 2 * f < sr) :
    ‖response (Butter.highpass 8 wn).2 (Butter.highpass 8 wn).1 (2 * Real.pi * f / sr)‖ ^ 2 = butterHighpassGain2 8 wn sr f := by
  rw [Butter.response_sq 8 wn (by norm_num) h0 h1]
  have hpi := Real.pi_pos
  have e : 2 * Real.pi * f / sr / 2 = Real.pi * f / sr := by ring
  have ha : 0 < Real.pi * f / sr := by positivity
  have hb : Real.pi * f / sr < Real.pi / 2 := by
    rw [div_lt_div_iff₀ hsr (by norm_num)]; nlinarith
  have hs : 0 < Real.sin (Real.pi * f / sr) := Real.sin_pos_of_pos_of_lt_pi ha (by linarith)
  have hc : 0 < Real.cos (Real.pi * f / sr) := Real.cos_pos_of_mem_Ioo ⟨by linarith, hb⟩
  rw [e]
  unfold butterHighpassGain2
  rw [Real.tan_eq_sin_div_cos (Real.pi * f / sr)]
  generalize Real.tan (Real.pi * wn / 2) = W
  have h16 : (W / (Real.sin (Real.pi * f / sr) / Real.cos (Real.pi * f / sr))) ^ (2 * 8) =
      (W * Real.cos (Real.pi * f / sr)) ^ (2 * 8) / Real.sin (Real.pi * f / sr) ^ (2 * 8) := by
    rw [← div_pow]; congr 1; field_simp
  rw [h16]
  generalize Real.sin (Real.pi * f / sr) = s at hs
  generalize (W * Real.cos (Real.pi * f / sr)) ^ (2 * 8) = V
  have : s ^ (2 * 8) ≠ 0 := by positivity
  rw [one_add_div this, one_div_div]

/-- The gain increases with the frequency. -/
theorem gain_mono (wn sr f f' : ℝ) (hsr : 0 < sr) (hf : 0 < f) (hle : f ≤ f') (hf2 : 2 * f' < sr) :
    butterHighpassGain2 8 wn sr f ≤ butterHighpassGain2 8 wn sr f' := by
  have hpi := Real.pi_pos
  have ha : 0 < Real.pi * f / sr := by positivity
  have hb : Real.pi * f' / sr < Real.pi / 2 := by
    rw [div_lt_div_iff₀ hsr (by norm_num)]; nlinarith
  have hl : Real.pi * f / sr ≤ Real.pi * f' / sr := by gcongr
  have ht : 0 < Real.tan (Real.pi * f / sr) := Real.tan_pos_of_pos_of_lt_pi_div_two ha (by linarith)
  have htt : Real.tan (Real.pi * f / sr) ≤ Real.tan (Real.pi * f' / sr) := by
    rcases hl.lt_or_eq with h | h
    · exact (Real.tan_lt_tan_of_lt_of_lt_pi_div_two (by linarith) hb h).le
    · rw [h]
  unfold butterHighpassGain2
  have hW : ∀ t : ℝ, 0 ≤ (Real.tan (Real.pi * wn / 2) / t) ^ (2 * 8) := fun t => by rw [pow_mul]; positivity
  refine one_div_le_one_div_of_le (by have := hW (Real.tan (Real.pi * f' / sr)); linarith) ?_
  have : (Real.tan (Real.pi * wn / 2) / Real.tan (Real.pi * f' / sr)) ^ (2 * 8) ≤ (Real.tan (Real.pi * wn / 2) / Real.tan (Real.pi * f / sr)) ^ (2 * 8) := by
    rw [pow_mul, pow_mul (Real.tan (Real.pi * wn / 2) / Real.tan (Real.pi * f / sr)) 2 8]
    have q : Real.tan (Real.pi * wn / 2) ^ 2 / Real.tan (Real.pi * f' / sr) ^ 2 ≤ Real.tan (Real.pi * wn / 2) ^ 2 / Real.tan (Real.pi * f / sr) ^ 2 :=
      div_le_div_of_nonneg_left (by positivity) (by positivity) (pow_le_pow_left₀ ht.le htt 2)
    rw [← div_pow, ← div_pow] at q
    exact pow_le_pow_left₀ (by positivity) q 8
  linarith

/-- **C78.**  The highpass filter can be built whenever the lower frequency is below the Nyquist frequency, and is stable.  Away from the two ends of a
series it multiplies a sinusoid of `f` hertz by a gain without shifting its phase; the disturbance at the ends decays geometrically, at one rate for all
frequencies and lengths.  The gain is zero at zero hertz, increases with the frequency, is never more than one, and at the lower frequency is `√0.99`. -/
theorem highpass_tone (g : Gen) (h0 : 0 < g.fMin) (h1 : 2 * g.fMin < g.sampleRate) :
    ∃ m, g.buildHighpass = .ok m ∧ Stable m.a ∧ m.a.length = m.b.length ∧
    ∃ (G : ℝ → ℝ) (C r : ℝ), 0 ≤ C ∧ 0 < r ∧ r < 1 ∧
      (∀ (f φ : ℝ) (N n : ℕ), 0 ≤ f → 2 * f < g.sampleRate → n < N →
        |filtRow m.a m.b N (fun t => Real.cos (2 * Real.pi * f * (t / g.sampleRate) + φ)) n - G f * Real.cos (2 * Real.pi * f * (n / g.sampleRate) + φ)|
          ≤ C * (r ^ n + r ^ (N - n))) ∧
      G 0 = 0 ∧ G g.fMin = Real.sqrt 0.99 ∧
      ∀ f f' : ℝ, 0 ≤ f → f ≤ f' → 2 * f' < g.sampleRate → 0 ≤ G f ∧ G f ≤ G f' ∧ G f' ≤ 1 := by
  obtain ⟨_, _, hw0, hw1, hg⟩ := highpass_ok g h0 h1
  have hsr : 0 < g.sampleRate := by linarith
  obtain ⟨hst, hla, hlb⟩ := Butter.stable 8 g.highpassWn (by norm_num) hw0 hw1
  have hhz := fun f => gain_hz g.highpassWn g.sampleRate f hsr hw0 hw1
  have hrs := Butter.response_sq 8 g.highpassWn (by norm_num) hw0 hw1
  have hb : g.buildHighpass = IIRFilter.init (.ok (Butter.highpass 8 g.highpassWn)) := by
    unfold Gen.buildHighpass; rw [if_pos ⟨hw0, hw1⟩]
  generalize Butter.highpass 8 g.highpassWn = q at hst hla hlb hhz hrs hb
  refine ⟨⟨q.2, q.1⟩, hb, hst, by rw [hla, hlb], ?_⟩
  obtain ⟨C, r, hC, hr0, hr1, hsin⟩ := sinusoid q.2 q.1 hst
  set G : ℝ → ℝ := fun f => ‖response q.2 q.1 (2 * Real.pi * f / g.sampleRate)‖ ^ 2 with hG
  have hGz : G 0 = 0 := by
    rw [hG]; dsimp only
    rw [hrs]; simp
  have hGp : ∀ f, 0 < f → 2 * f < g.sampleRate → G f = butterHighpassGain2 8 g.highpassWn g.sampleRate f := fun f a b =>
    hhz f a b
  have hG0 : ∀ f, 0 ≤ G f := fun f => by rw [hG]; positivity
  refine ⟨G, C, r, hC, hr0, hr1, ?_, hGz, ?_, ?_⟩
  · intro f φ N n _ _ hn
    have := hsin N (2 * Real.pi * f / g.sampleRate) φ n hn
    have e : ∀ t : ℕ, 2 * Real.pi * f / g.sampleRate * (t : ℝ) + φ = 2 * Real.pi * f * (t / g.sampleRate) + φ := fun t => by ring
    simp only [e] at this
    exact this
  · rw [← hGp g.fMin h0 h1] at hg
    rw [← hg, Real.sqrt_sq (hG0 _)]
  · intro f f' hf hle hf2
    refine ⟨hG0 f, ?_, ?_⟩
    · rcases hf.lt_or_eq with h | h
      · rw [hGp f h (by linarith), hGp f' (by linarith) hf2]
        exact gain_mono _ _ f f' hsr h hle hf2
      · rw [← h, hGz]; exact hG0 f'
    · rw [hG]; dsimp only
      rw [hrs]
      refine div_le_one_of_le₀ ?_ ?_
      · rw [le_add_iff_nonneg_right, pow_mul]; positivity
      · rw [pow_mul, pow_mul _ 2 8]; positivity

/-- **C78.**  A generator whose lower frequency lies between the Nyquist frequency and the sample rate is rejected when the filter is designed. -/
theorem highpass_error (g : Gen) (h1 : g.sampleRate < 2 * g.fMin) (h2 : g.fMin < g.sampleRate) : g.buildHighpass = .error .value := by
  have hsr : 0 < g.sampleRate := by linarith
  have hpi := Real.pi_pos
  have hx1 : Real.pi / 2 < Real.pi * g.fMin / g.sampleRate := by
    rw [div_lt_div_iff₀ (by norm_num) hsr]; nlinarith
  have hx2 : Real.pi * g.fMin / g.sampleRate < Real.pi := by
    rw [div_lt_iff₀ hsr]; nlinarith
  have ht : Real.tan (Real.pi * g.fMin / g.sampleRate) < 0 := by
    have := Real.tan_neg_of_neg_of_pi_div_two_lt (x := Real.pi * g.fMin / g.sampleRate - Real.pi) (by linarith) (by linarith)
    rwa [Real.tan_periodic.sub_eq] at this
  have hs : (0.99 : ℝ) ^ (0.5 : ℝ) = Real.sqrt 0.99 := by rw [Real.sqrt_eq_rpow]; norm_num
  have hs0 : 0 < Real.sqrt 0.99 := Real.sqrt_pos.2 (by norm_num)
  have hs1 : Real.sqrt 0.99 < 1 := by rw [Real.sqrt_lt' (by norm_num)]; norm_num
  have hcb : 0 < 1 / (0.99 : ℝ) ^ (0.5 : ℝ) - 1 := by
    rw [hs, sub_pos, lt_div_iff₀ hs0]; linarith
  have hc0 : 0 < (1 / (0.99 : ℝ) ^ (0.5 : ℝ) - 1) ^ ((1 : ℝ) / (2 * 8)) := Real.rpow_pos_of_pos hcb _
  have hneg : g.highpassWn < 0 := by
    unfold Gen.highpassWn Gen.highpassFc
    dsimp only
    have ha : Real.arctan (Real.tan (Real.pi * g.fMin / g.sampleRate) * (1 / (0.99 : ℝ) ^ (0.5 : ℝ) - 1) ^ ((1 : ℝ) / (2 * 8))) < 0 :=
      Real.arctan_lt_zero.2 (mul_neg_of_neg_of_pos ht hc0)
    exact div_neg_of_neg_of_pos (div_neg_of_neg_of_pos (mul_neg_of_pos_of_neg hsr ha) hpi) (by linarith)
  unfold Gen.buildHighpass IIRFilter.init
  rw [if_neg (fun h => by linarith [h.1])]
  rfl

/-- **C78.**  The generator with its own filter, for every valid batch and even integer sample rate: it succeeds, no sample is NaN, and every series is the
zero-phase filtering of the series before the filter. -/
theorem run_ok (g : Gen) (hg : g.Valid) (hny : 2 * g.fMin < g.sampleRate) (h : ℕ) (hh : g.sampleRate = 2 * h) (hd : 0 ≤ g.duration) (ps : List Par) (hps : Batch ps)
    (Hc Hp : ℕ → ℝ → ℂ) :
    ∃ m s r, g.buildHighpass = .ok m ∧ Stable m.a ∧
      g.unfiltered (fun fs => .ok fun b j => (Hc b (fs.getD j 0), Hp b (fs.getD j 0))) ps = .ok s ∧
      g.run (fun fs => .ok fun b j => (Hc b (fs.getD j 0), Hp b (fs.getD j 0))) ps = .ok r ∧ r.len = s.len ∧
      ∀ b, b < ps.length → ∃ xc xp : ℕ → ℝ,
        (∀ t, t < s.len → s.cross b t = some (xc t) ∧ s.plus b t = some (xp t)) ∧
        ∀ t, t < s.len → r.cross b t = some (filtRow m.a m.b s.len xc t) ∧ r.plus b t = some (filtRow m.a m.b s.len xp t) := by
  obtain ⟨m, hm, hst, _⟩ := highpass_tone g hg.1 hny
  obtain ⟨_, _, _, _, s, hs, _, hval⟩ := unfiltered_ok g hg h hh hd ps hps Hc Hp
  obtain ⟨r, hr, hlen, hrow⟩ := forward_eq g (filtO m) _ ps s hs
  refine ⟨m, s, r, hm, hst, hs, ?_, hlen, fun b hb => ?_⟩
  · unfold Gen.run; rw [hm]; exact hr
  have hpb : ps[b]? = some ps[b] := List.getElem?_eq_getElem hb
  have hsome : ∀ t, t < s.len → (s.cross b t).isSome ∧ (s.plus b t).isSome := by
    intro t ht
    have e : s.len - (s.len - t) = t := by omega
    have h1 := hval b ps[b] hpb (s.len - t) (by omega) (by omega) s.cross Hc (Or.inl ⟨rfl, rfl⟩)
    have h2 := hval b ps[b] hpb (s.len - t) (by omega) (by omega) s.plus Hp (Or.inr ⟨rfl, rfl⟩)
    rw [e] at h1 h2
    rw [h1, h2]; exact ⟨rfl, rfl⟩
  refine ⟨fun t => (s.cross b t).getD 0, fun t => (s.plus b t).getD 0, fun t ht => ?_, fun t _ => ?_⟩
  · obtain ⟨h1, h2⟩ := hsome t ht
    obtain ⟨u, hu⟩ := Option.isSome_iff_exists.1 h1
    obtain ⟨v, hv⟩ := Option.isSome_iff_exists.1 h2
    simp only [hu, hv, Option.getD_some, and_self]
  · rw [(hrow b).1, (hrow b).2]
    unfold filtO
    rw [if_pos fun k hk => (hsome k hk).1, if_pos fun k hk => (hsome k hk).2]
    exact ⟨rfl, rfl⟩

example : 0 < exGen.fMin ∧ 2 * exGen.fMin < exGen.sampleRate := by unfold exGen; norm_num
example : (⟨2048, 8, 1500, 20, 0.5⟩ : Gen).sampleRate < 2 * (⟨2048, 8, 1500, 20, 0.5⟩ : Gen).fMin := by norm_num

end Verif.Generator
