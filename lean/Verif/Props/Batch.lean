import Verif.Spec.Batch
import Verif.Props.Integrator
import Verif.Props.IIRFilter
import Verif.Props.Spectral
import Verif.Props.GroupNorm
import Verif.Props.Pearson
import Verif.Props.WhitenModules
import Verif.Props.Projector
/-!
# Batch independence of the transforms (C84)
-/
namespace Verif.Batch
open Spec.Batch Finset

theorem pick_cons {α : Type _} (x : Tensor α) (σ : List ℕ) (b : ℕ) (i : List ℕ) :
    (x.pick 0 σ).get (b :: i) = x.get (σ.getD b 0 :: i) := rfl

theorem pick_shape {α : Type _} (x : Tensor α) (σ : List ℕ) (B : ℕ) (rest : List ℕ) (h : x.shape = B :: rest) :
    (x.pick 0 σ).shape = σ.length :: rest := by simp [Tensor.pick, h]

theorem getD_lt {B : ℕ} {σ : List ℕ} (h : Positions B σ) {b : ℕ} (hb : b < σ.length) : σ.getD b 0 < B := by
  rw [List.getD_eq_getElem?_getD, List.getElem?_eq_getElem hb]
  exact h.2 _ (List.getElem_mem hb)

theorem inB_append {i s : List ℕ} {n : ℕ} (h : InB i (s ++ [n])) : ∃ l t, i = l ++ [t] ∧ InB l s ∧ t < n := by
  induction s generalizing i with
  | nil =>
    obtain ⟨t, rfl, ht⟩ := InB.eq1 (by simpa using h)
    exact ⟨[], t, rfl, trivial, ht⟩
  | cons a s ih =>
    cases i with
    | nil => exact absurd h (by simp [InB])
    | cons j i =>
      obtain ⟨l, t, rfl, hl, ht⟩ := ih h.2
      exact ⟨j :: l, t, rfl, ⟨h.1, hl⟩, ht⟩

/-- A function given by a function of the rows along the last axis treats the batch elements independently. -/
theorem rows_batchwise {α β : Type _} (f : Tensor α → Res (Tensor β)) (P : List ℕ → ℕ → Prop) (m : ℕ → ℕ) (F : ℕ → (ℕ → α) → ℕ → β)
    (hf : ∀ x lead T, x.shape = lead ++ [T] → P lead T → ∃ y, f x = .ok y ∧ y.shape = lead ++ [m T] ∧
      ∀ l t, InB l lead → t < m T → y.get (l ++ [t]) = F T (fun s => x.get (l ++ [s])) t) :
    BatchWise (fun s => ∃ rest T, s = rest ++ [T] ∧ ∀ B, 0 < B → P (B :: rest) T) 0 f := by
  rintro B s x σ hx ⟨rest, T, rfl, hPB⟩ hσ
  have hB : 0 < B := by
    obtain ⟨h1, h2⟩ := hσ
    cases σ with
    | nil => exact absurd rfl h1
    | cons a l => exact lt_of_le_of_lt (Nat.zero_le _) (h2 a (by simp))
  have hn : 0 < σ.length := List.length_pos_iff.2 hσ.1
  obtain ⟨y, hy, hys, hyv⟩ := hf x (B :: rest) T hx (hPB B hB)
  obtain ⟨y', hy', hys', hyv'⟩ := hf (x.pick 0 σ) (σ.length :: rest) T (pick_shape x σ B _ hx) (hPB _ hn)
  refine ⟨y, y', hy, hy', by simp [hys], ?_, ?_⟩
  · rw [hys', pick_shape y σ B _ hys]; rfl
  · intro i hi
    rw [hys'] at hi
    obtain ⟨l, t, rfl, hl, ht⟩ := inB_append hi
    cases l with
    | nil => exact absurd hl (by simp [InB])
    | cons b l =>
      rw [hyv' _ _ hl ht]
      show _ = y.get (σ.getD b 0 :: l ++ [t])
      rw [hyv (σ.getD b 0 :: l) t ⟨getD_lt hσ hl.1, hl.2⟩ ht]
      rfl

/-- **C84 (IIR filter).** -/
theorem iir_filter (m : IIRFilter.Module) (hl : m.a.length = m.b.length) :
    BatchWise (fun s => ∃ rest T, s = rest ++ [T] ∧ 0 < T) 0 m.forward := by
  have h := rows_batchwise m.forward (fun _ T => 0 < T) id (fun T => IIRFilter.filtRow m.a m.b T)
    (fun x lead T hx hT => by
      obtain ⟨y, h1, h2, h3⟩ := IIRFilter.forward_ok m x lead T hT hx hl
      exact ⟨y, h1, h2.trans hx, fun l t _ _ => h3 l t⟩)
  rintro B s x σ hx ⟨rest, T, hs, hT⟩ hσ
  exact h B s x σ hx ⟨rest, T, hs, fun _ _ => hT⟩ hσ

/-- **C84 (integrators).** -/
theorem tophat (sr len : ℝ) (h0 : 0 ≤ sr * len) :
    BatchWise (fun s => ∃ rest T, s = rest ++ [T] ∧ 0 < T) 0 (Integrator.tophat sr len) := by
  have h := rows_batchwise (Integrator.tophat sr len) (fun _ T => 0 < T) id (fun _ => Spec.Integrator.movingAverage (⌊sr * len⌋₊ + 1))
    (fun x lead T hx hT => by
      obtain ⟨y, h1, h2, h3⟩ := Integrator.tophat_correct sr len h0 lead T hT x hx
      exact ⟨y, h1, h2.trans hx, h3⟩)
  rintro B s x σ hx ⟨rest, T, hs, hT⟩ hσ
  exact h B s x σ hx ⟨rest, T, hs, fun _ _ => hT⟩ hσ

theorem leaky (mode : String) (hm : mode = "count" ∨ mode = "score") (thr decay lb : ℝ) :
    BatchWise (fun s => s ≠ []) 0 (Integrator.leaky mode thr decay lb) := by
  have h := rows_batchwise (Integrator.leaky mode thr decay lb) (fun _ _ => True) id
    (fun _ row => Spec.Integrator.leaky lb (-lb) fun s => Spec.Integrator.increment (mode = "count") thr decay (row s))
    (fun x lead T hx hT => by
      obtain ⟨y, h1, h2, h3⟩ := Integrator.leaky_correct mode hm thr decay lb lead T x hx
      exact ⟨y, h1, h2.trans hx, fun l t _ _ => h3 l t⟩)
  intro B s x σ hx hs hσ
  exact h B s x σ hx ⟨s.dropLast, s.getLast hs, (List.dropLast_append_getLast hs).symm, fun _ _ => trivial⟩ hσ

/-- A batch of series accepted by the spectral densities with segments of `N` samples: `(B, T)` or `(B, C, T)`. -/
def Segmented (N : ℕ) (s : List ℕ) : Prop := ∃ T, N ≤ T ∧ (s = [T] ∨ ∃ C, 0 < C ∧ s = [C, T])

theorem segmented_lead (N : ℕ) (s : List ℕ) (h : Segmented N s) :
    ∃ rest T, s = rest ++ [T] ∧ ∀ B, 0 < B → ((B :: rest).length ≤ 2 ∧ (∀ d ∈ B :: rest, 0 < d) ∧ N ≤ T) := by
  obtain ⟨T, hT, rfl | ⟨C, hC, rfl⟩⟩ := h
  · exact ⟨[], T, rfl, fun B hB => ⟨by simp, by simpa using hB, hT⟩⟩
  · exact ⟨[C], T, rfl, fun B hB => ⟨by simp, by simp [hB, hC], hT⟩⟩

/-- **C84 (spectral densities).** -/
theorem spectral_density (N hop : ℕ) (window : Tensor ℝ) (scale : ℝ) (average : String) (hN : 0 < N) (hhop : 0 < hop) (hw : window.shape = [N]) :
    BatchWise (Segmented N) 0 (fun x => Spectral.spectralDensity x N hop window scale average) ∧
    BatchWise (Segmented N) 0 (fun x => Spectral.fastSpectralDensity x N hop window scale average none) := by
  constructor
  · have h := rows_batchwise (fun x => Spectral.spectralDensity x N hop window scale average)
      (fun lead T => lead.length ≤ 2 ∧ (∀ d ∈ lead, 0 < d) ∧ N ≤ T) (fun _ => N / 2 + 1)
      (fun T => Spec.Welch.psd T N hop (fun t => window.get [t]) scale average)
      (fun x lead T hx hP => Spectral.spectral_density_correct x window lead T N hop scale average hx hP.1 hP.2.1 hN hP.2.2 hhop hw)
    exact fun B s x σ hx hs hσ => h B s x σ hx (segmented_lead N s hs) hσ
  · have h := rows_batchwise (fun x => Spectral.fastSpectralDensity x N hop window scale average none)
      (fun lead T => lead.length ≤ 2 ∧ (∀ d ∈ lead, 0 < d) ∧ N ≤ T) (fun _ => N / 2 + 1)
      (fun T r k => ((Spec.Welch.psdFast T N hop (fun t => window.get [t]) scale average r k : ℝ) : ℂ))
      (fun x lead T hx hP => Spectral.fast_density_correct x window lead T N hop scale average hx hP.1 hP.2.1 hN hP.2.2 hhop hw)
    exact fun B s x σ hx hs hσ => h B s x σ hx (segmented_lead N s hs) hσ

theorem pos_batch {B : ℕ} {σ : List ℕ} (h : Positions B σ) : 0 < B ∧ 0 < σ.length := by
  obtain ⟨h1, h2⟩ := h
  cases σ with
  | nil => exact absurd rfl h1
  | cons a l => exact ⟨lt_of_le_of_lt (Nat.zero_le _) (h2 a (by simp)), by simp⟩

/-- A function whose result for a batch element is given by that element alone treats the batch elements independently. -/
theorem elements_batchwise {α β : Type _} (f : Tensor α → Res (Tensor β)) (acc : List ℕ → Prop) (out : List ℕ → List ℕ)
    (F : List ℕ → (List ℕ → α) → List ℕ → β)
    (hf : ∀ x B rest, x.shape = B :: rest → 0 < B → acc rest → ∃ y, f x = .ok y ∧ y.shape = B :: out rest ∧
      ∀ b i, b < B → InB i (out rest) → y.get (b :: i) = F rest (fun j => x.get (b :: j)) i) : BatchWise acc 0 f := by
  intro B rest x σ hx hacc hσ
  obtain ⟨hB, hn⟩ := pos_batch hσ
  obtain ⟨y, hy, hys, hyv⟩ := hf x B rest hx hB hacc
  obtain ⟨y', hy', hys', hyv'⟩ := hf (x.pick 0 σ) σ.length rest (pick_shape x σ B _ hx) hn hacc
  refine ⟨y, y', hy, hy', by simp [hys], ?_, ?_⟩
  · rw [hys', pick_shape y σ B _ hys]
  · intro i hi
    rw [hys'] at hi
    cases i with
    | nil => exact absurd hi (by simp [InB])
    | cons b i =>
      rw [hyv' b i hi.1 hi.2]
      show _ = y.get (σ.getD b 0 :: i)
      rw [hyv _ i (getD_lt hσ hi.1) hi.2]
      rfl

/-- The same for two batches. -/
theorem elements_batchwise2 {α β γ : Type _} (f : Tensor α → Tensor β → Res (Tensor γ)) (acc : List ℕ → List ℕ → Prop) (out : List ℕ → List ℕ → List ℕ)
    (F : List ℕ → List ℕ → (List ℕ → α) → (List ℕ → β) → List ℕ → γ)
    (hf : ∀ x z B rest rest', x.shape = B :: rest → z.shape = B :: rest' → 0 < B → acc rest rest' → ∃ y, f x z = .ok y ∧ y.shape = B :: out rest rest' ∧
      ∀ b i, b < B → InB i (out rest rest') → y.get (b :: i) = F rest rest' (fun j => x.get (b :: j)) (fun j => z.get (b :: j)) i) : BatchWise2 acc 0 f := by
  intro B rest rest' x z σ hx hz hacc hσ
  obtain ⟨hB, hn⟩ := pos_batch hσ
  obtain ⟨y, hy, hys, hyv⟩ := hf x z B rest rest' hx hz hB hacc
  obtain ⟨y', hy', hys', hyv'⟩ := hf (x.pick 0 σ) (z.pick 0 σ) σ.length rest rest' (pick_shape x σ B _ hx) (pick_shape z σ B _ hz) hn hacc
  refine ⟨y, y', hy, hy', by simp [hys], ?_, ?_⟩
  · rw [hys', pick_shape y σ B _ hys]
  · intro i hi
    rw [hys'] at hi
    cases i with
    | nil => exact absurd hi (by simp [InB])
    | cons b i =>
      rw [hyv' b i hi.1 hi.2]
      show _ = y.get (σ.getD b 0 :: i)
      rw [hyv _ i (getD_lt hσ hi.1) hi.2]
      rfl

/-- **C84 (cross spectral densities)**, of two batches of the same shape. -/
theorem cross_density (N hop : ℕ) (window : Tensor ℝ) (scale : ℝ) (average : String) (hN : 0 < N) (hhop : 0 < hop) (hw : window.shape = [N]) :
    BatchWise2 (fun s s' => s' = s ∧ Segmented N s) 0 (fun x y => Spectral.fastSpectralDensity x N hop window scale average (some y)) := by
  refine elements_batchwise2 _ _ (fun s _ => s.dropLast ++ [N / 2 + 1])
    (fun s _ x y i => Spec.Welch.csdFast (s.getLastD 0) N hop (fun t => window.get [t]) scale average
      (fun t => x (i.dropLast ++ [t])) (fun t => y (i.dropLast ++ [t])) (i.getLastD 0)) ?_
  rintro x z B rest _ hx hz hB ⟨rfl, hs⟩
  obtain ⟨lead, T, rfl, hP⟩ := segmented_lead N _ hs
  obtain ⟨h1, h2, h3⟩ := hP B hB
  obtain ⟨y, hy, hys, hyv⟩ := Spectral.cross_density_correct x z window (B :: lead) T N hop scale average hx (Or.inl hz) h1 h2 hN h3 hhop hw
  refine ⟨y, hy, by simpa using hys, ?_⟩
  intro b i hb hi
  obtain ⟨l, t, rfl, hl, ht⟩ := inB_append hi
  have hlen : ∀ {i s : List ℕ}, InB i s → i.length = s.length := by
    intro i
    induction i with
    | nil => intro s h; cases s with
      | nil => rfl
      | cons => exact absurd h (by simp [InB])
    | cons a i ih => intro s h; cases s with
      | nil => exact absurd h (by simp [InB])
      | cons c s => simp [ih h.2]
  have hl' : l.length = lead.length := by simpa using hlen hl
  rw [← List.cons_append, hyv (b :: l) t ⟨hb, by simpa using hl⟩ ht]
  have e : (b :: l).take (z.ndim - 1) = b :: l := by
    apply List.take_of_length_le
    simp [Tensor.ndim, hz, hl']
  rw [e]
  simp [IIRFilter.getLastD_append]

/-- **C84 (group normalisation).** -/
theorem group_norm (numGroups : Option Nat) (C G : Nat) (eps : ℝ) (weight bias : Nat → ℝ) (hC : 0 < C) (hinit : GroupNorm.init C numGroups = .ok G) :
    BatchWise (fun s => ∃ L, 0 < L ∧ s = [C, L]) 0 (GroupNorm.forward C G eps weight bias) := by
  refine elements_batchwise _ _ id (fun s x i => Spec.groupNorm (C / G) (s.getD 1 0) eps weight bias (fun c t => x [c, t]) (i.getD 0 0) (i.getD 1 0)) ?_
  rintro x B _ hx hB ⟨L, hL, rfl⟩
  obtain ⟨y, hy, hys, hyv⟩ := GroupNorm.group_norm_correct numGroups C G B L eps weight bias x hx hC hL hinit
  refine ⟨y, hy, hys, ?_⟩
  intro b i hb hi
  obtain ⟨c, t, rfl, hc, ht⟩ := InB.eq2 hi
  exact hyv b hb c hc t

/-- **C84 (correlation).**  The batch is the second dimension of the result. -/
theorem pearson (ms C T : ℕ) (hC : 0 < C) (hT : 0 < T) (x y : Tensor ℝ) (B : ℕ) (hx : x.shape = [B, C, T]) (hy : y.shape = [B, C, T])
    (σ : List ℕ) (hσ : Positions B σ) :
    ∃ out out', Pearson.forward ms x y = .ok out ∧ Pearson.forward ms (x.pick 0 σ) (y.pick 0 σ) = .ok out' ∧
      out.shape = [2 * ms + 1, B, C] ∧ out'.Same (out.pick 1 σ) := by
  obtain ⟨hB, hn⟩ := pos_batch hσ
  obtain ⟨o, h1, h2, h3⟩ := Pearson.pearson_correct ms T [] [B, C] x y hx hy (by simp) (by simp [hB, hC]) hT
  obtain ⟨o', h1', h2', h3'⟩ := Pearson.pearson_correct ms T [] [σ.length, C] (x.pick 0 σ) (y.pick 0 σ) (pick_shape x σ B _ hx) (pick_shape y σ B _ hy)
    (by simp) (by simp [hn, hC]) hT
  refine ⟨o, o', h1, h1', h2, by rw [h2']; simp [Tensor.pick, h2], ?_⟩
  intro i hi
  rw [h2'] at hi
  obtain ⟨k, b, c, rfl, hk, hb, hc⟩ := InB.eq3 hi
  have e := h3' k [] [b, c] hk trivial ⟨hb, hc, trivial⟩
  have e2 := h3 k [] [σ.getD b 0, c] hk trivial ⟨getD_lt hσ hb, hc, trivial⟩
  show o'.get [k, b, c] = o.get [k, σ.getD b 0, c]
  rw [show [k, b, c] = k :: ([] ++ [b, c]) from rfl, e, show [k, σ.getD b 0, c] = k :: ([] ++ [σ.getD b 0, c]) from rfl, e2]
  rfl

/-! ## The hypotheses can be met -/

/-- A selection with a repetition, out of order. -/
theorem demo_positions : Positions 4 [2, 0, 2] := ⟨by simp, by simp⟩

example : ∃ y y', (IIRFilter.Module.mk [1, -1 / 2] [1, 0]).forward ⟨[4, 5], fun i => (ravel [4, 5] i : ℝ)⟩ = .ok y ∧
    (IIRFilter.Module.mk [1, -1 / 2] [1, 0]).forward (Tensor.pick 0 [2, 0, 2] ⟨[4, 5], fun i => (ravel [4, 5] i : ℝ)⟩) = .ok y' ∧
    y.shape[0]? = some 4 ∧ y'.Same (y.pick 0 [2, 0, 2]) :=
  iir_filter ⟨[1, -1 / 2], [1, 0]⟩ rfl 4 [5] ⟨[4, 5], fun i => (ravel [4, 5] i : ℝ)⟩ [2, 0, 2] rfl ⟨[], 5, rfl, by norm_num⟩ demo_positions

example : BatchWise (fun s => ∃ rest T, s = rest ++ [T] ∧ 0 < T) 0 (Integrator.tophat 2 1) := tophat 2 1 (by norm_num)
example : BatchWise (fun s => s ≠ []) 0 (Integrator.leaky "count" 1 1 0) := leaky "count" (Or.inl rfl) 1 1 0
example : ∃ y y', Spectral.spectralDensity (⟨[4, 3, 16], fun i => (ravel [4, 3, 16] i : ℝ)⟩ : Tensor ℝ) 8 4 ⟨[8], fun _ => 1⟩ 1 "median" = .ok y ∧
    Spectral.spectralDensity (Tensor.pick 0 [2, 0, 2] (⟨[4, 3, 16], fun i => (ravel [4, 3, 16] i : ℝ)⟩ : Tensor ℝ)) 8 4 ⟨[8], fun _ => 1⟩ 1 "median" = .ok y' ∧
    y.shape[0]? = some 4 ∧ y'.Same (y.pick 0 [2, 0, 2]) :=
  (spectral_density 8 4 ⟨[8], fun _ => 1⟩ 1 "median" (by norm_num) (by norm_num) rfl).1 4 [3, 16] ⟨[4, 3, 16], fun i => (ravel [4, 3, 16] i : ℝ)⟩ [2, 0, 2] rfl
    ⟨16, by norm_num, .inr ⟨3, by norm_num, rfl⟩⟩ demo_positions
example : BatchWise2 (fun s s' => s' = s ∧ Segmented 8 s) 0
    (fun x y => Spectral.fastSpectralDensity x (8 : ℕ) (4 : ℕ) ⟨[8], fun _ => 1⟩ 1 "mean" (some y)) :=
  cross_density 8 4 ⟨[8], fun _ => 1⟩ 1 "mean" (by norm_num) (by norm_num) rfl
example : BatchWise (fun s => ∃ L, 0 < L ∧ s = [4, L]) 0 (GroupNorm.forward 4 2 1 (fun _ => 1) fun _ => 0) :=
  group_norm (some 2) 4 2 1 (fun _ => 1) (fun _ => 0) (by norm_num) (by decide)
example : ∃ out out', Pearson.forward (1 : ℕ) (⟨[4, 2, 3], fun i => (ravel [4, 2, 3] i : ℝ)⟩ : Tensor ℝ) ⟨[4, 2, 3], fun i => (ravel [4, 2, 3] i : ℝ) ^ 2⟩ = .ok out ∧
    Pearson.forward (1 : ℕ) (Tensor.pick 0 [2, 0, 2] (⟨[4, 2, 3], fun i => (ravel [4, 2, 3] i : ℝ)⟩ : Tensor ℝ))
      (Tensor.pick 0 [2, 0, 2] ⟨[4, 2, 3], fun i => (ravel [4, 2, 3] i : ℝ) ^ 2⟩) = .ok out' ∧
    out.shape = [2 * 1 + 1, 4, 2] ∧ out'.Same (out.pick 1 [2, 0, 2]) :=
  pearson 1 2 3 (by norm_num) (by norm_num) _ _ 4 rfl rfl _ demo_positions

end Verif.Batch
