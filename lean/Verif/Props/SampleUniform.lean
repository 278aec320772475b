import Verif.Props.Sample
import Verif.Spec.UniformDraws
import Mathlib.Probability.Independence.InfinitePi
import Mathlib.Probability.UniformOn
/-!
# C93: the starts drawn by `sample_kernels` are one independent uniform draw each

`torch.randint` is fed by `r`, one number per position; taking `r i` independent and uniform modulo
the number of admissible starts is what "`randint` is uniform" means.
-/
set_option linter.unusedSimpArgs false
namespace Verif.Slicing
open Spec MeasureTheory ProbabilityTheory
variable {α : Type _}

theorem randint_val (r : List Nat → Nat) (lo hi : Int) (size : List Nat) (h : lo < hi) :
    ∃ idx, randint r lo hi (size.map Int.ofNat) = .ok idx ∧ idx.shape = size ∧
      ∀ i, idx.get i = lo + ((r i % (hi - lo).toNat : Nat) : Int) := by
  have h1 : ¬ (hi ≤ lo ∨ ∃ s ∈ size.map Int.ofNat, s < 0) := by
    rintro (h' | ⟨s, hs, h'⟩)
    · omega
    · simp at hs; obtain ⟨a, -, rfl⟩ := hs; omega
  refine ⟨_, by unfold randint; rw [if_neg h1], ?_, fun i => rfl⟩
  simp [List.map_map, Function.comp_def]

/-- The admissible starts of an interval, numbered. -/
theorem interval_numbering (P : Int → Prop) (lo hi : Int) (h : ∀ s, P s ↔ lo ≤ s ∧ s < hi) :
    ∃ e : Fin (hi - lo).toNat ≃ {s : Int // P s}, ∀ j, ((e j : Int)) = lo + (j : Nat) := by
  refine ⟨⟨fun j => ⟨lo + (j : Nat), (h _).2 ⟨by omega, by have := j.2; omega⟩⟩,
    fun s => ⟨(s.1 - lo).toNat, by have := (h _).1 s.2; omega⟩, ?_, ?_⟩, fun j => rfl⟩
  · intro j; ext; simp
  · intro s; have := (h _).1 s.2; ext; simp; omega

/-- **C93 (1-d).**  The admissible starts can be numbered `0, …, n-1` so that every kernel is the
window at the start whose number is its own draw. -/
theorem sample_uniform_1d (X : Tensor α) (T K N : Nat) (m : Option Int) (co : Bool) (hX : X.shape = [T]) (hK : K < T) :
    ∃ (n : Nat) (hn : 0 < n) (e : Fin n ≃ {s : Int // 0 ≤ s ∧ s < (T : Int) - K}), ∀ r : List Nat → Nat,
      ∃ y idx, sampleKernels r X K (some N) m co = .ok (y, idx) ∧ idx.shape = [N] ∧ y.shape = [N, K] ∧
        ∀ b < N, idx.get [b] = e ⟨r [b] % n, Nat.mod_lt _ hn⟩ ∧
          ∀ t < K, y.get [b, t] = X.get [(idx.get [b]).toNat + t] := by
  obtain ⟨e, he⟩ := interval_numbering (fun s => 0 ≤ s ∧ s < (T : Int) - K) 0 ((T : Int) - K) (fun s => Iff.rfl)
  refine ⟨_, by omega, e, fun r => ?_⟩
  obtain ⟨idx, hidx, his, hig⟩ := randint_val r 0 ((T:Int) - K) [N] (by omega)
  obtain ⟨y, idx', h, hs1, hs2, hg⟩ := sample_kernels_1d r X T K N m co hX hK
  have : idx' = idx := by
    have h1 : ¬ (T < K) := by omega
    have h2 : randint r 0 ((T:Int) - K) [(N:Int)] = .ok idx := hidx
    simp [sampleKernels, sampleChecks, Tensor.lastDim, hX, Tensor.ndim, h1, h2] at h
    cases hsl : sliceKernels X idx K with
    | error e => rw [hsl] at h; cases h
    | ok y' => rw [hsl] at h; simp only [res_bind_ok, Except.ok.injEq, Prod.mk.injEq] at h; exact h.2.symm
  subst this
  exact ⟨y, idx', h, hs1, hs2, fun b hb => ⟨by rw [hig, he], (hg b hb).2.2⟩⟩

/-- **C93 (2-d, coincident).** -/
theorem sample_uniform_2d_coincident (X : Tensor α) (C T K N : Nat) (m : Option Int) (hX : X.shape = [C, T])
    (hC : 0 < C) (hK : K ≤ T) (hN : 0 < N) (hf : Feasible T K m) :
    ∃ (n : Nat) (hn : 0 < n) (e : Fin n ≃ {s : Int // OffsetOk T K m s}), ∀ r : List Nat → Nat,
      ∃ y idx, sampleKernels r X K (some N) m true = .ok (y, idx) ∧ idx.shape = [N] ∧ y.shape = [N, C, K] ∧
        ∀ b < N, idx.get [b] = e ⟨r [b] % n, Nat.mod_lt _ hn⟩ ∧
          ∀ c < C, ∀ t < K, y.get [b, c, t] = X.get [c, (idx.get [b]).toNat + t] := by
  obtain ⟨lo, hi, hr, hlt, hspec⟩ := sampleRange_spec T K m hf
  obtain ⟨e, he⟩ := interval_numbering _ lo hi hspec
  refine ⟨_, by omega, e, fun r => ?_⟩
  obtain ⟨idx, hidx, his, hig⟩ := randint_val r lo hi [N] hlt
  obtain ⟨y, idx', h, hs1, hs2, hg⟩ := sample_kernels_2d_coincident r X C T K N m hX hC hK hN hf
  have : idx' = idx := by
    have h1 : ¬ (T < K) := by omega
    have h2 : randint r lo hi [orLen (some (N:Int)) C] = .ok idx := by
      have : ¬ ((N:Int) = 0) := by omega
      simp only [orLen, this, if_false]; exact hidx
    simp [sampleKernels, sampleChecks, Tensor.lastDim, hX, Tensor.ndim, h1, hr, h2] at h
    cases hsl : sliceKernels X idx K with
    | error e => rw [hsl] at h; cases h
    | ok y' => rw [hsl] at h; simp only [res_bind_ok, Except.ok.injEq, Prod.mk.injEq] at h; exact h.2.symm
  subst this
  exact ⟨y, idx', h, hs1, hs2, fun b hb => ⟨by rw [hig, he], (hg b hb).2.2.2⟩⟩

/-- **C93 (2-d, independent channels).** -/
theorem sample_uniform_2d_independent (X : Tensor α) (C T K N : Nat) (m : Option Int) (hX : X.shape = [C, T])
    (hC : 0 < C) (hK : K ≤ T) (hf : Feasible T K m) :
    ∃ (n : Nat) (hn : 0 < n) (e : Fin n ≃ {s : Int // OffsetOk T K m s}), ∀ r : List Nat → Nat,
      ∃ y idx, sampleKernels r X K (some N) m false = .ok (y, idx) ∧ idx.shape = [N, C] ∧ y.shape = [N, C, K] ∧
        ∀ b < N, ∀ c < C, idx.get [b, c] = e ⟨r [b, c] % n, Nat.mod_lt _ hn⟩ ∧
          ∀ t < K, y.get [b, c, t] = X.get [c, (idx.get [b, c]).toNat + t] := by
  obtain ⟨lo, hi, hr, hlt, hspec⟩ := sampleRange_spec T K m hf
  obtain ⟨e, he⟩ := interval_numbering _ lo hi hspec
  refine ⟨_, by omega, e, fun r => ?_⟩
  obtain ⟨idx, hidx, his, hig⟩ := randint_val r lo hi [N, C] hlt
  obtain ⟨y, idx', h, hs1, hs2, hg⟩ := sample_kernels_2d_independent r X C T K N m hX hC hK hf
  have : idx' = idx := by
    have h1 : ¬ (T < K) := by omega
    have h2 : randint r lo hi [(N:Int), (C:Int)] = .ok idx := hidx
    simp [sampleKernels, sampleChecks, Tensor.lastDim, hX, Tensor.ndim, h1, hr, h2] at h
    cases hsl : sliceKernels X idx K with
    | error e => rw [hsl] at h; cases h
    | ok y' => rw [hsl] at h; simp only [res_bind_ok, Except.ok.injEq, Prod.mk.injEq] at h; exact h.2.symm
  subst this
  exact ⟨y, idx', h, hs1, hs2, fun b hb c hc => ⟨by rw [hig, he], (hg b hb c hc).2.2.2⟩⟩

/-- **C93 (3-d).** -/
theorem sample_uniform_3d (X : Tensor α) (B C T K : Nat) (N : Option Int) (m : Option Int) (co : Bool)
    (hX : X.shape = [B, C, T]) (hK : 0 < K) (hKT : K ≤ T) (hN : N = none ∨ N = some (B:Int)) (hf : Feasible T K m) :
    ∃ (n : Nat) (hn : 0 < n) (e : Fin n ≃ {s : Int // OffsetOk T K m s}), ∀ r : List Nat → Nat,
      ∃ y idx, sampleKernels r X K N m co = .ok (y, idx) ∧ idx.shape = [B] ∧ y.shape = [B, C, K] ∧
        ∀ b < B, idx.get [b] = e ⟨r [b] % n, Nat.mod_lt _ hn⟩ ∧
          ∀ c < C, ∀ t < K, y.get [b, c, t] = X.get [b, c, (idx.get [b]).toNat + t] := by
  obtain ⟨lo, hi, hr, hlt, hspec⟩ := sampleRange_spec T K m hf
  obtain ⟨e, he⟩ := interval_numbering _ lo hi hspec
  refine ⟨_, by omega, e, fun r => ?_⟩
  obtain ⟨idx, hidx, his, hig⟩ := randint_val r lo hi [B] hlt
  obtain ⟨y, idx', h, hs1, hs2, hg⟩ := sample_kernels_3d r X B C T K N m co hX hK hKT hN hf
  have : idx' = idx := by
    have h1 : ¬ (T < K) := by omega
    have h2 : randint r lo hi [orLen N B] = .ok idx := by
      have : orLen N B = (B:Int) := by
        rcases hN with rfl | rfl
        · rfl
        · simp only [orLen]; split <;> omega
      rw [this]; exact hidx
    have h3 : ¬ (N ≠ none ∧ N ≠ some (B:Int)) := by
      rcases hN with rfl | rfl <;> simp
    have hck : sampleChecks X K N = .ok () := by
      simp only [ne_eq] at h3
      simp [sampleChecks, Tensor.lastDim, hX, Tensor.ndim, h1, h3]
    simp [sampleKernels, hck, Tensor.lastDim, hX, Tensor.ndim, h1, hr, h2] at h
    cases hsl : sliceKernels X idx K with
    | error e => rw [hsl] at h; cases h
    | ok y' => rw [hsl] at h; simp only [res_bind_ok, Except.ok.injEq, Prod.mk.injEq] at h; exact h.2.symm
  subst this
  exact ⟨y, idx', h, hs1, hs2, fun b hb => ⟨by rw [hig, he], (hg b hb).2.2.2⟩⟩

/-- Fair draws, read through a numbering: every assignment of values to the positions of a batch has
probability `n ^ -(number of positions)`. -/
theorem numbered_iid {Ω ι : Type*} [Fintype ι] [MeasurableSpace Ω] (μ : Measure Ω) (n : Nat) (hn : 0 < n) {S : Type*}
    (e : Fin n ≃ S) (r : Ω → List Nat → Nat) (h : UniformDraws μ r n) (pos : ι → List Nat) (hpos : Function.Injective pos)
    (s : ι → S) :
    μ {w | ∀ i, e ⟨r w (pos i) % n, Nat.mod_lt _ hn⟩ = s i} = ((n : ENNReal)⁻¹) ^ Fintype.card ι := by
  have key : ∀ i, {w | e ⟨r w (pos i) % n, Nat.mod_lt _ hn⟩ = s i} =
      (fun w => r w (pos i)) ⁻¹' {k | k % n = (e.symm (s i) : Nat)} := by
    intro i; ext w
    simp only [Set.mem_ofPred_eq, Set.mem_preimage]
    rw [← Equiv.eq_symm_apply, Fin.ext_iff]
  have : {w | ∀ i, e ⟨r w (pos i) % n, Nat.mod_lt _ hn⟩ = s i} =
      ⋂ i ∈ (Finset.univ : Finset ι), (fun w => r w (pos i)) ⁻¹' {k | k % n = (e.symm (s i) : Nat)} := by
    ext w; simp only [Set.mem_ofPred_eq, Set.mem_iInter, ← key, Finset.mem_univ, true_imp_iff]
  rw [this, (h.indep.precomp hpos).measure_inter_preimage_eq_mul Finset.univ (fun i _ => MeasurableSet.of_discrete),
    ← Finset.card_univ, ← Finset.prod_const]
  refine Finset.prod_congr rfl fun i _ => ?_
  exact h.uniform (pos i) _ (e.symm (s i)).2

/-- **C93 (probabilities, 1-d).**  Under fair draws every batch of `N` starts in `[0, T - K)` has the same
probability, `(T - K)^-N`: the starts are independent and uniform. -/
theorem sample_batch_probability_1d {Ω : Type*} [MeasurableSpace Ω] (μ : Measure Ω) (r : Ω → List Nat → Nat)
    (X : Tensor α) (T K N : Nat) (m : Option Int) (co : Bool) (hX : X.shape = [T]) (hK : K < T)
    (hr : UniformDraws μ r (T - K)) (s : Fin N → Nat) (hs : ∀ b, s b < T - K) :
    μ {w | ∃ y idx, sampleKernels (r w) X K (some N) m co = .ok (y, idx) ∧
      ∀ b : Fin N, idx.get [b.1] = s b ∧ ∀ t < K, y.get [b.1, t] = X.get [s b + t]} = (((T - K : Nat) : ENNReal)⁻¹) ^ N := by
  obtain ⟨n, hn, e, h⟩ := sample_uniform_1d X T K N m co hX hK
  have hcard : n = T - K := by
    obtain ⟨e', -⟩ := interval_numbering (fun s => 0 ≤ s ∧ s < (T : Int) - K) 0 ((T : Int) - K) (fun s => Iff.rfl)
    have := Fintype.card_congr (e.trans e'.symm)
    simp only [Fintype.card_fin] at this; omega
  subst hcard
  have := numbered_iid μ (T - K) hn e r hr (fun b : Fin N => [b.1]) (fun a b hab => by simpa [Fin.ext_iff] using hab)
    (fun b => ⟨s b, by have := hs b; omega⟩)
  rw [Fintype.card_fin] at this
  rw [← this]
  congr 1
  ext w
  obtain ⟨y, idx, h1, -, -, h4⟩ := h (r w)
  simp only [Set.mem_ofPred_eq]
  constructor
  · rintro ⟨y', idx', h1', h2⟩ b
    rw [h1] at h1'; cases h1'
    exact Subtype.ext ((h4 b b.2).1.symm.trans (h2 b).1)
  · intro hb
    refine ⟨y, idx, h1, fun b => ?_⟩
    have e1 : idx.get [b.1] = s b := by rw [(h4 b b.2).1, hb b]
    refine ⟨e1, fun t ht => ?_⟩
    rw [(h4 b b.2).2 t ht, e1]; simp

/-- **C93 (probabilities, 2-d coincident).**  With `n` admissible starts every batch of `N` admissible starts has
probability `n^-N`. -/
theorem sample_batch_probability_2d_coincident {Ω : Type*} [MeasurableSpace Ω] (μ : Measure Ω) (r : Ω → List Nat → Nat)
    (X : Tensor α) (C T K N : Nat) (m : Option Int) (hX : X.shape = [C, T])
    (hC : 0 < C) (hK : K ≤ T) (hN : 0 < N) (hf : Feasible T K m)
    (hr : UniformDraws μ r (Nat.card {s : Int // OffsetOk T K m s})) (s : Fin N → Int) (hs : ∀ b, OffsetOk T K m (s b)) :
    μ {w | ∃ y idx, sampleKernels (r w) X K (some N) m true = .ok (y, idx) ∧
      ∀ b : Fin N, idx.get [b.1] = s b ∧ ∀ c < C, ∀ t < K, y.get [b.1, c, t] = X.get [c, (s b).toNat + t]} =
      ((Nat.card {s : Int // OffsetOk T K m s} : ENNReal)⁻¹) ^ N := by
  obtain ⟨n, hn, e, h⟩ := sample_uniform_2d_coincident X C T K N m hX hC hK hN hf
  rw [← Nat.card_congr e, Nat.card_eq_fintype_card, Fintype.card_fin] at hr ⊢
  have := numbered_iid μ n hn e r hr (fun b : Fin N => [b.1]) (fun a b hab => by simpa [Fin.ext_iff] using hab)
    (fun b => ⟨s b, hs b⟩)
  rw [Fintype.card_fin] at this
  rw [← this]
  congr 1
  ext w
  obtain ⟨y, idx, h1, -, -, h4⟩ := h (r w)
  simp only [Set.mem_ofPred_eq]
  constructor
  · rintro ⟨y', idx', h1', h2⟩ b
    rw [h1] at h1'; cases h1'
    exact Subtype.ext ((h4 b b.2).1.symm.trans (h2 b).1)
  · intro hb
    refine ⟨y, idx, h1, fun b => ?_⟩
    have e1 : idx.get [b.1] = s b := by rw [(h4 b b.2).1, hb b]
    exact ⟨e1, fun c hc t ht => by rw [(h4 b b.2).2 c hc t ht, e1]⟩

/-- **C93 (probabilities, 2-d independent).**  One independent uniform start per kernel *and channel*:
probability `n^-(N*C)`. -/
theorem sample_batch_probability_2d_independent {Ω : Type*} [MeasurableSpace Ω] (μ : Measure Ω) (r : Ω → List Nat → Nat)
    (X : Tensor α) (C T K N : Nat) (m : Option Int) (hX : X.shape = [C, T])
    (hC : 0 < C) (hK : K ≤ T) (hf : Feasible T K m)
    (hr : UniformDraws μ r (Nat.card {s : Int // OffsetOk T K m s})) (s : Fin N → Fin C → Int)
    (hs : ∀ b c, OffsetOk T K m (s b c)) :
    μ {w | ∃ y idx, sampleKernels (r w) X K (some N) m false = .ok (y, idx) ∧
      ∀ (b : Fin N) (c : Fin C), idx.get [b.1, c.1] = s b c ∧
        ∀ t < K, y.get [b.1, c.1, t] = X.get [c.1, (s b c).toNat + t]} =
      ((Nat.card {s : Int // OffsetOk T K m s} : ENNReal)⁻¹) ^ (N * C) := by
  obtain ⟨n, hn, e, h⟩ := sample_uniform_2d_independent X C T K N m hX hC hK hf
  rw [← Nat.card_congr e, Nat.card_eq_fintype_card, Fintype.card_fin] at hr ⊢
  have := numbered_iid μ n hn e r hr (fun b : Fin N × Fin C => [b.1.1, b.2.1])
    (fun a b hab => by simpa [Prod.ext_iff, Fin.ext_iff] using hab) (fun b => ⟨s b.1 b.2, hs b.1 b.2⟩)
  rw [Fintype.card_prod, Fintype.card_fin, Fintype.card_fin] at this
  rw [← this]
  congr 1
  ext w
  obtain ⟨y, idx, h1, -, -, h4⟩ := h (r w)
  simp only [Set.mem_ofPred_eq]
  constructor
  · rintro ⟨y', idx', h1', h2⟩ ⟨b, c⟩
    rw [h1] at h1'; cases h1'
    exact Subtype.ext ((h4 b b.2 c c.2).1.symm.trans (h2 b c).1)
  · intro hb
    refine ⟨y, idx, h1, fun b c => ?_⟩
    have e1 : idx.get [b.1, c.1] = s b c := by rw [(h4 b b.2 c c.2).1, hb (b, c)]
    exact ⟨e1, fun t ht => by rw [(h4 b b.2 c c.2).2 t ht, e1]⟩

/-- **C93 (probabilities, 3-d).** -/
theorem sample_batch_probability_3d {Ω : Type*} [MeasurableSpace Ω] (μ : Measure Ω) (r : Ω → List Nat → Nat)
    (X : Tensor α) (B C T K : Nat) (N : Option Int) (m : Option Int) (co : Bool)
    (hX : X.shape = [B, C, T]) (hK : 0 < K) (hKT : K ≤ T) (hN : N = none ∨ N = some (B:Int)) (hf : Feasible T K m)
    (hr : UniformDraws μ r (Nat.card {s : Int // OffsetOk T K m s})) (s : Fin B → Int) (hs : ∀ b, OffsetOk T K m (s b)) :
    μ {w | ∃ y idx, sampleKernels (r w) X K N m co = .ok (y, idx) ∧
      ∀ b : Fin B, idx.get [b.1] = s b ∧ ∀ c < C, ∀ t < K, y.get [b.1, c, t] = X.get [b.1, c, (s b).toNat + t]} =
      ((Nat.card {s : Int // OffsetOk T K m s} : ENNReal)⁻¹) ^ B := by
  obtain ⟨n, hn, e, h⟩ := sample_uniform_3d X B C T K N m co hX hK hKT hN hf
  rw [← Nat.card_congr e, Nat.card_eq_fintype_card, Fintype.card_fin] at hr ⊢
  have := numbered_iid μ n hn e r hr (fun b : Fin B => [b.1]) (fun a b hab => by simpa [Fin.ext_iff] using hab)
    (fun b => ⟨s b, hs b⟩)
  rw [Fintype.card_fin] at this
  rw [← this]
  congr 1
  ext w
  obtain ⟨y, idx, h1, -, -, h4⟩ := h (r w)
  simp only [Set.mem_ofPred_eq]
  constructor
  · rintro ⟨y', idx', h1', h2⟩ b
    rw [h1] at h1'; cases h1'
    exact Subtype.ext ((h4 b b.2).1.symm.trans (h2 b).1)
  · intro hb
    refine ⟨y, idx, h1, fun b => ?_⟩
    have e1 : idx.get [b.1] = s b := by rw [(h4 b b.2).1, hb b]
    exact ⟨e1, fun c hc t ht => by rw [(h4 b b.2).2 c hc t ht, e1]⟩

/-- Fair draws exist for every `n > 0`. -/
theorem uniformDraws_exist (n : Nat) (hn : 0 < n) :
    ∃ (Ω : Type) (_ : MeasurableSpace Ω) (μ : Measure Ω) (r : Ω → List Nat → Nat), UniformDraws μ r n := by
  classical
  have hp : IsProbabilityMeasure (uniformOn (↑(Finset.range n) : Set Nat)) :=
    isProbabilityMeasure_uniformOn (Finset.finite_toSet _) ⟨0, by simpa using hn⟩
  refine ⟨List Nat → Nat, inferInstance, Measure.infinitePi fun _ => uniformOn (↑(Finset.range n) : Set Nat), fun w => w, ?_, ?_⟩
  · exact iIndepFun_infinitePi (X := fun _ k => k) (fun _ => measurable_id)
  · intro i j hj
    have h1 : {w : List Nat → Nat | w i % n = j} = (fun w : List Nat → Nat => w i) ⁻¹' {k | k % n = j} := rfl
    rw [h1, ← Measure.map_apply (measurable_pi_apply i) MeasurableSet.of_discrete]
    have h2 : (Measure.infinitePi fun _ : List Nat => uniformOn (↑(Finset.range n) : Set Nat)).map (fun w => w i) =
      uniformOn (↑(Finset.range n) : Set Nat) := Measure.infinitePi_map_eval _ i
    rw [h2, ← uniformOn_inter_self (Finset.finite_toSet _)]
    have h3 : (↑(Finset.range n) : Set Nat) ∩ {k | k % n = j} = ↑({j} : Finset Nat) := by
      ext k
      simp only [Set.mem_inter_iff, Finset.mem_coe, Finset.mem_range, Set.mem_ofPred_eq, Finset.mem_singleton]
      constructor
      · rintro ⟨a, b⟩; rwa [Nat.mod_eq_of_lt a] at b
      · rintro rfl; exact ⟨hj, Nat.mod_eq_of_lt hj⟩
    rw [h3, uniformOn_apply_finset]
    have : Finset.range n ∩ {j} = {j} := by
      ext k; simp only [Finset.mem_inter, Finset.mem_range, Finset.mem_singleton]
      constructor
      · exact fun h => h.2
      · rintro rfl; exact ⟨hj, rfl⟩
    rw [this]; simp

/-- `T = 20, K = 6`, offset `-2`: the two admissible starts 6 and 7; fair draws for two
starts exist, so the probability theorems apply. -/
example : Feasible 20 6 (some (-2)) ∧ Nat.card {s : Int // OffsetOk 20 6 (some (-2)) s} = 2 ∧
    ∃ (Ω : Type) (_ : MeasurableSpace Ω) (μ : Measure Ω) (r : Ω → List Nat → Nat), UniformDraws μ r 2 := by
  refine ⟨⟨⟨7, by simp [OffsetOk]⟩, fun s => by simp [OffsetOk]; omega⟩, ?_, uniformDraws_exist 2 (by decide)⟩
  obtain ⟨e, -⟩ := interval_numbering (OffsetOk 20 6 (some (-2))) 6 8 (fun s => by simp [OffsetOk]; omega)
  rw [← Nat.card_congr e, Nat.card_eq_fintype_card, Fintype.card_fin]; rfl

end Verif.Slicing
