import Verif.Model.Slicing
import Verif.Spec.Slicing
import Verif.Props.Slice
/-!
# Properties of `sample_kernels` (C06 - C09)

`r` is the random source: a theorem for all `r` is a theorem for every random outcome.
-/
set_option linter.unusedSimpArgs false
namespace Verif.Slicing
open Spec
variable {α : Type _}

theorem randint_ok (r : List Nat → Nat) (lo hi : Int) (size : List Nat) (h : lo < hi) :
    ∃ idx, randint r lo hi (size.map Int.ofNat) = .ok idx ∧ idx.shape = size ∧
      ∀ i, lo ≤ idx.get i ∧ idx.get i < hi := by
  have h1 : ¬ (hi ≤ lo ∨ ∃ s ∈ size.map Int.ofNat, s < 0) := by
    rintro (h' | ⟨s, hs, h'⟩)
    · omega
    · simp at hs; obtain ⟨a, -, rfl⟩ := hs; omega
  refine ⟨_, by unfold randint; rw [if_neg h1], ?_, ?_⟩
  · simp [List.map_map, Function.comp_def]
  · intro i
    have : r i % (hi - lo).toNat < (hi - lo).toNat := Nat.mod_lt _ (by omega)
    dsimp only
    omega

/-- The interval computed by the code is exactly the specified one. -/
theorem sampleRange_spec (T K : Nat) (m : Option Int) (hf : Feasible T K m) :
    ∃ lo hi, sampleRange T K m = .ok (lo, hi) ∧ lo < hi ∧ ∀ s, OffsetOk T K m s ↔ lo ≤ s ∧ s < hi := by
  obtain ⟨⟨s, hs⟩, hn⟩ := hf
  cases m with
  | none =>
    refine ⟨0, (T:Int) - K, by simp [sampleRange], ?_, ?_⟩
    · simp [OffsetOk] at hs; omega
    · intro s; simp [OffsetOk]
  | some m =>
    by_cases hm : 0 ≤ m
    · have e : ∀ s, OffsetOk T K (some m) s ↔
          ((T/2 : Nat):Int) - m - K ≤ s ∧ s < ((T/2 : Nat):Int) := by
        intro s; simp only [OffsetOk, hm, if_true]; omega
      have h0 : ¬ (((T/2 : Nat):Int) - m - K < 0) := by
        have := hn (((T/2 : Nat):Int) - m - K) ((e _).2 (by have := (e s).1 hs; omega)); omega
      refine ⟨((T/2 : Nat):Int) - m - K, ((T/2 : Nat):Int), ?_, ?_, e⟩
      · simp only [sampleRange, ge_iff_le, hm, if_true, res_bind_ok, h0, if_false]
      · have := (e s).1 hs; omega
    · have e : ∀ s, OffsetOk T K (some m) s ↔
          ((T/2 : Nat):Int) - m - K ≤ s ∧ s < ((T/2 : Nat):Int) + m := by
        intro s; simp only [OffsetOk, hm, if_false]; omega
      have h0 : ¬ (((T/2 : Nat):Int) - m - K < 0) := by
        have := hn (((T/2 : Nat):Int) - m - K) ((e _).2 (by have := (e s).1 hs; omega)); omega
      have h1 : ¬ (((T/2 : Nat):Int) + m ≤ ((T/2 : Nat):Int) - m - K) := by
        have := (e s).1 hs; omega
      refine ⟨((T/2 : Nat):Int) - m - K, ((T/2 : Nat):Int) + m, ?_, ?_, e⟩
      · simp only [sampleRange, ge_iff_le, hm, if_false, res_bind_ok, h0, h1]
      · omega

/-- A window in the specified interval lies inside the series. -/
theorem offset_in_bounds (T K : Nat) (m : Option Int) (hf : Feasible T K m) (s : Int)
    (hs : OffsetOk T K m s) : 0 ≤ s ∧ s + K ≤ T := by
  refine ⟨hf.2 s hs, ?_⟩
  have hn := hf.2
  cases m with
  | none => simp [OffsetOk] at hs; omega
  | some m =>
    by_cases hm : 0 ≤ m
    · simp only [OffsetOk, hm, if_true] at hs hn
      have := hn (((T/2 : Nat):Int) - m - K) (by omega)
      omega
    · simp only [OffsetOk, hm, if_false] at hs hn
      have := hn (((T/2 : Nat):Int) - m - K) (by omega)
      omega

/-- **C06, C08 (1-d).**  With `kernel_size < T`, exactly `N` windows are returned, each the
contiguous window of the series at the reported start. -/
theorem sample_kernels_1d (r : List Nat → Nat) (X : Tensor α) (T K N : Nat) (m : Option Int)
    (co : Bool) (hX : X.shape = [T]) (hK : K < T) :
    ∃ y idx, sampleKernels r X K (some N) m co = .ok (y, idx) ∧ idx.shape = [N] ∧ y.shape = [N, K] ∧
      ∀ b < N, 0 ≤ idx.get [b] ∧ idx.get [b] + K ≤ T ∧
        ∀ t < K, y.get [b, t] = X.get [(idx.get [b]).toNat + t] := by
  obtain ⟨idx, hidx, his, hig⟩ := randint_ok r 0 ((T:Int) - K) [N] (by omega)
  obtain ⟨y, hy, hys, hyg⟩ := slice_kernels_1d X idx T N K hX his
    (fun b _ => by have := hig [b]; omega)
  refine ⟨y, idx, ?_, his, hys, ?_⟩
  · have h1 : ¬ (T < K) := by omega
    have h2 : randint r 0 ((T:Int) - K) [(N:Int)] = .ok idx := hidx
    simp [sampleKernels, sampleChecks, Tensor.lastDim, hX, Tensor.ndim, h1, h2, hy]
  · intro b hb
    have := hig [b]
    exact ⟨this.1, by omega, fun t ht => hyg b t hb ht⟩

/-- **C06, C07, C08 (2-d, coincident).**  For a feasible offset and `N > 0`, exactly `N` kernels are
returned; each is the window of all channels at one start, and the start respects the offset. -/
theorem sample_kernels_2d_coincident (r : List Nat → Nat) (X : Tensor α) (C T K N : Nat)
    (m : Option Int) (hX : X.shape = [C, T]) (hC : 0 < C) (hK : K ≤ T) (hN : 0 < N)
    (hf : Feasible T K m) :
    ∃ y idx, sampleKernels r X K (some N) m true = .ok (y, idx) ∧ idx.shape = [N] ∧
      y.shape = [N, C, K] ∧
      ∀ b < N, OffsetOk T K m (idx.get [b]) ∧ 0 ≤ idx.get [b] ∧ idx.get [b] + K ≤ T ∧
        ∀ c < C, ∀ t < K, y.get [b, c, t] = X.get [c, (idx.get [b]).toNat + t] := by
  obtain ⟨lo, hi, hr, hlt, hspec⟩ := sampleRange_spec T K m hf
  obtain ⟨idx, hidx, his, hig⟩ := randint_ok r lo hi [N] hlt
  have hok : ∀ i, OffsetOk T K m (idx.get i) := fun i => (hspec _).2 (hig i)
  obtain ⟨y, hy, hys, hyg⟩ := slice_kernels_2d_coincident X idx C T N K hC hX his
    (fun b _ => offset_in_bounds T K m hf _ (hok [b]))
  refine ⟨y, idx, ?_, his, hys, ?_⟩
  · have h1 : ¬ (T < K) := by omega
    have h2 : randint r lo hi [orLen (some (N:Int)) C] = .ok idx := by
      have : ¬ ((N:Int) = 0) := by omega
      simp only [orLen, this, if_false]; exact hidx
    simp [sampleKernels, sampleChecks, Tensor.lastDim, hX, Tensor.ndim, h1, hr, h2, hy]
  · intro b hb
    have := offset_in_bounds T K m hf _ (hok [b])
    exact ⟨hok [b], this.1, this.2, fun c hc t ht => hyg b c t hb hc ht⟩

/-- **C06, C07, C08 (2-d, not coincident).**  As above with one start per batch element and channel. -/
theorem sample_kernels_2d_independent (r : List Nat → Nat) (X : Tensor α) (C T K N : Nat)
    (m : Option Int) (hX : X.shape = [C, T]) (hC : 0 < C) (hK : K ≤ T) (hf : Feasible T K m) :
    ∃ y idx, sampleKernels r X K (some N) m false = .ok (y, idx) ∧ idx.shape = [N, C] ∧
      y.shape = [N, C, K] ∧
      ∀ b < N, ∀ c < C, OffsetOk T K m (idx.get [b, c]) ∧ 0 ≤ idx.get [b, c] ∧
        idx.get [b, c] + K ≤ T ∧
        ∀ t < K, y.get [b, c, t] = X.get [c, (idx.get [b, c]).toNat + t] := by
  obtain ⟨lo, hi, hr, hlt, hspec⟩ := sampleRange_spec T K m hf
  obtain ⟨idx, hidx, his, hig⟩ := randint_ok r lo hi [N, C] hlt
  have hok : ∀ i, OffsetOk T K m (idx.get i) := fun i => (hspec _).2 (hig i)
  obtain ⟨y, hy, hys, hyg⟩ := slice_kernels_2d_independent X idx C T N K hC hX his
    (fun b _ c _ => offset_in_bounds T K m hf _ (hok [b, c]))
  refine ⟨y, idx, ?_, his, hys, ?_⟩
  · have h1 : ¬ (T < K) := by omega
    have h2 : randint r lo hi [(N:Int), (C:Int)] = .ok idx := hidx
    simp [sampleKernels, sampleChecks, Tensor.lastDim, hX, Tensor.ndim, h1, hr, h2, hy]
  · intro b hb c hc
    have := offset_in_bounds T K m hf _ (hok [b, c])
    exact ⟨hok [b, c], this.1, this.2, fun t ht => hyg b c t hb hc ht⟩

/-- **C06, C07, C08 (3-d).**  One kernel per batch element, coincident across its channels, for
`N` omitted or equal to the batch dimension. -/
theorem sample_kernels_3d (r : List Nat → Nat) (X : Tensor α) (B C T K : Nat) (N : Option Int)
    (m : Option Int) (co : Bool) (hX : X.shape = [B, C, T]) (hK : 0 < K) (hKT : K ≤ T)
    (hN : N = none ∨ N = some (B:Int)) (hf : Feasible T K m) :
    ∃ y idx, sampleKernels r X K N m co = .ok (y, idx) ∧ idx.shape = [B] ∧ y.shape = [B, C, K] ∧
      ∀ b < B, OffsetOk T K m (idx.get [b]) ∧ 0 ≤ idx.get [b] ∧ idx.get [b] + K ≤ T ∧
        ∀ c < C, ∀ t < K, y.get [b, c, t] = X.get [b, c, (idx.get [b]).toNat + t] := by
  obtain ⟨lo, hi, hr, hlt, hspec⟩ := sampleRange_spec T K m hf
  obtain ⟨idx, hidx, his, hig⟩ := randint_ok r lo hi [B] hlt
  have hok : ∀ i, OffsetOk T K m (idx.get i) := fun i => (hspec _).2 (hig i)
  obtain ⟨y, hy, hys, hyg⟩ := slice_kernels_3d X idx B C T K hK hX his
    (fun b _ => offset_in_bounds T K m hf _ (hok [b]))
  refine ⟨y, idx, ?_, his, hys, ?_⟩
  · have h1 : ¬ (T < K) := by omega
    have h2 : randint r lo hi [orLen N B] = .ok idx := by
      have : orLen N B = (B:Int) := by
        rcases hN with rfl | rfl
        · rfl
        · simp only [orLen]; split <;> omega
      rw [this]; exact hidx
    have h3 : ¬ (N ≠ none ∧ N ≠ some (B:Int)) := by
      rcases hN with rfl | rfl <;> simp
    have hck : sampleChecks X K N = .ok () := by
      simp only [ne_eq] at h3
      simp [sampleChecks, Tensor.lastDim, hX, Tensor.ndim, h1, h3]
    simp [sampleKernels, hck, Tensor.lastDim, hX, Tensor.ndim, h1, hr, h2, hy]
  · intro b hb
    have := offset_in_bounds T K m hf _ (hok [b])
    exact ⟨hok [b], this.1, this.2, fun c hc t ht => hyg b c t hb hc ht⟩

/-- The hypotheses are satisfiable: `T = 20, K = 6` with offsets `none`, `2` and `-2`. -/
example : Feasible 20 6 none ∧ Feasible 20 6 (some 2) ∧ Feasible 20 6 (some (-2)) := by
  refine ⟨⟨⟨3, by simp [OffsetOk]⟩, ?_⟩, ⟨⟨3, by simp [OffsetOk]⟩, ?_⟩, ⟨⟨7, by simp [OffsetOk]⟩, ?_⟩⟩ <;>
    (intro s; simp [OffsetOk]; try omega)

/-- **C07.**  With `max_center_offset = 0` every kernel starts before the centre and ends at or after
it; with `-k` the centre is `≥ k` from both ends. -/
theorem sample_kernels_offset_meaning (T K k : Nat) (s : Int) :
    (OffsetOk T K (some 0) s → s < (T/2 : Nat) ∧ ((T/2 : Nat) : Int) ≤ s + K) ∧
    (0 < k → OffsetOk T K (some (-(k:Int))) s →
      (k : Int) ≤ ((T/2 : Nat) : Int) - s ∧ (k : Int) ≤ s + K - ((T/2 : Nat) : Int)) := by
  constructor
  · simp [OffsetOk]
  · intro hk h
    have : ¬ (0 ≤ -(k:Int)) := by omega
    simp only [OffsetOk, this, if_false] at h
    omega

/-- **C07 fails read strictly**: with `max_center_offset=0` the kernel need not contain the centre
*sample* `T//2`: for `T = 8`, `K = 3` the draw `idx = 1` gives samples 1,2,3 and the centre is 4. -/
theorem sample_kernels_center_sample_missed :
    ∃ (r : List Nat → Nat) (y : Tensor Nat) (idx : Tensor Int),
      sampleKernels r (⟨[1, 8], fun i => i.getD 1 0⟩ : Tensor Nat) 3 (some 1) (some 0) true
        = .ok (y, idx) ∧ y.shape = [1, 1, 3] ∧
      y.get [0, 0, 0] ≠ 4 ∧ y.get [0, 0, 1] ≠ 4 ∧ y.get [0, 0, 2] ≠ 4 :=
  ⟨fun _ => 0, _, _, rfl, rfl, by decide, by decide, by decide⟩

/-- **C08 (rejections).**  ValueError for a kernel longer than the series, rank above 3, a missing
`N` below rank 3, or an `N` different from the batch dimension in rank 3. -/
theorem sample_kernels_rejects (r : List Nat → Nat) (X : Tensor α) (lead : List Nat) (T : Nat)
    (K : Int) (N m : Option Int) (co : Bool) (hX : X.shape = lead ++ [T])
    (h : (T:Int) < K ∨ 3 < X.ndim ∨ (X.ndim < 3 ∧ N = none) ∨
      (X.ndim = 3 ∧ ∃ n, N = some n ∧ n ≠ ((X.shape.headD 0 : Nat):Int))) :
    sampleKernels r X K N m co = .error .value := by
  have h1 : sampleChecks X K N = .error .value := by
    have hl : X.lastDim = .ok T := by simp [Tensor.lastDim, hX]
    simp only [sampleChecks, hl, res_bind_ok]
    split
    · rfl
    · split
      · rfl
      · split
        · rfl
        · split
          · rfl
          · exfalso
            rename_i a b c d
            rcases h with h | h | h | ⟨h, n, hn, hne⟩
            · exact a h
            · exact b h
            · exact c h
            · exact d ⟨h, by simp [hn], by simpa [hn] using hne⟩
  simp only [sampleKernels, h1, res_bind_error]

/-- **C08 (unsatisfiable offsets).**  In rank 2 or 3 an explicit offset for which a start position
could be negative, or a negative offset that leaves no position, raises ValueError. -/
theorem sample_kernels_rejects_offset (r : List Nat → Nat) (X : Tensor α) (lead : List Nat) (T K : Nat)
    (N : Option Int) (m : Int) (co : Bool) (hX : X.shape = lead ++ [T]) (hl : lead ≠ [])
    (hck : sampleChecks X K N = .ok ())
    (h : (∃ s < 0, OffsetOk T K (some m) s) ∨ (m < 0 ∧ ∀ s, ¬ OffsetOk T K (some m) s)) :
    sampleKernels r X K N (some m) co = .error .value := by
  have hr : sampleRange T K (some m) = .error .value := by
    by_cases hm : 0 ≤ m
    · rcases h with ⟨s, h0, hs⟩ | ⟨h0, -⟩
      · simp only [OffsetOk, hm, if_true] at hs
        have : ((T/2 : Nat):Int) - m - K < 0 := by omega
        simp only [sampleRange, ge_iff_le, hm, if_true, res_bind_ok, this]
      · omega
    · simp only [sampleRange, ge_iff_le, hm, if_false]
      by_cases h1 : ((T/2 : Nat):Int) + m ≤ ((T/2 : Nat):Int) - m - K
      · simp only [h1, if_true, res_bind_error]
      · simp only [h1, if_false, res_bind_ok]
        have : ((T/2 : Nat):Int) - m - K < 0 := by
          rcases h with ⟨s, h0, hs⟩ | ⟨-, h0⟩
          · simp only [OffsetOk, hm, if_false] at hs; omega
          · have := h0 (((T/2 : Nat):Int) - m - K)
            simp only [OffsetOk, hm, if_false] at this; omega
        simp only [this, if_true]
  have hn : ¬ X.ndim = 1 := by
    simp only [Tensor.ndim, hX, List.length_append, List.length_singleton]
    have := List.length_pos_iff.2 hl
    omega
  have hld : X.lastDim = .ok T := by simp [Tensor.lastDim, hX]
  simp only [sampleKernels, hck, res_bind_ok, hld, hn, if_false, hr, res_bind_error]

example : sampleKernels (fun _ => 0) (⟨[2, 10], fun _ => (0:Nat)⟩ : Tensor Nat) 6 (some 3) (some (-4)) true
    = .error .value :=
  sample_kernels_rejects_offset _ _ [2] 10 6 _ _ _ rfl (by simp) rfl
    (.inr ⟨by decide, fun s h => by simp [OffsetOk] at h; omega⟩)

/-- **C08 fails for `N = 0`**: a coincident 2-d request for zero kernels returns `len(X)` kernels
(`N = N or len(X)`). -/
theorem sample_kernels_zero_returns_len :
    ∃ (y : Tensor Nat) (idx : Tensor Int),
      sampleKernels (fun _ => 0) (⟨[3, 10], ravel [3, 10]⟩ : Tensor Nat) 4 (some 0) none true
        = .ok (y, idx) ∧ y.shape = [3, 3, 4] :=
  ⟨_, _, rfl, rfl⟩

/-- **C09 (partial).**  Every start position except the very last one is reachable: for each
`s < T - K` some random outcome returns the window at `s`.  Missing: `s = T - K`, see
`sample_kernels_never_last`. -/
theorem sample_kernels_reaches_partial (X : Tensor α) (C T K s : Nat) (hX : X.shape = [C, T])
    (hC : 0 < C) (hs : s + K < T) :
    ∃ r y idx, sampleKernels r X K (some 1) none true = .ok (y, idx) ∧ idx.get [0] = s ∧
      ∀ c < C, ∀ t < K, y.get [0, c, t] = X.get [c, s + t] := by
  have hf : Feasible T K none := ⟨⟨0, by simp [OffsetOk]; omega⟩, fun s h => h.1⟩
  obtain ⟨y, idx, h, -, -, hg⟩ := sample_kernels_2d_coincident (fun _ => s) X C T K 1 none hX hC
    (by omega) (by decide) hf
  have hi : idx.get [0] = s := by
    have h1 : ¬ (T < K) := by omega
    simp [sampleKernels, sampleChecks, Tensor.lastDim, hX, Tensor.ndim, h1, sampleRange, orLen] at h
    have hri : randint (fun _ => s) 0 ((T:Int) - K) [1] =
        .ok ⟨[1], fun _ => 0 + ((s % ((T:Int) - K - 0).toNat : Nat) : Int)⟩ := by
      have : ¬ ((T:Int) - K ≤ 0 ∨ ∃ s ∈ ([1] : List Int), s < 0) := by
        rintro (h | ⟨a, ha, hb⟩)
        · omega
        · simp at ha; omega
      unfold randint; rw [if_neg this]; rfl
    rw [hri] at h
    simp only [res_bind_ok] at h
    cases hsl : sliceKernels X ⟨[1], fun _ => 0 + ((s % ((T:Int) - K - 0).toNat : Nat) : Int)⟩ K with
    | error e => rw [hsl] at h; cases h
    | ok y' =>
      rw [hsl] at h
      simp only [res_bind_ok, Except.ok.injEq, Prod.mk.injEq] at h
      rw [← h.2]
      have : s % ((T:Int) - K - 0).toNat = s := Nat.mod_eq_of_lt (by omega)
      dsimp only
      rw [this]; omega
  refine ⟨_, y, idx, h, hi, ?_⟩
  intro c hc t ht
  rw [(hg 0 (by decide)).2.2.2 c hc t ht, hi]
  simp

/-- **C09 fails at the boundary**: for a series exactly as long as the kernel, sampling raises
RuntimeError for every random outcome, for 1-d series and (with no offset) for 2-d series. -/
theorem sample_kernels_exact_length_raises (r : List Nat → Nat) (X : Tensor α) (C K N : Nat)
    (m : Option Int) (co : Bool) :
    (X.shape = [K] → sampleKernels r X K (some N) m co = .error .runtime) ∧
    (X.shape = [C, K] → sampleKernels r X K (some N) none co = .error .runtime) := by
  constructor
  · intro hX
    simp [sampleKernels, sampleChecks, Tensor.lastDim, hX, Tensor.ndim, randint]
  · intro hX
    cases co <;> simp [sampleKernels, sampleChecks, Tensor.lastDim, hX, Tensor.ndim, sampleRange,
      randint]

/-- **C09 fails**: the last valid window (start `T - K`) is never returned, for any random outcome. -/
theorem sample_kernels_never_last (r : List Nat → Nat) (X : Tensor α) (T K N : Nat) (m : Option Int)
    (co : Bool) (hX : X.shape = [T]) (hK : K < T) :
    ∃ y idx, sampleKernels r X K (some N) m co = .ok (y, idx) ∧
      ∀ b < N, idx.get [b] ≠ (T:Int) - K := by
  obtain ⟨idx, hidx, his, hig⟩ := randint_ok r 0 ((T:Int) - K) [N] (by omega)
  obtain ⟨y, hy, hys, hyg⟩ := slice_kernels_1d X idx T N K hX his
    (fun b _ => by have := hig [b]; omega)
  refine ⟨y, idx, ?_, fun b _ => by have := hig [b]; omega⟩
  have h1 : ¬ (T < K) := by omega
  have h2 : randint r 0 ((T:Int) - K) [(N:Int)] = .ok idx := hidx
  simp [sampleKernels, sampleChecks, Tensor.lastDim, hX, Tensor.ndim, h1, h2, hy]

end Verif.Slicing
