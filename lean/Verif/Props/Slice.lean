import Verif.Model.Slicing
import Verif.Lemmas.Slicing
/-!
# Properties of `slice_kernels` (C04, C05)
-/
namespace Verif.Slicing
variable {α : Type _}

/-- **C04 (1-d).** `out[b, t] = x[idx[b] + t]`. -/
theorem slice_kernels_1d (x : Tensor α) (idx : Tensor Int) (T B K : Nat)
    (hx : x.shape = [T]) (hi : idx.shape = [B])
    (hr : ∀ b < B, 0 ≤ idx.get [b] ∧ idx.get [b] + K ≤ T) :
    ∃ y, sliceKernels x idx K = .ok y ∧ y.shape = [B, K] ∧
      ∀ b t, b < B → t < K → y.get [b, t] = x.get [(idx.get [b]).toNat + t] := by
  obtain ⟨ker, hk, hks, hkg⟩ := sliceKernels1_eq x idx K B
  obtain ⟨y, hy, hys, hyg⟩ := Tensor.take_ok x ker (by
    intro i h
    rw [hks] at h
    obtain ⟨b, t, rfl, hb, ht⟩ := h.eq2
    rw [hkg b t ht]
    have := hr b hb
    simp only [hx, numel]
    omega)
  refine ⟨y, ?_, by rw [hys, hks], ?_⟩
  · simp only [sliceKernels, Tensor.arange_ok, res_bind_ok, hx, hi, Int.toNat_natCast, hk, hy]
  · intro b t hb ht
    have := hr b hb
    rw [hyg [b, t] (by rw [hks]; exact ⟨hb, ht, trivial⟩), hkg b t ht, hx]
    simp only [unravel, numel, Nat.div_one]
    congr 2
    omega

/-- **C04 (2-d data, 1-d indices: coincident).** `out[b, c, t] = x[c, idx[b] + t]`. -/
theorem slice_kernels_2d_coincident (x : Tensor α) (idx : Tensor Int) (C T B K : Nat) (hC : 0 < C)
    (hx : x.shape = [C, T]) (hi : idx.shape = [B])
    (hr : ∀ b < B, 0 ≤ idx.get [b] ∧ idx.get [b] + K ≤ T) :
    ∃ y, sliceKernels x idx K = .ok y ∧ y.shape = [B, C, K] ∧
      ∀ b c t, b < B → c < C → t < K → y.get [b, c, t] = x.get [c, (idx.get [b]).toNat + t] := by
  obtain ⟨ker, hk, hks, hkg⟩ := sliceKernels21_eq x idx C B K hC hi
  have htk := Tensor.takeAlongLast_ok x ker [C] T (B * K) hx hks (by
    intro i h
    rw [hks] at h
    obtain ⟨j, p, t, rfl, hj, hp, ht⟩ := InB_split i C B K h
    rw [hkg j p t hp ht]
    have := hr p hp
    omega)
  obtain ⟨z, hz, hzs, hzg⟩ := finish2 (⟨ker.shape, fun i => x.get (mapLast (fun _ => (ker.get i).toNat) i)⟩ : Tensor α)
    C B K hks
  refine ⟨z, ?_, hzs, ?_⟩
  · simp only [sliceKernels, Tensor.arange_ok, res_bind_ok, hx, hi, Int.toNat_natCast, hk, htk]
    exact hz
  · intro b c t hb hc ht
    have := hr b hb
    rw [hzg b c t hb hc ht]
    simp only [mapLast, hkg c b t hb ht]
    congr 3
    omega

/-- **C04 (2-d data, 2-d indices: independent).** `out[b, c, t] = x[c, idx[b, c] + t]`. -/
theorem slice_kernels_2d_independent (x : Tensor α) (idx : Tensor Int) (C T B K : Nat) (hC : 0 < C)
    (hx : x.shape = [C, T]) (hi : idx.shape = [B, C])
    (hr : ∀ b < B, ∀ c < C, 0 ≤ idx.get [b, c] ∧ idx.get [b, c] + K ≤ T) :
    ∃ y, sliceKernels x idx K = .ok y ∧ y.shape = [B, C, K] ∧
      ∀ b c t, b < B → c < C → t < K →
        y.get [b, c, t] = x.get [c, (idx.get [b, c]).toNat + t] := by
  obtain ⟨ker, hk, hks, hkg⟩ := sliceKernels22_eq x idx C B K hC
  have htk := Tensor.takeAlongLast_ok x ker [C] T (B * K) hx hks (by
    intro i h
    rw [hks] at h
    obtain ⟨j, p, t, rfl, hj, hp, ht⟩ := InB_split i C B K h
    rw [hkg j p t hp ht]
    have := hr p hp j hj
    omega)
  obtain ⟨z, hz, hzs, hzg⟩ := finish2 (⟨ker.shape, fun i => x.get (mapLast (fun _ => (ker.get i).toNat) i)⟩ : Tensor α)
    C B K hks
  refine ⟨z, ?_, hzs, ?_⟩
  · simp only [sliceKernels, Tensor.arange_ok, res_bind_ok, hx, hi, Int.toNat_natCast, hk, htk,
      ne_eq, not_true_eq_false, if_false]
    exact hz
  · intro b c t hb hc ht
    have := hr b hb c hc
    rw [hzg b c t hb hc ht]
    simp only [mapLast, hkg c b t hb ht]
    congr 3
    omega

/-- **C04 (3-d data, one index per batch element).** `out[b, c, t] = x[b, c, idx[b] + t]`. -/
theorem slice_kernels_3d (x : Tensor α) (idx : Tensor Int) (B C T K : Nat) (hK : 0 < K)
    (hx : x.shape = [B, C, T]) (hi : idx.shape = [B])
    (hr : ∀ b < B, 0 ≤ idx.get [b] ∧ idx.get [b] + K ≤ T) :
    ∃ y, sliceKernels x idx K = .ok y ∧ y.shape = [B, C, K] ∧
      ∀ b c t, b < B → c < C → t < K →
        y.get [b, c, t] = x.get [b, c, (idx.get [b]).toNat + t] := by
  obtain ⟨ker, hk, hks, hkg⟩ := sliceKernels31_eq x idx C B K hK hi
  have htk := Tensor.takeAlongLast_ok x ker [B, C] T K hx hks (by
    intro i h
    rw [hks] at h
    obtain ⟨b, c, t, rfl, hb, hc, ht⟩ := h.eq3
    rw [hkg b c t hb ht]
    have := hr b hb
    omega)
  refine ⟨⟨ker.shape, fun i => x.get (mapLast (fun _ => (ker.get i).toNat) i)⟩, ?_, hks, ?_⟩
  · simp only [sliceKernels, Tensor.arange_ok, res_bind_ok, hx, hi, Int.toNat_natCast, hk, htk,
      ne_eq, not_true_eq_false, if_false]
  · intro b c t hb hc ht
    have := hr b hb
    simp only [mapLast, hkg b c t hb ht]
    congr 4
    omega

/-- Non-vacuity of the four theorems: concrete data, start indices at both ends of the range. -/
example : ∃ y, sliceKernels (⟨[7], fun i => i.headD 0⟩ : Tensor Nat)
    ⟨[2], fun i => if i = [0] then 0 else 4⟩ (3 : Nat) = .ok y ∧ y.get [1, 2] = 6 := by
  obtain ⟨y, h, -, hg⟩ := slice_kernels_1d (⟨[7], fun i => i.headD 0⟩ : Tensor Nat)
    ⟨[2], fun i => if i = [0] then 0 else 4⟩ 7 2 3 rfl rfl (by decide)
  exact ⟨y, h, hg 1 2 (by decide) (by decide)⟩
example : ∃ y, sliceKernels (⟨[2, 7], ravel [2, 7]⟩ : Tensor Nat)
    ⟨[2, 2], fun i => if i = [0, 1] then 0 else 4⟩ (3 : Nat) = .ok y ∧ y.get [0, 1, 2] = 9 ∧
      y.get [1, 0, 0] = 4 := by
  obtain ⟨y, h, -, hg⟩ := slice_kernels_2d_independent (⟨[2, 7], ravel [2, 7]⟩ : Tensor Nat)
    ⟨[2, 2], fun i => if i = [0, 1] then 0 else 4⟩ 2 7 2 3 (by decide) rfl rfl (by decide)
  exact ⟨y, h, hg 0 1 2 (by decide) (by decide) (by decide),
    hg 1 0 0 (by decide) (by decide) (by decide)⟩
example : ∃ y, sliceKernels (⟨[2, 7], ravel [2, 7]⟩ : Tensor Nat)
    ⟨[2], fun i => if i = [0] then 0 else 4⟩ (3 : Nat) = .ok y ∧ y.get [1, 1, 2] = 13 := by
  obtain ⟨y, h, -, hg⟩ := slice_kernels_2d_coincident (⟨[2, 7], ravel [2, 7]⟩ : Tensor Nat)
    ⟨[2], fun i => if i = [0] then 0 else 4⟩ 2 7 2 3 (by decide) rfl rfl (by decide)
  exact ⟨y, h, hg 1 1 2 (by decide) (by decide) (by decide)⟩
example : ∃ y, sliceKernels (⟨[2, 3, 7], ravel [2, 3, 7]⟩ : Tensor Nat)
    ⟨[2], fun i => if i = [0] then 0 else 4⟩ (3 : Nat) = .ok y ∧ y.get [1, 2, 2] = 41 := by
  obtain ⟨y, h, -, hg⟩ := slice_kernels_3d (⟨[2, 3, 7], ravel [2, 3, 7]⟩ : Tensor Nat)
    ⟨[2], fun i => if i = [0] then 0 else 4⟩ 2 3 7 3 (by decide) rfl rfl (by decide)
  exact ⟨y, h, hg 1 2 2 (by decide) (by decide) (by decide)⟩

/-- **C05 (multichannel data).**  If a start index is negative or its window runs past the end,
the 2-d and 3-d branches raise instead of returning data. -/
theorem slice_kernels_out_of_range (x : Tensor α) (idx : Tensor Int) (C T B K : Nat)
    (hC : 0 < C) (hK : 0 < K)
    (h : (x.shape = [C, T] ∧ idx.shape = [B] ∧ ∃ b < B, idx.get [b] < 0 ∨ (T:Int) < idx.get [b] + K) ∨
         (x.shape = [C, T] ∧ idx.shape = [B, C] ∧
            ∃ b < B, ∃ c < C, idx.get [b, c] < 0 ∨ (T:Int) < idx.get [b, c] + K) ∨
         (x.shape = [B, C, T] ∧ idx.shape = [B] ∧
            ∃ b < B, idx.get [b] < 0 ∨ (T:Int) < idx.get [b] + K)) :
    sliceKernels x idx K = .error .runtime := by
  rcases h with ⟨hx, hi, b, hb, h⟩ | ⟨hx, hi, b, hb, c, hc, h⟩ | ⟨hx, hi, b, hb, h⟩
  · obtain ⟨ker, hk, hks, hkg⟩ := sliceKernels21_eq x idx C B K hC hi
    have key : x.takeAlongLast ker = .error .runtime := by
      rcases h with h | h
      · apply Tensor.takeAlongLast_error x ker [C] T (B * K) hx hks [0, b * K + 0]
          (by rw [hks]; exact ⟨hC, idx_lt hb hK, trivial⟩)
        rw [hkg 0 b 0 hb hK]; left; omega
      · apply Tensor.takeAlongLast_error x ker [C] T (B * K) hx hks [0, b * K + (K - 1)]
          (by rw [hks]; exact ⟨hC, idx_lt hb (by omega), trivial⟩)
        rw [hkg 0 b (K-1) hb (by omega)]; right; omega
    simp only [sliceKernels, Tensor.arange_ok, res_bind_ok, hx, hi, Int.toNat_natCast, hk, key,
      res_bind_error]
  · obtain ⟨ker, hk, hks, hkg⟩ := sliceKernels22_eq x idx C B K hC
    have key : x.takeAlongLast ker = .error .runtime := by
      rcases h with h | h
      · apply Tensor.takeAlongLast_error x ker [C] T (B * K) hx hks [c, b * K + 0]
          (by rw [hks]; exact ⟨hc, idx_lt hb hK, trivial⟩)
        rw [hkg c b 0 hb hK]; left; omega
      · apply Tensor.takeAlongLast_error x ker [C] T (B * K) hx hks [c, b * K + (K - 1)]
          (by rw [hks]; exact ⟨hc, idx_lt hb (by omega), trivial⟩)
        rw [hkg c b (K-1) hb (by omega)]; right; omega
    simp only [sliceKernels, Tensor.arange_ok, res_bind_ok, hx, hi, Int.toNat_natCast, hk, key,
      res_bind_error, ne_eq, not_true_eq_false, if_false]
  · obtain ⟨ker, hk, hks, hkg⟩ := sliceKernels31_eq x idx C B K hK hi
    have key : x.takeAlongLast ker = .error .runtime := by
      rcases h with h | h
      · apply Tensor.takeAlongLast_error x ker [B, C] T K hx hks [b, 0, 0]
          (by rw [hks]; exact ⟨hb, hC, hK, trivial⟩)
        rw [hkg b 0 0 hb hK]; left; omega
      · apply Tensor.takeAlongLast_error x ker [B, C] T K hx hks [b, 0, K - 1]
          (by rw [hks]; exact ⟨hb, hC, by omega, trivial⟩)
        rw [hkg b 0 (K-1) hb (by omega)]; right; omega
    simp only [sliceKernels, Tensor.arange_ok, res_bind_ok, hx, hi, Int.toNat_natCast, hk, key,
      ne_eq, not_true_eq_false, if_false]

example : sliceKernels (⟨[2, 7], ravel [2, 7]⟩ : Tensor Nat) ⟨[1], fun _ => 5⟩ (3 : Nat)
    = .error .runtime :=
  slice_kernels_out_of_range _ _ 2 7 1 3 (by decide) (by decide)
    (.inl ⟨rfl, rfl, 0, by decide, .inr (by decide)⟩)

/-- **C05 (1-d data, past the end).** -/
theorem slice_kernels_1d_past_end (x : Tensor α) (idx : Tensor Int) (T B K : Nat) (hK : 0 < K)
    (hx : x.shape = [T]) (hi : idx.shape = [B])
    (h : ∃ b < B, (T:Int) < idx.get [b] + K ∨ idx.get [b] < -T) :
    sliceKernels x idx K = .error .index := by
  obtain ⟨ker, hk, hks, hkg⟩ := sliceKernels1_eq x idx K B
  obtain ⟨b, hb, h⟩ := h
  have key : x.take ker = .error .index := by
    rcases h with h | h
    · apply Tensor.take_error x ker [b, K - 1] (by rw [hks]; exact ⟨hb, by omega, trivial⟩)
      rw [hkg b (K-1) (by omega)]; simp only [hx, numel]; right; omega
    · apply Tensor.take_error x ker [b, 0] (by rw [hks]; exact ⟨hb, by omega, trivial⟩)
      rw [hkg b 0 hK]; simp only [hx, numel]; left; omega
  simp only [sliceKernels, Tensor.arange_ok, res_bind_ok, hx, hi, Int.toNat_natCast, hk, key]

/-- **C05 fails for 1-d data with a negative start**: `slice_kernels(x, [-2], 4)` on the 6-sample
series `0..5` returns `[4, 5, 0, 1]`, a window that wraps around the end, instead of raising. -/
theorem slice_kernels_1d_negative_wraps :
    ∃ y, sliceKernels (⟨[6], fun i => i.headD 0⟩ : Tensor Nat) ⟨[1], fun _ => -2⟩ 4 = .ok y ∧
      y.shape = [1, 4] ∧ y.get [0, 0] = 4 ∧ y.get [0, 1] = 5 ∧ y.get [0, 2] = 0 ∧ y.get [0, 3] = 1 :=
  ⟨_, rfl, rfl, rfl, rfl, rfl, rfl⟩

/-- **C05 (rank checks).**  Every combination of ranks other than the four supported ones raises
ValueError, as do mismatched batch or channel counts. -/
theorem slice_kernels_rank_error (x : Tensor α) (idx : Tensor Int) (K : Nat)
    (h : ¬ ((x.ndim = 1 ∧ idx.ndim = 1) ∨ (x.ndim = 2 ∧ idx.ndim = 1) ∨
            (x.ndim = 2 ∧ idx.ndim = 2 ∧ x.shape.headD 0 = idx.shape.getD 1 0) ∨
            (x.ndim = 3 ∧ idx.ndim = 1 ∧ x.shape.headD 0 = idx.shape.headD 0))) :
    sliceKernels x idx K = .error .value := by
  unfold sliceKernels
  rw [Tensor.arange_ok]
  simp only [res_bind_ok]
  obtain ⟨xs, xg⟩ := x
  obtain ⟨is, ig⟩ := idx
  match xs, is with
  | [_], [_] => simp [Tensor.ndim] at h
  | [_], [] => rfl
  | [_], _ :: _ :: _ => rfl
  | [_, _], [_] => simp [Tensor.ndim] at h
  | [a, _], [_, b] =>
    simp [Tensor.ndim] at h
    simp [h]
  | [_, _], [] => rfl
  | [_, _], _ :: _ :: _ :: _ => rfl
  | [a, _, _], [b] =>
    simp [Tensor.ndim] at h
    have : b ≠ a := fun hh => h hh.symm
    simp [this]
  | [_, _, _], [] => rfl
  | [_, _, _], _ :: _ :: _ => rfl
  | [], _ => rfl
  | _ :: _ :: _ :: _ :: _, _ => rfl

example : sliceKernels (⟨[2, 3, 7], ravel [2, 3, 7]⟩ : Tensor Nat) ⟨[4], fun _ => 0⟩ (3:Nat)
    = .error .value := slice_kernels_rank_error _ _ _ (by decide)

end Verif.Slicing
