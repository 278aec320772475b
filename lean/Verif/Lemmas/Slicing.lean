import Verif.Model.Slicing
import Verif.Lemmas.Tensor
import Mathlib.Tactic.Ring
namespace Verif.Slicing
variable {α : Type _}

/-- Index tensor built by the 1-d branch. -/
theorem sliceKernels1_eq (x : Tensor α) (idx : Tensor Int) (k b : Nat) :
    ∃ ker : Tensor Int, sliceKernels1 x idx ⟨[k], fun i => (i.headD 0 : Nat)⟩ k b = x.take ker ∧
      ker.shape = [b, k] ∧ ∀ i t, t < k → ker.get [i, t] = (t : Int) + idx.get [i] := by
  unfold sliceKernels1
  rw [Tensor.reshape_ok _ _ (by simp [numel])]
  refine ⟨_, rfl, by simp [Tensor.tile, Tensor.transpose, swapAt], ?_⟩
  intro i t ht
  simp [Tensor.tile, Tensor.transpose, swapAt, ravel, unravel, numel, Nat.mod_eq_of_lt ht, Nat.mod_one]

theorem sliceKernels21_eq (x : Tensor α) (idx : Tensor Int) (c b k : Nat) (hc : 0 < c)
    (hi : idx.shape = [b]) :
    ∃ ker : Tensor Int, sliceKernels21 x idx ⟨[k], fun i => (i.headD 0 : Nat)⟩ c b k =
        (do let y ← x.takeAlongLast ker; let y ← y.reshape [c, b, k]; .ok (y.transpose 0 1)) ∧
      ker.shape = [c, b * k] ∧
      ∀ j i t, i < b → t < k → ker.get [j, i * k + t] = (t : Int) + idx.get [i] := by
  unfold sliceKernels21
  rw [Tensor.reshape_ok _ _ (by simp [numel])]
  simp only [res_bind_ok]
  rw [Tensor.reshapeInfer_ok idx [1] [1] b (by simp [numel]) (by simp [numel, hi])]
  simp only [res_bind_ok]
  rw [Tensor.reshapeInfer_ok _ [c] [] (b * k) (by simpa [numel] using hc)
    (by simp [numel, Tensor.tile])]
  refine ⟨_, rfl, by simp, ?_⟩
  intro j i t hib ht
  have h1 : i * k + t < b * k := idx_lt hib ht
  simp [Tensor.tile, ravel, unravel, numel, idx_div _ h1, idx_mod _ h1, hi, idx_div _ ht, idx_mod _ ht,
    Nat.mod_one, Nat.mod_eq_of_lt ht]

theorem sliceKernels22_eq (x : Tensor α) (idx : Tensor Int) (c b k : Nat) (hc : 0 < c) :
    ∃ ker : Tensor Int, sliceKernels22 x idx ⟨[k], fun i => (i.headD 0 : Nat)⟩ c b k =
        (do let y ← x.takeAlongLast ker; let y ← y.reshape [c, b, k]; .ok (y.transpose 0 1)) ∧
      ker.shape = [c, b * k] ∧
      ∀ j i t, i < b → t < k → ker.get [j, i * k + t] = (t : Int) + idx.get [i, j] := by
  unfold sliceKernels22
  rw [Tensor.reshape_ok _ _ (by simp [numel])]
  simp only [res_bind_ok]
  rw [Tensor.reshapeInfer_ok _ [c] [] (b * k) (by simpa [numel] using hc)
    (by simp [numel, Tensor.tile, Tensor.transpose, swapAt])]
  refine ⟨_, rfl, by simp, ?_⟩
  intro j i t hib ht
  have h1 : i * k + t < b * k := idx_lt hib ht
  simp [Tensor.tile, Tensor.transpose, swapAt, ravel, unravel, numel, idx_div _ h1, idx_mod _ h1,
    idx_div _ ht, idx_mod _ ht, Nat.mod_one, Nat.mod_eq_of_lt ht]

theorem sliceKernels31_eq (x : Tensor α) (idx : Tensor Int) (c b k : Nat) (hk : 0 < k)
    (hi : idx.shape = [b]) :
    ∃ ker : Tensor Int, sliceKernels31 x idx ⟨[k], fun i => (i.headD 0 : Nat)⟩ c b k =
        x.takeAlongLast ker ∧ ker.shape = [b, c, k] ∧
      ∀ i j t, i < b → t < k → ker.get [i, j, t] = (t : Int) + idx.get [i] := by
  unfold sliceKernels31
  rw [Tensor.reshapeInfer_ok _ [1] [] k (by simp [numel]) (by simp [numel])]
  simp only [res_bind_ok]
  rw [Tensor.reshapeInfer_ok idx [] [1] b (by simp [numel]) (by simp [numel, hi])]
  simp only [res_bind_ok]
  rw [Tensor.reshapeInfer_ok _ [] [1, k] b (by simpa [numel] using hk)
    (by simp [numel, Tensor.tile, Nat.mul_comm])]
  refine ⟨_, rfl, by simp [Tensor.tile], ?_⟩
  intro i j t hib ht
  simp [Tensor.tile, ravel, unravel, numel, hi, idx_div _ ht,
    Nat.mod_one, Nat.mod_eq_of_lt ht, Nat.mod_eq_of_lt hib]
  exact Int.emod_eq_of_lt (by omega) (by omega)

/-- The final reshape/transpose of the 2-d branches. -/
theorem finish2 (y : Tensor α) (c b k : Nat) (hy : y.shape = [c, b * k]) :
    ∃ z, (do let y ← y.reshape [c, b, k]; (.ok (y.transpose 0 1) : Res (Tensor α))) = .ok z ∧
      z.shape = [b, c, k] ∧
      ∀ i j t, i < b → j < c → t < k → z.get [i, j, t] = y.get [j, i * k + t] := by
  rw [Tensor.reshape_ok _ _ (by simp [numel, hy])]
  refine ⟨_, rfl, by simp [Tensor.transpose, swapAt], ?_⟩
  intro i j t hi hj ht
  have h1 : i * k + t < b * k := idx_lt hi ht
  simp [Tensor.transpose, swapAt, ravel, unravel, numel, hy, idx_div _ h1, idx_mod _ h1]

theorem InB_split (i : List Nat) (c b k : Nat) (h : InB i [c, b * k]) :
    ∃ j p t, i = [j, p * k + t] ∧ j < c ∧ p < b ∧ t < k := by
  obtain ⟨j, m, rfl, hj, hm⟩ := h.eq2
  have hk : 0 < k := by
    rcases Nat.eq_zero_or_pos k with h | h
    · subst h; simp at hm
    · exact h
  refine ⟨j, m / k, m % k, ?_, hj, ?_, Nat.mod_lt _ hk⟩
  · rw [Nat.mul_comm, Nat.div_add_mod]
  · rw [Nat.div_lt_iff_lt_mul hk]; exact hm

end Verif.Slicing
