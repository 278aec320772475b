import Verif.Lemmas.Broadcast
/-! # Row-major positions of concatenated indices -/
namespace Verif

theorem ravel_lt {i s : List Nat} (h : InB i s) : ravel s i < numel s := by
  induction s generalizing i with
  | nil => rw [h.eq0]; simp [ravel, numel]
  | cons a s ih =>
    cases i with
    | nil => exact absurd h (by simp [InB])
    | cons b i => exact idx_lt h.1 (ih h.2)

theorem unravel_ravel {i s : List Nat} (h : InB i s) : unravel s (ravel s i) = i := by
  induction s generalizing i with
  | nil => rw [h.eq0]; rfl
  | cons a s ih =>
    cases i with
    | nil => exact absurd h (by simp [InB])
    | cons b i =>
      have hlt := ravel_lt h.2
      simp only [ravel, unravel, idx_div b hlt, idx_mod b hlt, ih h.2]

theorem inB_unravel (s : List Nat) (k : Nat) (h : k < numel s) : InB (unravel s k) s := by
  induction s generalizing k with
  | nil => trivial
  | cons a s ih =>
    have hpos : 0 < numel s := by
      rcases Nat.eq_zero_or_pos (numel s) with h0 | h0
      · simp [numel, h0] at h
      · exact h0
    exact ⟨by rw [Nat.div_lt_iff_lt_mul hpos]; exact h, ih _ (Nat.mod_lt _ hpos)⟩

theorem ravel_unravel (s : List Nat) (k : Nat) (h : k < numel s) : ravel s (unravel s k) = k := by
  induction s generalizing k with
  | nil => simp [numel] at h; simp [ravel, unravel, h]
  | cons a s ih =>
    have hpos : 0 < numel s := by
      rcases Nat.eq_zero_or_pos (numel s) with h0 | h0
      · simp [numel, h0] at h
      · exact h0
    simp only [ravel, unravel, ih _ (Nat.mod_lt _ hpos)]
    rw [Nat.mul_comm]; exact Nat.div_add_mod _ _

theorem ravel_append {i s : List Nat} (h : InB i s) (j t : List Nat) :
    ravel (s ++ t) (i ++ j) = ravel s i * numel t + ravel t j := by
  induction s generalizing i with
  | nil => rw [h.eq0]; simp [ravel]
  | cons a s ih =>
    cases i with
    | nil => exact absurd h (by simp [InB])
    | cons b i =>
      simp only [List.cons_append, ravel, ih h.2, numel_append]
      rw [Nat.add_mul, Nat.mul_assoc, Nat.add_assoc]

theorem unravel_append (s t : List Nat) (r k : Nat) (hr : r < numel s) (hk : k < numel t) :
    unravel (s ++ t) (r * numel t + k) = unravel s r ++ unravel t k := by
  have h1 := inB_unravel s r hr
  have h2 := inB_unravel t k hk
  have h3 := ravel_append h1 (unravel t k) t
  rw [ravel_unravel s r hr, ravel_unravel t k hk] at h3
  rw [← h3, unravel_ravel (inB_append h1 h2)]

/-- Reshaping `(*lead, L)` to `(numel lead, 1, L)`. -/
theorem reshape_rows {α : Type _} (x : Tensor α) (lead : List Nat) (L : Nat) (hx : x.shape = lead ++ [L]) (hL : 0 < L) :
    ∃ y, x.reshapeInfer [] [1, L] = .ok y ∧ y.shape = [numel lead, 1, L] ∧
      ∀ r t, r < numel lead → t < L → y.get [r, 0, t] = x.get (unravel lead r ++ [t]) := by
  have h := Tensor.reshapeInfer_ok x [] [1, L] (numel lead) (by simp [numel]; omega)
    (by rw [hx, numel_append]; simp [numel, Nat.mul_comm])
  refine ⟨_, h, rfl, ?_⟩
  intro r t hr ht
  dsimp only
  rw [hx]
  have e : ravel ([] ++ numel lead :: [1, L]) [r, 0, t] = r * numel [L] + t := by
    simp [ravel, numel]
  rw [e, unravel_append lead [L] r t hr (by simpa [numel] using ht)]
  congr 2
  simp [unravel, numel]

/-- Reshaping `(numel lead, 1, L)` back to `(*lead, L)`. -/
theorem reshape_unrows {α : Type _} (x : Tensor α) (lead : List Nat) (L : Nat) (hx : x.shape = [numel lead, 1, L]) :
    ∃ y, x.reshape (lead ++ [L]) = .ok y ∧ y.shape = lead ++ [L] ∧
      ∀ l t, InB l lead → t < L → y.get (l ++ [t]) = x.get [ravel lead l, 0, t] := by
  refine ⟨_, Tensor.reshape_ok x _ (by rw [hx, numel_append]; simp [numel]), rfl, ?_⟩
  intro l t hl ht
  dsimp only
  rw [hx, ravel_append hl [t] [L]]
  congr 1
  simp only [numel, ravel, unravel, Nat.mul_one, Nat.add_zero, Nat.one_mul, Nat.div_one]
  rw [idx_div _ ht, idx_mod _ ht, Nat.div_eq_of_lt ht, Nat.mod_eq_of_lt ht]

end Verif
