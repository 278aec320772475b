import Verif.Model.Unfold
import Verif.Lemmas.Tensor
import Mathlib.Tactic.Ring
import Mathlib.Tactic.ByContra
namespace Verif.Slicing
variable {α : Type _}

theorem unfoldEven_correct (x : Tensor α) (lead : List Nat) (n ws stride : Nat)
    (hx : x.shape = lead ++ [n * stride + ws]) (hr : lead.length ≤ 2) (hl : ∀ d ∈ lead, 0 < d)
    (hws : 1 ≤ ws) (hst : 1 ≤ stride) :
    ∃ y, unfoldEven x ((n:Int)+1) stride = .ok y ∧ y.shape = (n + 1) :: (lead ++ [ws]) ∧
      (∀ w i t, w < n + 1 → InB i lead → t < ws →
        y.get (w :: (i ++ [t])) = x.get (i ++ [w * stride + t])) := by
  obtain ⟨shape, get⟩ := x
  dsimp only at hx
  have hn1 : ((n:Int)+1) = ((n+1 : Nat) : Int) := by omega
  have hw : n * stride + ws = ws + stride * (n + 1 - 1) := by
    rw [Nat.mul_comm stride]; simp; omega
  rcases list_len_le2 lead hr with h | ⟨c, h⟩ | ⟨b, c, h⟩
  · subst h; subst hx
    unfold unfoldEven
    simp only [to4d, List.nil_append, res_bind_ok, hn1, Int.toNat_natCast]
    rw [Tensor.unfold1_ok _ 1 1 _ (n+1) stride ws rfl (by omega) (by omega) (by omega) (by omega) hw]
    simp only [res_bind_ok]
    rw [Tensor.reshapeInfer_ok _ _ _ ws (by simp [numel]) (by simp [numel])]
    refine ⟨_, rfl, by simp [Tensor.transpose, Tensor.ndim, swapAt], ?_⟩
    intro w i t hw hi ht
    have := hi.eq0; subst this
    have h1 : w * ws + t < (n+1) * ws := idx_lt hw ht
    simp [unravel, ravel, numel, Tensor.transpose, Tensor.ndim, swapAt, Nat.mod_eq_of_lt h1,
      idx_div _ ht, idx_mod _ ht, Nat.mod_eq_of_lt hw, Nat.add_comm (w * stride)]
  · subst h; subst hx
    have hc : 0 < c := hl c (by simp)
    unfold unfoldEven
    simp only [to4d, List.cons_append, List.nil_append, res_bind_ok, hn1, Int.toNat_natCast]
    rw [Tensor.unfold1_ok _ 1 c _ (n+1) stride ws rfl (by omega) (by omega) (by omega) (by omega) hw]
    simp only [res_bind_ok]
    rw [Tensor.reshapeInfer_ok _ _ _ ws (by simpa [numel] using hc) (by simp [numel])]
    refine ⟨_, rfl, by simp [Tensor.transpose, Tensor.ndim, swapAt], ?_⟩
    intro w i t hw hi ht
    obtain ⟨k, rfl, hk⟩ := hi.eq1
    have e : k * ((n + 1) * ws) + (w * ws + t) = (k * (n + 1) + w) * ws + t := by
      ring
    have h0 : k * (n + 1) + w < c * (n + 1) := idx_lt hk hw
    have h1 : (k * (n + 1) + w) * ws + t < c * (n + 1) * ws := idx_lt h0 ht
    simp [unravel, ravel, numel, Tensor.transpose, Tensor.ndim, swapAt, e, Nat.mod_eq_of_lt h1,
      idx_div _ ht, idx_mod _ ht, idx_div _ hw, idx_mod _ hw, Nat.add_comm (w * stride)]
  · subst h; subst hx
    have hc : 0 < c := hl c (by simp)
    have hb : 0 < b := hl b (by simp)
    unfold unfoldEven
    simp only [to4d, List.cons_append, List.nil_append, res_bind_ok, hn1, Int.toNat_natCast]
    rw [Tensor.unfold1_ok _ b c _ (n+1) stride ws rfl (by omega) (by omega) (by omega) (by omega) hw]
    simp only [res_bind_ok]
    rw [Tensor.reshapeInfer_ok _ _ _ ws (by simp [numel]; exact Nat.mul_pos hb (Nat.mul_pos hc (by omega)))
      (by simp [numel, Nat.mul_assoc])]
    refine ⟨_, rfl, by simp [Tensor.transpose, Tensor.ndim, swapAt], ?_⟩
    intro w i t hw hi ht
    obtain ⟨j, k, rfl, hj, hk⟩ := hi.eq2
    have e : k * ((n + 1) * ws) + (w * ws + t) = (k * (n + 1) + w) * ws + t := by
      ring
    have e2 : c * (n + 1) * ws = c * ((n + 1) * ws) := Nat.mul_assoc _ _ _
    have h0 : k * (n + 1) + w < c * (n + 1) := idx_lt hk hw
    have h1 : (k * (n + 1) + w) * ws + t < c * ((n + 1) * ws) := by
      rw [← e2]; exact idx_lt h0 ht
    simp [unravel, ravel, numel, Tensor.transpose, Tensor.ndim, swapAt, e, e2, 
      idx_div _ h1, idx_mod _ h1,
      idx_div _ ht, idx_mod _ ht, idx_div _ hw, idx_mod _ hw, Nat.add_comm (w * stride)]

theorem unfold1_error (x : Tensor α) (n c w : Nat) (kw dw : Int) (hs : x.shape = [n, c, 1, w])
    (h : kw ≤ 0 ∨ dw ≤ 0 ∨ (w : Int) - dw * (kw - 1) < 1 ∨ c = 0) :
    ∃ e, x.unfold1 kw dw = .error e := by
  unfold Tensor.unfold1
  rw [hs]
  by_cases h1 : kw ≤ 0 ∨ dw ≤ 0 ∨ c = 0 ∨ 1 = 0 ∨ w = 0
  · exact ⟨.runtime, by simp only [h1, if_true]⟩
  · have h2 : (w : Int) - dw * (kw - 1) < 1 := by omega
    exact ⟨.runtime, by simp only [h1, if_false, h2, if_true]⟩

theorem unfold1_shape (x y : Tensor α) (n c w : Nat) (kw dw : Int) (hs : x.shape = [n, c, 1, w])
    (h : x.unfold1 kw dw = .ok y) : ∃ a b, y.shape = [n, a, b] := by
  unfold Tensor.unfold1 at h
  rw [hs] at h
  dsimp only at h
  split at h
  · cases h
  · split at h
    · cases h
    · split at h
      · cases h
      · cases h; exact ⟨_, _, rfl⟩

theorem unfoldEven_error (x : Tensor α) (lead : List Nat) (W : Nat) (kw dw : Int)
    (hx : x.shape = lead ++ [W]) (hr : lead.length ≤ 2)
    (h : kw ≤ 0 ∨ dw ≤ 0 ∨ (W : Int) - dw * (kw - 1) < 1 ∨ 0 ∈ lead) :
    ∃ e, unfoldEven x kw dw = .error e := by
  obtain ⟨shape, get⟩ := x
  dsimp only at hx
  rcases list_len_le2 lead hr with h' | ⟨c, h'⟩ | ⟨b, c, h'⟩
  · subst h'; subst hx
    unfold unfoldEven
    simp only [to4d, List.nil_append, res_bind_ok]
    obtain ⟨e, he⟩ := unfold1_error (⟨[1,1,1,W], fun i => get [i.getD 3 0]⟩ : Tensor α) 1 1 W kw dw rfl
      (by simpa using h)
    exact ⟨e, by rw [he]; rfl⟩
  · subst h'; subst hx
    unfold unfoldEven
    simp only [to4d, List.nil_append, List.cons_append, res_bind_ok]
    obtain ⟨e, he⟩ := unfold1_error (⟨[1,c,1,W], fun i => get [i.getD 1 0, i.getD 3 0]⟩ : Tensor α)
      1 c W kw dw rfl (by simpa [eq_comm] using h)
    exact ⟨e, by rw [he]; rfl⟩
  · subst h'; subst hx
    unfold unfoldEven
    simp only [to4d, List.nil_append, List.cons_append, res_bind_ok]
    cases he : Tensor.unfold1 (⟨[b,c,1,W], fun i => get [i.getD 0 0, i.getD 1 0, i.getD 3 0]⟩ : Tensor α) kw dw with
    | error e => exact ⟨e, rfl⟩
    | ok y =>
      have hb : b = 0 := by
        by_contra hb
        obtain ⟨e, he'⟩ := unfold1_error (⟨[b,c,1,W], fun i => get [i.getD 0 0, i.getD 1 0, i.getD 3 0]⟩ : Tensor α)
          b c W kw dw rfl (by
            rcases h with h | h | h | h
            · exact .inl h
            · exact .inr (.inl h)
            · exact .inr (.inr (.inl h))
            · simp at h; omega)
        rw [he] at he'; cases he'
      subst hb
      refine ⟨.runtime, ?_⟩
      simp [Tensor.reshapeInfer, Tensor.inferDim, numel]

theorem lastDim_append (x : Tensor α) (lead : List Nat) (T : Nat) (hx : x.shape = lead ++ [T]) :
    x.lastDim = .ok T := by
  simp [Tensor.lastDim, hx]

theorem mapLast_append (f : Nat → Nat) (l : List Nat) (t : Nat) :
    mapLast f (l ++ [t]) = l ++ [f t] := by
  induction l with
  | nil => rfl
  | cons a l ih =>
    cases l with
    | nil => rfl
    | cons b l => simp only [List.cons_append, mapLast] at *; rw [ih]

end Verif.Slicing
