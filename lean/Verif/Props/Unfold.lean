import Verif.Model.Unfold
import Verif.Lemmas.Unfold
/-!
# Properties of `unfold_windows` (C01, C02, C03)
-/
namespace Verif.Slicing
variable {α : Type _}

/-- **C01, C02.**  For a series of rank 1-3 (non-empty leading dimensions `lead`, time dimension
`T`), `1 ≤ window_size ≤ T` and `1 ≤ stride`, `unfold_windows` succeeds; window `w` holds samples
`w*stride, ..., w*stride+window_size-1` of every leading index; and the remainder (returned exactly
when `drop_last` is false) holds the trailing samples not covered by the windows. -/
theorem unfold_windows_correct [Zero α] (x : Tensor α) (lead : List Nat) (T ws stride : Nat)
    (dropLast : Bool) (hx : x.shape = lead ++ [T]) (hr : lead.length ≤ 2) (hl : ∀ d ∈ lead, 0 < d)
    (hws : 1 ≤ ws) (hst : 1 ≤ stride) (hT : ws ≤ T) :
    ∃ y rem, unfoldWindows x ws stride dropLast = .ok (y, if dropLast then none else some rem) ∧
      y.shape = ((T - ws) / stride + 1) :: (lead ++ [ws]) ∧
      (∀ w i t, w < (T - ws) / stride + 1 → InB i lead → t < ws →
        y.get (w :: (i ++ [t])) = x.get (i ++ [w * stride + t])) ∧
      rem.shape = 1 :: (lead ++ [(T - ws) % stride]) ∧
      (∀ i t, InB i lead → t < (T - ws) % stride →
        rem.get (0 :: (i ++ [t])) = x.get (i ++ [(T - ws) / stride * stride + ws + t])) := by
  have hq : Int.fdiv ((T:Int) - ws) stride = (((T - ws) / stride : Nat) : Int) := by
    rw [Int.fdiv_eq_ediv_of_nonneg _ (by omega), Int.natCast_ediv, Int.ofNat_sub hT]
  have hst0 : ¬ ((stride : Int) = 0) := by omega
  generalize hn : (T - ws) / stride = n at *
  generalize hrm : (T - ws) % stride = r at *
  have hTT : T = n * stride + ws + r := by
    have := Nat.div_add_mod (T - ws) stride
    rw [hn, hrm, Nat.mul_comm] at this; omega
  have hrem : (T:Int) - ws - ((n:Int) + 1 - 1) * stride = r := by
    have : ((n:Int) + 1 - 1) * stride = ((n * stride : Nat) : Int) := by push_cast; simp
    rw [this]; omega
  unfold unfoldWindows
  rw [lastDim_append x lead T hx]
  simp only [res_bind_ok, pyFloorDiv, hst0, if_false, hq, hrem]
  by_cases hr0 : r = 0
  · subst hr0
    obtain ⟨y, hy, hys, hyg⟩ := unfoldEven_correct x lead n ws stride (by rw [hx, hTT]; simp)
      hr hl hws hst
    refine ⟨y, (Tensor.zeros (mapLast (fun _ => 0) x.shape)).unsqueeze0, ?_, hys, hyg, ?_, ?_⟩
    · simp only [Int.natCast_zero, if_true, res_bind_ok, hy]
      cases dropLast <;> rfl
    · simp [Tensor.zeros, Tensor.unsqueeze0, hx, mapLast_append]
    · intro i t _ ht; omega
  · have hr0' : ¬ ((r:Int) = 0) := by omega
    have hsp : x.splitLast2 ((T:Int) - r) r =
        .ok (x.narrowLast 0 (n * stride + ws), x.narrowLast (n * stride + ws) r) := by
      have e : ((T:Int) - r).toNat = n * stride + ws := by omega
      have e2 : ¬ ((T:Int) - r < 0 ∨ (r:Int) < 0 ∨ (T:Int) - r + r ≠ T) := by omega
      simp only [Tensor.splitLast2, lastDim_append x lead T hx, res_bind_ok, e2, if_false, e,
        Int.toNat_natCast]
    obtain ⟨y, hy, hys, hyg⟩ := unfoldEven_correct (x.narrowLast 0 (n * stride + ws)) lead n ws
      stride (by simp [Tensor.narrowLast, hx, mapLast_append]) hr hl hws hst
    refine ⟨y, (x.narrowLast (n * stride + ws) r).unsqueeze0, ?_, hys, ?_, ?_, ?_⟩
    · simp only [hr0', if_false, hsp, res_bind_ok, hy]
      cases dropLast <;> rfl
    · intro w i t hw hi ht
      rw [hyg w i t hw hi ht]
      simp [Tensor.narrowLast, mapLast_append]
    · simp [Tensor.narrowLast, Tensor.unsqueeze0, hx, mapLast_append]
    · intro i t _ ht
      simp only [Tensor.narrowLast, Tensor.unsqueeze0, List.tail_cons, mapLast_append]
      rw [Nat.add_comm t]

/-- Non-vacuity: a (2, 3, 11) series with window 4, stride 3 (3 windows, remainder of 1). -/
example : ∃ y rem, unfoldWindows (⟨[2, 3, 11], fun i => (ravel [2, 3, 11] i : Nat)⟩ : Tensor Nat)
      (4:Nat) (3:Nat) false = .ok (y, some rem) ∧ y.shape = [3, 2, 3, 4] ∧
      y.get [2, 1, 2, 3] = 64 ∧ rem.get [0, 1, 2, 0] = 65 := by
  obtain ⟨y, rem, h, hs, hg, -, hrg⟩ := unfold_windows_correct
    (⟨[2, 3, 11], fun i => (ravel [2, 3, 11] i : Nat)⟩ : Tensor Nat)
    [2, 3] 11 4 3 false rfl (by decide) (by decide) (by decide) (by decide) (by decide)
  exact ⟨y, rem, h, hs, hg 2 [1, 2] 3 (by decide) (by simp [InB]) (by decide),
    hrg [1, 2] 0 (by simp [InB]) (by decide)⟩

/-- **C02 (coverage).**  If `stride ≤ window_size`, every sample is in a window or in the
remainder: position `p < T` is `w*stride + t` for a window `w` and `t < window_size`, or lies in
the remainder. -/
theorem unfold_windows_cover (T ws stride p : Nat) (hst : 1 ≤ stride) (hws : stride ≤ ws)
    (hT : ws ≤ T) (hp : p < T) :
    (∃ w t, w < (T - ws) / stride + 1 ∧ t < ws ∧ p = w * stride + t) ∨
    (∃ t, t < (T - ws) % stride ∧ p = (T - ws) / stride * stride + ws + t) := by
  have hdm := Nat.div_add_mod (T - ws) stride
  rw [Nat.mul_comm] at hdm
  generalize hn : (T - ws) / stride = n at *
  generalize hrm : (T - ws) % stride = r at *
  by_cases h : p < n * stride
  · left
    refine ⟨p / stride, p % stride, ?_, ?_, ?_⟩
    · have : p / stride < n := by rw [Nat.div_lt_iff_lt_mul hst]; exact h
      omega
    · have := Nat.mod_lt p hst; omega
    · rw [Nat.mul_comm, Nat.div_add_mod]
  · by_cases h2 : p < n * stride + ws
    · left; exact ⟨n, p - n * stride, by omega, by omega, by omega⟩
    · right; exact ⟨p - (n * stride + ws), by omega, by omega⟩

example : ∃ t, t < (11 - 4) % 3 ∧ 10 = (11 - 4) / 3 * 3 + 4 + t := ⟨0, by decide, by decide⟩

/-- **C03.**  `unfold_windows` raises exactly when the request is impossible: non-positive stride or
window size, window longer than the series, or an empty leading dimension. -/
theorem unfold_windows_error_iff [Zero α] (x : Tensor α) (lead : List Nat) (T : Nat)
    (ws stride : Int) (dropLast : Bool) (hx : x.shape = lead ++ [T]) (hr : lead.length ≤ 2) :
    (∃ e, unfoldWindows x ws stride dropLast = .error e) ↔
      (stride ≤ 0 ∨ ws ≤ 0 ∨ (T:Int) < ws ∨ 0 ∈ lead) := by
  constructor
  · rintro ⟨e, he⟩
    by_contra h
    simp only [not_or, not_le, not_lt] at h
    obtain ⟨h1, h2, h3, h4⟩ := h
    obtain ⟨y, rem, h, -⟩ := unfold_windows_correct x lead T ws.toNat stride.toNat dropLast hx hr
      (by intro d hd; rcases Nat.eq_zero_or_pos d with h0 | h0
          · subst h0; exact absurd hd h4
          · exact h0) (by omega) (by omega) (by omega)
    rw [show ((ws.toNat : Nat) : Int) = ws by omega,
      show ((stride.toNat : Nat) : Int) = stride by omega, he] at h
    cases h
  · intro h
    by_cases h0 : stride = 0
    · exact ⟨.zeroDivision, by
        simp [unfoldWindows, lastDim_append x lead T hx, pyFloorDiv, h0]⟩
    -- facts about floor division
    generalize hq : Int.fdiv ((T:Int) - ws) stride = q
    have hdm : stride * q + Int.fmod ((T:Int) - ws) stride = (T:Int) - ws := by
      rw [← hq]; exact Int.mul_fdiv_add_fmod _ _
    generalize hm : Int.fmod ((T:Int) - ws) stride = m at hdm
    have hrem : (T:Int) - ws - (q + 1 - 1) * stride = m := by
      rw [show q + 1 - 1 = q by omega, Int.mul_comm q]; omega
    -- the core call fails on a tensor with last dimension `T - m`
    have key : ∀ (z : Tensor α) (W : Nat), z.shape = lead ++ [W] → (W:Int) = T - m →
        ∃ e, unfoldEven z (q + 1) stride = .error e := by
      intro z W hz hW
      apply unfoldEven_error z lead W _ _ hz hr
      rcases h with h | h | h | h
      · exact .inr (.inl h)
      · right; right; left
        rw [hW, show q + 1 - 1 = q by omega]; omega
      · by_cases hs : stride ≤ 0
        · exact .inr (.inl hs)
        · left
          have hm0 : 0 ≤ m := by rw [← hm]; exact Int.fmod_nonneg_of_pos _ (by omega)
          have : stride * q < 0 := by omega
          have : q < 0 := by
            by_contra hc
            have := Int.mul_nonneg (a := stride) (b := q) (by omega) (by omega)
            omega
          omega
      · exact .inr (.inr (.inr h))
    unfold unfoldWindows
    rw [lastDim_append x lead T hx]
    simp only [res_bind_ok, pyFloorDiv, h0, if_false, hq, hrem]
    by_cases hm0 : m = 0
    · obtain ⟨e, he⟩ := key x T hx (by omega)
      exact ⟨e, by simp only [hm0, if_true, res_bind_ok, he, res_bind_error]⟩
    · simp only [hm0, if_false, Tensor.splitLast2, lastDim_append x lead T hx, res_bind_ok]
      split
      · exact ⟨.runtime, rfl⟩
      · rename_i hneg
        obtain ⟨e, he⟩ := key (x.narrowLast 0 ((T:Int) - m).toNat) ((T:Int) - m).toNat
          (by simp [Tensor.narrowLast, hx, mapLast_append]) (by omega)
        exact ⟨e, by simp only [res_bind_ok, he, res_bind_error]⟩

example : ∃ e, unfoldWindows (⟨[5], fun _ => (0:Nat)⟩ : Tensor Nat) 7 3 true = .error e :=
  (unfold_windows_error_iff _ [] 5 7 3 true rfl (by decide)).2 (by decide)

end Verif.Slicing
