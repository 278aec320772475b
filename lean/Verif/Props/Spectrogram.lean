import Verif.Model.Spectrogram
import Verif.Lemmas.Tensor
import Mathlib.Data.List.GetD
import Mathlib.Tactic.Linarith
import Mathlib.Tactic.NormNum
import Mathlib.Tactic.Ring
/-!
# Properties of `MultiResolutionSpectrogram` (C43)
-/
set_option linter.unusedSimpArgs false
set_option linter.unusedVariables false
namespace Verif.Spectrogram

theorem maxList_spec (l : List ℕ) (hne : l ≠ []) : ∃ m, maxList l = .ok m ∧ m ∈ l ∧ ∀ x ∈ l, x ≤ m := by
  cases l with
  | nil => exact absurd rfl hne
  | cons a l =>
    refine ⟨_, rfl, ?_⟩
    clear hne
    induction l generalizing a with
    | nil => simp
    | cons b l ih =>
      rw [List.foldl_cons]
      obtain ⟨h1, h2⟩ := ih (max a b)
      refine ⟨?_, ?_⟩
      · rcases List.mem_cons.1 h1 with h | h
        · rw [h]; rcases max_choice a b with h' | h' <;> simp [h']
        · simp [h]
      · intro x hx
        have h0 := h2 (max a b) (by simp)
        rcases List.mem_cons.1 hx with rfl | hx
        · exact le_trans (le_max_left _ _) h0
        · rcases List.mem_cons.1 hx with rfl | hx
          · exact le_trans (le_max_right _ _) h0
          · exact h2 x (by simp [hx])

theorem maxReal_spec (l : List ℝ) (hne : l ≠ []) : maxReal l ∈ l ∧ ∀ x ∈ l, x ≤ maxReal l := by
  cases l with
  | nil => exact absurd rfl hne
  | cons a l =>
    simp only [maxReal]
    clear hne
    induction l generalizing a with
    | nil => simp
    | cons b l ih =>
      rw [List.foldl_cons]
      obtain ⟨h1, h2⟩ := ih (max a b)
      refine ⟨?_, ?_⟩
      · rcases List.mem_cons.1 h1 with h | h
        · rw [h]; rcases max_choice a b with h' | h' <;> simp [h']
        · simp [h]
      · intro x hx
        have h0 := h2 (max a b) (by simp)
        rcases List.mem_cons.1 hx with rfl | hx
        · exact le_trans (le_max_left _ _) h0
        · rcases List.mem_cons.1 hx with rfl | hx
          · exact le_trans (le_max_right _ _) h0
          · exact h2 x (by simp [hx])

theorem binIdx_lt (i s n : ℕ) (hi : i < n) (hs : 0 < s) : binIdx i s n < s := by
  unfold binIdx
  rw [Nat.div_lt_iff_lt_mul (by omega)]
  rw [mul_comm s n]
  exact Nat.mul_lt_mul_of_pos_right hi hs

theorem binIdx_surj (f s n : ℕ) (hf : f < s) (hs : s ≤ n) : ∃ i < n, binIdx i s n = f := by
  have hs0 : 0 < s := by omega
  have hn : 0 < n := by omega
  refine ⟨(f * n + s - 1) / s, ?_, ?_⟩
  · rw [Nat.div_lt_iff_lt_mul hs0]
    have : (f + 1) * n ≤ s * n := Nat.mul_le_mul_right _ hf
    rw [add_mul] at this
    rw [mul_comm n s]
    omega
  · unfold binIdx
    have hd := Nat.div_add_mod (f * n + s - 1) s
    have hm := Nat.mod_lt (f * n + s - 1) hs0
    generalize (f * n + s - 1) / s = q at *
    generalize (f * n + s - 1) % s = r at *
    rw [mul_comm s q] at hd
    have h1 : f * n ≤ q * s := by omega
    have h2 : q * s < (f + 1) * n := by rw [add_mul]; omega
    exact Nat.div_eq_of_lt_le h1 h2

/-- **C43 (value).**  For an input `(B, C, T)` of the configured length and transforms with non-empty outputs: if `M`
and `N` are the largest numbers of frequency and time bins, the output has shape `(B, C, M, N)` and pixel `(i, j)` is
the largest, over all spectrograms, of the value in the bin `(⌊i F / M⌋, ⌊j S / N⌋)` of that spectrogram of `F × S` bins,
which always exists (padding is never read). -/
theorem multires_correct (ts : List Transform) (hne : ts ≠ []) (hpos : ∀ t ∈ ts, 0 < t.freqs ∧ 0 < t.times)
    (x : Tensor ℝ) (B C T : ℕ) (hx : x.shape = [B, C, T]) :
    ∃ M N y, (∃ t ∈ ts, t.freqs = M) ∧ (∀ t ∈ ts, t.freqs ≤ M) ∧ (∃ t ∈ ts, t.times = N) ∧ (∀ t ∈ ts, t.times ≤ N) ∧
      forward ts T x = .ok y ∧ y.shape = [B, C, M, N] ∧
      ∀ b c i j, b < B → c < C → i < M → j < N →
        (∀ t ∈ ts, i * t.freqs / M < t.freqs ∧ j * t.times / N < t.times ∧
          t.apply (fun s => x.get [b, c, s]) (i * t.freqs / M) (j * t.times / N) ≤ y.get [b, c, i, j]) ∧
        (∃ t ∈ ts, y.get [b, c, i, j] = t.apply (fun s => x.get [b, c, s]) (i * t.freqs / M) (j * t.times / N)) := by
  obtain ⟨M, hM1, hM2, hM3⟩ := maxList_spec (ts.map (·.freqs)) (by simpa using hne)
  obtain ⟨N, hN1, hN2, hN3⟩ := maxList_spec (ts.map (·.times)) (by simpa using hne)
  unfold forward
  simp only [hM1, hN1, res_bind_ok]
  rw [hx]
  simp only [ne_eq, not_true_eq_false, if_false]
  refine ⟨M, N, _, ?_, ?_, ?_, ?_, rfl, ?_, ?_⟩
  · obtain ⟨t, ht, h⟩ := List.mem_map.1 hM2; exact ⟨t, ht, h⟩
  · intro t ht; exact hM3 _ (List.mem_map.2 ⟨t, ht, rfl⟩)
  · obtain ⟨t, ht, h⟩ := List.mem_map.1 hN2; exact ⟨t, ht, h⟩
  · intro t ht; exact hN3 _ (List.mem_map.2 ⟨t, ht, rfl⟩)
  · simp [maxLast, diagonal, gather2, stack0, freqIdxs, repeat3, Tensor.transpose, swapAt, List.dropLast]
  · intro b c i j hb hc hi hj
    -- the list of candidates
    have hlist : ((List.range ((diagonal (gather2 (stack0 [B, C, M, N] (ts.map fun t => padTo M N (t.call x)))
          (freqIdxs (ts.map fun t => (t.freqs, t.times)) M N) (timeIdxs (ts.map fun t => (t.freqs, t.times)) M N))).shape.getLastD 0)).map
        fun p => (diagonal (gather2 (stack0 [B, C, M, N] (ts.map fun t => padTo M N (t.call x)))
          (freqIdxs (ts.map fun t => (t.freqs, t.times)) M N) (timeIdxs (ts.map fun t => (t.freqs, t.times)) M N))).get ([b, c, i, j] ++ [p])) =
        ts.map fun t => t.apply (fun s => x.get [b, c, s]) (i * t.freqs / M) (j * t.times / N) := by
      have hl : (diagonal (gather2 (stack0 [B, C, M, N] (ts.map fun t => padTo M N (t.call x)))
          (freqIdxs (ts.map fun t => (t.freqs, t.times)) M N) (timeIdxs (ts.map fun t => (t.freqs, t.times)) M N))).shape.getLastD 0 = ts.length := by
        simp [diagonal, gather2, stack0, freqIdxs, repeat3, Tensor.transpose, swapAt, List.dropLast]
      rw [hl]
      apply List.ext_getElem
      · simp
      · intro p h1 h2
        have hp : p < ts.length := by simpa using h2
        simp only [List.getElem_map, List.getElem_range]
        have hg : ts[p] ∈ ts := List.getElem_mem hp
        have e1 : (freqIdxs (ts.map fun t => (t.freqs, t.times)) M N).get [i, j, p] = i * ts[p].freqs / M := by
          simp [freqIdxs, repeat3, Tensor.transpose, swapAt, binIdx, hp]
        have e2 : (timeIdxs (ts.map fun t => (t.freqs, t.times)) M N).get [i, j, p] = j * ts[p].times / N := by
          simp [timeIdxs, repeat3, binIdx, hp]
        have l1 : i * ts[p].freqs / M < ts[p].freqs := binIdx_lt i _ M hi (hpos _ hg).1
        have l2 : j * ts[p].times / N < ts[p].times := binIdx_lt j _ N hj (hpos _ hg).2
        have e3 : ([b, c, i, j] ++ [p]).getLastD 0 = p := rfl
        simp only [diagonal, e3]
        simp only [gather2, List.cons_append, List.nil_append, List.take_succ_cons, List.take_zero, List.drop_succ_cons, List.drop_zero,
          e1, e2]
        simp only [stack0, List.headD_cons, List.tail_cons]
        rw [List.getD_eq_getElem _ _ (by simpa using hp), List.getElem_map]
        simp [padTo, Transform.call, hx, l1, l2]
    have hmx := maxReal_spec (ts.map fun t => t.apply (fun s => x.get [b, c, s]) (i * t.freqs / M) (j * t.times / N)) (by simpa using hne)
    simp only [maxLast]
    rw [hlist]
    refine ⟨?_, ?_⟩
    · intro t ht
      exact ⟨binIdx_lt i _ M hi (hpos t ht).1, binIdx_lt j _ N hj (hpos t ht).2, hmx.2 _ (List.mem_map.2 ⟨t, ht, rfl⟩)⟩
    · obtain ⟨t, ht, h⟩ := List.mem_map.1 hmx.1
      exact ⟨t, ht, h.symm⟩

/-- Non-vacuity: two spectrograms of 2×3 and 4×1 bins. -/
example : ∃ y, forward [⟨2, 3, fun s f t => s f + t⟩, ⟨4, 1, fun s f t => s 0 - f⟩] ((8 : ℕ) : ℝ) ⟨[1, 2, 8], fun i => (i.getD 2 0 : ℝ)⟩ = .ok y ∧
    y.shape = [1, 2, 4, 3] := by
  obtain ⟨M, N, y, ⟨t, ht, h1⟩, h2, ⟨t', ht', h3⟩, h4, h5, h6, -⟩ := multires_correct
    [⟨2, 3, fun s f t => s f + t⟩, ⟨4, 1, fun s f t => s 0 - f⟩] (by simp)
    (by intro t ht; simp at ht; rcases ht with rfl | rfl <;> simp) (⟨[1, 2, 8], fun i => (i.getD 2 0 : ℝ)⟩ : Tensor ℝ) 1 2 8 rfl
  have a := h2 ⟨4, 1, fun s f t => s 0 - f⟩ (by simp)
  have b := h4 ⟨2, 3, fun s f t => s f + t⟩ (by simp)
  simp at ht ht' a b
  refine ⟨y, h5, ?_⟩
  rw [h6]
  have hM : M = 4 := by rcases ht with rfl | rfl <;> simp at h1 <;> omega
  have hN : N = 3 := by rcases ht' with rfl | rfl <;> simp at h3 <;> omega
  rw [hM, hN]

/-- **C43 (nothing lost).**  Every bin of every spectrogram is seen by some pixel, which is at least as large. -/
theorem multires_covers (ts : List Transform) (hne : ts ≠ []) (hpos : ∀ t ∈ ts, 0 < t.freqs ∧ 0 < t.times)
    (x y : Tensor ℝ) (B C T : ℕ) (hx : x.shape = [B, C, T]) (hy : forward ts T x = .ok y) (b c : ℕ) (hb : b < B) (hc : c < C)
    (t : Transform) (ht : t ∈ ts) (f s : ℕ) (hf : f < t.freqs) (hs : s < t.times) :
    ∃ i j, InB [b, c, i, j] y.shape ∧ t.apply (fun u => x.get [b, c, u]) f s ≤ y.get [b, c, i, j] := by
  obtain ⟨M, N, y', h1, h2, h3, h4, h5, h6, h7⟩ := multires_correct ts hne hpos x B C T hx
  rw [hy] at h5
  obtain rfl := Except.ok.inj h5
  obtain ⟨i, hi, ei⟩ := binIdx_surj f t.freqs M hf (h2 t ht)
  obtain ⟨j, hj, ej⟩ := binIdx_surj s t.times N hs (h4 t ht)
  unfold binIdx at ei ej
  refine ⟨i, j, by rw [h6]; exact ⟨hb, hc, hi, hj, trivial⟩, ?_⟩
  have := ((h7 b c i j hb hc hi hj).1 t ht).2.2
  rwa [ei, ej] at this

example (y : Tensor ℝ) (hy : forward [⟨2, 3, fun s f t => s f + t⟩, ⟨4, 1, fun s f t => s 0 - f⟩] ((8 : ℕ) : ℝ) ⟨[1, 2, 8], fun i => (i.getD 2 0 : ℝ)⟩ = .ok y) :
    ∃ i j, InB [0, 1, i, j] y.shape ∧ (3 : ℝ) ≤ y.get [0, 1, i, j] := by
  obtain ⟨i, j, h1, h2⟩ := multires_covers _ (by simp) (by intro t ht; simp at ht; rcases ht with rfl | rfl <;> simp)
    (⟨[1, 2, 8], fun i => (i.getD 2 0 : ℝ)⟩ : Tensor ℝ) y 1 2 8 rfl hy 0 1 (by norm_num) (by norm_num)
    ⟨2, 3, fun s f t => s f + t⟩ (by simp) 1 2 (by norm_num) (by norm_num)
  refine ⟨i, j, h1, le_trans ?_ h2⟩
  norm_num

/-- **C43 (input length).**  Any other length is rejected with ValueError. -/
theorem multires_wrong_length (ts : List Transform) (hne : ts ≠ []) (K : ℝ) (x : Tensor ℝ) (B C T : ℕ) (hx : x.shape = [B, C, T])
    (h : (T : ℝ) ≠ K) : forward ts K x = .error .value := by
  obtain ⟨M, hM1, -, -⟩ := maxList_spec (ts.map (·.freqs)) (by simpa using hne)
  obtain ⟨N, hN1, -, -⟩ := maxList_spec (ts.map (·.times)) (by simpa using hne)
  unfold forward
  simp only [hM1, hN1, res_bind_ok]
  rw [hx]
  simp only [h, ne_eq, not_false_eq_true, if_true]

example : forward [⟨2, 3, fun s f t => s f + t⟩] 8 ⟨[1, 2, 9], fun _ => 0⟩ = .error .value :=
  multires_wrong_length _ (by simp) 8 _ 1 2 9 rfl (by norm_num)

variable {V : Type}

theorem sort_pair (l : List ℕ) (n : ℕ) (hn : 2 ≤ n) (h1 : 1 ∈ l) (h2 : n ∈ l) (h : ∀ x ∈ l, x = 1 ∨ x = n) :
    l.dedup.mergeSort = [1, n] := by
  have hp : [1, n].Perm l.dedup := by
    rw [List.perm_ext_iff_of_nodup (by simp; omega) (List.nodup_dedup l)]
    intro x
    rw [List.mem_dedup]
    simp only [List.mem_cons, List.not_mem_nil, or_false]
    constructor
    · rintro (rfl | rfl) <;> assumption
    · exact h x
  have hs : (l.dedup.mergeSort (· ≤ ·)).SortedLE := List.sortedLE_mergeSort
  exact ((List.mergeSort_perm _ _).trans hp.symm).eq_of_sortedLE hs (by
    rw [List.sortedLE_iff_pairwise]; simp; omega)

theorem sort_single (l : List ℕ) (n : ℕ) (hne : l ≠ []) (h : ∀ x ∈ l, x = n) : l.dedup.mergeSort = [n] := by
  have hmem : n ∈ l := by
    cases l with
    | nil => exact absurd rfl hne
    | cons a l => rw [← h a (by simp)]; simp
  have hp : [n].Perm l.dedup := by
    rw [List.perm_ext_iff_of_nodup (by simp) (List.nodup_dedup l)]
    intro x
    rw [List.mem_dedup]
    simp only [List.mem_cons, List.not_mem_nil, or_false]
    exact ⟨fun e => e ▸ hmem, h x⟩
  have := (List.mergeSort_perm l.dedup (· ≤ ·)).trans hp.symm
  exact List.perm_singleton.1 this

/-- The documented broadcast: entry `i` of a list, or its only entry. -/
def pick [Inhabited V] (v : List V) (i : ℕ) : V := v.getD (if v.length = 1 then 0 else i) default

theorem zip_ok [Inhabited V] (kwargs : Kwargs V) (n : ℕ) (hne : kwargs ≠ []) (h : ∀ p ∈ kwargs, p.2.length = n) :
    zipKwargs kwargs = .ok ((List.range n).map fun i => kwargs.map fun p => (p.1, p.2.getD i default)) := by
  cases kwargs with
  | nil => exact absurd rfl hne
  | cons a l =>
    obtain ⟨k, v⟩ := a
    have hv : v.length = n := h (k, v) (by simp)
    unfold zipKwargs
    simp only []
    rw [if_pos]
    · rw [hv]
      congr 1
      refine List.map_congr_left fun i hi => ?_
      have hi' : i < n := by simpa using hi
      have : ∀ l : Kwargs V, (∀ p ∈ l, p.2.length = n) → (l.filterMap fun p => p.2[i]?.map fun x => (p.1, x)) =
          l.map fun p => (p.1, p.2.getD i default) := by
        intro l
        induction l with
        | nil => intro _; rfl
        | cons p l ih =>
          intro hl
          have hp := hl p (by simp)
          rw [List.filterMap_cons, List.map_cons, ih (fun q hq => hl q (by simp [hq]))]
          simp [hp, hi']
      exact this _ h
    · rw [List.all_eq_true]
      intro p hp
      simp [h p hp, hv]

/-- **C43 (equal lengths).**  If all lists have the same length `n` there are `n` spectrograms, the `i`-th with the
`i`-th value of every argument. -/
theorem kwargs_equal [Inhabited V] (kwargs : Kwargs V) (n : ℕ) (hne : kwargs ≠ []) (h : ∀ p ∈ kwargs, p.2.length = n) :
    formatKwargs kwargs = .ok ((List.range n).map fun i => kwargs.map fun p => (p.1, p.2.getD i default)) := by
  have hs : setList (kwargs.map fun p => p.2.length) = [n] := by
    unfold setList
    rw [sort_single _ n (by simpa using hne) (by
      intro x hx; obtain ⟨p, hp, rfl⟩ := List.mem_map.1 hx; exact h p hp)]
    simp [setOrder]
  unfold formatKwargs
  simp only [hs]
  rw [if_neg (by simp)]
  simp only [expand]
  exact zip_ok kwargs n hne h

/-- **C43 (broadcast).**  With lists of lengths `1` and `n ≥ 2` (both occurring), `n` not a multiple of 8, there are `n`
spectrograms, the `i`-th with the `i`-th value of the long lists and the only value of the short ones. -/
theorem kwargs_broadcast [Inhabited V] (kwargs : Kwargs V) (n : ℕ) (hn : 2 ≤ n) (h8 : n % 8 ≠ 0)
    (h : ∀ p ∈ kwargs, p.2.length = 1 ∨ p.2.length = n)
    (h1 : ∃ p ∈ kwargs, p.2.length = 1) (h2 : ∃ p ∈ kwargs, p.2.length = n) :
    formatKwargs kwargs = .ok ((List.range n).map fun i => kwargs.map fun p => (p.1, pick p.2 i)) := by
  obtain ⟨p1, hp1, l1⟩ := h1
  obtain ⟨p2, hp2, l2⟩ := h2
  have hs : setList (kwargs.map fun p => p.2.length) = [1, n] := by
    unfold setList
    rw [sort_pair _ n hn (List.mem_map.2 ⟨p1, hp1, l1⟩) (List.mem_map.2 ⟨p2, hp2, l2⟩) (by
      intro x hx; obtain ⟨p, hp, rfl⟩ := List.mem_map.1 hx; exact h p hp)]
    simp [setOrder, h8]
  have hne : kwargs ≠ [] := by intro e; rw [e] at hp1; simp at hp1
  unfold formatKwargs
  simp only [hs]
  rw [if_neg (by simp)]
  simp only [expand]
  rw [zip_ok _ n (by simpa using hne)]
  · congr 1
    refine List.map_congr_left fun i hi => ?_
    have hi' : i < n := by simpa using hi
    rw [List.map_map]
    refine List.map_congr_left fun p hp => ?_
    simp only [Function.comp, pick, repeatList]
    congr 1
    rcases h p hp with e | e
    · rw [if_pos e]
      obtain ⟨a, ha⟩ := List.length_eq_one_iff.1 e
      rw [ha]
      have hfl : (List.replicate (n / [a].length) [a]).flatten = List.replicate n a := by
        simp [List.flatten_replicate_singleton]
      rw [hfl]
      simp [hi']
    · rw [if_neg (by omega), e, Nat.div_self (by omega)]
      simp
  · intro q hq
    obtain ⟨p, hp, rfl⟩ := List.mem_map.1 hq
    simp only [repeatList]
    rcases h p hp with e | e
    · simp [e]
    · rw [e, Nat.div_self (by omega)]; simp [e]

example : formatKwargs [("n_fft", [64, 128, 256]), ("power", [2])] =
    .ok [[("n_fft", 64), ("power", 2)], [("n_fft", 128), ("power", 2)], [("n_fft", 256), ("power", 2)]] :=
  kwargs_broadcast (V := ℕ) [("n_fft", [64, 128, 256]), ("power", [2])] 3 (by norm_num) (by norm_num)
    (by intro p hp; simp at hp; rcases hp with rfl | rfl <;> simp) ⟨("power", [2]), by simp, rfl⟩ ⟨("n_fft", [64, 128, 256]), by simp, rfl⟩

/-- **C43 (rejection).**  Two lists of different lengths, neither of length 1, are rejected with ValueError. -/
theorem kwargs_reject (kwargs : Kwargs V) (p q : String × List V) (hp : p ∈ kwargs) (hq : q ∈ kwargs)
    (hne : p.2.length ≠ q.2.length) (h1 : p.2.length ≠ 1) (h2 : q.2.length ≠ 1) : formatKwargs kwargs = .error .value := by
  unfold formatKwargs
  dsimp only
  rw [if_pos]
  generalize hL : (kwargs.map fun p => p.2.length) = L
  have mp : p.2.length ∈ L.dedup.mergeSort := by
    rw [List.mem_mergeSort, List.mem_dedup, ← hL]; exact List.mem_map.2 ⟨p, hp, rfl⟩
  have mq : q.2.length ∈ L.dedup.mergeSort := by
    rw [List.mem_mergeSort, List.mem_dedup, ← hL]; exact List.mem_map.2 ⟨q, hq, rfl⟩
  unfold setList
  generalize L.dedup.mergeSort = S at mp mq
  generalize p.2.length = a at *
  generalize q.2.length = b at *
  match S, mp, mq with
  | [x], mp, mq => simp at mp mq; omega
  | [x, y], mp, mq =>
    simp at mp mq
    by_cases hx : x = 1
    · subst hx; omega
    · right
      simp [setOrder, hx]
  | x :: y :: z :: l, _, _ =>
    left
    simp [setOrder]

example : formatKwargs [("n_fft", [64, 128, 256]), ("power", [2, 2])] = .error .value :=
  kwargs_reject (V := ℕ) _ ("n_fft", [64, 128, 256]) ("power", [2, 2]) (by simp) (by simp) (by simp) (by simp) (by simp)

/-- **C43 (finding).**  Lists of length 1 together with lists of length `n`, a positive multiple of 8, are rejected
although the documentation allows them. -/
theorem kwargs_multiple_of_eight (kwargs : Kwargs V) (n : ℕ) (hn : 2 ≤ n) (h8 : n % 8 = 0)
    (h : ∀ p ∈ kwargs, p.2.length = 1 ∨ p.2.length = n)
    (h1 : ∃ p ∈ kwargs, p.2.length = 1) (h2 : ∃ p ∈ kwargs, p.2.length = n) : formatKwargs kwargs = .error .value := by
  obtain ⟨p1, hp1, l1⟩ := h1
  obtain ⟨p2, hp2, l2⟩ := h2
  have hs : setList (kwargs.map fun p => p.2.length) = [n, 1] := by
    unfold setList
    rw [sort_pair _ n hn (List.mem_map.2 ⟨p1, hp1, l1⟩) (List.mem_map.2 ⟨p2, hp2, l2⟩) (by
      intro x hx; obtain ⟨p, hp, rfl⟩ := List.mem_map.1 hx; exact h p hp)]
    simp [setOrder, h8]
  unfold formatKwargs
  simp only [hs]
  rw [if_pos]
  right
  exact ⟨rfl, by simp; omega⟩

example : formatKwargs [("n_fft", List.range 8), ("normalized", [1])] = .error .value :=
  kwargs_multiple_of_eight (V := ℕ) _ 8 (by norm_num) (by norm_num)
    (by intro p hp; simp at hp; rcases hp with rfl | rfl <;> simp) ⟨("normalized", [1]), by simp, rfl⟩ ⟨("n_fft", List.range 8), by simp, rfl⟩

/-- **C43 (normalization).**  A false `normalized` flag is rejected with ValueError; without the argument every
spectrogram is made with the flag set. -/
theorem init_normalized (truthy : V → Bool) (tt : V) (kwargs : Kwargs V) :
    (∀ v, kwargs.find? (fun p => p.1 = "normalized") = some ("normalized", v) → (∃ x ∈ v, truthy x = false) →
      initKwargs truthy tt kwargs = .error .value) ∧
    ((∀ p ∈ kwargs, p.1 ≠ "normalized") → initKwargs truthy tt kwargs = formatKwargs (kwargs ++ [("normalized", [tt])])) := by
  constructor
  · rintro v hv ⟨x, hx, hf⟩
    unfold initKwargs
    rw [hv]
    simp only
    rw [if_neg]
    intro hall
    rw [List.all_eq_true] at hall
    rw [hall x hx] at hf
    cases hf
  · intro h
    unfold initKwargs
    have : kwargs.find? (fun p => decide (p.1 = "normalized")) = none := by
      rw [List.find?_eq_none]
      intro p hp
      simpa using h p hp
    rw [this]

example : initKwargs (V := ℕ) (fun n => n ≠ 0) 1 [("normalized", [1, 0])] = .error .value :=
  (init_normalized _ _ _).1 [1, 0] rfl ⟨0, by simp, by simp⟩

/-- **C43 (no spectrogram).**  With empty lists there is nothing to combine, and construction fails with ValueError whatever the input. -/
theorem multires_empty (kernelSize : ℝ) (x : Tensor ℝ) : forward [] kernelSize x = .error .value := rfl

example : initKwargs (V := ℕ) (fun n => n ≠ 0) 1 [("normalized", []), ("n_fft", [])] = .ok [] ∧ forward [] 1 ⟨[1, 1, 1], fun _ => 0⟩ = .error .value :=
  ⟨by decide +kernel, multires_empty _ _⟩

end Verif.Spectrogram
