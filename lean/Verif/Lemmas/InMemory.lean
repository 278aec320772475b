import Verif.Model.InMemory
import Verif.Spec.InMemory
import Verif.Lemmas.Chunk
import Verif.Props.Slice
import Mathlib.Data.List.Perm.Basic
namespace Verif.InMemory
open Slicing Spec
variable {α : Type _}

theorem numKernels_nat (cfg : Config α) (T K stride : Nat) (ht : cfg.t = T)
    (hk : cfg.kernelSize = K) (hs : cfg.stride = stride) (h0 : 0 < stride) (hT : K ≤ T) :
    numKernels cfg = .ok (((T - K) / stride + 1 : Nat) : Int) := by
  have h1 : ¬ ((stride:Int) = 0) := by omega
  simp only [numKernels, pyFloorDiv, ht, hk, hs, h1, if_false, res_bind_ok]
  rw [Int.fdiv_eq_ediv_of_nonneg _ (by omega), ← Int.ofNat_sub hT, ← Int.natCast_ediv]
  rfl

/-- One batch of the coincident case. -/
theorem batch_one (cfg : Config α) (C T K stride bs : Nat) (L : List Nat) (i : Nat)
    (hX : cfg.X.shape = [C, T]) (hC : 0 < C) (hk : cfg.kernelSize = K) (hs : cfg.stride = stride)
    (hbs : cfg.batchSize = bs) (hy : ∀ y, cfg.y = some y → y.shape = [T])
    (hL : ∀ v ∈ L, v * stride + K ≤ T) :
    ∃ out, batch cfg (.one (L.map Int.ofNat)) i = .ok out ∧
      IsBatch cfg.X C K cfg.y (((L.drop (i * bs)).take bs).map (· * stride)) out := by
  have hsl : pySlice (L.map Int.ofNat) ((i:Int) * bs) (((i:Int) + 1) * bs) =
      ((L.drop (i * bs)).take bs).map Int.ofNat := by
    have := pySlice_nat (L.map Int.ofNat) (i * bs) ((i + 1) * bs)
    push_cast at this
    rw [this, ← List.map_drop, ← List.map_take, Nat.succ_mul, Nat.add_sub_cancel_left]
  generalize hS : (L.drop (i * bs)).take bs = S at *
  have hSL : ∀ v ∈ S, v * stride + K ≤ T := by
    intro v hv
    rw [← hS] at hv
    exact hL v (List.mem_of_mem_drop (List.mem_of_mem_take hv))
  have hidx : ∃ idx : Tensor Int, (Indices.one (L.map Int.ofNat)).slice ((i:Int) * cfg.batchSize)
      (((i:Int)+1) * cfg.batchSize) cfg.stride = idx ∧ idx.shape = [S.length] ∧
      ∀ b (hb : b < S.length), idx.get [b] = ((S[b] * stride : Nat) : Int) := by
    refine ⟨_, rfl, ?_, ?_⟩
    · simp [Indices.slice, hbs, hsl]
    · intro b hb
      simp [Indices.slice, hbs, hsl, hs, List.getD_eq_getElem?_getD, hb]
  obtain ⟨idx, he, his, hig⟩ := hidx
  have hr : ∀ b < S.length, 0 ≤ idx.get [b] ∧ idx.get [b] + K ≤ T := by
    intro b hb
    have := hSL S[b] (List.getElem_mem hb)
    rw [hig b hb]; omega
  obtain ⟨o1, ho1, hos1, hog1⟩ := slice_kernels_2d_coincident cfg.X idx C T S.length K hC hX his hr
  have hlen : (S.map (· * stride)).length = S.length := by simp
  have e1 : ∀ j c t (hj : j < (S.map (· * stride)).length), c < C → t < K →
      o1.get [j, c, t] = cfg.X.get [c, (S.map (· * stride))[j] + t] := by
    intro j c t hj hc ht
    have hj' : j < S.length := by simpa using hj
    rw [hog1 j c t hj' hc ht, hig j hj', Int.toNat_natCast, List.getElem_map]
  cases hcy : cfg.y with
  | none =>
    refine ⟨(o1, none), ?_, by rw [hlen]; exact hos1, e1, rfl⟩
    simp only [batch, he, hk, ho1, res_bind_ok, hcy]
  | some y =>
    obtain ⟨o2, ho2, hos2, hog2⟩ := slice_kernels_1d y idx T S.length K (hy y hcy) his hr
    refine ⟨(o1, some o2), ?_, by rw [hlen]; exact hos1, e1, o2, rfl, by rw [hlen]; exact hos2, ?_⟩
    · simp only [batch, he, hk, ho1, res_bind_ok, hcy, ho2]
    · intro j t hj ht
      have hj' : j < S.length := by simpa using hj
      rw [hog2 j t hj' ht, hig j hj', Int.toNat_natCast, List.getElem_map]

theorem randint_ok' (r : List Nat → Nat) (lo hi : Int) (size : List Nat) (h : lo < hi) :
    ∃ idx, randint r lo hi (size.map Int.ofNat) = .ok idx ∧ idx.shape = size ∧
      ∀ i, lo ≤ idx.get i ∧ idx.get i < hi := by
  have h1 : ¬ (hi ≤ lo ∨ ∃ s ∈ size.map Int.ofNat, s < 0) := by
    rintro (h' | ⟨s, hs, h'⟩)
    · omega
    · simp at hs; obtain ⟨a, -, rfl⟩ := hs; omega
  refine ⟨_, by unfold randint; rw [if_neg h1], ?_, ?_⟩
  · simp [List.map_map, Function.comp_def]
  · intro i
    have : r i % (hi - lo).toNat < (hi - lo).toNat := Nat.mod_lt _ (by omega)
    dsimp only
    omega

theorem start_bound (T K stride nk v : Nat) (hnk : (T - K) / stride + 1 = nk) (hT : K ≤ T)
    (hv : v < nk) : v * stride + K ≤ T := by
  have h2 : v * stride ≤ (T - K) / stride * stride := Nat.mul_le_mul_right _ (by omega)
  have h3 := Nat.div_mul_le_self (T - K) stride
  omega

theorem init_independent (cfg : Config α) (nk bs b : Nat) (hnk : numKernels cfg = .ok (nk : Int))
    (hbs : cfg.batchSize = bs) (hy : cfg.y = none) (hb : cfg.batchesPerEpoch = some (b : Int))
    (hble : bs * b ≤ nk) : init cfg = .ok () := by
  have : ¬ ((nk:Int) < bs * b) := by
    have : ((bs * b : Nat) : Int) ≤ nk := by omega
    push_cast at this; omega
  simp [init, checkY, hy, hb, hnk, hbs, this]

/-- One batch of the non-coincident case. -/
theorem batch_rows (cfg : Config α) (C T K stride bs : Nat) (L : List (List Nat)) (i : Nat)
    (hX : cfg.X.shape = [C, T]) (hC : 0 < C) (hk : cfg.kernelSize = K) (hs : cfg.stride = stride)
    (hbs : cfg.batchSize = bs) (hy : cfg.y = none)
    (hL : ∀ row ∈ L, row.length = C ∧ ∀ v ∈ row, v * stride + K ≤ T) :
    ∃ out, batch cfg (.rows C (L.map (·.map Int.ofNat))) i = .ok out ∧
      IsIndependentBatch cfg.X C K (((L.drop (i * bs)).take bs).map (·.map (· * stride))) out.1 ∧
      out.2 = none := by
  have hsl : pySlice (L.map (·.map Int.ofNat)) ((i:Int) * bs) (((i:Int) + 1) * bs) =
      ((L.drop (i * bs)).take bs).map (·.map Int.ofNat) := by
    have := pySlice_nat (L.map (·.map Int.ofNat)) (i * bs) ((i + 1) * bs)
    push_cast at this
    rw [this, ← List.map_drop, ← List.map_take, Nat.succ_mul, Nat.add_sub_cancel_left]
  generalize hS : (L.drop (i * bs)).take bs = S at *
  have hSL : ∀ row ∈ S, row.length = C ∧ ∀ v ∈ row, v * stride + K ≤ T := by
    intro v hv
    rw [← hS] at hv
    exact hL v (List.mem_of_mem_drop (List.mem_of_mem_take hv))
  have hidx : ∃ idx : Tensor Int, (Indices.rows C (L.map (·.map Int.ofNat))).slice
      ((i:Int) * cfg.batchSize) (((i:Int)+1) * cfg.batchSize) cfg.stride = idx ∧
      idx.shape = [S.length, C] ∧
      ∀ b c (hb : b < S.length) (hc : c < (S[b]).length),
        idx.get [b, c] = ((S[b][c] * stride : Nat) : Int) := by
    refine ⟨_, rfl, ?_, ?_⟩
    · simp [Indices.slice, hbs, hsl]
    · intro b c hb hc
      simp [Indices.slice, hbs, hsl, hs, List.getD_eq_getElem?_getD, hb, hc]
  obtain ⟨idx, he, his, hig⟩ := hidx
  have hlenrow : ∀ b (hb : b < S.length), (S[b]).length = C := fun b hb =>
    (hSL S[b] (List.getElem_mem hb)).1
  have hr : ∀ b < S.length, ∀ c < C, 0 ≤ idx.get [b, c] ∧ idx.get [b, c] + K ≤ T := by
    intro b hb c hc
    have hc' : c < (S[b]).length := by rw [hlenrow b hb]; exact hc
    have := (hSL S[b] (List.getElem_mem hb)).2 S[b][c] (List.getElem_mem hc')
    rw [hig b c hb hc']; omega
  obtain ⟨o1, ho1, hos1, hog1⟩ := slice_kernels_2d_independent cfg.X idx C T S.length K hC hX his hr
  refine ⟨(o1, none), ?_, ⟨by simpa using hos1, ?_⟩, rfl⟩
  · simp only [batch, he, hk, ho1, res_bind_ok, hy]
  · intro j c t hj hc ht
    have hj' : j < S.length := by simpa using hj
    have hc' : c < (S[j]).length := by rw [hlenrow j hj']; exact hc
    rw [hog1 j c t hj' hc ht, hig j c hj' hc', Int.toNat_natCast, List.getElem_map]
    simp [List.getD_eq_getElem?_getD, hc']

theorem epoch_rows (cfg : Config α) (r : List Nat → Nat) (perm : List Nat)
    (C T K stride bs b : Nat) (L : List (List Nat))
    (hX : cfg.X.shape = [C, T]) (hC : 0 < C) (hk : cfg.kernelSize = K) (hs : cfg.stride = stride)
    (hbs : cfg.batchSize = bs) (hy : cfg.y = none) (hinit : init cfg = .ok ())
    (hlen : len cfg = .ok (b : Int))
    (hix : initIndices r perm cfg = .ok (.rows C (L.map (·.map Int.ofNat))))
    (hLl : L.length = bs * b)
    (hL : ∀ row ∈ L, row.length = C ∧ ∀ v ∈ row, v * stride + K ≤ T) :
    ∃ (batches : _) (starts : List (List (List Nat))), epoch r perm cfg = .ok batches ∧
      List.Forall₂ (fun s out => IsIndependentBatch cfg.X C K s out.1 ∧ out.2 = none) starts batches ∧
      (starts.length = b ∧ ∀ s ∈ starts, s.length = bs) ∧
      starts.flatten = L.map (·.map (· * stride)) := by
  obtain ⟨batches, hbt, hf2⟩ := mapM_ok_exists (batch cfg (.rows C (L.map (·.map Int.ofNat))))
    (fun i out => IsIndependentBatch cfg.X C K
      (((L.drop (i * bs)).take bs).map (·.map (· * stride))) out.1 ∧ out.2 = none)
    (List.range b) (fun i _ => batch_rows cfg C T K stride bs L i hX hC hk hs hbs hy hL)
  refine ⟨batches, (List.range b).map fun i => ((L.drop (i * bs)).take bs).map (·.map (· * stride)),
    ?_, ?_, ⟨by simp, ?_⟩, ?_⟩
  · simp only [epoch, hinit, hix, hlen, res_bind_ok, Int.toNat_natCast, hbt]
  · exact forall2_map_left (fun i => ((L.drop (i * bs)).take bs).map (·.map (· * stride)))
      (fun s (out : Tensor α × Option (Tensor α)) =>
        IsIndependentBatch cfg.X C K s out.1 ∧ out.2 = none) _ _ hf2
  · intro s hs'
    simp only [List.mem_map, List.mem_range] at hs'
    obtain ⟨i, hi, rfl⟩ := hs'
    have : (i + 1) * bs ≤ b * bs := Nat.mul_le_mul_right _ hi
    rw [Nat.add_mul] at this
    rw [Nat.mul_comm b] at this
    simp [hLl]
    omega
  · rw [← List.flatMap_def]
    have := flatMap_blocks L bs b
    rw [List.take_of_length_le (by rw [hLl, Nat.mul_comm])] at this
    conv_rhs => rw [← this]
    rw [List.map_flatMap]

theorem product_length (nk C : Nat) :
    (product (List.replicate C (List.range nk))).length = nk ^ C := by
  induction C with
  | zero => simp [product]
  | succ C ih =>
    simp [List.replicate_succ, product, List.length_flatMap, ih]
    rw [Nat.pow_succ, Nat.mul_comm]

/-- A prefix of the product no longer than one range only moves the last coordinate. -/
theorem product_take (nk n C : Nat) (hC : 0 < C) (hn : n ≤ nk) :
    (product (List.replicate C (List.range nk))).take n =
      (List.range n).map fun j => List.replicate (C - 1) 0 ++ [j] := by
  rcases Nat.eq_zero_or_pos n with h0 | h0
  · subst h0; simp
  induction C with
  | zero => omega
  | succ C ih =>
    rcases Nat.eq_zero_or_pos C with hC0 | hC0
    · subst hC0
      have : product (List.replicate (0 + 1) (List.range nk)) = (List.range nk).map fun a => [a] := by
        simp [product, List.replicate_succ, List.flatMap_def]
        induction (List.range nk) with
        | nil => rfl
        | cons a l ih => simp [ih]
      rw [this, ← List.map_take, List.take_range, Nat.min_eq_left hn]
      simp
    · have hnk : nk = (nk - 1) + 1 := by omega
      rw [List.replicate_succ, product]
      have hr : List.range nk = 0 :: (List.range (nk - 1)).map (· + 1) := by
        conv_lhs => rw [hnk]
        rw [List.range_succ_eq_map]
      conv_lhs => rw [hr]
      rw [List.flatMap_cons, List.take_append_of_le_length, ← List.map_take, ← hr, ih hC0]
      · rw [List.map_map]
        apply List.map_congr_left
        intro j _
        simp only [Function.comp_def, Nat.add_sub_cancel]
        rw [← List.cons_append, ← List.replicate_succ]
        congr 2
        omega
      · rw [List.length_map, ← hr, product_length]
        calc n ≤ nk := hn
          _ = nk ^ 1 := by simp
          _ ≤ nk ^ C := Nat.pow_le_pow_right (by omega) hC0

end Verif.InMemory
