import Verif.Lemmas.InMemory
import Mathlib.Data.List.Nodup
import Mathlib.Data.Nat.Log
import Mathlib.Tactic.Ring
/-!
# Properties of `InMemoryDataset` (C10 - C13)
-/
set_option linter.unusedSimpArgs false
namespace Verif.InMemory
open Slicing Spec
variable {α : Type _}

/-- **C10, C11.**  Coincident sampling.  For every series of shape `(C, T)`, optional target of length
`T`, kernel size `K ≤ T`, `stride, batch_size ≥ 1`, optional `batches_per_epoch = b` with
`batch_size*b ≤ num_kernels`, shuffled or not, and every outcome `perm` of `torch.randperm`:
the epoch succeeds and there are start positions such that batch `i` consists of the windows of `X`
(and of `y`) at `starts[i]`, and
* the number of batches is `len(dataset)`;
* no start is repeated and every start is one of `0, stride, 2*stride, ..`;
* all batches are full except possibly the last; none is empty;
* with `batches_per_epoch = None` every window is returned exactly once;
* with `batches_per_epoch = b` there are `b` full batches;
* without shuffling the starts are in time order, beginning at 0. -/
theorem in_memory_coincident (cfg : Config α) (r : List Nat → Nat) (perm : List Nat)
    (C T K stride bs : Nat) (ht : cfg.t = T) (hX : cfg.X.shape = [C, T])
    (hk : cfg.kernelSize = K) (hs : cfg.stride = stride) (hbs : cfg.batchSize = bs)
    (hy : ∀ y, cfg.y = some y → y.shape = [T]) (hco : cfg.coincident = true)
    (hC : 0 < C) (hT : K ≤ T) (hs0 : 0 < stride) (hb0 : 0 < bs)
    (hb : cfg.batchesPerEpoch = none ∨
      ∃ b : Nat, cfg.batchesPerEpoch = some (b : Int) ∧ bs * b ≤ (T - K) / stride + 1)
    (hp : perm.Perm (List.range ((T - K) / stride + 1))) :
    ∃ (batches : _) (starts : List (List Nat)), epoch r perm cfg = .ok batches ∧
      List.Forall₂ (IsBatch cfg.X C K cfg.y) starts batches ∧
      len cfg = .ok (starts.length : Int) ∧
      starts.flatten.Nodup ∧ (∀ p ∈ starts.flatten, p ∈ allStarts T K stride) ∧
      (∀ s ∈ starts, s.length ≤ bs) ∧ (∀ s ∈ starts.dropLast, s.length = bs) ∧
      (∀ s ∈ starts, s ≠ []) ∧
      (cfg.batchesPerEpoch = none → starts.flatten.Perm (allStarts T K stride)) ∧
      (∀ b : Nat, cfg.batchesPerEpoch = some (b : Int) →
        starts.length = b ∧ ∀ s ∈ starts, s.length = bs) ∧
      (cfg.shuffle = false → starts.flatten <+: allStarts T K stride) := by
  have hnk := numKernels_nat cfg T K stride ht hk hs hs0 hT
  generalize hnkv : (T - K) / stride + 1 = nk at *
  have hnk0 : 0 < nk := by rw [← hnkv]; exact Nat.succ_pos _
  -- number of kernels used and number of batches
  obtain ⟨n, m, hn, hm, hnle, hmb, hfull⟩ : ∃ n m : Nat,
      numUsed cfg nk = (n : Int) ∧ len cfg = .ok (m : Int) ∧ n ≤ nk ∧
      (n ≤ m * bs ∧ ∀ i < m, i * bs < n ∧ (i + 1 < m → (i + 1) * bs ≤ n)) ∧
      (cfg.batchesPerEpoch = none → n = nk) ∧
      (∀ b : Nat, cfg.batchesPerEpoch = some (b : Int) → m = b ∧ n = m * bs) := by
    rcases hb with hb | ⟨b, hb, hble⟩
    · refine ⟨nk, (nk - 1) / bs + 1, by simp [numUsed, hb], ?_, Nat.le_refl _, ⟨?_, ?_⟩, by simp, by simp [hb]⟩
      · have h1 : ¬ ((bs:Int) = 0) := by omega
        have h2 : ((nk:Int) - 1).fdiv bs = (((nk - 1) / bs : Nat) : Int) := by
          rw [Int.fdiv_eq_ediv_of_nonneg _ (by omega), Int.natCast_ediv, Int.ofNat_sub (by omega)]
          rfl
        have h3 : ¬ ((((nk - 1) / bs : Nat) : Int) + 1 < 0) := by
          generalize (nk - 1) / bs = q; omega
        simp only [len, hb, hnk, res_bind_ok, hco, if_true, pyFloorDiv, hbs, h1, if_false, h2, h3]
        rfl
      · have := Nat.lt_div_mul_add hb0 (a := nk - 1)
        rw [Nat.add_mul]; omega
      · intro i hi
        have h1 : i * bs ≤ (nk - 1) / bs * bs := Nat.mul_le_mul_right _ (by omega)
        have h2 := Nat.div_mul_le_self (nk - 1) bs
        refine ⟨by omega, fun h => ?_⟩
        have h3 : (i + 1) * bs ≤ (nk - 1) / bs * bs := Nat.mul_le_mul_right _ (by omega)
        omega
    · refine ⟨bs * b, b, by simp [numUsed, hb, hbs], ?_, hble, ⟨by rw [Nat.mul_comm], ?_⟩, by simp [hb], ?_⟩
      · have h3 : ¬ ((b:Int) < 0) := by omega
        simp only [len, hb, res_bind_ok, h3, if_false]
      · intro i hi
        rw [Nat.mul_comm bs]
        exact ⟨Nat.mul_lt_mul_of_pos_right hi hb0, fun h => Nat.mul_le_mul_right _ (by omega)⟩
      · intro b' hb'
        rw [hb] at hb'
        have : b = b' := by simpa using hb'
        subst this
        exact ⟨rfl, Nat.mul_comm _ _⟩
  have hinit : init cfg = .ok () := by
    have hyc : checkY cfg = .ok () := by
      unfold checkY
      cases hcy : cfg.y with
      | none => rfl
      | some y => simp [Tensor.lastDim, hy y hcy, ht, hco]
    unfold init
    rw [hyc]
    rcases hb with hb | ⟨b, hb, hble⟩
    · simp [hb, hco]
    · have : ¬ ((nk:Int) < bs * b) := by
        have : ((bs * b : Nat) : Int) ≤ nk := by omega
        push_cast at this; omega
      simp [hb, hco, hnk, hbs, this]
  -- the order in which kernels are visited
  obtain ⟨L, hL, hLlen, hLnd, hLmem, hLfull, hLord⟩ : ∃ L : List Nat,
      initIndices r perm cfg = .ok (.one (L.map Int.ofNat)) ∧ L.length = n ∧ L.Nodup ∧
      (∀ v ∈ L, v < nk) ∧ (n = nk → L.Perm (List.range nk)) ∧
      (cfg.shuffle = false → L <+: List.range nk) := by
    have hco' : ¬ (cfg.coincident = false) := by simp [hco]
    cases hsh : cfg.shuffle with
    | true =>
      refine ⟨perm.take n, ?_, ?_, ?_, ?_, ?_, by simp⟩
      · have h0 : ¬ ((nk:Int) < 0) := by omega
        have hps := pySlice_nat (perm.map Int.ofNat) 0 n
        simp only [Int.natCast_zero] at hps
        simp only [initIndices, hnk, res_bind_ok, hco', false_and, if_false, hsh, if_true, h0, hn, hps]
        simp [List.map_take]
      · have := hp.length_eq; simp at this; simp; omega
      · exact ((hp.nodup_iff).2 List.nodup_range).sublist (List.take_sublist _ _)
      · intro v hv
        have := hp.mem_iff.1 (List.mem_of_mem_take hv)
        simpa using this
      · intro hnn
        rw [List.take_of_length_le (by have := hp.length_eq; simp at this; omega)]
        exact hp
    | false =>
      refine ⟨List.range n, ?_, by simp, List.nodup_range, ?_, ?_, ?_⟩
      · have h0 : ¬ ((n:Int) < 0) := by omega
        simp [initIndices, hnk, hco, hsh, hn, h0]
      · intro v hv; simp at hv; omega
      · intro hnn; rw [hnn]
      · intro _
        rw [show nk = n + (nk - n) by omega, List.range_add]
        exact List.prefix_append _ _
  have hLb : ∀ v ∈ L, v * stride + K ≤ T := by
    intro v hv
    have h1 := hLmem v hv
    have h2 : v * stride ≤ (T - K) / stride * stride := Nat.mul_le_mul_right _ (by omega)
    have h3 := Nat.div_mul_le_self (T - K) stride
    omega
  obtain ⟨batches, hbt, hf2⟩ := mapM_ok_exists (batch cfg (.one (L.map Int.ofNat)))
    (fun i out => IsBatch cfg.X C K cfg.y (((L.drop (i * bs)).take bs).map (· * stride)) out)
    (List.range m)
    (fun i _ => batch_one cfg C T K stride bs L i hX hC hk hs hbs hy hLb)
  have hflat : ((List.range m).map fun i => ((L.drop (i * bs)).take bs).map (· * stride)).flatten =
      L.map (· * stride) := by
    rw [← List.flatMap_def]
    have := flatMap_blocks L bs m
    rw [List.take_of_length_le (by omega)] at this
    conv_rhs => rw [← this]
    rw [List.map_flatMap]
  have hlenS : ∀ i < m, (((L.drop (i * bs)).take bs).map (· * stride)).length = min bs (n - i * bs) := by
    intro i hi; simp [hLlen]
  refine ⟨batches, (List.range m).map fun i => ((L.drop (i * bs)).take bs).map (· * stride),
    ?_, forall2_map_left _ _ _ _ hf2, ?_, ?_, ?_, ?_, ?_, ?_, ?_, ?_, ?_⟩
  · simp only [epoch, hinit, hL, hm, res_bind_ok, Int.toNat_natCast, hbt]
  · simpa using hm
  · rw [hflat]
    exact List.Nodup.map (fun a b h => Nat.eq_of_mul_eq_mul_right hs0 h) hLnd
  · intro p hp'
    rw [hflat] at hp'
    simp only [allStarts, hnkv, List.mem_map, List.mem_range] at *
    obtain ⟨a, ha, rfl⟩ := hp'
    exact ⟨a, hLmem a ha, rfl⟩
  · intro s hs'
    simp only [List.mem_map, List.mem_range] at hs'
    obtain ⟨i, hi, rfl⟩ := hs'
    rw [hlenS i hi]; exact Nat.min_le_left _ _
  · intro s hs'
    rw [← List.map_dropLast] at hs'
    have hdl : (List.range m).dropLast = List.range (m - 1) := by
      cases m with
      | zero => rfl
      | succ m => rw [List.range_succ]; simp
    rw [hdl] at hs'
    simp only [List.mem_map, List.mem_range] at hs'
    obtain ⟨i, hi, rfl⟩ := hs'
    rw [hlenS i (by omega)]
    have := (hmb.2 i (by omega)).2 (by omega)
    rw [Nat.add_mul] at this
    omega
  · intro s hs' he
    simp only [List.mem_map, List.mem_range] at hs'
    obtain ⟨i, hi, rfl⟩ := hs'
    have h1 := hlenS i hi
    rw [he] at h1
    have := (hmb.2 i hi).1
    simp at h1
    omega
  · intro hnone
    rw [hflat, allStarts, hnkv]
    exact (hLfull (hfull.1 hnone)).map _
  · intro b hbb
    obtain ⟨h1, h2⟩ := hfull.2 b hbb
    refine ⟨by simpa using h1, ?_⟩
    intro s hs'
    simp only [List.mem_map, List.mem_range] at hs'
    obtain ⟨i, hi, rfl⟩ := hs'
    rw [hlenS i hi, h2]
    have : (i + 1) * bs ≤ m * bs := Nat.mul_le_mul_right _ hi
    rw [Nat.add_mul] at this
    omega
  · intro hsh
    rw [hflat, allStarts, hnkv]
    exact List.IsPrefix.map _ (hLord hsh)

/-- Example dataset: 2 channels of 11 samples, kernels of 3 at stride 2 (5 kernels), batches of 2. -/
def exCfg : Config Nat where
  c := 2
  t := 11
  X := ⟨[2, 11], ravel [2, 11]⟩
  kernelSize := 3
  batchSize := 2
  stride := 2

/-- Non-vacuity: the dataset above shuffled as `[3,0,4,1,2]`. -/
example : ∃ batches starts, epoch (fun _ => 0) [3, 0, 4, 1, 2] exCfg = .ok batches ∧
      List.Forall₂ (IsBatch exCfg.X 2 3 none) starts batches ∧
      starts.length = 3 ∧ starts.flatten.Perm [0, 2, 4, 6, 8] := by
  obtain ⟨b, s, h1, h2, h3, -, -, -, -, -, h4, -⟩ := in_memory_coincident
    exCfg (fun _ => 0) [3, 0, 4, 1, 2] 2 11 3 2 2 rfl rfl rfl rfl rfl
    (fun y h => by cases h) rfl (by decide) (by decide) (by decide) (by decide) (.inl rfl) (by decide)
  refine ⟨b, s, h1, h2, ?_, h4 rfl⟩
  have h5 : len exCfg = .ok 3 := rfl
  rw [h5] at h3
  have := Except.ok.inj h3
  omega

/-- **C12 (not coincident, shuffled).**  With `batch_size*b ≤ num_kernels` the epoch consists of `b`
full batches; element `(j, c)` is a genuine window of channel `c` at a multiple of `stride`, chosen
per channel.  (Repetitions are possible: see `in_memory_shuffled_may_repeat`.) -/
theorem in_memory_independent_shuffled (cfg : Config α) (r : List Nat → Nat) (perm : List Nat)
    (C T K stride bs b : Nat) (hc : cfg.c = C) (ht : cfg.t = T) (hX : cfg.X.shape = [C, T])
    (hk : cfg.kernelSize = K) (hs : cfg.stride = stride) (hbs : cfg.batchSize = bs)
    (hy : cfg.y = none) (hco : cfg.coincident = false) (hsh : cfg.shuffle = true)
    (hC : 0 < C) (hT : K ≤ T) (hs0 : 0 < stride)
    (hb : cfg.batchesPerEpoch = some (b : Int)) (hble : bs * b ≤ (T - K) / stride + 1) :
    ∃ (batches : _) (starts : List (List (List Nat))), epoch r perm cfg = .ok batches ∧
      List.Forall₂ (fun s out => IsIndependentBatch cfg.X C K s out.1 ∧ out.2 = none) starts batches ∧
      starts.length = b ∧ (∀ s ∈ starts, s.length = bs ∧ ∀ row ∈ s, row.length = C ∧
        ∀ p ∈ row, p ∈ allStarts T K stride) := by
  have hnk := numKernels_nat cfg T K stride ht hk hs hs0 hT
  generalize hnkv : (T - K) / stride + 1 = nk at *
  have hnk0 : 0 < nk := by rw [← hnkv]; exact Nat.succ_pos _
  have hinit : init cfg = .ok () := init_independent cfg nk bs b hnk hbs hy hb hble
  obtain ⟨idx, hidx, -, hig⟩ := randint_ok' r 0 (nk : Int) [bs * b, C] (by omega)
  have hlen : len cfg = .ok (b : Int) := by
    have h3 : ¬ ((b:Int) < 0) := by omega
    simp only [len, hb, res_bind_ok, h3, if_false]
  have hix : initIndices r perm cfg = .ok (.rows C (((List.range (bs * b)).map fun i =>
      (List.range C).map fun j => (idx.get [i, j]).toNat).map (·.map Int.ofNat))) := by
    have hnu : numUsed cfg nk = ((bs * b : Nat) : Int) := by simp [numUsed, hb, hbs]
    have hidx' : randint r 0 (nk:Int) [((bs * b : Nat) : Int), (C : Int)] = .ok idx := hidx
    simp only [initIndices, hnk, res_bind_ok, hco, hsh, and_self, if_true, hnu, hc, hidx',
      Int.toNat_natCast, List.map_map]
    congr 2
    apply List.map_congr_left
    intro i _
    simp only [Function.comp_def, List.map_map]
    apply List.map_congr_left
    intro j _
    have := hig [i, j]
    simp only [Int.ofNat_eq_natCast]
    omega
  obtain ⟨batches, starts, h1, h2, h3, h4⟩ := epoch_rows cfg r perm C T K stride bs b _ hX hC hk hs
    hbs hy hinit hlen hix (by simp) (by
      intro row hrow
      simp only [List.mem_map, List.mem_range] at hrow
      obtain ⟨i, hi, rfl⟩ := hrow
      refine ⟨by simp, ?_⟩
      intro v hv
      simp only [List.mem_map, List.mem_range] at hv
      obtain ⟨j, hj, rfl⟩ := hv
      have := hig [i, j]
      have hlt : (idx.get [i, j]).toNat < nk := by omega
      exact start_bound T K stride nk _ hnkv hT hlt)
  refine ⟨batches, starts, h1, h2, h3.1, ?_⟩
  intro s hs'
  refine ⟨h3.2 s hs', ?_⟩
  intro row hrow
  have : row ∈ starts.flatten := List.mem_flatten.2 ⟨s, hs', hrow⟩
  rw [h4] at this
  simp only [List.mem_map, List.mem_range] at this
  obtain ⟨row', ⟨i, hi, rfl⟩, rfl⟩ := this
  refine ⟨by simp, ?_⟩
  intro p hp
  simp only [List.mem_map, List.mem_range] at hp
  obtain ⟨v, ⟨j, hj, rfl⟩, rfl⟩ := hp
  have := hig [i, j]
  simp only [allStarts, hnkv, List.mem_map, List.mem_range]
  exact ⟨_, by omega, rfl⟩

/-- **C12 (not coincident, in order).**  With at most 2^24 kernels the epoch's index tuples are, in
order, `(0, ..., 0, j*stride)` for `j = 0, 1, ...`: lexicographic order, no repetition.  (Because
`batch_size*b ≤ num_kernels`, every channel but the last stays at its first window.) -/
theorem in_memory_independent_ordered (cfg : Config α) (r : List Nat → Nat) (perm : List Nat)
    (C T K stride bs b : Nat) (hc : cfg.c = C) (ht : cfg.t = T) (hX : cfg.X.shape = [C, T])
    (hk : cfg.kernelSize = K) (hs : cfg.stride = stride) (hbs : cfg.batchSize = bs)
    (hy : cfg.y = none) (hco : cfg.coincident = false) (hsh : cfg.shuffle = false)
    (hC : 0 < C) (hT : K ≤ T) (hs0 : 0 < stride) (hn0 : 0 < bs * b)
    (hb : cfg.batchesPerEpoch = some (b : Int)) (hble : bs * b ≤ (T - K) / stride + 1)
    (hbig : bs * b ≤ 2 ^ 24) :
    ∃ (batches : _) (starts : List (List (List Nat))), epoch r perm cfg = .ok batches ∧
      List.Forall₂ (fun s out => IsIndependentBatch cfg.X C K s out.1 ∧ out.2 = none) starts batches ∧
      starts.length = b ∧ (∀ s ∈ starts, s.length = bs) ∧
      starts.flatten = (List.range (bs * b)).map
        (fun j => List.replicate (C - 1) 0 ++ [j * stride]) := by
  have hnk := numKernels_nat cfg T K stride ht hk hs hs0 hT
  generalize hnkv : (T - K) / stride + 1 = nk at *
  have hnk0 : 0 < nk := by rw [← hnkv]; exact Nat.succ_pos _
  have hinit : init cfg = .ok () := init_independent cfg nk bs b hnk hbs hy hb hble
  have hlen : len cfg = .ok (b : Int) := by
    have h3 : ¬ ((b:Int) < 0) := by omega
    simp only [len, hb, res_bind_ok, h3, if_false]
  have hix : initIndices r perm cfg = .ok (.rows C (((List.range (bs * b)).map fun j =>
      List.replicate (C - 1) 0 ++ [j]).map (·.map Int.ofNat))) := by
    have hnu : numUsed cfg nk = ((bs * b : Nat) : Int) := by simp [numUsed, hb, hbs]
    have hne : ¬ ((List.range (bs * b)).map fun j => List.replicate (C - 1) 0 ++ [j]) = [] := by
      intro h
      have h' := congrArg List.length h
      rw [List.length_map, List.length_range, List.length_nil] at h'
      omega
    simp only [initIndices, hnk, res_bind_ok, hco, hsh, hnu, hc, Int.toNat_natCast,
      product_take nk (bs * b) C hC hble, hne, if_false, and_false, if_true]
    simp only [Bool.false_eq_true, and_false, if_false, Except.ok.injEq, Indices.rows.injEq, true_and,
      List.map_map]
    apply List.map_congr_left
    intro j hj
    have hj' : j < bs * b := by simpa using hj
    have h0 : f32 0 = 0 := by decide
    have hjj : f32 j = j := by simp only [f32]; rw [if_pos (by omega)]
    simp [h0, hjj]
  obtain ⟨batches, starts, h1, h2, h3, h4⟩ := epoch_rows cfg r perm C T K stride bs b _ hX hC hk hs
    hbs hy hinit hlen hix (by simp) (by
      intro row hrow
      simp only [List.mem_map, List.mem_range] at hrow
      obtain ⟨i, hi, rfl⟩ := hrow
      refine ⟨by simp; omega, ?_⟩
      intro v hv
      have hv' : v < nk := by
        simp only [List.mem_append, List.mem_replicate, List.mem_singleton] at hv
        omega
      exact start_bound T K stride nk _ hnkv hT hv')
  refine ⟨batches, starts, h1, h2, h3.1, h3.2, ?_⟩
  rw [h4, List.map_map]
  apply List.map_congr_left
  intro j _
  simp

/-- **C12 fails beyond 2^24 kernels**: the in-order indices pass through float32, which maps kernel
`2^24 + 1` to `2^24`, so that kernel is skipped and its predecessor repeated. -/
theorem in_memory_float32_index_collision : f32 (2 ^ 24 + 1) = 2 ^ 24 ∧ f32 (2 ^ 24) = 2 ^ 24 := by
  decide +kernel

/-- **C12**: with shuffling the same tuple can be drawn twice (the code's own comment says so): a draw
on 2 channels with 4 kernels repeats the tuple (0, 0). -/
theorem in_memory_shuffled_may_repeat :
    ∃ (r : List Nat → Nat) (l : List (List Int)),
      initIndices r [] { exCfg with batchesPerEpoch := some 2, coincident := false } =
        .ok (.rows 2 l) ∧ l.length = 4 ∧ ¬ l.Nodup :=
  ⟨fun _ => 0, _, rfl, by decide, by decide⟩

/-- Non-vacuity of the two non-coincident theorems. -/
example : ∃ batches starts, epoch (fun _ => 7) [] { exCfg with batchesPerEpoch := some 2, coincident := false }
      = .ok batches ∧ List.Forall₂ (fun s out => IsIndependentBatch exCfg.X 2 3 s out.1 ∧ out.2 = none)
        starts batches ∧ starts.length = 2 := by
  obtain ⟨b, s, h1, h2, h3, -⟩ := in_memory_independent_shuffled
    { exCfg with batchesPerEpoch := some 2, coincident := false } (fun _ => 7) [] 2 11 3 2 2 2
    rfl rfl rfl rfl rfl rfl rfl rfl rfl (by decide) (by decide) (by decide) rfl (by decide)
  exact ⟨b, s, h1, h2, h3⟩
example : ∃ batches starts, epoch (fun _ => 7) []
      { exCfg with batchesPerEpoch := some 2, coincident := false, shuffle := false } = .ok batches ∧
      List.Forall₂ (fun s out => IsIndependentBatch exCfg.X 2 3 s out.1 ∧ out.2 = none) starts batches ∧
      starts.flatten = [[0, 0], [0, 2], [0, 4], [0, 6]] := by
  obtain ⟨b, s, h1, h2, -, -, h3⟩ := in_memory_independent_ordered
    { exCfg with batchesPerEpoch := some 2, coincident := false, shuffle := false } (fun _ => 7) []
    2 11 3 2 2 2 rfl rfl rfl rfl rfl rfl rfl rfl rfl (by decide) (by decide) (by decide) (by decide)
    rfl (by decide) (by decide)
  exact ⟨b, s, h1, h2, h3⟩

/-- **C13.**  For a non-zero stride and a target of rank at least one, the constructor raises
ValueError exactly for: a target of the wrong length; a target with non-coincident sampling;
non-coincident sampling without `batches_per_epoch`; more kernels requested than
`floor((T - kernel_size)/stride) + 1`.  Otherwise it succeeds. -/
theorem in_memory_init_iff (cfg : Config α) (hs : cfg.stride ≠ 0)
    (hy : ∀ y, cfg.y = some y → y.shape ≠ []) :
    (init cfg = .error .value ∨ init cfg = .ok ()) ∧
    (init cfg = .error .value ↔
      (∃ y, cfg.y = some y ∧ y.shape.getLast? ≠ some cfg.t) ∨
      (cfg.y.isSome ∧ cfg.coincident = false) ∨
      (cfg.coincident = false ∧ cfg.batchesPerEpoch = none) ∨
      (∃ b, cfg.batchesPerEpoch = some b ∧
        Int.fdiv (cfg.t - cfg.kernelSize) cfg.stride + 1 < cfg.batchSize * b)) := by
  have h2 : ∀ (c : Prop) [Decidable c], (if c then (.error .value : Res Unit) else .ok ()) = .error .value ↔ c := by
    intro c _; split <;> simp_all
  have hY : (checkY cfg = .ok () ∧ ¬ (∃ y, cfg.y = some y ∧ y.shape.getLast? ≠ some cfg.t) ∧
      ¬ (cfg.y.isSome ∧ cfg.coincident = false)) ∨
      (checkY cfg = .error .value ∧ ((∃ y, cfg.y = some y ∧ y.shape.getLast? ≠ some cfg.t) ∨
      (cfg.y.isSome ∧ cfg.coincident = false))) := by
    unfold checkY
    cases hcy : cfg.y with
    | none => left; simp
    | some y =>
      have hne := hy y hcy
      obtain ⟨n, hn⟩ : ∃ n, y.shape.getLast? = some n :=
        ⟨_, List.getLast?_eq_some_getLast hne⟩
      simp only [Tensor.lastDim, hn, res_bind_ok]
      by_cases h : n = cfg.t
      · subst h
        by_cases hc : cfg.coincident = false
        · right; simp [hc]
        · left; simp [hc, hn]
      · right; simp [h, hn]
  rcases hY with ⟨hY, hn1, hn2⟩ | ⟨hY, hd⟩
  · unfold init
    rw [hY]
    simp only [res_bind_ok]
    by_cases hc : cfg.coincident = false ∧ cfg.batchesPerEpoch = none
    · simp [hc]
    · simp only [hc, if_false]
      cases hb : cfg.batchesPerEpoch with
      | none =>
        refine ⟨.inr rfl, ?_⟩
        constructor
        · intro h; cases h
        · rintro (h | h | h | ⟨b, h, -⟩)
          · exact absurd h hn1
          · exact absurd h hn2
          · exact h.elim
          · cases h
      | some b =>
        simp only [numKernels, pyFloorDiv, hs, if_false, res_bind_ok]
        refine ⟨by split <;> simp, ?_⟩
        rw [h2]
        constructor
        · intro h; exact .inr (.inr (.inr ⟨b, rfl, h⟩))
        · rintro (h | h | h | ⟨b', h, h'⟩)
          · exact absurd h hn1
          · exact absurd h hn2
          · exact h.elim
          · cases h; exact h'
  · unfold init
    rw [hY]
    simp only [res_bind_error, true_or, true_and, true_iff]
    rcases hd with h | h
    · exact .inl h
    · exact .inr (.inl h)

example : init { exCfg with batchesPerEpoch := some 3 } = .error .value :=
  (in_memory_init_iff _ (by decide) (fun y h => by cases h)).2.2
    (.inr (.inr (.inr ⟨3, rfl, by decide⟩)))

/-- **C12 (the rounding).**  `f32 n` is the nearest number with 24 significant bits: a multiple of the unit `u = 2 ^ (⌊log₂ n⌋ - 23)` (1 below `2 ^ 24`), at most half a unit from
`n`, and the even multiple when `n` is halfway. -/
theorem f32_nearest (n : Nat) : ∃ q, f32 n = q * 2 ^ (n.log2 - 23) ∧ 2 * n ≤ (2 * q + 1) * 2 ^ (n.log2 - 23) ∧ (2 * q) * 2 ^ (n.log2 - 23) ≤ 2 * n + 2 ^ (n.log2 - 23) ∧
    (2 ^ 24 ≤ n → 2 * n = (2 * q + 1) * 2 ^ (n.log2 - 23) ∨ (2 * q) * 2 ^ (n.log2 - 23) = 2 * n + 2 ^ (n.log2 - 23) → q % 2 = 0) := by
  unfold f32
  by_cases h : n < 2 ^ 24
  · rw [if_pos h]
    have e : n.log2 - 23 = 0 := by
      by_cases h0 : n = 0
      · subst h0; decide
      · have := (Nat.log2_lt h0).2 h
        omega
    exact ⟨n, by rw [e]; simp, by rw [e]; omega, by rw [e]; omega, fun hc => by omega⟩
  · rw [if_neg h]
    simp only
    generalize hE : (2 : ℕ) ^ (n.log2 - 23) = E
    have hEpos : 0 < E := by rw [← hE]; exact Nat.pow_pos (by decide)
    have hd : E * (n / E) + n % E = n := Nat.div_add_mod n E
    have hr := Nat.mod_lt n hEpos
    generalize n / E = q at *
    generalize n % E = r at *
    have hEeven : ∀ k, 2 * k + 1 ≠ 0 := fun k => by omega
    by_cases hc : 2 * r > E ∨ 2 * r = E ∧ q % 2 = 1
    · rw [if_pos hc]
      have e1 : (2 * (q + 1) + 1) * E = 2 * (E * q) + 3 * E := by ring
      have e2 : 2 * (q + 1) * E = 2 * (E * q) + 2 * E := by ring
      refine ⟨q + 1, rfl, by rw [e1]; omega, by rw [e2]; omega, ?_⟩
      rintro - (h1 | h1)
      · rw [e1] at h1; omega
      · rw [e2] at h1; omega
    · rw [if_neg hc]
      have e1 : (2 * q + 1) * E = 2 * (E * q) + E := by ring
      have e2 : 2 * q * E = 2 * (E * q) := by ring
      push Not at hc
      refine ⟨q, rfl, by rw [e1]; omega, by rw [e2]; omega, ?_⟩
      rintro - (h1 | h1)
      · rw [e1] at h1
        have := hc.2 (by omega)
        omega
      · rw [e2] at h1; omega

/-- **C13 (length).**  `len()` of a data set with a negative number of batches per epoch is a ValueError. -/
theorem len_negative {α : Type} (cfg : Config α) (b : Int) (h : cfg.batchesPerEpoch = some b) (hb : b < 0) : len cfg = .error .value := by
  unfold len
  rw [h]
  simp only [res_bind_ok]
  rw [if_pos hb]

example : len { exCfg with batchesPerEpoch := some (-1) } = .error .value := len_negative _ (-1) rfl (by decide)

end Verif.InMemory
