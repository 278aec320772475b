import Verif.Model.Chunked
import Verif.Spec.Chunked
import Verif.Props.Sample
import Verif.Lemmas.Chunk
import Mathlib.Data.List.Forall2
/-!
# Properties of `ChunkedTimeSeriesDataset` (C14, C15)
-/
set_option linter.unusedSimpArgs false
namespace Verif.Chunked
open Slicing Spec
variable {α : Type _}

theorem setup_ok (cfg : Config) (C T : Nat) :
    ∃ s, setup cfg C T = .ok s ∧
      s.sampleSize = (if cfg.coincident then [cfg.batchSize] else [cfg.batchSize, C]).map Int.ofNat ∧
      s.idx.shape = [cfg.batchSize, C, cfg.kernelSize] ∧
      ∀ b c k, c < C → k < cfg.kernelSize → s.idx.get [b, c, k] = (k : Int) + c * T := by
  unfold setup
  rw [Tensor.arange_ok]
  simp only [res_bind_ok]
  rw [Tensor.reshapeInfer_ok _ [1, 1] [] cfg.kernelSize (by simp [numel]) (by simp [numel])]
  simp only [res_bind_ok]
  rw [Tensor.arange_ok]
  simp only [res_bind_ok]
  rw [Tensor.reshapeInfer_ok _ [1] [1] C (by simp [numel]) (by simp [numel])]
  simp only [res_bind_ok]
  refine ⟨_, rfl, ?_, by simp [Tensor.tile], ?_⟩
  · cases cfg.coincident <;> simp
  · intro b c k hc hk
    simp [Tensor.tile, ravel, unravel, numel, Nat.mod_one, Nat.mod_eq_of_lt hc, Nat.mod_eq_of_lt hk]

/-- What `a.view(batch, -1, 1) + idx` computes, for draws of the two admissible sizes. -/
theorem addView_ok (cfg : Config) (a idx : Tensor Int) (C K : Nat) (hB : 0 < cfg.batchSize)
    (hC : 0 < C) (hi : idx.shape = [cfg.batchSize, C, K])
    (ha : a.shape = if cfg.coincident then [cfg.batchSize] else [cfg.batchSize, C]) :
    ∃ z, addView cfg a idx = .ok z ∧ z.shape = [cfg.batchSize, C, K] ∧
      ∀ b c k, b < cfg.batchSize → c < C →
        z.get [b, c, k] = a.get (if cfg.coincident then [b] else [b, c]) + idx.get [b, c, k] := by
  unfold addView
  cases hco : cfg.coincident with
  | true =>
    simp only [hco, if_true] at ha ⊢
    rw [Tensor.reshapeInfer_ok a [cfg.batchSize] [1] 1 (by simpa [numel] using hB) (by simp [numel, ha])]
    simp only [res_bind_ok, List.cons_append, List.nil_append, List.getD_cons_succ, List.getD_cons_zero,
      if_true]
    refine ⟨_, rfl, hi, ?_⟩
    intro b c k hb hc
    simp [ravel, unravel, numel, ha]
  | false =>
    simp only [hco, Bool.false_eq_true, if_false] at ha ⊢
    rw [Tensor.reshapeInfer_ok a [cfg.batchSize] [1] C (by simpa [numel] using hB) (by simp [numel, ha])]
    simp only [res_bind_ok, List.cons_append, List.nil_append, List.getD_cons_succ, List.getD_cons_zero, hi]
    by_cases h1 : C = 1
    · subst h1
      simp only [if_true]
      refine ⟨_, rfl, by simp, ?_⟩
      intro b c k hb hc
      have : c = 0 := by omega
      subst this
      simp [ravel, unravel, numel, ha, Nat.mod_one]
    · simp only [h1, if_false, if_true]
      refine ⟨_, rfl, by simp, ?_⟩
      intro b c k hb hc
      have h2 : 0 < C := by omega
      simp [ravel, unravel, numel, ha, Nat.mod_one, idx_div b hc, Nat.mod_eq_of_lt hc]

/-- One batch, when the chunk has the channel count and length of the first chunk. -/
theorem sampleBatch_ok (rc rt : List Nat → Nat) (cfg : Config) (s : Setup) (chunk : Tensor α)
    (n C T : Nat) (hs : setup cfg C T = .ok s) (hx : chunk.shape = [n, C, T])
    (hn : 0 < n) (hC : 0 < C) (hB : 0 < cfg.batchSize) (hK : cfg.kernelSize < T) :
    ∃ y, sampleBatch rc rt cfg s chunk n C T = .ok y ∧
      SampledFrom chunk C T cfg.kernelSize cfg.batchSize cfg.coincident y := by
  obtain ⟨s', hs', hss, hsi, hsg⟩ := setup_ok cfg C T
  obtain rfl : s = s' := by rw [hs] at hs'; exact (Except.ok.inj hs')
  unfold sampleBatch
  rw [Tensor.reshape_ok _ _ (by simp [numel, hx, Nat.mul_assoc])]
  simp only [res_bind_ok]
  obtain ⟨ci, hci, hcis, hcig⟩ := randint_ok rc 0 n
    (if cfg.coincident then [cfg.batchSize] else [cfg.batchSize, C]) (by omega)
  obtain ⟨ti, hti, htis, htig⟩ := randint_ok rt 0 ((T:Int) - cfg.kernelSize)
    (if cfg.coincident then [cfg.batchSize] else [cfg.batchSize, C]) (by omega)
  rw [hss, hci]
  simp only [res_bind_ok]
  obtain ⟨z1, hz1, hz1s, hz1g⟩ := addView_ok cfg (ci.map (· * ((C * T : Nat) : Int))) s.idx C
    cfg.kernelSize hB hC hsi (by simp [Tensor.map, hcis])
  rw [hz1]
  simp only [res_bind_ok]
  rw [hti]
  simp only [res_bind_ok]
  obtain ⟨z2, hz2, hz2s, hz2g⟩ := addView_ok cfg ti z1 C cfg.kernelSize hB hC hz1s htis
  rw [hz2]
  simp only [res_bind_ok]
  let row : Nat → Nat → Nat := fun b c => (ci.get (if cfg.coincident then [b] else [b, c])).toNat
  let start : Nat → Nat → Nat := fun b c => (ti.get (if cfg.coincident then [b] else [b, c])).toNat
  have hrow : ∀ b c, row b c < n ∧ ci.get (if cfg.coincident then [b] else [b, c]) = row b c := by
    intro b c
    have := hcig (if cfg.coincident then [b] else [b, c])
    simp only [row]; omega
  have hstart : ∀ b c, start b c + cfg.kernelSize < T ∧
      ti.get (if cfg.coincident then [b] else [b, c]) = start b c := by
    intro b c
    have := htig (if cfg.coincident then [b] else [b, c])
    simp only [start]; omega
  have hval : ∀ b c k, b < cfg.batchSize → c < C → k < cfg.kernelSize →
      z2.get [b, c, k] = ((row b c * (C * T) + (c * T + (start b c + k)) : Nat) : Int) := by
    intro b c k hb hc hk
    rw [hz2g b c k hb hc, hz1g b c k hb hc, hsg b c k hc hk, (hstart b c).2]
    simp only [Tensor.map, (hrow b c).2]
    push_cast; ring
  have hlt : ∀ b c k, c < C → k < cfg.kernelSize →
      c * T + (start b c + k) < C * T ∧ start b c + k < T ∧
      row b c * (C * T) + (c * T + (start b c + k)) < n * (C * T) := by
    intro b c k hc hk
    have h1 := (hstart b c).1
    have h2 : c * T + (start b c + k) < C * T := idx_lt hc (by omega)
    exact ⟨h2, by omega, idx_lt (hrow b c).1 h2⟩
  obtain ⟨y, hy, hys, hyg⟩ := Tensor.take_ok
    (⟨[n * C * T], fun i => chunk.get (unravel chunk.shape (ravel [n * C * T] i))⟩ : Tensor α) z2 (by
      intro i hi
      rw [hz2s] at hi
      obtain ⟨b, c, k, rfl, hb, hc, hk⟩ := hi.eq3
      rw [hval b c k hb hc hk]
      have := (hlt b c k hc hk).2.2
      have e : numel [n * C * T] = n * (C * T) := by simp [numel, Nat.mul_assoc]
      simp only [e]
      exact ⟨Int.natCast_nonneg _, by exact_mod_cast this⟩)
  refine ⟨y, hy, by rw [hys, hz2s], row, start, ?_, ?_⟩
  · intro b hb c hc
    refine ⟨by simpa [hx] using (hrow b c).1, Nat.le_of_lt (hstart b c).1, ?_⟩
    intro k hk
    obtain ⟨l1, l2, l3⟩ := hlt b c k hc hk
    rw [hyg [b, c, k] (by rw [hz2s]; exact ⟨hb, hc, hk, trivial⟩), hval b c k hb hc hk]
    have hct : 0 < C * T := by omega
    simp only [Int.toNat_natCast, ravel, unravel, numel, hx, Nat.mul_one, Nat.div_one, Nat.add_zero,
      idx_div _ l1, idx_mod _ l1, idx_div _ l2, idx_mod _ l2]
  · intro hco b c c'
    simp [row, start, hco]

theorem loop_ok (rc rt : Nat → Nat → List Nat → Nat) (cfg : Config) (s : Setup) (C T : Nat)
    (hs : setup cfg C T = .ok s) (hC : 0 < C) (hB : 0 < cfg.batchSize) (hK : cfg.kernelSize < T) :
    ∀ (chunks : List (Tensor α)) (k : Nat),
      (∀ x ∈ chunks, ∃ n, 0 < n ∧ x.shape = [n, C, T]) →
      ∃ out, loop rc rt cfg s k chunks = .ok out ∧
        List.Forall₂ (fun chunk batch =>
            SampledFrom chunk C T cfg.kernelSize cfg.batchSize cfg.coincident batch)
          (chunks.flatMap fun c => List.replicate cfg.batchesPerChunk c) out := by
  intro chunks
  induction chunks with
  | nil => intro k _; exact ⟨[], rfl, .nil⟩
  | cons x rest ih =>
    intro k h
    obtain ⟨n, hn, hx⟩ := h x (by simp)
    obtain ⟨more, hmore, hm2⟩ := ih (k + 1) (fun y hy => h y (by simp [hy]))
    obtain ⟨bs, hbs, hb2⟩ := mapM_ok_exists
      (fun j => sampleBatch (rc k j) (rt k j) cfg s x n C T)
      (fun _ batch => SampledFrom x C T cfg.kernelSize cfg.batchSize cfg.coincident batch)
      (List.range cfg.batchesPerChunk)
      (fun j _ => sampleBatch_ok (rc k j) (rt k j) cfg s x n C T hs hx hn hC hB hK)
    refine ⟨bs ++ more, ?_, ?_⟩
    · have h1 : ¬ (T < cfg.kernelSize) := by omega
      simp only [loop, hx, h1, if_false, hbs, hmore, res_bind_ok]
    · rw [List.flatMap_cons]
      refine List.rel_append ?_ hm2
      rw [← List.length_range (n := cfg.batchesPerChunk), ← List.map_const']
      exact forall2_map_left (fun _ => x) _ _ _ hb2

/-- **C14.**  For chunks of any numbers of rows, with the same number of channels `C` and the same
length `T` greater than the kernel size, whatever is drawn: the iteration succeeds; it yields
`len(dataset)` batches, `batches_per_chunk` for each chunk in order; and every batch consists of
windows of its chunk, each channel from the matching channel, the same row and time for all channels
when `coincident`. -/
theorem chunked_windows (rc rt : Nat → Nat → List Nat → Nat) (cfg : Config)
    (chunks : List (Tensor α)) (C T : Nat) (hne : chunks ≠ [])
    (hsh : ∀ x ∈ chunks, ∃ n, 0 < n ∧ x.shape = [n, C, T]) (hC : 0 < C)
    (hB : 0 < cfg.batchSize) (hK : cfg.kernelSize < T) :
    ∃ out, iterate rc rt cfg chunks = .ok out ∧ out.length = len cfg chunks ∧
      List.Forall₂ (fun chunk batch =>
          SampledFrom chunk C T cfg.kernelSize cfg.batchSize cfg.coincident batch)
        (chunks.flatMap fun c => List.replicate cfg.batchesPerChunk c) out := by
  obtain ⟨s, hs, -⟩ := setup_ok cfg C T
  obtain ⟨out, ho, hf⟩ := loop_ok rc rt cfg s C T hs hC hB hK chunks 0 hsh
  refine ⟨out, ?_, ?_, hf⟩
  · match chunks, hne with
    | x :: rest, _ =>
      obtain ⟨n, -, hx⟩ := hsh x (by simp)
      simp only [iterate, hx, hs, ho, res_bind_ok]
  · have := hf.length_eq
    rw [← this, len]
    clear ho hf this
    induction chunks with
    | nil => exact absurd rfl hne
    | cons x rest ih =>
      rcases rest with _ | ⟨x', rest⟩
      · simp
      · have := ih (by simp) (fun y hy => hsh y (by simp [hy]))
        rw [List.flatMap_cons, List.length_append, this, List.length_replicate, List.length_cons (a := x)]
        ring

/-- A concrete two-chunk instance of C14. -/
example : ∃ out, iterate (fun _ j _ => j) (fun _ _ _ => 2)
    { kernelSize := 2, batchSize := 3, batchesPerChunk := 2, coincident := false }
    [(⟨[1, 2, 5], ravel [1, 2, 5]⟩ : Tensor Nat), ⟨[4, 2, 5], ravel [4, 2, 5]⟩] = .ok out ∧
    out.length = 4 := by
  obtain ⟨out, h, hl, -⟩ := chunked_windows (fun _ j _ => j) (fun _ _ _ => 2)
    { kernelSize := 2, batchSize := 3, batchesPerChunk := 2, coincident := false }
    [(⟨[1, 2, 5], ravel [1, 2, 5]⟩ : Tensor Nat), ⟨[4, 2, 5], ravel [4, 2, 5]⟩] 2 5 (by simp)
    (by simp) (by decide) (by decide) (by decide)
  exact ⟨out, h, hl⟩

/-- **C14 (which windows are reachable).**  Every row and every start with `start + K < T` is drawn
by some outcome. -/
theorem chunked_reaches (cfg : Config) (s : Setup) (chunk : Tensor α) (n C T : Nat)
    (hs : setup cfg C T = .ok s) (hx : chunk.shape = [n, C, T]) (hC : 0 < C)
    (hB : 0 < cfg.batchSize) (row start : Nat) (hr : row < n) (hst : start + cfg.kernelSize < T) :
    ∃ (rc rt : List Nat → Nat) (y : Tensor α), sampleBatch rc rt cfg s chunk n C T = .ok y ∧
      ∀ b < cfg.batchSize, ∀ c < C, ∀ t < cfg.kernelSize,
        y.get [b, c, t] = chunk.get [row, c, start + t] := by
  obtain ⟨s', hs', hss, hsi, hsg⟩ := setup_ok cfg C T
  obtain rfl : s = s' := by rw [hs] at hs'; exact (Except.ok.inj hs')
  refine ⟨fun _ => row, fun _ => start, ?_⟩
  unfold sampleBatch
  rw [Tensor.reshape_ok _ _ (by simp [numel, hx, Nat.mul_assoc])]
  simp only [res_bind_ok]
  have hri : ∀ (v : Nat) (hi : Int), (v:Int) < hi → ∃ a, randint (fun _ => v) 0 hi s.sampleSize = .ok a ∧
      a.shape = (if cfg.coincident then [cfg.batchSize] else [cfg.batchSize, C]) ∧
      ∀ i, a.get i = v := by
    intro v hi hv
    obtain ⟨a, ha, has, hag⟩ := randint_ok (fun _ => v) 0 hi
      (if cfg.coincident then [cfg.batchSize] else [cfg.batchSize, C]) (by omega)
    refine ⟨a, by rw [hss]; exact ha, has, ?_⟩
    intro i
    have h1 : ¬ (hi ≤ 0 ∨ ∃ s ∈ (if cfg.coincident = true then [cfg.batchSize] else [cfg.batchSize, C]).map Int.ofNat, s < 0) := by
      rintro (h | ⟨s, hs, h⟩)
      · omega
      · simp only [List.mem_map] at hs; obtain ⟨a, -, rfl⟩ := hs
        have := Int.natCast_nonneg a
        simp only [Int.ofNat_eq_natCast] at h; omega
    unfold randint at ha
    rw [if_neg h1] at ha
    have := Except.ok.inj ha
    subst this
    have h2 : v % hi.toNat = v := Nat.mod_eq_of_lt (by omega)
    simp [h2]
  obtain ⟨ci, hci, hcis, hcig⟩ := hri row n (by omega)
  obtain ⟨ti, hti, htis, htig⟩ := hri start ((T:Int) - cfg.kernelSize) (by omega)
  rw [hci]
  simp only [res_bind_ok]
  obtain ⟨z1, hz1, hz1s, hz1g⟩ := addView_ok cfg (ci.map (· * ((C * T : Nat) : Int))) s.idx C
    cfg.kernelSize hB hC hsi (by simp [Tensor.map, hcis])
  rw [hz1]
  simp only [res_bind_ok]
  rw [hti]
  simp only [res_bind_ok]
  obtain ⟨z2, hz2, hz2s, hz2g⟩ := addView_ok cfg ti z1 C cfg.kernelSize hB hC hz1s htis
  rw [hz2]
  simp only [res_bind_ok]
  have hval : ∀ b c k, b < cfg.batchSize → c < C → k < cfg.kernelSize →
      z2.get [b, c, k] = ((row * (C * T) + (c * T + (start + k)) : Nat) : Int) := by
    intro b c k hb hc hk
    rw [hz2g b c k hb hc, hz1g b c k hb hc, hsg b c k hc hk, htig]
    simp only [Tensor.map, hcig]
    push_cast; ring
  have hlt : ∀ c k, c < C → k < cfg.kernelSize →
      c * T + (start + k) < C * T ∧ start + k < T ∧
      row * (C * T) + (c * T + (start + k)) < n * (C * T) := by
    intro c k hc hk
    have h2 : c * T + (start + k) < C * T := idx_lt hc (by omega)
    exact ⟨h2, by omega, idx_lt hr h2⟩
  obtain ⟨y, hy, hys, hyg⟩ := Tensor.take_ok
    (⟨[n * C * T], fun i => chunk.get (unravel chunk.shape (ravel [n * C * T] i))⟩ : Tensor α) z2 (by
      intro i hi
      rw [hz2s] at hi
      obtain ⟨b, c, k, rfl, hb, hc, hk⟩ := hi.eq3
      rw [hval b c k hb hc hk]
      have := (hlt c k hc hk).2.2
      have e : numel [n * C * T] = n * (C * T) := by simp [numel, Nat.mul_assoc]
      simp only [e]
      exact ⟨Int.natCast_nonneg _, by exact_mod_cast this⟩)
  refine ⟨y, hy, ?_⟩
  intro b hb c hc k hk
  obtain ⟨l1, l2, l3⟩ := hlt c k hc hk
  rw [hyg [b, c, k] (by rw [hz2s]; exact ⟨hb, hc, hk, trivial⟩), hval b c k hb hc hk]
  simp only [Int.toNat_natCast, ravel, unravel, numel, hx, Nat.mul_one, Nat.div_one, Nat.add_zero,
    idx_div _ l1, idx_mod _ l1, idx_div _ l2, idx_mod _ l2]

/-- **C14 (rejections).**  A first chunk shorter than the kernel raises ValueError; a chunk exactly as
long as the kernel raises RuntimeError (the empty `randint` range), although it contains one window;
an empty chunk iterator raises RuntimeError. -/
theorem chunked_rejects (rc rt : Nat → Nat → List Nat → Nat) (cfg : Config) (x : Tensor α)
    (rest : List (Tensor α)) (n C T : Nat) (hx : x.shape = [n, C, T]) :
    (T < cfg.kernelSize → iterate rc rt cfg (x :: rest) = .error .value) ∧
    (T = cfg.kernelSize → 0 < cfg.batchesPerChunk → 0 < n → 0 < C → 0 < cfg.batchSize →
      iterate rc rt cfg (x :: rest) = .error .runtime) ∧
    iterate rc rt cfg ([] : List (Tensor α)) = .error .runtime := by
  obtain ⟨s, hs, hss, hsi, hsg⟩ := setup_ok cfg C T
  refine ⟨?_, ?_, rfl⟩
  · intro h
    simp only [iterate, hx, hs, res_bind_ok, loop, h, if_true]
  · intro h hb hn hC hB
    have h1 : ¬ (T < cfg.kernelSize) := by omega
    have h2 : sampleBatch (rc 0 0) (rt 0 0) cfg s x n C T = .error .runtime := by
      unfold sampleBatch
      rw [Tensor.reshape_ok _ _ (by simp [numel, hx, Nat.mul_assoc])]
      simp only [res_bind_ok]
      obtain ⟨ci, hci, hcis, hcig⟩ := randint_ok (rc 0 0) 0 n
        (if cfg.coincident then [cfg.batchSize] else [cfg.batchSize, C]) (by omega)
      rw [hss, hci]
      simp only [res_bind_ok]
      obtain ⟨z1, hz1, hz1s, hz1g⟩ := addView_ok cfg (ci.map (· * ((C * T : Nat) : Int))) s.idx C
        cfg.kernelSize hB hC hsi (by simp [Tensor.map, hcis])
      rw [hz1]
      simp only [res_bind_ok]
      have : randint (rt 0 0) 0 ((T:Int) - cfg.kernelSize)
          (List.map Int.ofNat (if cfg.coincident = true then [cfg.batchSize] else [cfg.batchSize, C])) =
          .error .runtime := by
        unfold randint
        rw [if_pos (Or.inl (by omega))]
      rw [this]
      rfl
    have h3 : (List.range cfg.batchesPerChunk).mapM (fun j =>
        sampleBatch (rc 0 j) (rt 0 j) cfg s x n C T) = .error .runtime := by
      obtain ⟨m, hm⟩ : ∃ m, cfg.batchesPerChunk = m + 1 := ⟨cfg.batchesPerChunk - 1, by omega⟩
      rw [hm, List.range_succ_eq_map, List.mapM_cons, h2]
      rfl
    simp only [iterate, hx, hs, res_bind_ok, loop, h1, if_false, h3, res_bind_error]

/-- Non-vacuity of the rejections: a chunk of 3 samples with kernel size 4 and 3. -/
example : iterate (fun _ _ _ => 0) (fun _ _ _ => 0)
      { kernelSize := 4, batchSize := 1, batchesPerChunk := 1 }
      [(⟨[1, 1, 3], ravel [1, 1, 3]⟩ : Tensor Nat)] = .error .value ∧
    iterate (fun _ _ _ => 0) (fun _ _ _ => 0)
      { kernelSize := 3, batchSize := 1, batchesPerChunk := 1 }
      [(⟨[1, 1, 3], ravel [1, 1, 3]⟩ : Tensor Nat)] = .error .runtime :=
  ⟨(chunked_rejects _ _ _ _ [] 1 1 3 rfl).1 (by decide),
   (chunked_rejects _ _ _ _ [] 1 1 3 rfl).2.1 rfl (by decide) (by decide) (by decide) (by decide)⟩

/-- Two chunks of different lengths: 5 samples, then 9 samples whose value at `(row, c, t)` is
`100*c + t`. -/
def varyingChunks : List (Tensor Nat) :=
  [⟨[1, 2, 5], fun _ => 0⟩, ⟨[1, 2, 9], fun i => 100 * i.getD 1 0 + i.getD 2 0⟩]

/-- **C15 fails**: the flat channel offsets are computed from the first chunk only (line 90), so with
chunks of lengths 5 and 9 the iteration succeeds but channel 1 of the second batch holds the samples
5 and 6 of **channel 0**. -/
theorem chunked_varying_length_wrong_channel :
    ∃ b1 b2, iterate (fun _ _ _ => 0) (fun _ _ _ => 0)
        { kernelSize := 2, batchSize := 1, batchesPerChunk := 1 } varyingChunks = .ok [b1, b2] ∧
      b2.get [0, 1, 0] = 5 ∧ b2.get [0, 1, 1] = 6 ∧
      ¬ SampledFrom varyingChunks[1] 2 9 2 1 true b2 := by
  refine ⟨_, _, rfl, by decide, by decide, ?_⟩
  rintro ⟨-, row, start, h, -⟩
  have := (h 0 (by decide) 1 (by decide)).2.2 0 (by decide)
  simp only [varyingChunks] at this
  have h5 : (5 : Nat) = 100 + (start 0 1 + 0) := this
  omega

/-- The same index arithmetic with a *shorter* second chunk: the last channel's indices run past the
end of the flattened chunk and the iteration raises. -/
theorem chunked_shorter_chunk_raises :
    iterate (fun _ _ _ => 0) (fun _ _ _ => 0)
        { kernelSize := 2, batchSize := 1, batchesPerChunk := 1 }
        [(⟨[1, 2, 9], fun _ => 0⟩ : Tensor Nat), ⟨[1, 2, 4], fun _ => 0⟩] = .error .index := by
  rfl

end Verif.Chunked
