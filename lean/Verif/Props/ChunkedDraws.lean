import Verif.Props.Chunked
import Verif.Props.SampleUniform
/-!
# C93 (chunked data): each kernel of each batch is its own draw
-/
set_option linter.unusedSimpArgs false
namespace Verif.Chunked
open Slicing Spec
variable {α : Type _}

theorem sampleBatch_draws (cfg : Config) (s : Setup) (chunk : Tensor α) (n C T : Nat)
    (hs : setup cfg C T = .ok s) (hx : chunk.shape = [n, C, T]) (hn : 0 < n) (hC : 0 < C)
    (hB : 0 < cfg.batchSize) (hK : cfg.kernelSize < T) (rc rt : List Nat → Nat) :
    ∃ y : Tensor α, sampleBatch rc rt cfg s chunk n C T = .ok y ∧ y.shape = [cfg.batchSize, C, cfg.kernelSize] ∧
      ∀ b < cfg.batchSize, ∀ c < C, ∀ t < cfg.kernelSize,
        y.get [b, c, t] = chunk.get [rc (drawPos cfg.coincident b c) % n, c,
          rt (drawPos cfg.coincident b c) % (T - cfg.kernelSize) + t] := by
  obtain ⟨s', hs', hss, hsi, hsg⟩ := setup_ok cfg C T
  obtain rfl : s = s' := by rw [hs] at hs'; exact (Except.ok.inj hs')
  unfold sampleBatch
  rw [Tensor.reshape_ok _ _ (by simp [numel, hx, Nat.mul_assoc])]
  simp only [res_bind_ok]
  obtain ⟨ci, hci, hcis, hcig⟩ := randint_val rc 0 n (if cfg.coincident then [cfg.batchSize] else [cfg.batchSize, C]) (by omega)
  obtain ⟨ti, hti, htis, htig⟩ := randint_val rt 0 ((T:Int) - cfg.kernelSize)
    (if cfg.coincident then [cfg.batchSize] else [cfg.batchSize, C]) (by omega)
  rw [← hss] at hci hti
  rw [hci]
  simp only [res_bind_ok]
  obtain ⟨z1, hz1, hz1s, hz1g⟩ := addView_ok cfg (ci.map (· * ((C * T : Nat) : Int))) s.idx C
    cfg.kernelSize hB hC hsi (by simp [Tensor.map, hcis])
  rw [hz1]
  simp only [res_bind_ok]
  rw [hti]
  simp only [res_bind_ok]
  obtain ⟨z2, hz2, hz2s, hz2g⟩ := addView_ok cfg ti z1 C cfg.kernelSize hB hC hz1s htis
  rw [hz2]
  simp only [res_bind_ok]
  have hpos : ∀ b c, (if cfg.coincident = true then [b] else [b, c]) = drawPos cfg.coincident b c := fun _ _ => rfl
  have hT : ((T:Int) - cfg.kernelSize - 0).toNat = T - cfg.kernelSize := by omega
  have hN : ((n:Int) - 0).toNat = n := by omega
  have hval : ∀ b c k, b < cfg.batchSize → c < C → k < cfg.kernelSize →
      z2.get [b, c, k] = ((rc (drawPos cfg.coincident b c) % n * (C * T) +
        (c * T + (rt (drawPos cfg.coincident b c) % (T - cfg.kernelSize) + k)) : Nat) : Int) := by
    intro b c k hb hc hk
    rw [hz2g b c k hb hc, hz1g b c k hb hc, hsg b c k hc hk, htig]
    simp only [Tensor.map, hcig, hT, hN, hpos]
    push_cast; ring
  have hlt : ∀ b c k, c < C → k < cfg.kernelSize →
      c * T + (rt (drawPos cfg.coincident b c) % (T - cfg.kernelSize) + k) < C * T ∧
      rt (drawPos cfg.coincident b c) % (T - cfg.kernelSize) + k < T ∧
      rc (drawPos cfg.coincident b c) % n * (C * T) +
        (c * T + (rt (drawPos cfg.coincident b c) % (T - cfg.kernelSize) + k)) < n * (C * T) := by
    intro b c k hc hk
    have h0 : rt (drawPos cfg.coincident b c) % (T - cfg.kernelSize) < T - cfg.kernelSize := Nat.mod_lt _ (by omega)
    have h2 : c * T + (rt (drawPos cfg.coincident b c) % (T - cfg.kernelSize) + k) < C * T := idx_lt hc (by omega)
    exact ⟨h2, by omega, idx_lt (Nat.mod_lt _ hn) h2⟩
  obtain ⟨y, hy, hys, hyg⟩ := Tensor.take_ok
    (⟨[n * C * T], fun i => chunk.get (unravel chunk.shape (ravel [n * C * T] i))⟩ : Tensor α) z2 (by
      intro i hi
      rw [hz2s] at hi
      obtain ⟨b, c, k, rfl, hb, hc, hk⟩ := hi.eq3
      rw [hval b c k hb hc hk]
      have := (hlt b c k hc hk).2.2
      have e : numel [n * C * T] = n * (C * T) := by simp [numel, Nat.mul_assoc]
      simp only [e]
      exact ⟨Int.natCast_nonneg _, by exact_mod_cast this⟩)
  refine ⟨y, hy, hys.trans hz2s, ?_⟩
  intro b hb c hc k hk
  obtain ⟨l1, l2, l3⟩ := hlt b c k hc hk
  rw [hyg [b, c, k] (by rw [hz2s]; exact ⟨hb, hc, hk, trivial⟩), hval b c k hb hc hk]
  simp only [Int.toNat_natCast, ravel, unravel, numel, hx, Nat.mul_one, Nat.div_one, Nat.add_zero,
    idx_div _ l1, idx_mod _ l1, idx_div _ l2, idx_mod _ l2]

/-- **C93 (chunked).**  Batch `j` of chunk `k` is decided kernel by kernel by its own pair of draws: the row is the
row draw modulo the number of rows of that chunk, the start the time draw modulo `T - kernel_size`, one pair per batch
element when `coincident`, one per batch element and channel otherwise. -/
theorem chunked_draws (rc rt : Nat → Nat → List Nat → Nat) (cfg : Config) (chunks : List (Tensor α)) (C T : Nat)
    (hne : chunks ≠ []) (hsh : ∀ x ∈ chunks, ∃ n, 0 < n ∧ x.shape = [n, C, T]) (hC : 0 < C)
    (hB : 0 < cfg.batchSize) (hK : cfg.kernelSize < T) :
    ∃ out, iterate rc rt cfg chunks = .ok out ∧ out.length = chunks.length * cfg.batchesPerChunk ∧
      ∀ k (hk : k < chunks.length), ∀ j < cfg.batchesPerChunk, ∃ y, out[k * cfg.batchesPerChunk + j]? = some y ∧
        y.shape = [cfg.batchSize, C, cfg.kernelSize] ∧
        ∀ b < cfg.batchSize, ∀ c < C, ∀ t < cfg.kernelSize,
          y.get [b, c, t] = (chunks[k]).get [rc k j (drawPos cfg.coincident b c) % (chunks[k]).shape.headD 0, c,
            rt k j (drawPos cfg.coincident b c) % (T - cfg.kernelSize) + t] := by
  obtain ⟨s, hs, -⟩ := setup_ok cfg C T
  have hloop : ∀ (chunks : List (Tensor α)) (k0 : Nat), (∀ x ∈ chunks, ∃ n, 0 < n ∧ x.shape = [n, C, T]) →
      ∃ out, loop rc rt cfg s k0 chunks = .ok out ∧ out.length = chunks.length * cfg.batchesPerChunk ∧
      ∀ k (hk : k < chunks.length), ∀ j < cfg.batchesPerChunk, ∃ y, out[k * cfg.batchesPerChunk + j]? = some y ∧
        y.shape = [cfg.batchSize, C, cfg.kernelSize] ∧
        ∀ b < cfg.batchSize, ∀ c < C, ∀ t < cfg.kernelSize,
          y.get [b, c, t] = (chunks[k]).get [rc (k0 + k) j (drawPos cfg.coincident b c) % (chunks[k]).shape.headD 0, c,
            rt (k0 + k) j (drawPos cfg.coincident b c) % (T - cfg.kernelSize) + t] := by
    intro chunks
    induction chunks with
    | nil => intro k0 _; exact ⟨[], rfl, by simp, fun k hk => absurd hk (by simp)⟩
    | cons x rest ih =>
      intro k0 h
      obtain ⟨n, hn, hx⟩ := h x (by simp)
      obtain ⟨more, hmore, hml, hm2⟩ := ih (k0 + 1) (fun y hy => h y (by simp [hy]))
      choose f hf1 hf2 hf3 using fun j => sampleBatch_draws cfg s x n C T hs hx hn hC hB hK (rc k0 j) (rt k0 j)
      have hbs : (List.range cfg.batchesPerChunk).mapM (fun j => sampleBatch (rc k0 j) (rt k0 j) cfg s x n C T) =
          .ok ((List.range cfg.batchesPerChunk).map f) := mapM_ok _ _ _ (fun j _ => hf1 j)
      refine ⟨(List.range cfg.batchesPerChunk).map f ++ more, ?_, ?_, ?_⟩
      · have h1 : ¬ (T < cfg.kernelSize) := by omega
        simp only [loop, hx, h1, if_false, hbs, hmore, res_bind_ok]
      · simp only [List.length_append, List.length_map, List.length_range, hml, List.length_cons]; ring
      · intro k hk j hj
        rcases k with _ | k
        · refine ⟨f j, ?_, hf2 j, ?_⟩
          · rw [List.getElem?_append_left (by simpa using hj)]; simp [hj]
          · intro b hb c hc t ht
            simpa [hx] using hf3 j b hb c hc t ht
        · obtain ⟨y, hy1, hy2, hy3⟩ := hm2 k (by simpa using hk) j hj
          refine ⟨y, ?_, hy2, ?_⟩
          · rw [List.getElem?_append_right (by simp only [List.length_map, List.length_range]; nlinarith)]
            simp only [List.length_map, List.length_range]
            rw [show (k + 1) * cfg.batchesPerChunk + j - cfg.batchesPerChunk = k * cfg.batchesPerChunk + j from by
              rw [Nat.succ_mul]; omega]
            exact hy1
          · intro b hb c hc t ht
            rw [hy3 b hb c hc t ht]
            simp only [List.getElem_cons_succ, show k0 + 1 + k = k0 + (k + 1) from by omega]
  obtain ⟨out, ho, hl, hf⟩ := hloop chunks 0 hsh
  refine ⟨out, ?_, hl, ?_⟩
  · match chunks, hne with
    | x :: rest, _ =>
      obtain ⟨n, -, hx⟩ := hsh x (by simp)
      simp only [iterate, hx, hs, ho, res_bind_ok]
  · simpa using hf

/-- **C93 (chunked, reachability of whole epochs).**  Any choice of rows and of starts before the last one, for every
batch, kernel (and channel, when not coincident), is what some outcome of the draws returns, in all batches of all
chunks at once. -/
theorem chunked_every_epoch (cfg : Config) (chunks : List (Tensor α)) (C T : Nat)
    (hne : chunks ≠ []) (hsh : ∀ x ∈ chunks, ∃ n, 0 < n ∧ x.shape = [n, C, T]) (hC : 0 < C)
    (hB : 0 < cfg.batchSize) (hK : cfg.kernelSize < T) (row start : Nat → Nat → List Nat → Nat)
    (hr : ∀ k (hk : k < chunks.length) j p, row k j p < (chunks[k]).shape.headD 0)
    (hst : ∀ k j p, start k j p + cfg.kernelSize < T) :
    ∃ rc rt out, iterate rc rt cfg chunks = .ok out ∧ out.length = chunks.length * cfg.batchesPerChunk ∧
      ∀ k (hk : k < chunks.length), ∀ j < cfg.batchesPerChunk, ∃ y, out[k * cfg.batchesPerChunk + j]? = some y ∧
        ∀ b < cfg.batchSize, ∀ c < C, ∀ t < cfg.kernelSize,
          y.get [b, c, t] = (chunks[k]).get [row k j (drawPos cfg.coincident b c), c,
            start k j (drawPos cfg.coincident b c) + t] := by
  obtain ⟨out, h1, h2, h3⟩ := chunked_draws row start cfg chunks C T hne hsh hC hB hK
  refine ⟨row, start, out, h1, h2, fun k hk j hj => ?_⟩
  obtain ⟨y, hy, -, hy3⟩ := h3 k hk j hj
  refine ⟨y, hy, fun b hb c hc t ht => ?_⟩
  rw [hy3 b hb c hc t ht, Nat.mod_eq_of_lt (hr k hk j _), Nat.mod_eq_of_lt (by have := hst k j (drawPos cfg.coincident b c); omega)]

/-- Two chunks with different numbers of rows, two batches each, independent channels. -/
example : ∃ out, iterate (fun k j p => k + j + p.sum) (fun k j p => 2 * k + j + p.sum)
    { kernelSize := 2, batchSize := 3, batchesPerChunk := 2, coincident := false }
    [(⟨[1, 2, 5], ravel [1, 2, 5]⟩ : Tensor Nat), ⟨[4, 2, 5], ravel [4, 2, 5]⟩] = .ok out ∧ out.length = 4 := by
  obtain ⟨out, h, hl, -⟩ := chunked_draws (fun k j p => k + j + p.sum) (fun k j p => 2 * k + j + p.sum)
    { kernelSize := 2, batchSize := 3, batchesPerChunk := 2, coincident := false }
    [(⟨[1, 2, 5], ravel [1, 2, 5]⟩ : Tensor Nat), ⟨[4, 2, 5], ravel [4, 2, 5]⟩] 2 5 (by simp)
    (by simp) (by decide) (by decide) (by decide)
  exact ⟨out, h, hl⟩

end Verif.Chunked
