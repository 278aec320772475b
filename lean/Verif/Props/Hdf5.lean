import Verif.Lemmas.Hdf5
import Mathlib.Data.List.GetD
/-!
# Properties of `Hdf5TimeSeriesDataset` (C16, C17)
-/
set_option linter.unusedSimpArgs false
namespace Verif.Hdf5
open Spec
variable {α : Type _}

/-- **C16.**  For every number of workers `W ≥ 1`: the batches yielded by workers `0 .. W-1` add up to
`len(dataset)`, and no worker yields more than one batch more than another.  Without workers the single
process yields `len(dataset)` batches. -/
theorem hdf5_worker_split (cfg : Config α) (W : Nat) (hW : 0 < W) :
    ((List.range W).map fun id => workerBatches cfg (some (id, W))).sum = len cfg ∧
    (∀ i < W, ∀ j < W, workerBatches cfg (some (i, W)) ≤ workerBatches cfg (some (j, W)) + 1) ∧
    workerBatches cfg none = len cfg := by
  refine ⟨?_, ?_, rfl⟩
  · have key : ∀ m, m ≤ W → ((List.range m).map fun id => workerBatches cfg (some (id, W))).sum =
        m * (cfg.batchesPerEpoch / W) + min m (cfg.batchesPerEpoch % W) := by
      intro m
      induction m with
      | zero => simp
      | succ m ih =>
        intro hm
        rw [List.range_succ, List.map_append, List.sum_append, ih (by omega)]
        simp only [workerBatches, List.map_cons, List.map_nil, List.sum_cons, List.sum_nil, Nat.succ_mul]
        generalize m * (cfg.batchesPerEpoch / W) = p
        generalize cfg.batchesPerEpoch / W = q
        split <;> omega
    rw [key W (Nat.le_refl _)]
    have h1 := Nat.mod_lt cfg.batchesPerEpoch hW
    have h2 := Nat.div_add_mod cfg.batchesPerEpoch W
    rw [Nat.min_eq_right (by omega), len]
    exact h2
  · intro i _ j _
    simp only [workerBatches]
    generalize cfg.batchesPerEpoch / W = q
    split <;> split <;> omega

def exCfg : Config Nat where
  fnames := ["b", "a"]
  numChannels := 2
  data := fun f c => (List.range (if f = "a" then 6 else 4)).map fun t =>
    t + 10 * c + (if f = "a" then 100 else 200)
  kernelSize := 3
  batchSize := 2
  batchesPerEpoch := 7
  coincident := .no
  numFilesPerBatch := some 2

/-- Seven batches over three workers: 3 + 2 + 2. -/
example : (List.range 3).map (fun id => workerBatches exCfg (some (id, 3))) = [3, 2, 2] ∧
    ((List.range 3).map fun id => workerBatches exCfg (some (id, 3))).sum = 7 :=
  ⟨by decide, (hdf5_worker_split exCfg 3 (by decide)).1⟩

/-- Construction succeeds for distinct, non-empty files and a valid `coincident` argument. -/
theorem init_ok (cfg : Config α) (hco : cfg.coincident ≠ .other) (hnf : numFiles cfg ≤ cfg.fnames.length)
    (hC : 0 < cfg.numChannels) (hnd : cfg.fnames.Nodup) (hsz : ∀ f ∈ cfg.fnames, 0 < size cfg f) :
    init cfg = .ok (cfg.fnames.map (size cfg)) := by
  have h1 : ¬ (cfg.fnames.length < numFiles cfg) := by omega
  have h2 : ¬ (cfg.fnames ≠ [] ∧ cfg.numChannels = 0) := by omega
  have h3 : ¬ ((cfg.fnames.map (size cfg)) ≠ [] ∧ (cfg.fnames.map (size cfg)).sum = 0) := by
    rintro ⟨hne, hs⟩
    cases hf : cfg.fnames with
    | nil => simp [hf] at hne
    | cons f fs =>
      have := hsz f (by simp [hf])
      simp [hf] at hs
      omega
  simp only [init, hco, h1, h2, if_false, sizeKeys_of_nodup cfg hnd, h3]

/-- Number of flattened draws of file names. -/
def numDraws (cfg : Config α) : Nat := if cfg.coincident = .no then cfg.batchSize * cfg.numChannels else cfg.batchSize

/-- The file names drawn. -/
def drawnNames (cfg : Config α) (sel : List Nat) (pick : Nat → Nat) : List String :=
  (List.range (numDraws cfg)).map fun j => cfg.fnames.getD (sel.getD (pick j % numFiles cfg) 0) ""

/-- The file of cell `(b, c)`. -/
def fileOf (cfg : Config α) (sel : List Nat) (pick : Nat → Nat) (b c : Nat) : String := (drawnNames cfg sel pick).getD (key cfg b c) ""

/-- Which draw of `np.random.randint` places cell `(b, c)`. -/
def slotOf (cfg : Config α) (sel : List Nat) (pick : Nat → Nat) (b c : Nat) : Nat × Nat :=
  ((unique (drawnNames cfg sel pick)).idxOf (fileOf cfg sel pick b c),
    drawNo cfg (indicesOf (drawnNames cfg sel pick) (fileOf cfg sel pick b c)) b c)

/-- The start of cell `(b, c)`. -/
def startOf (cfg : Config α) (sel : List Nat) (pick : Nat → Nat) (rt : Nat → Nat → Nat) (b c : Nat) : Nat :=
  rt (slotOf cfg sel pick b c).1 (slotOf cfg sel pick b c).2 % (size cfg (fileOf cfg sel pick b c) - cfg.kernelSize)

/-- What `sample_batch` reads into every cell, as a function of the draws. -/
theorem batch_cells (cfg : Config α) (sel : List Nat) (pick : Nat → Nat) (rt : Nat → Nat → Nat)
    (hco : cfg.coincident ≠ .other) (hC : 0 < cfg.numChannels) (hnd : cfg.fnames.Nodup)
    (hsz : ∀ f ∈ cfg.fnames, ∀ c < cfg.numChannels,
      (cfg.data f c).length = (cfg.data f 0).length ∧ cfg.kernelSize < (cfg.data f c).length)
    (hnf0 : 0 < numFiles cfg) (hnf : numFiles cfg ≤ cfg.fnames.length)
    (hsel : sel.length = numFiles cfg ∧ sel.Nodup ∧ ∀ i ∈ sel, i < cfg.fnames.length) :
    ∃ probs x, init cfg = .ok probs ∧ sampleBatch sel pick rt cfg probs = .ok x ∧
      ReadFrom cfg.data (sel.map fun i => cfg.fnames.getD i "") cfg.batchSize cfg.numChannels
        cfg.kernelSize (fileOf cfg sel pick) (startOf cfg sel pick rt) x ∧
      (∀ i ∈ sel, cfg.fnames.getD i "" ∈ cfg.fnames) ∧
      (∀ b < cfg.batchSize, ∀ c < cfg.numChannels, startOf cfg sel pick rt b c < size cfg (fileOf cfg sel pick b c) - cfg.kernelSize) := by
  have hszK : ∀ f ∈ cfg.fnames, cfg.kernelSize < size cfg f := fun f hf => (hsz f hf 0 hC).2
  have hinit := init_ok cfg hco hnf hC hnd (fun f hf => by have := hszK f hf; omega)
  generalize hn : (if cfg.coincident = .no then cfg.batchSize * cfg.numChannels else cfg.batchSize) = n
  have hnn : numDraws cfg = n := hn
  -- the draws of file names
  let fs : List String := drawnNames cfg sel pick
  have hfsd : fs = (List.range n).map fun j => cfg.fnames.getD (sel.getD (pick j % numFiles cfg) 0) "" := by
    show drawnNames cfg sel pick = _
    unfold drawnNames; rw [hnn]
  have hsf : sampleFnames sel pick cfg (cfg.fnames.map (size cfg)) n = .ok fs := by
    have h1 : ((cfg.fnames.map (size cfg)).filter (· ≠ 0)) = cfg.fnames.map (size cfg) := by
      rw [List.filter_eq_self]
      intro a ha
      simp only [List.mem_map] at ha
      obtain ⟨f, hf, rfl⟩ := ha
      have := hszK f hf
      simp; omega
    have h2 : ¬ (cfg.fnames.length < numFiles cfg) := by omega
    have h3 : ¬ (numFiles cfg = 0) := by omega
    unfold sampleFnames
    rw [h1]
    simp only [List.length_map, ne_eq, not_true_eq_false, if_false, h2, h3]
    rw [hfsd]
  have hfn : ∀ j, j < n → fs.getD j "" ∈ sel.map (fun i => cfg.fnames.getD i "") := by
    intro j hj
    have h1 : fs.getD j "" = cfg.fnames.getD (sel.getD (pick j % numFiles cfg) 0) "" := by
      rw [hfsd]
      simp [hj, List.getElem?_map, List.getElem?_range hj]
    rw [h1, List.mem_map]
    have h2 : pick j % numFiles cfg < sel.length := by rw [hsel.1]; exact Nat.mod_lt _ hnf0
    exact ⟨sel.getD (pick j % numFiles cfg) 0, by
      rw [List.getD_eq_getElem _ _ h2]; exact List.getElem_mem _, rfl⟩
  have hselm : ∀ i ∈ sel, cfg.fnames.getD i "" ∈ cfg.fnames := by
    intro i hi
    have := hsel.2.2 i hi
    rw [List.getD_eq_getElem _ _ this]; exact List.getElem_mem _
  have hfm : ∀ j, j < n → fs.getD j "" ∈ cfg.fnames := by
    intro j hj
    have := hfn j hj
    rw [List.mem_map] at this
    obtain ⟨i, hi, he⟩ := this
    rw [← he]; exact hselm i hi
  have hfl : fs.length = n := by rw [hfsd]; simp
  let us := unique fs
  have hus : ∀ f ∈ us, f ∈ cfg.fnames := by
    intro f hf
    rw [mem_unique, List.mem_iff_getElem] at hf
    obtain ⟨j, hj, rfl⟩ := hf
    have := hfm j (by omega)
    rwa [List.getD_eq_getElem _ _ hj] at this
  let file : Nat → Nat → String := fileOf cfg sel pick
  let start : Nat → Nat → Nat := startOf cfg sel pick rt
  let row : Nat → Nat → Nat → Option α := fun b c t =>
    (((cfg.data (file b c) c).drop (start b c)).take cfg.kernelSize)[t]?
  -- what each file contributes
  have hfw : ∀ i ∈ List.range us.length, ∃ ws, fileWrites cfg (rt i) fs (us.getD i "") = .ok ws ∧
      ((∀ b c, c < cfg.numChannels → key cfg b c ∈ indicesOf fs (us.getD i "") → ((b, c), row b c) ∈ ws) ∧
       (∀ w ∈ ws, w.2 = row w.1.1 w.1.2)) := by
    intro i hi
    have hi' : i < us.length := by simpa using hi
    have hfi : us.getD i "" = us[i] := List.getD_eq_getElem _ _ hi'
    have hmem : us.getD i "" ∈ cfg.fnames := by rw [hfi]; exact hus _ (List.getElem_mem _)
    have hidx : us.idxOf (us.getD i "") = i := by
      rw [hfi]; exact List.Nodup.idxOf_getElem (unique_nodup fs) i hi'
    generalize us.getD i "" = f at hmem hidx
    have hKf := hszK f hmem
    obtain ⟨ws, hws, hw1, hw2⟩ := writes_ok cfg (rt i) fs f hC hKf
    have hfile : ∀ b c, key cfg b c ∈ indicesOf fs f → file b c = f := by
      intro b c h
      exact ((mem_indicesOf _ _ _).1 h).2
    have hstart : ∀ b c, key cfg b c ∈ indicesOf fs f → start b c =
        rt i (drawNo cfg (indicesOf fs f) b c) % (size cfg f - cfg.kernelSize) := by
      intro b c h
      have hf : fileOf cfg sel pick b c = f := hfile b c h
      show startOf cfg sel pick rt b c = _
      unfold startOf slotOf
      rw [hf]
      show rt (us.idxOf f) _ % _ = _
      rw [hidx]
    refine ⟨ws.map fun w => ((w.1, w.2.1), row w.1 w.2.1), ?_, ?_, ?_⟩
    · unfold fileWrites
      rw [hws]
      simp only [res_bind_ok]
      refine mapM_ok _ _ _ ?_
      rintro ⟨b, c, k⟩ hbc
      obtain ⟨hc, hk, rfl⟩ := hw2 b c k hbc
      have hlen := hsz f hmem c hc
      have hlt : rt i (drawNo cfg (indicesOf fs f) b c) % (size cfg f - cfg.kernelSize) <
          size cfg f - cfg.kernelSize := Nat.mod_lt _ (by omega)
      have hs0 : size cfg f = (cfg.data f 0).length := rfl
      have hl : (((cfg.data f c).drop (rt i (drawNo cfg (indicesOf fs f) b c) %
          (size cfg f - cfg.kernelSize))).take cfg.kernelSize).length = cfg.kernelSize := by
        simp only [List.length_take, List.length_drop]
        omega
      simp only [readKernel, hl, if_true, res_bind_ok, row, hfile b c hk, hstart b c hk]
    · intro b c hc hk
      refine List.mem_map.2 ⟨_, hw1 b c hc hk, rfl⟩
    · intro w hw
      obtain ⟨⟨b, c, k⟩, -, rfl⟩ := List.mem_map.1 hw
      rfl
  obtain ⟨wss, hwss, hf2⟩ := mapM_ok_exists _ _ _ hfw
  refine ⟨_, ⟨[cfg.batchSize, cfg.numChannels, cfg.kernelSize], fun i =>
    applyWrites (fun _ _ _ => none) wss.flatten (i.getD 0 0) (i.getD 1 0) (i.getD 2 0)⟩,
    hinit, ?_, ⟨rfl, ?_⟩, hselm, ?_⟩
  · simp only [sampleBatch, hn, hsf, res_bind_ok]
    have hwss' : (List.range (unique fs).length).mapM (fun i =>
        fileWrites cfg (rt i) fs ((unique fs).getD i "")) = .ok wss := hwss
    rw [hwss']
    rfl
  · intro b hb c hc
    have hkn : key cfg b c < n := by
      rw [← hn]
      unfold key
      split
      · exact idx_lt hb hc
      · exact hb
    have hfmem := hfm _ hkn
    refine ⟨hfn _ hkn, ?_, ?_⟩
    · have hlen := hsz _ hfmem c hc
      have hk := hszK _ hfmem
      have : start b c < size cfg (file b c) - cfg.kernelSize := Nat.mod_lt _ (Nat.sub_pos_of_lt hk)
      have hs0 : size cfg (file b c) = (cfg.data (file b c) 0).length := rfl
      have e : (cfg.data (file b c) c).length = (cfg.data (file b c) 0).length := hlen.1
      show start b c + _ ≤ (cfg.data (file b c) c).length
      have hk' : cfg.kernelSize < size cfg (file b c) := hk
      omega
    · intro t ht
      have hval : applyWrites (fun _ _ _ => none) wss.flatten b c = row b c := by
        refine applyWrites_spec _ _ b c (fun v => v = row b c) ?_ ?_
        · have hin : file b c ∈ us := by
            rw [mem_unique]
            show fs.getD (key cfg b c) "" ∈ fs
            rw [List.getD_eq_getElem _ _ (by omega)]; exact List.getElem_mem _
          have hil := List.idxOf_lt_length_of_mem hin
          obtain ⟨hlen, hget⟩ := List.forall₂_iff_get.1 hf2
          have hlt' : us.idxOf (file b c) < wss.length := by
            rw [← hlen]; simpa using hil
          have hg := hget (us.idxOf (file b c)) (by simpa using hil) hlt'
          have hfi : us.getD (us.idxOf (file b c)) "" = file b c := by
            rw [List.getD_eq_getElem _ _ hil, List.getElem_idxOf]
          simp only [List.get_eq_getElem, List.getElem_range] at hg
          rw [hfi] at hg
          refine ⟨((b, c), row b c), List.mem_flatten.2 ⟨_, List.getElem_mem hlt', hg.1 b c hc ?_⟩, rfl⟩
          exact (mem_indicesOf _ _ _).2 ⟨by omega, rfl⟩
        · intro w hw hwb
          obtain ⟨l, hl, hwl⟩ := List.mem_flatten.1 hw
          obtain ⟨hlen, hget⟩ := List.forall₂_iff_get.1 hf2
          obtain ⟨q, hq, rfl⟩ := List.mem_iff_getElem.1 hl
          have hg := hget q (by omega) hq
          have := hg.2 w hwl
          rw [this, hwb]
      show applyWrites (fun _ _ _ => none) wss.flatten b c t = _
      rw [hval]
      simp only [row, List.getElem?_take, ht, if_true, List.getElem?_drop]
      rfl
  · intro b hb c hc
    have hkn : key cfg b c < n := by
      rw [← hn]
      unfold key
      split
      · exact idx_lt hb hc
      · exact hb
    have hk := hszK _ (hfm _ hkn)
    exact Nat.mod_lt _ (Nat.sub_pos_of_lt hk)

/-- **C17.**  Let the files be distinct, every dataset of every file longer than the kernel and all
channels of a file equally long, and let `sel` be any outcome of the draw of `num_files_per_batch`
distinct files.  Then, whatever else is drawn, construction and `sample_batch` succeed and every cell
`(b, c)` of the batch is a window of channel `c` of one of the selected files.  With
`coincident=True` file and start are the same for all channels, with `"files"` the file is. -/
theorem hdf5_sample_batch (cfg : Config α) (sel : List Nat) (pick : Nat → Nat) (rt : Nat → Nat → Nat)
    (hco : cfg.coincident ≠ .other) (hC : 0 < cfg.numChannels) (hnd : cfg.fnames.Nodup)
    (hsz : ∀ f ∈ cfg.fnames, ∀ c < cfg.numChannels,
      (cfg.data f c).length = (cfg.data f 0).length ∧ cfg.kernelSize < (cfg.data f c).length)
    (hnf0 : 0 < numFiles cfg) (hnf : numFiles cfg ≤ cfg.fnames.length)
    (hsel : sel.length = numFiles cfg ∧ sel.Nodup ∧ ∀ i ∈ sel, i < cfg.fnames.length) :
    ∃ probs x file start, init cfg = .ok probs ∧ sampleBatch sel pick rt cfg probs = .ok x ∧
      ReadFrom cfg.data (sel.map fun i => cfg.fnames.getD i "") cfg.batchSize cfg.numChannels
        cfg.kernelSize file start x ∧
      (∀ i ∈ sel, cfg.fnames.getD i "" ∈ cfg.fnames) ∧
      (cfg.coincident = .yes → ∀ b c c', file b c = file b c' ∧ start b c = start b c') ∧
      (cfg.coincident = .files → ∀ b c c', file b c = file b c') := by
  obtain ⟨probs, x, h1, h2, h3, h4, -⟩ := batch_cells cfg sel pick rt hco hC hnd hsz hnf0 hnf hsel
  refine ⟨probs, x, _, _, h1, h2, h3, h4, ?_, ?_⟩
  · intro h b c c'
    have hk : ∀ c, key cfg b c = b := by intro c; simp [key, h]
    have hfe : ∀ c, fileOf cfg sel pick b c = (drawnNames cfg sel pick).getD b "" := by intro c; simp only [fileOf, hk]
    refine ⟨by rw [hfe, hfe], ?_⟩
    simp only [startOf, slotOf, hfe, drawNo, h, hk]
  · intro h b c c'
    have hk : ∀ c, key cfg b c = b := by intro c; simp [key, h]
    simp only [fileOf, hk]

/-- The example data set meets the hypotheses of C17, and one of its batches is as expected: the
draws `pick = 0, 1, 0, 1`, `rt = 0` give file "b" to channel 0 and file "a" to channel 1. -/
example : ∃ x, sampleBatch [0, 1] (fun j => j) (fun _ _ => 0) exCfg [4, 6] = .ok x ∧
    x.get [0, 0, 2] = some 202 ∧ x.get [1, 1, 2] = some 112 := by
  refine ⟨_, rfl, ?_, ?_⟩ <;> decide
example : ∃ probs x file start, init exCfg = .ok probs ∧
    sampleBatch [1, 0] (fun j => 3 * j + 1) (fun i k => i + k) exCfg probs = .ok x ∧
    ReadFrom exCfg.data (([1, 0] : List Nat).map fun i => exCfg.fnames.getD i "") 2 2 3 file start x := by
  obtain ⟨p, x, f, s, h1, h2, h3, -⟩ := hdf5_sample_batch exCfg [1, 0] (fun j => 3 * j + 1)
    (fun i k => i + k) (by decide) (by decide) (by decide)
    (by decide)
    (by decide) (by decide) (by decide)
  exact ⟨p, x, f, s, h1, h2, h3⟩

/-- **C17 (rejections).**  An unknown `coincident` or more files per batch than files raise ValueError
at construction; a repeated file name makes every `sample_batch` raise ValueError; a file exactly as
long as the kernel raises ValueError when it is drawn, although it contains one window. -/
theorem hdf5_rejects (cfg : Config α) (sel : List Nat) (pick : Nat → Nat) (rt : Nat → Nat → Nat) :
    (cfg.coincident = .other → init cfg = .error .value) ∧
    (cfg.fnames.length < numFiles cfg → init cfg = .error .value) ∧
    (∀ probs, ¬ cfg.fnames.Nodup → init cfg = .ok probs →
      sampleBatch sel pick rt cfg probs = .error .value) ∧
    (∀ r fs f, size cfg f ≤ cfg.kernelSize → writes cfg r fs f = .error .value) := by
  refine ⟨?_, ?_, ?_, ?_⟩
  · intro h; simp [init, h]
  · intro h
    by_cases hc : cfg.coincident = .other <;> simp [init, hc, h]
  · intro probs hnd hi
    have hp : probs = (sizeKeys cfg).map (size cfg) := by
      unfold init at hi
      split at hi
      · simp at hi
      · split at hi
        · simp at hi
        · split at hi
          · simp at hi
          · simp only at hi
            split at hi
            · simp at hi
            · exact (Except.ok.inj hi).symm
    have hl : probs.length ≠ cfg.fnames.length := by
      have := uniq_len_lt cfg.fnames [] (by simpa using hnd) (by simp)
      rw [hp, List.length_map]
      simp only [sizeKeys]
      simp at this; omega
    simp [sampleBatch, sampleFnames, hl]
  · intro r fs f h
    have : (size cfg f : Int) - cfg.kernelSize ≤ 0 := by omega
    by_cases hc : cfg.coincident = .yes <;> simp [writes, hc, randintN, this]

/-- A data set whose only file repeats: construction succeeds, sampling fails. -/
example : init { exCfg with fnames := ["a", "a"] } = .ok [6] ∧
    sampleBatch [0, 1] (fun j => j) (fun _ _ => 0) { exCfg with fnames := ["a", "a"] } [6] =
      .error .value :=
  ⟨by decide, (hdf5_rejects { exCfg with fnames := ["a", "a"] } _ _ _).2.2.1 [6] (by decide) (by decide)⟩

/-- One file whose channel 0 has 8 samples and channel 1 only 5. -/
def unequalCfg : Config Nat where
  fnames := ["a"]
  numChannels := 2
  data := fun _ c => (List.range (if c = 0 then 8 else 5)).map fun t => t + 10 * c
  kernelSize := 3
  batchSize := 1
  batchesPerEpoch := 1
  coincident := .yes

/-- The hypothesis of C17 that all channels of a file are equally long is needed: sizes are taken from
the first channel only (line 94), so a start of 4 reads the single last sample of channel 1, which numpy
silently broadcasts over the whole window. -/
theorem hdf5_short_channel_broadcast :
    ∃ x, sampleBatch [0] (fun _ => 0) (fun _ _ => 4) unequalCfg [8] = .ok x ∧
      x.get [0, 1, 0] = some 14 ∧ x.get [0, 1, 1] = some 14 ∧ x.get [0, 1, 2] = some 14 := by
  refine ⟨_, rfl, ?_, ?_, ?_⟩ <;> decide

end Verif.Hdf5
