import Verif.Props.Hdf5
/-!
# Which batches `Hdf5TimeSeriesDataset` can return (C90)
-/
set_option linter.unusedSimpArgs false
namespace Verif.Hdf5
open Spec
variable {α : Type _}

theorem idxOf_inj' {l : List Nat} {a b : Nat} (ha : a ∈ l) (h : l.idxOf a = l.idxOf b) : a = b := by
  have h1 := List.idxOf_lt_length_of_mem ha
  have h2 : l.idxOf b < l.length := h ▸ h1
  have e1 : l[l.idxOf a] = a := List.getElem_idxOf h1
  have e2 : l[l.idxOf b] = b := List.getElem_idxOf h2
  rw [← e1, ← e2]
  simp only [h]

theorem idxOf_inj_str {l : List String} {a b : String} (ha : a ∈ l) (h : l.idxOf a = l.idxOf b) : a = b := by
  have h1 := List.idxOf_lt_length_of_mem ha
  have h2 : l.idxOf b < l.length := h ▸ h1
  have e1 : l[l.idxOf a] = a := List.getElem_idxOf h1
  have e2 : l[l.idxOf b] = b := List.getElem_idxOf h2
  rw [← e1, ← e2]
  simp only [h]

theorem key_lt (cfg : Config α) (b c : Nat) (hb : b < cfg.batchSize) (hc : c < cfg.numChannels) : key cfg b c < numDraws cfg := by
  unfold key numDraws
  split_ifs
  · exact idx_lt hb hc
  · exact hb

/-- Two cells take their start from the same draw only if they have to: with `coincident=True` if they are channels of the same batch element, otherwise never. -/
theorem slot_inj (cfg : Config α) (sel : List Nat) (pick : Nat → Nat) (hco : cfg.coincident ≠ .other) (b c b' c' : Nat) (hb : b < cfg.batchSize) (hc : c < cfg.numChannels)
    (hb' : b' < cfg.batchSize) (hc' : c' < cfg.numChannels) (h : slotOf cfg sel pick b c = slotOf cfg sel pick b' c') :
    b = b' ∧ (cfg.coincident ≠ .yes → c = c') := by
  have hk := key_lt cfg b c hb hc
  have hk' := key_lt cfg b' c' hb' hc'
  have hlen : (drawnNames cfg sel pick).length = numDraws cfg := by simp [drawnNames]
  unfold slotOf at h
  obtain ⟨h1, h2⟩ := Prod.mk.inj h
  have hmem : ∀ b c, key cfg b c < numDraws cfg → fileOf cfg sel pick b c ∈ unique (drawnNames cfg sel pick) := by
    intro b c hk
    rw [mem_unique]
    unfold fileOf
    rw [List.getD_eq_getElem _ _ (by omega)]
    exact List.getElem_mem _
  have hf := idxOf_inj_str (hmem b c hk) h1
  rw [← hf] at h2
  have hin : key cfg b c ∈ indicesOf (drawnNames cfg sel pick) (fileOf cfg sel pick b c) := (mem_indicesOf _ _ _).2 ⟨by omega, rfl⟩
  generalize indicesOf (drawnNames cfg sel pick) (fileOf cfg sel pick b c) = L at h2 hin
  unfold drawNo at h2
  cases hcc : cfg.coincident with
  | yes =>
    rw [hcc] at h2
    have := idxOf_inj' hin h2
    simp only [key, hcc] at this
    exact ⟨by simpa using this, fun h => absurd rfl h⟩
  | no =>
    rw [hcc] at h2
    have := idxOf_inj' hin h2
    simp only [key, hcc, if_true] at this
    have e : c = c' := by
      have := congrArg (· % cfg.numChannels) this
      simpa [Nat.mul_add_mod, Nat.add_mod, Nat.mod_eq_of_lt hc, Nat.mod_eq_of_lt hc'] using this
    subst e
    refine ⟨?_, fun _ => rfl⟩
    have h3 : b * cfg.numChannels = b' * cfg.numChannels := by omega
    exact Nat.eq_of_mul_eq_mul_right (by omega) h3
  | files =>
    rw [hcc] at h2
    have e : c = c' := by
      have := congrArg (· % cfg.numChannels) h2
      simpa [Nat.mul_add_mod, Nat.add_mod, Nat.mod_eq_of_lt hc, Nat.mod_eq_of_lt hc'] using this
    subst e
    have h3 : L.idxOf (key cfg b c) * cfg.numChannels = L.idxOf (key cfg b' c) * cfg.numChannels := by
      dsimp only at h2; omega
    have := idxOf_inj' hin (Nat.eq_of_mul_eq_mul_right (by omega) h3)
    simp only [key, hcc] at this
    exact ⟨by simpa using this, fun _ => rfl⟩
  | other => exact absurd hcc hco

/-- **C90 (every batch is possible).**  Let the files be as in C17.  Choose for every cell `(b, c)` one of the selected files and a start such that at least one sample follows the window;
for `coincident=True` the same file and start for all channels of a batch element, for `"files"` the same file.  Then some outcome of the random draws makes `sample_batch` return exactly
the chosen windows: no cell constrains another beyond what `coincident` asks for. -/
theorem every_batch_reachable_partial (cfg : Config α) (sel : List Nat) (hco : cfg.coincident ≠ .other) (hC : 0 < cfg.numChannels) (hnd : cfg.fnames.Nodup)
    (hsz : ∀ f ∈ cfg.fnames, ∀ c < cfg.numChannels, (cfg.data f c).length = (cfg.data f 0).length ∧ cfg.kernelSize < (cfg.data f c).length)
    (hnf0 : 0 < numFiles cfg) (hnf : numFiles cfg ≤ cfg.fnames.length) (hsel : sel.length = numFiles cfg ∧ sel.Nodup ∧ ∀ i ∈ sel, i < cfg.fnames.length)
    (file : Nat → Nat → String) (start : Nat → Nat → Nat) (hfile : ∀ b c, file b c ∈ sel.map fun i => cfg.fnames.getD i "")
    (hstart : ∀ b c, start b c + cfg.kernelSize < (cfg.data (file b c) 0).length)
    (hyes : cfg.coincident = .yes → ∀ b c c', file b c = file b c' ∧ start b c = start b c') (hfiles : cfg.coincident = .files → ∀ b c c', file b c = file b c') :
    ∃ pick rt probs x, init cfg = .ok probs ∧ sampleBatch sel pick rt cfg probs = .ok x ∧
      ReadFrom cfg.data (sel.map fun i => cfg.fnames.getD i "") cfg.batchSize cfg.numChannels cfg.kernelSize file start x := by
  classical
  -- the file draws
  have hpos : ∀ b c, ∃ p, p < numFiles cfg ∧ cfg.fnames.getD (sel.getD p 0) "" = file b c := by
    intro b c
    obtain ⟨i, hi, he⟩ := List.mem_map.1 (hfile b c)
    obtain ⟨p, hp, rfl⟩ := List.mem_iff_getElem.1 hi
    exact ⟨p, by omega, by rw [List.getD_eq_getElem _ _ hp]; exact he⟩
  choose P hP1 hP2 using hpos
  let pick : Nat → Nat := fun j => if cfg.coincident = .no then P (j / cfg.numChannels) (j % cfg.numChannels) else P j 0
  have hfo : ∀ b < cfg.batchSize, ∀ c < cfg.numChannels, fileOf cfg sel pick b c = file b c := by
    intro b hb c hc
    have hk := key_lt cfg b c hb hc
    unfold fileOf drawnNames
    rw [List.getD_eq_getElem _ _ (by simpa using hk), List.getElem_map, List.getElem_range]
    by_cases hno : cfg.coincident = .no
    · have e1 : (b * cfg.numChannels + c) / cfg.numChannels = b := by
        rw [Nat.mul_comm, Nat.mul_add_div hC, Nat.div_eq_of_lt hc, Nat.add_zero]
      have e2 : (b * cfg.numChannels + c) % cfg.numChannels = c := by
        rw [Nat.mul_comm, Nat.mul_add_mod, Nat.mod_eq_of_lt hc]
      simp only [pick, key, hno, if_true, e1, e2]
      rw [Nat.mod_eq_of_lt (hP1 b c), hP2]
    · simp only [pick, key, hno, if_false]
      rw [Nat.mod_eq_of_lt (hP1 b 0), hP2]
      cases hcc : cfg.coincident with
      | yes => exact (hyes hcc b 0 c).1
      | files => exact hfiles hcc b 0 c
      | no => exact absurd hcc hno
      | other => exact absurd hcc hco
  let rt : Nat → Nat → Nat := fun i k =>
    if h : ∃ b c, b < cfg.batchSize ∧ c < cfg.numChannels ∧ slotOf cfg sel pick b c = (i, k) then start h.choose h.choose_spec.choose else 0
  have hso : ∀ b < cfg.batchSize, ∀ c < cfg.numChannels, startOf cfg sel pick rt b c = start b c := by
    intro b hb c hc
    have hex : ∃ b' c', b' < cfg.batchSize ∧ c' < cfg.numChannels ∧ slotOf cfg sel pick b' c' = ((slotOf cfg sel pick b c).1, (slotOf cfg sel pick b c).2) := ⟨b, c, hb, hc, rfl⟩
    have hr : rt (slotOf cfg sel pick b c).1 (slotOf cfg sel pick b c).2 = start b c := by
      simp only [rt]
      rw [dif_pos hex]
      obtain ⟨h1, h2, h3⟩ := hex.choose_spec.choose_spec
      have hi := slot_inj cfg sel pick hco _ _ b c h1 h2 hb hc h3
      generalize hex.choose_spec.choose = c1 at hi
      generalize hex.choose = b1 at hi
      rw [hi.1]
      by_cases hy : cfg.coincident = .yes
      · exact (hyes hy _ _ _).2
      · rw [hi.2 hy]
    unfold startOf
    rw [hr, hfo b hb c hc]
    refine Nat.mod_eq_of_lt ?_
    have := hstart b c
    unfold size
    omega
  obtain ⟨probs, x, h1, h2, ⟨h3, h4⟩, -, -⟩ := batch_cells cfg sel pick rt hco hC hnd hsz hnf0 hnf hsel
  refine ⟨pick, rt, probs, x, h1, h2, h3, fun b hb c hc => ?_⟩
  have := h4 b hb c hc
  rw [hfo b hb c hc, hso b hb c hc] at this
  exact this

/-- **C90 (the last window is never returned).**  Whatever is drawn, every window is followed by at least one more sample of its dataset; so a value that occurs in channel `c` of the
selected files only as their last sample never occurs in channel `c` of a batch. -/
theorem last_window_never (cfg : Config α) (sel : List Nat) (pick : Nat → Nat) (rt : Nat → Nat → Nat) (hco : cfg.coincident ≠ .other) (hC : 0 < cfg.numChannels) (hnd : cfg.fnames.Nodup)
    (hsz : ∀ f ∈ cfg.fnames, ∀ c < cfg.numChannels, (cfg.data f c).length = (cfg.data f 0).length ∧ cfg.kernelSize < (cfg.data f c).length)
    (hnf0 : 0 < numFiles cfg) (hnf : numFiles cfg ≤ cfg.fnames.length) (hsel : sel.length = numFiles cfg ∧ sel.Nodup ∧ ∀ i ∈ sel, i < cfg.fnames.length) :
    ∃ probs x, init cfg = .ok probs ∧ sampleBatch sel pick rt cfg probs = .ok x ∧
      (∃ file start, ReadFrom cfg.data (sel.map fun i => cfg.fnames.getD i "") cfg.batchSize cfg.numChannels cfg.kernelSize file start x ∧
        ∀ b < cfg.batchSize, ∀ c < cfg.numChannels, start b c + cfg.kernelSize < (cfg.data (file b c) c).length) ∧
      ∀ v c, (∀ f ∈ sel.map fun i => cfg.fnames.getD i "", ∀ t, (cfg.data f c)[t]? = some v → t + 1 = (cfg.data f c).length) →
        ∀ b < cfg.batchSize, c < cfg.numChannels → ∀ t < cfg.kernelSize, x.get [b, c, t] ≠ some v := by
  obtain ⟨probs, x, h1, h2, ⟨h3, h4⟩, h5, h6⟩ := batch_cells cfg sel pick rt hco hC hnd hsz hnf0 hnf hsel
  have hs : ∀ b < cfg.batchSize, ∀ c < cfg.numChannels, startOf cfg sel pick rt b c + cfg.kernelSize < (cfg.data (fileOf cfg sel pick b c) c).length := by
    intro b hb c hc
    have hlt := h6 b hb c hc
    obtain ⟨i, hi, he⟩ := List.mem_map.1 (h4 b hb c hc).1
    have hm := h5 i hi
    rw [he] at hm
    have := (hsz _ hm c hc).1
    unfold size at hlt
    omega
  refine ⟨probs, x, h1, h2, ⟨_, _, ⟨h3, h4⟩, hs⟩, ?_⟩
  intro v c hv b hb hc t ht hx
  obtain ⟨g1, -, g3⟩ := h4 b hb c hc
  rw [g3 t ht] at hx
  have := hv _ g1 _ hx
  have := hs b hb c hc
  omega

/-! ## The hypotheses can be met -/

example : ∃ pick rt probs x, init exCfg = .ok probs ∧ sampleBatch [1, 0] pick rt exCfg probs = .ok x ∧
    ReadFrom exCfg.data (([1, 0] : List Nat).map fun i => exCfg.fnames.getD i "") 2 2 3 (fun b c => if b = c then "a" else "b") (fun _ _ => 0) x :=
  every_batch_reachable_partial exCfg [1, 0] (by decide) (by decide) (by decide) (by decide) (by decide) (by decide) (by decide) _ _
    (by intro b c; split_ifs <;> decide) (by intro b c; split_ifs <;> decide) (fun h => by cases h) (fun h => by cases h)

end Verif.Hdf5
