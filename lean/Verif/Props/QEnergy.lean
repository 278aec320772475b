import Verif.Props.QTransform
/-!
# Properties of `get_max_energy` with its `dimension` argument (C80)
-/
set_option linter.unusedVariables false
namespace Verif.QTransform
open Finset

/-- The energies of batch element `b`, channel `c` over all searched rows and times. -/
def energiesAt (ts : List (Tensor ℝ)) (b c : ℕ) : Set ℝ := {e | ∃ t ∈ ts, ∃ u < t.shape.getLastD 0, e = t.get [b, c, u]}

theorem maxLast_ok (t : Tensor ℝ) (lead : List ℕ) (n : ℕ) (hs : t.shape = lead ++ [n]) (hn : 0 < n) :
    ∃ o, maxLast t = .ok o ∧ o.shape = lead ∧ ∀ i, IsGreatest {e | ∃ u < n, e = t.get (i ++ [u])} (o.get i) := by
  have hl : t.shape.getLastD 0 = n := by rw [hs]; simp
  have hd : t.shape.dropLast = lead := by rw [hs]; simp
  unfold maxLast
  rw [hl, hd]
  have hne : (range n).Nonempty := ⟨0, by simpa using hn⟩
  rw [dif_pos hne]
  refine ⟨_, rfl, rfl, fun i => ⟨?_, ?_⟩⟩
  · obtain ⟨u, hu, h⟩ := (range n).exists_mem_eq_sup' hne fun k => t.get (i ++ [k])
    exact ⟨u, Finset.mem_range.1 hu, h⟩
  · rintro e ⟨u, hu, rfl⟩
    exact Finset.le_sup' (fun k => t.get (i ++ [k])) (Finset.mem_range.2 hu)

theorem maxLast_empty (t : Tensor ℝ) (h : t.shape.getLastD 0 = 0) : maxLast t = .error .index := by
  unfold maxLast
  rw [dif_neg (by rw [h]; simp)]

theorem stackM1_ok (ts : List (Tensor ℝ)) (sh : List ℕ) (hne : ts ≠ []) (hs : ∀ t ∈ ts, t.shape = sh) :
    ∃ o, stackM1 ts = .ok o ∧ o.shape = sh ++ [ts.length] ∧ ∀ i k (hk : k < ts.length), o.get (i ++ [k]) = ts[k].get i := by
  cases ts with
  | nil => exact absurd rfl hne
  | cons t rest =>
    have ht := hs t (by simp)
    unfold stackM1
    dsimp only
    rw [if_pos (by
      rw [List.all_eq_true]
      intro u hu
      simp [ht, hs u (by simp [hu])])]
    refine ⟨_, rfl, by simp [ht], ?_⟩
    intro i k hk
    simp only [List.getLastD_concat, List.dropLast_concat]
    rw [List.getD_eq_getElem _ _ hk]

/-- An unknown dimension is refused, with or without tiles. -/
theorem maxEnergyDim_unknown (s : Single) (fsearch : Option (ℝ × ℝ)) (dimension : String) (h : dimension ∉ ["both", "neither", "channel", "batch"]) :
    s.maxEnergyDim fsearch dimension = .error .value := by
  unfold Single.maxEnergyDim; rw [if_pos h]

/-- Before `compute_qtiles`, a valid dimension raises RuntimeError. -/
theorem maxEnergyDim_before (s : Single) (fsearch : Option (ℝ × ℝ)) (dimension : String) (h : dimension ∈ ["both", "neither", "channel", "batch"]) (ht : s.tiles = none) :
    s.maxEnergyDim fsearch dimension = .error .runtime := by
  unfold Single.maxEnergyDim; rw [if_neg (not_not.2 h), ht]

/-- `"both"` is the number that `QScan` compares. -/
theorem maxEnergyDim_both (s : Single) (fsearch : Option (ℝ × ℝ)) : s.maxEnergyDim fsearch "both" = (s.maxEnergy fsearch).map MaxEnergy.scalar := by
  unfold Single.maxEnergyDim Single.maxEnergy
  rw [if_neg (by simp)]
  cases s.tiles with
  | none => rfl
  | some tiles =>
    dsimp only
    cases searchTiles s.freqs tiles fsearch with
    | error e => rfl
    | ok ts =>
      simp only [res_bind_ok, if_true]
      cases ts.mapM tmax with
      | error e => rfl
      | ok ms =>
        simp only [res_bind_ok]
        cases pmax ms <;> rfl

/-- Dimensions other than `"both"`: the tensor of maxima over time and frequency, and what is made of it. -/
theorem maxEnergyDim_core (s : Single) (tiles ts : List (Tensor ℝ)) (fsearch : Option (ℝ × ℝ)) (B C : ℕ) (n : ℕ → ℕ) (ht : s.tiles = some tiles)
    (hs : searchTiles s.freqs tiles fsearch = .ok ts) (hne : ts ≠ []) (hsh : ∀ i (hi : i < ts.length), ts[i].shape = [B, C, n i] ∧ 0 < n i) :
    ∃ c : Tensor ℝ, c.shape = [B, C] ∧ (∀ b k, IsGreatest (energiesAt ts b k) (c.get [b, k])) ∧
      s.maxEnergyDim fsearch "neither" = .ok (.tensor c) ∧
      s.maxEnergyDim fsearch "channel" = (maxLast (c.transpose 0 1)).map .tensor ∧
      s.maxEnergyDim fsearch "batch" = (maxLast c).map .tensor := by
  have hm : ∀ t ∈ ts, ∃ o, maxLast t = .ok o := by
    intro t htm
    obtain ⟨i, hi, rfl⟩ := List.mem_iff_getElem.1 htm
    obtain ⟨o, h1, -⟩ := maxLast_ok ts[i] [B, C] (n i) (hsh i hi).1 (hsh i hi).2
    exact ⟨o, h1⟩
  obtain ⟨a, ha, hal, hag⟩ := mapM_get maxLast ts hm
  have hat : ∀ i (hi : i < a.length) (hi' : i < ts.length), a[i].shape = [B, C] ∧ ∀ j, IsGreatest {e | ∃ u < n i, e = ts[i].get (j ++ [u])} (a[i].get j) := by
    intro i hi hi'
    obtain ⟨o, h1, h2, h3⟩ := maxLast_ok ts[i] [B, C] (n i) (hsh i hi').1 (hsh i hi').2
    rw [hag i hi' hi] at h1
    rw [Except.ok.inj h1]
    exact ⟨h2, h3⟩
  have hane : a ≠ [] := by rintro rfl; simp at hal; exact hne (List.length_eq_zero_iff.1 hal.symm)
  obtain ⟨o, so, s1, s2⟩ := stackM1_ok a [B, C] hane (by
    intro t htm
    obtain ⟨i, hi, rfl⟩ := List.mem_iff_getElem.1 htm
    exact (hat i hi (by omega)).1)
  obtain ⟨c, mc, c1, c2⟩ := maxLast_ok o [B, C] a.length s1 (List.length_pos_of_ne_nil hane)
  refine ⟨c, c1, ?_, ?_, ?_, ?_⟩
  · intro b k
    obtain ⟨⟨v, hv, hve⟩, hmax⟩ := c2 [b, k]
    constructor
    · obtain ⟨⟨u, hu, hue⟩, -⟩ := (hat v hv (by omega)).2 [b, k]
      refine ⟨ts[v], List.getElem_mem _, u, ?_, ?_⟩
      · rw [(hsh v (by omega)).1]; exact hu
      · rw [hve, s2 [b, k] v hv, hue]; rfl
    · rintro e ⟨t, htm, u, hu, rfl⟩
      obtain ⟨i, hi, rfl⟩ := List.mem_iff_getElem.1 htm
      have hia : i < a.length := by omega
      rw [(hsh i hi).1] at hu
      have h1 := ((hat i hia hi).2 [b, k]).2 ⟨u, hu, rfl⟩
      have h2 := hmax ⟨i, hia, rfl⟩
      rw [s2 [b, k] i hia] at h2
      exact h1.trans h2
  all_goals
    unfold Single.maxEnergyDim
    rw [if_neg (by simp), ht]
    simp only [hs, res_bind_ok]
    rw [if_neg (by simp)]
    simp only [ha, so, mc, res_bind_ok]
  · rw [if_pos trivial]
  · rw [if_neg (by simp), if_pos trivial]
    cases maxLast (c.transpose 0 1) <;> rfl
  · rw [if_neg (by simp), if_neg (by simp)]
    cases maxLast c <;> rfl

/-- **`dimension="neither"`.**  One value per batch element and channel: the largest energy over the searched rows and times. -/
theorem maxEnergyDim_neither (s : Single) (tiles ts : List (Tensor ℝ)) (fsearch : Option (ℝ × ℝ)) (B C : ℕ) (n : ℕ → ℕ) (ht : s.tiles = some tiles)
    (hs : searchTiles s.freqs tiles fsearch = .ok ts) (hne : ts ≠ []) (hsh : ∀ i (hi : i < ts.length), ts[i].shape = [B, C, n i] ∧ 0 < n i) :
    ∃ m : Tensor ℝ, s.maxEnergyDim fsearch "neither" = .ok (.tensor m) ∧ m.shape = [B, C] ∧ ∀ b c, IsGreatest (energiesAt ts b c) (m.get [b, c]) := by
  obtain ⟨c, h1, h2, h3, -⟩ := maxEnergyDim_core s tiles ts fsearch B C n ht hs hne hsh
  exact ⟨c, h3, h1, h2⟩

/-- **`dimension="channel"`.**  One value per channel: the largest energy over the batch, the searched rows and times. -/
theorem maxEnergyDim_channel (s : Single) (tiles ts : List (Tensor ℝ)) (fsearch : Option (ℝ × ℝ)) (B C : ℕ) (n : ℕ → ℕ) (ht : s.tiles = some tiles)
    (hs : searchTiles s.freqs tiles fsearch = .ok ts) (hne : ts ≠ []) (hsh : ∀ i (hi : i < ts.length), ts[i].shape = [B, C, n i] ∧ 0 < n i) (hB : 0 < B) :
    ∃ m : Tensor ℝ, s.maxEnergyDim fsearch "channel" = .ok (.tensor m) ∧ m.shape = [C] ∧
      ∀ c, IsGreatest {e | ∃ b < B, e ∈ energiesAt ts b c} (m.get [c]) := by
  obtain ⟨c, h1, h2, -, h4, -⟩ := maxEnergyDim_core s tiles ts fsearch B C n ht hs hne hsh
  obtain ⟨o, o1, o2, o3⟩ := maxLast_ok (c.transpose 0 1) [C] B (by unfold Tensor.transpose; rw [h1]; rfl) hB
  refine ⟨o, by rw [h4, o1]; rfl, o2, ?_⟩
  intro k
  have hg : ∀ b, (c.transpose 0 1).get ([k] ++ [b]) = c.get [b, k] := by intro b; rfl
  obtain ⟨⟨b, hb, hbe⟩, hmax⟩ := o3 [k]
  constructor
  · refine ⟨b, hb, ?_⟩
    rw [hbe, hg]
    exact (h2 b k).1
  · rintro e ⟨b', hb', he⟩
    have := hmax ⟨b', hb', rfl⟩
    rw [hg] at this
    exact ((h2 b' k).2 he).trans this

/-- **`dimension="batch"`.**  One value per batch element: the largest energy over the channels, the searched rows and times. -/
theorem maxEnergyDim_batch (s : Single) (tiles ts : List (Tensor ℝ)) (fsearch : Option (ℝ × ℝ)) (B C : ℕ) (n : ℕ → ℕ) (ht : s.tiles = some tiles)
    (hs : searchTiles s.freqs tiles fsearch = .ok ts) (hne : ts ≠ []) (hsh : ∀ i (hi : i < ts.length), ts[i].shape = [B, C, n i] ∧ 0 < n i) (hC : 0 < C) :
    ∃ m : Tensor ℝ, s.maxEnergyDim fsearch "batch" = .ok (.tensor m) ∧ m.shape = [B] ∧
      ∀ b, IsGreatest {e | ∃ c < C, e ∈ energiesAt ts b c} (m.get [b]) := by
  obtain ⟨c, h1, h2, -, -, h5⟩ := maxEnergyDim_core s tiles ts fsearch B C n ht hs hne hsh
  obtain ⟨o, o1, o2, o3⟩ := maxLast_ok c [B] C (by rw [h1]; rfl) hC
  refine ⟨o, by rw [h5, o1]; rfl, o2, ?_⟩
  intro b
  obtain ⟨⟨k, hk, hke⟩, hmax⟩ := o3 [b]
  constructor
  · refine ⟨k, hk, ?_⟩
    rw [hke]
    exact (h2 b k).1
  · rintro e ⟨k', hk', he⟩
    have := hmax ⟨k', hk', rfl⟩
    exact ((h2 b k').2 he).trans this

/-- **`dimension="both"`.**  One number: the largest energy of all. -/
theorem maxEnergyDim_all (s : Single) (tiles ts : List (Tensor ℝ)) (fsearch : Option (ℝ × ℝ)) (B C : ℕ) (n : ℕ → ℕ) (ht : s.tiles = some tiles)
    (hs : searchTiles s.freqs tiles fsearch = .ok ts) (hne : ts ≠ []) (hsh : ∀ i (hi : i < ts.length), ts[i].shape = [B, C, n i] ∧ 0 < n i) (hB : 0 < B) (hC : 0 < C) :
    ∃ m : ℝ, s.maxEnergyDim fsearch "both" = .ok (.scalar m) ∧ IsGreatest {e | ∃ b < B, ∃ c < C, e ∈ energiesAt ts b c} m := by
  obtain ⟨m, h1, ⟨t, htm, i, hi, hie⟩, h3⟩ := maxEnergy_spec s tiles ts fsearch ht hs hne (by
    intro t htm
    obtain ⟨i, hi, rfl⟩ := List.mem_iff_getElem.1 htm
    refine ⟨[0, 0, 0], ?_⟩
    rw [(hsh i hi).1]
    exact ⟨hB, hC, (hsh i hi).2, trivial⟩)
  refine ⟨m, by rw [maxEnergyDim_both, h1]; rfl, ?_, ?_⟩
  · obtain ⟨k, hk, rfl⟩ := List.mem_iff_getElem.1 htm
    rw [(hsh k hk).1] at hi
    match i, hi with
    | [b, c, u], ⟨hb, hc, hu, _⟩ => exact ⟨b, hb, c, hc, ts[k], htm, u, by rw [(hsh k hk).1]; exact hu, hie.symm⟩
  · rintro e ⟨b, hb, c, hc, t', htm', u, hu, rfl⟩
    obtain ⟨k, hk, rfl⟩ := List.mem_iff_getElem.1 htm'
    refine h3 _ htm' _ ?_
    rw [(hsh k hk).1] at hu ⊢
    exact ⟨hb, hc, hu, trivial⟩

/-- Non-vacuity: two rows of a batch of two with three channels. -/
example : ∃ m : Tensor ℝ, (⟨1, 1024, 12, 0.2, (8, 16), (20, 400), .bicubic, none, some [⟨[2, 3, 2], fun i => (i.getD 0 0 : ℝ)⟩, ⟨[2, 3, 4], fun i => (i.getD 1 0 : ℝ)⟩]⟩ : Single).maxEnergyDim none "channel"
    = .ok (.tensor m) ∧ m.shape = [3] := by
  obtain ⟨m, h1, h2, -⟩ := maxEnergyDim_channel
    (⟨1, 1024, 12, 0.2, (8, 16), (20, 400), .bicubic, none, some [⟨[2, 3, 2], fun i => (i.getD 0 0 : ℝ)⟩, ⟨[2, 3, 4], fun i => (i.getD 1 0 : ℝ)⟩]⟩ : Single)
    _ _ none 2 3 (fun i => if i = 0 then 2 else 4) rfl rfl (by simp) (by
      intro i hi
      have : i = 0 ∨ i = 1 := by simp at hi; omega
      rcases this with rfl | rfl <;> simp) (by norm_num)
  exact ⟨m, h1, h2⟩

/-- **C50 (empty search range).**  If no frequency of the transform lies in `(a, b]`, the search for the maximum energy is a ValueError. -/
theorem maxEnergy_empty (s : Single) (tiles : List (Tensor ℝ)) (ht : s.tiles = some tiles) (a b : ℝ) (hab : a ≤ b) (hno : ∀ f ∈ s.freqs, ¬ (a < f ∧ f ≤ b)) :
    s.maxEnergy (some (a, b)) = .error .value := by
  have e : argwhere (fun f => decide (a < f)) s.freqs = argwhere (fun f => decide (b < f)) s.freqs := by
    unfold argwhere
    refine List.filter_congr fun i hi => ?_
    have hi' : i < s.freqs.length := List.mem_range.1 hi
    have hm : s.freqs.getD i 0 ∈ s.freqs := by
      rw [List.getD_eq_getElem _ _ hi']
      exact List.getElem_mem _
    have := hno _ hm
    rw [decide_eq_decide]
    constructor
    · intro h
      by_contra hc
      exact this ⟨h, not_lt.1 hc⟩
    · exact fun h => lt_of_le_of_lt hab h
  unfold Single.maxEnergy
  rw [ht]
  simp only [searchTiles, e]
  cases hm : argwhere (fun f => decide (b < f)) s.freqs with
  | nil => rfl
  | cons k l =>
    simp only [minIdx, res_bind_ok]
    rw [List.drop_of_length_le (by simp)]
    rfl

/-- Non-vacuity: a search range of width zero. -/
example (s : Single) (tiles : List (Tensor ℝ)) (ht : s.tiles = some tiles) (a : ℝ) : s.maxEnergy (some (a, a)) = .error .value :=
  maxEnergy_empty s tiles ht a a le_rfl fun f _ h => absurd (lt_of_lt_of_le h.1 h.2) (lt_irrefl _)

end Verif.QTransform
