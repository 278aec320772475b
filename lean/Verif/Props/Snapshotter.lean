import Verif.Model.Snapshotter
import Verif.Spec.Stream
import Verif.Props.Unfold
/-!
# Properties of `Snapshotter` (C18, C19)
-/
set_option linter.unusedSimpArgs false
namespace Verif.Snapshotter
open Slicing Spec
variable {α : Type _}

theorem catLast_ok (a b : Tensor α) (C s u : Nat) (ha : a.shape = [C, s]) (hb : b.shape = [C, u]) :
    ∃ x, catLast a b = .ok x ∧ x.shape = [C, s + u] ∧ ∀ c, row2 x c = row2 a c ++ row2 b c := by
  unfold catLast
  rw [ha, hb]
  refine ⟨_, by simp; rfl, rfl, ?_⟩
  intro c
  simp only [row2, ha, hb, List.getD_cons_succ, List.getD_cons_zero]
  rw [List.range_add, List.map_append, List.map_map]
  congr 1
  · refine List.map_congr_left fun t ht => ?_
    simp at ht; simp [ht]
  · refine List.map_congr_left fun t ht => ?_
    simp

theorem lastCols_ok (x : Tensor α) (C n m : Nat) (hx : x.shape = [C, m + n]) (hn : 0 < n) :
    (lastCols x n).shape = [C, n] ∧ ∀ c, row2 (lastCols x n) c = (row2 x c).drop m := by
  have hlo : pySliceBound (m + n) (-(n:Int)) = m := by
    unfold pySliceBound
    rw [if_pos (by omega)]; omega
  have hs : (lastCols x n).shape = [C, n] := by
    simp [lastCols, hx, hlo]
  refine ⟨hs, ?_⟩
  intro c
  have h1 : row2 (lastCols x n) c = (List.range n).map fun t => x.get [c, m + t] := by
    simp [row2, lastCols, hx, hlo]
  have h2 : row2 x c = (List.range (m + n)).map fun t => x.get [c, t] := by
    simp [row2, hx]
  rw [h1, h2, List.range_add, List.map_append, List.drop_append_of_le_length (by simp),
    List.drop_of_length_le (by simp), List.nil_append, List.map_map]
  rfl

/-- The snapshots of one extended state of length `k*stride + state_size`. -/
theorem snapshots_ok [Zero α] (cfg : Config) (x : Tensor α) (C k : Nat) (hk : 0 < k)
    (hC : 0 < C) (hst : 0 < cfg.strideSize) (hlt : cfg.strideSize < cfg.snapshotSize)
    (hx : x.shape = [C, k * cfg.strideSize + stateSize cfg])
    (hb : cfg.batchSize ≤ 1 → k = 1) :
    ∃ y, snapshots cfg x = .ok y ∧ y.shape = [k, C, cfg.snapshotSize] ∧
      ∀ c < C, rows3 y c = windows (row2 x c) cfg.snapshotSize cfg.strideSize k := by
  have hT : k * cfg.strideSize + stateSize cfg = (k - 1) * cfg.strideSize + cfg.snapshotSize := by
    obtain ⟨m, rfl⟩ : ∃ m, k = m + 1 := ⟨k - 1, by omega⟩
    unfold stateSize
    rw [Nat.succ_mul]; simp; omega
  have hwin : ∀ (y : Tensor α), y.shape = [k, C, cfg.snapshotSize] →
      (∀ w c t, w < k → c < C → t < cfg.snapshotSize → y.get [w, c, t] = x.get [c, w * cfg.strideSize + t]) →
      ∀ c < C, rows3 y c = windows (row2 x c) cfg.snapshotSize cfg.strideSize k := by
    intro y hys hyg c hc
    simp only [rows3, windows, hys, List.getD_cons_zero]
    refine List.map_congr_left fun w hw => ?_
    have hw' : w < k := by simpa using hw
    have hwl : w * cfg.strideSize ≤ (k - 1) * cfg.strideSize := Nat.mul_le_mul_right _ (by omega)
    apply List.ext_getElem
    · simp only [row3, row2, hys, hx, List.length_map, List.length_range, List.length_take,
        List.length_drop, List.getD_cons_succ, List.getD_cons_zero]
      omega
    · intro t h1 h2
      have ht : t < cfg.snapshotSize := by
        simpa [row3, hys] using h1
      simp [row3, row2, hyg w c t hw' hc ht]
  by_cases hbs : 1 < cfg.batchSize
  · obtain ⟨y, rem, hy, hys, hyg, -⟩ := unfold_windows_correct x [C]
      (k * cfg.strideSize + stateSize cfg) cfg.snapshotSize cfg.strideSize true hx (by simp)
      (by simpa using hC) (by omega) hst (by rw [hT]; omega)
    have hnw : (k * cfg.strideSize + stateSize cfg - cfg.snapshotSize) / cfg.strideSize + 1 = k := by
      rw [hT, Nat.add_sub_cancel, Nat.mul_div_cancel _ hst]; omega
    rw [hnw] at hys hyg
    refine ⟨y, ?_, by simpa using hys, hwin y (by simpa using hys) ?_⟩
    · simp only [snapshots, hbs, if_true, hy, res_bind_ok]
    · intro w c t hw hc ht
      have := hyg w [c] t hw ⟨hc, trivial⟩ ht
      simpa using this
  · have hk1 := hb (by omega)
    subst hk1
    have hss : (1 * cfg.strideSize + stateSize cfg) = cfg.snapshotSize := by
      unfold stateSize; omega
    refine ⟨x.unsqueeze0, by simp [snapshots, hbs], by simp [Tensor.unsqueeze0, hx, stateSize]; omega,
      hwin _ (by simp [Tensor.unsqueeze0, hx, stateSize]; omega) ?_⟩
    intro w c t hw hc ht
    have : w = 0 := by omega
    subst this
    simp [Tensor.unsqueeze0]

/-- One call, from any state. -/
theorem forward_ok [Zero α] (cfg : Config) (u st : Tensor α) (k : Nat) (hk : 0 < k)
    (hg : cfg.channelsPerSnapshot = none)
    (hC : 0 < cfg.numChannels) (hst : 0 < cfg.strideSize) (hlt : cfg.strideSize < cfg.snapshotSize)
    (hs : st.shape = [cfg.numChannels, stateSize cfg])
    (hu : u.shape = [cfg.numChannels, k * cfg.strideSize]) (hb : cfg.batchSize ≤ 1 → k = 1) :
    ∃ y st', forward cfg u (some st) = .ok ([y], st') ∧
      y.shape = [k, cfg.numChannels, cfg.snapshotSize] ∧
      st'.shape = [cfg.numChannels, stateSize cfg] ∧
      ∀ c < cfg.numChannels,
        rows3 y c = windows (row2 st c ++ row2 u c) cfg.snapshotSize cfg.strideSize k ∧
        row2 st' c = (row2 st c ++ row2 u c).drop (k * cfg.strideSize) := by
  obtain ⟨x, hx, hxs, hxr⟩ := catLast_ok st u _ _ _ hs hu
  rw [Nat.add_comm] at hxs
  obtain ⟨y, hy, hys, hyr⟩ := snapshots_ok cfg x _ k hk hC hst hlt hxs hb
  have hS : 0 < stateSize cfg := by unfold stateSize; omega
  obtain ⟨hl1, hl2⟩ := lastCols_ok x _ _ _ hxs hS
  refine ⟨y, lastCols x (stateSize cfg), ?_, hys, hl1, ?_⟩
  · simp only [forward, Option.getD_some, hx, hy, groups, hg, res_bind_ok]
  · intro c hc
    exact ⟨by rw [hyr c hc, hxr], by rw [hl2, hxr]⟩

theorem windows_append (z : List α) (K stride k m : Nat) :
    windows z K stride (k + m) = windows z K stride k ++ windows (z.drop (k * stride)) K stride m := by
  simp only [windows]
  rw [List.range_add, List.map_append, List.map_map]
  congr 1
  refine List.map_congr_left fun w _ => ?_
  simp only [Function.comp_apply, List.drop_drop]
  congr 2; rw [Nat.add_mul]

theorem windows_congr (z z' : List α) (K stride k : Nat)
    (h : ∀ w < k, w * stride + K ≤ z.length) :
    windows (z ++ z') K stride k = windows z K stride k := by
  simp only [windows]
  refine List.map_congr_left fun w hw => ?_
  have := h w (by simpa using hw)
  rw [List.drop_append_of_le_length (by omega), List.take_append_of_le_length (by simp; omega)]

theorem run_aux [Zero α] (cfg : Config) (hg : cfg.channelsPerSnapshot = none)
    (hC : 0 < cfg.numChannels) (hst : 0 < cfg.strideSize) (hlt : cfg.strideSize < cfg.snapshotSize)
    (us : List (Tensor α)) (ks : List Nat) :
    ∀ st : Tensor α, st.shape = [cfg.numChannels, stateSize cfg] →
    List.Forall₂ (fun (u : Tensor α) k => 0 < k ∧ u.shape = [cfg.numChannels, k * cfg.strideSize] ∧
      (cfg.batchSize ≤ 1 → k = 1)) us ks →
    ∃ outs fin, run cfg (some st) us = .ok (outs.map fun y => [y], some fin) ∧
      fin.shape = [cfg.numChannels, stateSize cfg] ∧
      List.Forall₂ (fun (y : Tensor α) k => y.shape = [k, cfg.numChannels, cfg.snapshotSize]) outs ks ∧
      ∀ c < cfg.numChannels,
        outs.flatMap (rows3 · c) =
          windows (row2 st c ++ stream us c) cfg.snapshotSize cfg.strideSize ks.sum ∧
        row2 fin c = (row2 st c ++ stream us c).drop (ks.sum * cfg.strideSize) := by
  intro st hs h
  induction h generalizing st with
  | nil =>
    refine ⟨[], st, rfl, hs, .nil, ?_⟩
    intro c _
    simp [windows, stream]
  | @cons u k us ks hu _ ih =>
    obtain ⟨hk, hus, hb⟩ := hu
    obtain ⟨y, st', hf, hys, hs', hr⟩ := forward_ok cfg u st k hk hg hC hst hlt hs hus hb
    obtain ⟨outs, fin, hrun, hfin, hsh, hrest⟩ := ih st' hs'
    refine ⟨y :: outs, fin, ?_, hfin, .cons hys hsh, ?_⟩
    · simp only [run, hf, res_bind_ok, hrun, List.map_cons]
    · intro c hc
      obtain ⟨h1, h2⟩ := hr c hc
      obtain ⟨h3, h4⟩ := hrest c hc
      have hlen : (row2 st c ++ row2 u c).length = k * cfg.strideSize + stateSize cfg := by
        simp [row2, hs, hus]; omega
      have hdrop : row2 st' c ++ stream us c =
          (row2 st c ++ stream (u :: us) c).drop (k * cfg.strideSize) := by
        rw [h2]
        simp only [stream, List.flatMap_cons]
        rw [← List.append_assoc, List.drop_append_of_le_length (l₁ := row2 st c ++ row2 u c)
          (by rw [hlen]; omega)]
      constructor
      · rw [List.flatMap_cons, h1, h3, List.sum_cons, windows_append, hdrop]
        congr 1
        simp only [stream, List.flatMap_cons]
        rw [← List.append_assoc]
        refine (windows_congr _ _ _ _ _ ?_).symm
        intro w hw
        rw [hlen]
        have : (w + 1) * cfg.strideSize ≤ k * cfg.strideSize := Nat.mul_le_mul_right _ (by omega)
        rw [Nat.add_mul] at this
        unfold stateSize; omega
      · rw [h4, hdrop, List.drop_drop, List.sum_cons, Nat.add_mul]

/-- **C18.**  Feed any list of updates, update `j` having `ks[j] * stride` samples (`ks[j]` arbitrary
when `batch_size > 1`, one stride when `batch_size = 1`), passing each returned state to the next call.
Let `z` be, per channel, `state_size` zeros followed by the concatenated updates.  Then every call
succeeds; the windows emitted over all calls are, in order, exactly the windows of `z` of length
`snapshot_size` at spacing `stride`; and the final state is the last `state_size` samples of `z`.
In particular the emitted windows do not depend on how the stream was cut into updates. -/
theorem snapshotter_stream [Zero α] (cfg : Config) (us : List (Tensor α)) (ks : List Nat)
    (hg : cfg.channelsPerSnapshot = none) (hi : init cfg = .ok ())
    (hC : 0 < cfg.numChannels) (hst : 0 < cfg.strideSize) (hne : us ≠ [])
    (hus : List.Forall₂ (fun (u : Tensor α) k => 0 < k ∧
      u.shape = [cfg.numChannels, k * cfg.strideSize] ∧ (cfg.batchSize ≤ 1 → k = 1)) us ks) :
    ∃ outs fin, run cfg none us = .ok (outs.map fun y => [y], some fin) ∧
      List.Forall₂ (fun (y : Tensor α) k => y.shape = [k, cfg.numChannels, cfg.snapshotSize]) outs ks ∧
      ∀ c < cfg.numChannels,
        outs.flatMap (rows3 · c) = windows
          (List.replicate (cfg.snapshotSize - cfg.strideSize) 0 ++ stream us c)
          cfg.snapshotSize cfg.strideSize ks.sum ∧
        row2 fin c = (List.replicate (cfg.snapshotSize - cfg.strideSize) 0 ++ stream us c).drop
          (ks.sum * cfg.strideSize) ∧
        (row2 fin c).length = cfg.snapshotSize - cfg.strideSize := by
  have hlt : cfg.strideSize < cfg.snapshotSize := by
    by_contra h
    simp [init, Nat.le_of_not_lt h] at hi
  obtain ⟨outs, fin, hrun, hfin, hsh, hr⟩ := run_aux cfg hg hC hst hlt us ks (initialState cfg) rfl hus
  have hz : ∀ c, row2 (initialState cfg : Tensor α) c =
      List.replicate (cfg.snapshotSize - cfg.strideSize) 0 := by
    intro c
    simp [row2, initialState, Tensor.zeros, stateSize, List.map_const']
  refine ⟨outs, fin, ?_, hsh, ?_⟩
  · match us, hne with
    | u :: us, _ =>
      rw [← hrun]
      simp only [run, forward, Option.getD_none, Option.getD_some]
  · intro c hc
    have := hr c hc
    rw [hz] at this
    exact ⟨this.1, this.2, by simp [row2, hfin, stateSize]⟩

def exCfg : Config where
  numChannels := 1
  snapshotSize := 5
  strideSize := 2
  batchSize := 2

/-- Two calls with 2 and 1 strides: the windows of `0 0 0 10 11 12 13 20 21`. -/
example : ∃ (outs : List (Tensor Nat)) (fin : Tensor Nat), run exCfg none
      [(⟨[1, 4], fun i => 10 + i.getD 1 0⟩ : Tensor Nat), ⟨[1, 2], fun i => 20 + i.getD 1 0⟩]
      = .ok (outs.map fun y => [y], some fin) ∧
    outs.flatMap (rows3 · 0) = [[0, 0, 0, 10, 11], [0, 10, 11, 12, 13], [11, 12, 13, 20, 21]] ∧
    row2 fin 0 = [13, 20, 21] := by
  obtain ⟨outs, fin, h, -, hr⟩ := snapshotter_stream exCfg
    [(⟨[1, 4], fun i => 10 + i.getD 1 0⟩ : Tensor Nat), ⟨[1, 2], fun i => 20 + i.getD 1 0⟩] [2, 1]
    rfl rfl (by decide) (by decide) (by simp)
    (.cons ⟨by decide, rfl, by decide⟩ (.cons ⟨by decide, rfl, by decide⟩ .nil))
  exact ⟨outs, fin, h, (hr 0 (by decide)).1, (hr 0 (by decide)).2.1⟩

/-- **C19.**  With `channels_per_snapshot = cs` a call returns, for the same arguments, the tensors
obtained by cutting the channels of the single tensor returned without it into consecutive groups
of sizes `cs`, and the same state. -/
theorem snapshotter_groups [Zero α] (cfg : Config) (cs : List Nat) (u y st' : Tensor α)
    (st : Option (Tensor α)) (B T : Nat) (hcs : cfg.channelsPerSnapshot = some cs)
    (hi : init cfg = .ok ()) (hys : y.shape = [B, cfg.numChannels, T])
    (h : forward { cfg with channelsPerSnapshot := none } u st = .ok ([y], st')) :
    ∃ ys, forward cfg u st = .ok (ys, st') ∧
      ys.map (·.shape) = cs.map (fun c => [B, c, T]) ∧
      ∀ g (hg : g < cs.length), ∀ b c t, c < cs[g] →
        (ys.getD g y).get [b, c, t] = y.get [b, (cs.take g).sum + c, t] := by
  have hsum : cs.sum = cfg.numChannels := by
    by_contra hne
    simp only [init, hcs] at hi
    split at hi
    · simp at hi
    · simp [hne] at hi
  have hsplit : ∀ (cs : List Nat) (off : Nat),
      (splitChannels y off cs).map (·.shape) = cs.map (fun c => [B, c, T]) ∧
      ∀ g (hg : g < cs.length), ∀ b c t, c < cs[g] →
        ((splitChannels y off cs).getD g y).get [b, c, t] = y.get [b, off + (cs.take g).sum + c, t] := by
    intro cs
    induction cs with
    | nil => intro off; simp [splitChannels]
    | cons a cs ih =>
      intro off
      obtain ⟨h1, h2⟩ := ih (off + a)
      refine ⟨by simp [splitChannels, h1, hys], ?_⟩
      intro g hg b c t hc
      cases g with
      | zero => simp [splitChannels]
      | succ g =>
        have := h2 g (by simpa using hg) b c t (by simpa using hc)
        simp only [splitChannels, List.getD_cons_succ, this, List.take_succ_cons, List.sum_cons]
        congr 3; omega
  refine ⟨splitChannels y 0 cs, ?_, (hsplit cs 0).1, ?_⟩
  · have hinit' : (initialState { cfg with channelsPerSnapshot := none } : Tensor α) = initialState cfg := rfl
    unfold forward at h ⊢
    rw [hinit'] at h
    dsimp only at h ⊢
    cases hcat : catLast (st.getD (initialState cfg)) u with
    | error e => rw [hcat] at h; simp at h
    | ok x =>
      rw [hcat] at h
      simp only [res_bind_ok] at h ⊢
      have hsn : snapshots { cfg with channelsPerSnapshot := none } x = snapshots cfg x := rfl
      rw [hsn] at h
      cases hsnap : snapshots cfg x with
      | error e => rw [hsnap] at h; simp at h
      | ok y' =>
        rw [hsnap] at h
        simp only [res_bind_ok, groups, Except.ok.injEq, Prod.mk.injEq, List.cons.injEq, and_true] at h
        obtain ⟨rfl, rfl⟩ := h
        have hc : y'.shape.getD 1 0 = cfg.numChannels := by simp [hys]
        have hgr : groups cfg y' = .ok (splitChannels y' 0 cs) := by
          unfold groups
          rw [hcs]
          simp only [hc, hsum, ne_eq, not_true_eq_false, if_false]
        simp only [res_bind_ok, hgr]
        rfl
  · intro g hg b c t hc
    simpa using (hsplit cs 0).2 g hg b c t hc

/-- Three channels split into groups of 1 and 2. -/
example : ∃ (ys : List (Tensor Nat)) (st' : Tensor Nat), forward { exCfg with numChannels := 3, channelsPerSnapshot := some [1, 2] }
      (⟨[3, 4], ravel [3, 4]⟩ : Tensor Nat) none = .ok (ys, st') ∧
    ys.map (·.shape) = [[2, 1, 5], [2, 2, 5]] := by
  obtain ⟨ys, h, hs, -⟩ := snapshotter_groups
    { exCfg with numChannels := 3, channelsPerSnapshot := some [1, 2] } [1, 2]
    (⟨[3, 4], ravel [3, 4]⟩ : Tensor Nat) _ _ none 2 5 rfl rfl rfl rfl
  exact ⟨ys, _, h, hs⟩

/-- **C19 (rejections).**  The constructor raises ValueError exactly when the stride is not smaller than
the snapshot or the group sizes do not sum to the number of channels. -/
theorem snapshotter_init_iff (cfg : Config) :
    init cfg = .error .value ↔ cfg.snapshotSize ≤ cfg.strideSize ∨
      ∃ cs, cfg.channelsPerSnapshot = some cs ∧ cs.sum ≠ cfg.numChannels := by
  unfold init
  by_cases h : cfg.snapshotSize ≤ cfg.strideSize
  · simp [h]
  · simp only [h, if_false, false_or]
    cases hc : cfg.channelsPerSnapshot with
    | none => simp
    | some cs =>
      by_cases hs : cs.sum = cfg.numChannels <;> simp [hs]

example : init { exCfg with strideSize := 5 } = .error .value ∧
    init { exCfg with channelsPerSnapshot := some [2] } = .error .value :=
  ⟨(snapshotter_init_iff _).2 (Or.inl (by decide)),
   (snapshotter_init_iff _).2 (Or.inr ⟨[2], rfl, by decide⟩)⟩

/-- The hypothesis of C18 for `batch_size = 1` is needed: an update of two strides is accepted but
returned as one over-long snapshot. -/
theorem snapshotter_batch1_long_update :
    ∃ (y st' : Tensor Nat), forward { exCfg with batchSize := 1 } (⟨[1, 4], fun i => i.getD 1 0⟩ : Tensor Nat) none
      = .ok ([y], st') ∧ y.shape = [1, 1, 7] := ⟨_, _, rfl, rfl⟩

end Verif.Snapshotter
