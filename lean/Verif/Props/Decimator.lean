import Verif.Model.Decimator
import Verif.Spec.Decimator
import Verif.Lemmas.Unfold
import Verif.Lemmas.Chunk
import Mathlib.Data.List.GetD
import Mathlib.Data.List.Forall2
import Mathlib.Data.Nat.Cast.Order.Ring
import Mathlib.Tactic.Ring
import Mathlib.Tactic.Linarith
import Mathlib.Tactic.Zify
/-!
# Properties of `Decimator` (C39, C40)
-/
set_option linter.unusedSimpArgs false
set_option linter.unusedVariables false
namespace Verif.Decimator
open Spec.Decimator

/-- The schedule tensor of a list of entries. -/
def schedOf (l : List Seg) : Tensor Int :=
  ⟨[l.length, 3], fun i => match l[i.headD 0]?, i.getD 1 0 with
    | some s, 0 => s.start
    | some s, 1 => s.stop
    | some s, _ => s.rate
    | none, _ => 0⟩

/-- The row of an entry. -/
def toRow (s : Seg) : Row := ⟨s.start, s.stop, s.rate⟩

theorem rowsOf_sched (l : List Seg) : rowsOf (schedOf l) = l.map toRow := by
  apply List.ext_getElem
  · simp [rowsOf, schedOf]
  · intro i h1 h2
    have hi : i < l.length := by simpa using h2
    simp [rowsOf, schedOf, toRow, hi]

theorem arangeI_ok (a b : Int) (n q : Nat) (hq : 0 < q) (h : b = a + n * q) :
    arangeI a b q = .ok ((List.range n).map fun (k : Nat) => a + q * (k : Int)) := by
  subst h
  unfold arangeI
  have hq' : (0 : Int) < q := by omega
  have hn : (0 : Int) ≤ n * q := by positivity
  rw [if_neg (by omega), if_neg (by omega)]
  have : (a - (a + n * q)).fdiv (q : Int) = -(n : Int) := by
    rw [show a - (a + n * q) = (-(n : Int)) * q by ring, Int.mul_fdiv_cancel _ (by omega)]
  rw [this]
  simp

theorem rate_div (sr : Nat) (s : Seg) (h : s.Ok sr) (hsr : 0 < sr) :
    Int.fdiv (sr : Int) (s.rate : Int) = ((sr / s.rate : Nat) : Int) ∧ 0 < sr / s.rate ∧ sr = s.rate * (sr / s.rate) := by
  obtain ⟨-, h2, q, rfl⟩ := h
  have e : s.rate * q / s.rate = q := Nat.mul_div_cancel_left _ h2
  rw [e]
  refine ⟨?_, ?_, rfl⟩
  · push_cast
    rw [mul_comm, Int.mul_fdiv_cancel _ (by omega)]
  · rcases Nat.eq_zero_or_pos q with rfl | h
    · simp at hsr
    · exact h

theorem arange_seg (sr : Nat) (s : Seg) (h : s.Ok sr) (hsr : 0 < sr) :
    arangeI ((s.start : Int) * sr) ((s.start : Int) * sr + ((s.stop : Int) - s.start) * sr) (Int.fdiv sr s.rate) =
      .ok ((kept sr s).map fun (k : Nat) => (k : Int)) := by
  obtain ⟨h1, h2, h3⟩ := rate_div sr s h hsr
  rw [h1, arangeI_ok _ _ ((s.stop - s.start) * s.rate) (sr / s.rate) h2]
  · unfold kept
    rw [List.map_map]
    congr 1
    refine List.map_congr_left fun k _ => ?_
    simp only [Function.comp]
    push_cast
    ring
  · have h4 : s.start ≤ s.stop := h.1.le
    have : ((sr : Nat) : Int) = (s.rate : Int) * ((sr / s.rate : Nat) : Int) := by exact_mod_cast h3
    rw [Nat.cast_mul, Nat.cast_sub h4]
    conv_lhs => rw [this]
    conv_rhs => rw [show ((s.start : Int)) * (sr : Int) = s.start * ((s.rate : Int) * ((sr / s.rate : Nat) : Int)) by rw [← this]]
    ring

theorem nextStart_kept (sr : Nat) (s : Seg) (h : s.Ok sr) (hsr : 0 < sr) (h2 : 2 ≤ (s.stop - s.start) * s.rate) (idx : List Int) :
    nextStart (idx ++ (kept sr s).map fun (k : Nat) => (k : Int)) = .ok ((s.stop : Int) * sr) := by
  obtain ⟨-, hq, h3⟩ := rate_div sr s h hsr
  obtain ⟨m, hm⟩ : ∃ m, (s.stop - s.start) * s.rate = m + 2 := ⟨_, (Nat.sub_add_cancel h2).symm⟩
  have : kept sr s = ((List.range m).map fun k => s.start * sr + k * (sr / s.rate)) ++
      [s.start * sr + m * (sr / s.rate), s.start * sr + (m + 1) * (sr / s.rate)] := by
    unfold kept
    rw [hm, List.range_succ, List.range_succ]
    simp
  rw [this]
  unfold nextStart
  simp only [List.map_append, List.map_cons, List.map_nil, List.reverse_append, List.reverse_cons, List.reverse_nil,
    List.nil_append, List.cons_append]
  congr 1
  have h4 : s.start ≤ s.stop := h.1.le
  have h5 : (s.stop : Int) * sr = s.start * sr + (m + 2) * ((sr / s.rate : Nat) : Int) := by
    have e1 : ((s.stop : Int) - s.start) * s.rate = m + 2 := by
      have := congrArg (Nat.cast : Nat → Int) hm
      rw [Nat.cast_mul, Nat.cast_sub h4] at this
      exact_mod_cast this
    rw [← e1]
    have : ((sr : Nat) : Int) = (s.rate : Int) * ((sr / s.rate : Nat) : Int) := by exact_mod_cast h3
    conv_lhs => rw [this]
    conv_rhs => rw [show ((s.start : Int)) * (sr : Int) = s.start * ((s.rate : Int) * ((sr / s.rate : Nat) : Int)) by rw [← this]]
    ring
  rw [h5]
  push_cast
  ring

theorem build_ok (sr : Nat) (hsr : 0 < sr) (l : List Seg) : ∀ (t : Nat) (idx : List Int), Contiguous t l → (∀ s ∈ l, s.Ok sr) →
    (∀ s ∈ l.dropLast, 2 ≤ (s.stop - s.start) * s.rate) → (idx = [] ∨ idx ≠ [] ∧ nextStart idx = .ok ((t : Int) * sr)) →
    (l.map toRow).foldlM (buildStep sr) idx = .ok (idx ++ (l.flatMap (kept sr)).map fun (k : Nat) => (k : Int)) := by
  induction l with
  | nil => intro t idx _ _ _ _; simp [List.foldlM, pure, Except.pure]
  | cons s l ih =>
    intro t idx hc hok h2 hidx
    have hs := hok s (by simp)
    have hstart : segStart sr idx (toRow s) = .ok ((s.start : Int) * sr) := by
      unfold segStart
      rcases hidx with rfl | ⟨hne, hn⟩
      · simp [toRow]
      · rw [if_neg (by simpa using hne), hn, hc.1]
    have hstep : buildStep sr idx (toRow s) = .ok (idx ++ (kept sr s).map fun (k : Nat) => (k : Int)) := by
      unfold buildStep
      simp only [hstart, res_bind_ok]
      have := arange_seg sr s hs hsr
      simp only [toRow]
      rw [this]
      rfl
    rw [List.map_cons, List.foldlM_cons, hstep]
    simp only [res_bind_ok]
    cases l with
    | nil => simp [List.foldlM, pure, Except.pure]
    | cons s' l =>
      have h2s : 2 ≤ (s.stop - s.start) * s.rate := h2 s (by simp)
      rw [ih s.stop _ hc.2 (fun x hx => hok x (by simp [hx])) (fun x hx => h2 x (by simp [hx]))
        (Or.inr ⟨?_, nextStart_kept sr s hs hsr h2s idx⟩)]
      · simp [List.flatMap_cons]
      · have : kept sr s ≠ [] := by
          intro h0
          have := congrArg List.length h0
          simp only [kept, List.length_map, List.length_range, List.length_nil] at this
          omega
        simp [this]

theorem overlap_contiguous (l : List Seg) : ∀ t, Contiguous t l → adjacentOverlap (l.map toRow) = false := by
  induction l with
  | nil => intro t _; rfl
  | cons a l ih =>
    intro t h
    cases l with
    | nil => rfl
    | cons b l =>
      have := ih a.stop h.2
      have e : b.start = a.stop := h.2.1
      simp only [List.map_cons, adjacentOverlap] at this ⊢
      rw [this]
      simp [toRow, e]

theorem validate_ok (sr : Nat) (l : List Seg) (split : Bool) (hok : ∀ s ∈ l, s.Ok sr)
    (h : split = false → adjacentOverlap (l.map toRow) = false) : validate sr (schedOf l) split = .ok () := by
  unfold validate
  rw [rowsOf_sched]
  rw [if_neg (by simp [schedOf]), if_neg, if_neg, if_neg, if_neg]
  · rintro ⟨h1, h2⟩; rw [h h1] at h2; cases h2
  · simp only [List.any_map, List.any_eq_true, not_exists, not_and, Function.comp, decide_eq_true_eq, not_not]
    intro s hs
    obtain ⟨-, h2, q, hq⟩ := hok s hs
    simp [toRow, hq, Int.mul_fmod_right]
  · simp only [List.any_map, List.any_eq_true, not_exists, not_and, Function.comp, decide_eq_true_eq]
    intro s hs
    have := (hok s hs).2.1
    simp [toRow]; omega
  · simp only [List.any_map, List.any_eq_true, not_exists, not_and, Function.comp, decide_eq_true_eq]
    intro s hs
    have := (hok s hs).1
    simp [toRow]; omega

/-- The last end of a contiguous schedule. -/
theorem contiguous_le (l : List Seg) : ∀ (t sr : Nat), Contiguous t l → (∀ s ∈ l, s.Ok sr) → ∀ s ∈ l, t ≤ s.start ∧
    s.stop ≤ (l.getLast?.map (·.stop)).getD t := by
  induction l with
  | nil => simp
  | cons a l ih =>
    intro t sr hc hok s hs
    have ha := (hok a (by simp)).1
    have e : ((a :: l).getLast?.map (·.stop)).getD t = (l.getLast?.map (·.stop)).getD a.stop := by
      cases l with
      | nil => rfl
      | cons b l => simp [List.getLast?_cons_cons, List.getLast?_eq_getLast_of_ne_nil]
    rw [e]
    have base : a.stop ≤ (l.getLast?.map (·.stop)).getD a.stop := by
      cases l with
      | nil => simp
      | cons b l =>
        have := ih a.stop sr hc.2 (fun x hx => hok x (by simp [hx])) b (by simp)
        have hb := (hok b (by simp)).1
        omega
    rcases List.mem_cons.1 hs with rfl | hs
    · exact ⟨by rw [hc.1], base⟩
    · have := ih a.stop sr hc.2 (fun x hx => hok x (by simp [hx])) s hs
      refine ⟨?_, this.2⟩
      have := hc.1
      omega

theorem kept_lt (sr : Nat) (s : Seg) (hsr : 0 < sr) (h : s.Ok sr) (k : Nat) (hk : k ∈ kept sr s) :
    s.start * sr ≤ k ∧ k < s.stop * sr := by
  obtain ⟨-, hq, h3⟩ := rate_div sr s h hsr
  unfold kept at hk
  obtain ⟨j, hj, rfl⟩ := List.mem_map.1 hk
  have hj' : j < (s.stop - s.start) * s.rate := by simpa using hj
  refine ⟨by omega, ?_⟩
  have h1 : j * (sr / s.rate) < (s.stop - s.start) * s.rate * (sr / s.rate) := Nat.mul_lt_mul_of_pos_right hj' hq
  rw [mul_assoc, ← h3, Nat.sub_mul] at h1
  have : s.start * sr ≤ s.stop * sr := Nat.mul_le_mul_right _ h.1.le
  omega

theorem indexSelect_ok {α : Type} (x : Tensor α) (lead : List Nat) (n : Nat) (ks : List Nat) (hx : x.shape = lead ++ [n])
    (hk : ∀ k ∈ ks, k < n) :
    ∃ y, indexSelect x (ks.map fun (k : Nat) => (k : Int)) = .ok y ∧ y.shape = lead ++ [ks.length] ∧
      ∀ i, i.length = lead.length → ∀ k, (h : k < ks.length) → y.get (i ++ [k]) = x.get (i ++ [ks[k]]) := by
  unfold indexSelect
  simp only [Slicing.lastDim_append x lead n hx, res_bind_ok]
  rw [if_pos]
  · refine ⟨_, rfl, ?_, ?_⟩
    · rw [hx]; simp [Slicing.mapLast_append]
    · intro i hi k h
      dsimp only
      rw [Slicing.mapLast_append, List.getD_eq_getElem _ _ (by simpa using h)]
      simp
  · simp only [List.all_map, List.all_eq_true, Function.comp, decide_eq_true_eq]
    intro k hkm
    have := hk k hkm
    omega

/-- The duration of a schedule. -/
def endTime (l : List Seg) : Nat := (l.getLast?.map (·.stop)).getD 0

theorem init_ok (sr : Nat) (hsr : 0 < sr) (l : List Seg) (split : Bool) (hne : l ≠ []) (hc : Contiguous 0 l) (hok : ∀ s ∈ l, s.Ok sr)
    (h2 : ∀ s ∈ l.dropLast, 2 ≤ (s.stop - s.start) * s.rate) :
    init sr (schedOf l) split = .ok ⟨sr, l.map toRow, split, (l.flatMap (kept sr)).map fun (k : Nat) => (k : Int), (endTime l : Int) * sr⟩ := by
  unfold init
  rw [validate_ok sr l split hok (fun _ => overlap_contiguous l 0 hc)]
  simp only [res_bind_ok]
  rw [rowsOf_sched]
  have hb : buildIndices sr (l.map toRow) = .ok ((l.flatMap (kept sr)).map fun (k : Nat) => (k : Int)) := by
    unfold buildIndices
    rw [build_ok sr hsr l 0 [] hc hok h2 (Or.inl rfl)]
    simp
  simp only [hb, res_bind_ok]
  cases l with
  | nil => exact absurd rfl hne
  | cons a l =>
    have h0 : a.start = 0 := hc.1
    rw [List.getLast?_map, List.getLast?_eq_getLast_of_ne_nil (by simp : a :: l ≠ [])]
    simp [endTime, toRow, h0, List.getLast?_eq_getLast_of_ne_nil]

/-- **C39 (`split=False`).**  For a contiguous schedule beginning at 0, with admissible rates, in which every
segment but the last keeps at least two samples: the module accepts exactly the series of the scheduled duration
and returns the kept samples of the segments one after the other. -/
theorem decimator_concat_partial {α : Type} (sr : Nat) (hsr : 0 < sr) (l : List Seg) (hne : l ≠ []) (hc : Contiguous 0 l) (hok : ∀ s ∈ l, s.Ok sr)
    (h2 : ∀ s ∈ l.dropLast, 2 ≤ (s.stop - s.start) * s.rate) (x : Tensor α) (lead : List Nat)
    (hx : x.shape = lead ++ [endTime l * sr]) :
    ∃ st y, init sr (schedOf l) false = .ok st ∧ forward st x = .ok (.one y) ∧
      y.shape = lead ++ [(l.flatMap (kept sr)).length] ∧
      ∀ i, i.length = lead.length → ∀ k, (h : k < (l.flatMap (kept sr)).length) →
        y.get (i ++ [k]) = x.get (i ++ [(l.flatMap (kept sr))[k]]) := by
  have hk : ∀ k ∈ l.flatMap (kept sr), k < endTime l * sr := by
    intro k hk
    obtain ⟨s, hs, hks⟩ := List.mem_flatMap.1 hk
    have h1 := (kept_lt sr s hsr (hok s hs) k hks).2
    have h3 := (contiguous_le l 0 sr hc hok s hs).2
    have : s.stop * sr ≤ endTime l * sr := Nat.mul_le_mul_right _ h3
    omega
  obtain ⟨y, y1, y2, y3⟩ := indexSelect_ok x lead _ _ hx hk
  refine ⟨_, y, init_ok sr hsr l false hne hc hok h2, ?_, y2, y3⟩
  unfold forward
  simp only [Slicing.lastDim_append x lead _ hx, res_bind_ok, y1]
  simp

/-- **C39 (`split=True`).**  For the same schedules the split module returns one tensor per segment, with the
samples kept from that segment. -/
theorem decimator_split_partial {α : Type} (sr : Nat) (hsr : 0 < sr) (l : List Seg) (hne : l ≠ []) (hc : Contiguous 0 l) (hok : ∀ s ∈ l, s.Ok sr)
    (h2 : ∀ s ∈ l.dropLast, 2 ≤ (s.stop - s.start) * s.rate) (x : Tensor α) (lead : List Nat)
    (hx : x.shape = lead ++ [endTime l * sr]) :
    ∃ st ys, init sr (schedOf l) true = .ok st ∧ forward st x = .ok (.list ys) ∧
      List.Forall₂ (fun s y => y.shape = lead ++ [(s.stop - s.start) * s.rate] ∧
        ∀ i, i.length = lead.length → ∀ k, k < (s.stop - s.start) * s.rate →
          y.get (i ++ [k]) = x.get (i ++ [s.start * sr + k * (sr / s.rate)])) l ys := by
  have hseg : ∀ s ∈ l, ∃ y, segment (sr : Int) x (toRow s) = .ok y ∧ (y.shape = lead ++ [(s.stop - s.start) * s.rate] ∧
        ∀ i, i.length = lead.length → ∀ k, k < (s.stop - s.start) * s.rate →
          y.get (i ++ [k]) = x.get (i ++ [s.start * sr + k * (sr / s.rate)])) := by
    intro s hs
    have hk : ∀ k ∈ kept sr s, k < endTime l * sr := by
      intro k hks
      have h1 := (kept_lt sr s hsr (hok s hs) k hks).2
      have h3 := (contiguous_le l 0 sr hc hok s hs).2
      have : s.stop * sr ≤ endTime l * sr := Nat.mul_le_mul_right _ h3
      omega
    obtain ⟨y, y1, y2, y3⟩ := indexSelect_ok x lead _ _ hx hk
    have hl : (kept sr s).length = (s.stop - s.start) * s.rate := by simp [kept]
    refine ⟨y, ?_, by rw [y2, hl], ?_⟩
    · unfold segment
      have := arange_seg sr s (hok s hs) hsr
      rw [show ((s.start : Int) * sr + ((s.stop : Int) - s.start) * sr) = (s.stop : Int) * sr by ring] at this
      simp only [toRow]
      rw [this]
      exact y1
    · intro i hi k hk'
      rw [y3 i hi k (by rw [hl]; exact hk')]
      simp [kept]
  obtain ⟨ys, h1, h3⟩ := mapM_ok_exists (fun s => segment (sr : Int) x (toRow s)) _ l hseg
  refine ⟨_, ys, init_ok sr hsr l true hne hc hok h2, ?_, h3⟩
  have hm : (l.map toRow).mapM (segment (sr : Int) x) = .ok ys := by
    rw [List.mapM_map]; exact h1
  unfold forward splitBySchedule
  simp only [Slicing.lastDim_append x lead _ hx, res_bind_ok, hm]
  simp

/-- Non-vacuity: the schedule of the class documentation, `[[0,40,256],[40,58,512],[58,60,2048]]` at 2048 Hz. -/
example : ∃ st y, init 2048 (schedOf [⟨0, 40, 256⟩, ⟨40, 58, 512⟩, ⟨58, 60, 2048⟩]) false = .ok st ∧
    forward st (⟨[1, 1, 122880], fun i => i.getD 2 0⟩ : Tensor Nat) = .ok (.one y) ∧ y.shape = [1, 1, 23552] := by
  obtain ⟨st, y, h1, h2, h3, -⟩ := decimator_concat_partial 2048 (by norm_num) [⟨0, 40, 256⟩, ⟨40, 58, 512⟩, ⟨58, 60, 2048⟩] (by simp)
    ⟨rfl, rfl, rfl, trivial⟩ (by intro s hs; simp at hs; rcases hs with rfl | rfl | rfl <;> exact ⟨by norm_num, by norm_num, by norm_num⟩)
    (by intro s hs; simp at hs; rcases hs with rfl | rfl <;> norm_num)
    (⟨[1, 1, 122880], fun i => i.getD 2 0⟩ : Tensor Nat) [1, 1] (by simp [endTime])
  refine ⟨st, y, h1, h2, ?_⟩
  rw [h3]
  simp [kept]

example : ∃ st ys, init 4 (schedOf [⟨0, 2, 2⟩, ⟨2, 3, 4⟩]) true = .ok st ∧
    forward st (⟨[12], fun i => i.getD 0 0⟩ : Tensor Nat) = .ok (.list ys) ∧ ys.length = 2 := by
  obtain ⟨st, ys, h1, h2, h3⟩ := decimator_split_partial 4 (by norm_num) [⟨0, 2, 2⟩, ⟨2, 3, 4⟩] (by simp)
    ⟨rfl, rfl, trivial⟩ (by intro s hs; simp at hs; rcases hs with rfl | rfl <;> exact ⟨by norm_num, by norm_num, by norm_num⟩)
    (by intro s hs; simp at hs; subst hs; norm_num)
    (⟨[12], fun i => i.getD 0 0⟩ : Tensor Nat) [] (by simp [endTime])
  exact ⟨st, ys, h1, h2, h3.length_eq.symm⟩

/-- **C39 (the two modes agree).**  For these schedules the concatenation of the split segments along time is the
unsplit output. -/
theorem decimator_modes_agree {α : Type} (sr : Nat) (hsr : 0 < sr) (l : List Seg) (hne : l ≠ []) (hc : Contiguous 0 l) (hok : ∀ s ∈ l, s.Ok sr)
    (h2 : ∀ s ∈ l.dropLast, 2 ≤ (s.stop - s.start) * s.rate) (x : Tensor α) (lead : List Nat)
    (hx : x.shape = lead ++ [endTime l * sr]) :
    ∃ st st' y ys, init sr (schedOf l) false = .ok st ∧ init sr (schedOf l) true = .ok st' ∧
      forward st x = .ok (.one y) ∧ forward st' x = .ok (.list ys) ∧
      ∀ i, i.length = lead.length →
        ((List.range (y.shape.getLastD 0)).map fun k => y.get (i ++ [k])) =
          ys.flatMap fun z => (List.range (z.shape.getLastD 0)).map fun k => z.get (i ++ [k]) := by
  obtain ⟨st, y, a1, a2, a3, a4⟩ := decimator_concat_partial sr hsr l hne hc hok h2 x lead hx
  obtain ⟨st', ys, b1, b2, b3⟩ := decimator_split_partial sr hsr l hne hc hok h2 x lead hx
  refine ⟨st, st', y, ys, a1, b1, a2, b2, ?_⟩
  intro i hi
  have hl : ((List.range (y.shape.getLastD 0)).map fun k => y.get (i ++ [k])) =
      (l.flatMap (kept sr)).map fun k => x.get (i ++ [k]) := by
    rw [a3, List.getLastD_concat]
    apply List.ext_getElem
    · simp
    · intro k h1 h2
      have hk : k < (l.flatMap (kept sr)).length := by rw [List.length_map] at h2; exact h2
      rw [List.getElem_map, List.getElem_map, List.getElem_range, a4 i hi k hk]
  rw [hl]
  clear hl a1 a2 a3 a4 b1 b2 hne hc hok h2 hx
  induction b3 with
  | nil => simp
  | cons h _ ih =>
    rw [List.flatMap_cons, List.flatMap_cons, List.map_append, ih, h.1, List.getLastD_concat]
    congr 1
    unfold kept
    rw [List.map_map]
    refine List.map_congr_left fun k hk => ?_
    rw [h.2 i hi k (by simpa using hk)]
    rfl

example : ∃ st st' y ys, init 4 (schedOf [⟨0, 2, 2⟩, ⟨2, 3, 4⟩]) false = .ok st ∧ init 4 (schedOf [⟨0, 2, 2⟩, ⟨2, 3, 4⟩]) true = .ok st' ∧
    forward st (⟨[12], fun i => i.getD 0 0⟩ : Tensor Nat) = .ok (.one y) ∧
    forward st' (⟨[12], fun i => i.getD 0 0⟩ : Tensor Nat) = .ok (.list ys) := by
  obtain ⟨st, st', y, ys, h1, h2, h3, h4, -⟩ := decimator_modes_agree 4 (by norm_num) [⟨0, 2, 2⟩, ⟨2, 3, 4⟩] (by simp)
    ⟨rfl, rfl, trivial⟩ (by intro s hs; simp at hs; rcases hs with rfl | rfl <;> exact ⟨by norm_num, by norm_num, by norm_num⟩)
    (by intro s hs; simp at hs; subst hs; norm_num)
    (⟨[12], fun i => i.getD 0 0⟩ : Tensor Nat) [] (by simp [endTime])
  exact ⟨st, st', y, ys, h1, h2, h3, h4⟩

/-- **C39 (finding: gap).**  A schedule with a gap is accepted, but the segment after the gap is read from where
the previous one ended: at 4 Hz, `[[0,1,4],[2,3,4]]` on `x = 0, 1, 2, …` gives `0..7`, not `0..3, 8..11`. -/
theorem decimator_gap_wrong : ∃ st y, init 4 (schedOf [⟨0, 1, 4⟩, ⟨2, 3, 4⟩]) false = .ok st ∧
    forward st (⟨[12], fun i => i.getD 0 0⟩ : Tensor Nat) = .ok (.one y) ∧
    ((List.range 8).map fun k => y.get [k]) = [0, 1, 2, 3, 4, 5, 6, 7] ∧
    ([⟨0, 1, 4⟩, ⟨2, 3, 4⟩] : List Seg).flatMap (kept 4) = [0, 1, 2, 3, 8, 9, 10, 11] := by
  refine ⟨⟨4, _, false, [0, 1, 2, 3, 4, 5, 6, 7], 12⟩, _, rfl, rfl, rfl, rfl⟩

/-- **C39 (finding: one-sample segment).**  After a contiguous segment that keeps one sample the next one is
misplaced: at 4 Hz, `[[0,2,4],[2,3,1],[3,4,4]]` reads the last segment at 9, not at 12. -/
theorem decimator_one_sample_wrong : ∃ st y, init 4 (schedOf [⟨0, 2, 4⟩, ⟨2, 3, 1⟩, ⟨3, 4, 4⟩]) false = .ok st ∧
    forward st (⟨[16], fun i => i.getD 0 0⟩ : Tensor Nat) = .ok (.one y) ∧
    ((List.range 13).map fun k => y.get [k]) = [0, 1, 2, 3, 4, 5, 6, 7, 8, 9, 10, 11, 12] ∧
    ([⟨0, 2, 4⟩, ⟨2, 3, 1⟩, ⟨3, 4, 4⟩] : List Seg).flatMap (kept 4) = [0, 1, 2, 3, 4, 5, 6, 7, 8, 12, 13, 14, 15] := by
  refine ⟨⟨4, _, false, [0, 1, 2, 3, 4, 5, 6, 7, 8, 9, 10, 11, 12], 16⟩, _, rfl, rfl, rfl, rfl⟩

/-- **C39 (finding: one sample first).**  If the first of several segments keeps one sample, construction raises
IndexError, in both modes. -/
theorem decimator_first_one_sample (sr : Nat) (hsr : 0 < sr) (s s' : Seg) (l : List Seg) (split : Bool)
    (hok : ∀ r ∈ s :: s' :: l, r.Ok sr) (hov : split = false → adjacentOverlap ((s :: s' :: l).map toRow) = false)
    (h1 : (s.stop - s.start) * s.rate = 1) : init sr (schedOf (s :: s' :: l)) split = .error .index := by
  unfold init
  rw [validate_ok sr _ split hok hov]
  simp only [res_bind_ok]
  rw [rowsOf_sched]
  have hb : buildIndices sr ((s :: s' :: l).map toRow) = .error .index := by
    unfold buildIndices
    have hs := hok s (by simp)
    have hstep : buildStep sr [] (toRow s) = .ok ((kept sr s).map fun (k : Nat) => (k : Int)) := by
      unfold buildStep
      have := arange_seg sr s hs hsr
      simp only [segStart, toRow, List.length_nil, if_true, res_bind_ok]
      rw [this]; simp
    rw [List.map_cons, List.foldlM_cons, hstep]
    simp only [res_bind_ok, List.map_cons, List.foldlM_cons]
    have : buildStep sr ((kept sr s).map fun (k : Nat) => (k : Int)) (toRow s') = .error .index := by
      unfold buildStep kept
      rw [h1]
      rfl
    rw [this]
    rfl
  rw [hb]
  rfl

example : init 4 (schedOf [⟨0, 1, 1⟩, ⟨1, 4, 4⟩]) true = .error .index :=
  decimator_first_one_sample 4 (by norm_num) _ _ _ true
    (by intro s hs; simp at hs; rcases hs with rfl | rfl <;> exact ⟨by norm_num, by norm_num, by norm_num⟩) (by simp) rfl

theorem indexSelect_error {α : Type} (x : Tensor α) (lead : List Nat) (n : Nat) (ks : List Nat) (hx : x.shape = lead ++ [n]) (k : Nat) (hk : k ∈ ks) (hn : n ≤ k) :
    indexSelect x (ks.map fun (k : Nat) => (k : Int)) = .error .index := by
  unfold indexSelect
  simp only [Slicing.lastDim_append x lead n hx, res_bind_ok]
  rw [if_neg]
  simp only [List.all_map, List.all_eq_true, Function.comp, decide_eq_true_eq]
  intro h
  have := h k hk
  omega

theorem mapM_first_error {β γ : Type} (f : β → Res γ) (e : Err) (l : List β) (h : ∀ b ∈ l, (∃ y, f b = .ok y) ∨ f b = .error e) (hex : ∃ b ∈ l, f b = .error e) :
    l.mapM f = .error e := by
  induction l with
  | nil => obtain ⟨b, hb, -⟩ := hex; simp at hb
  | cons a l ih =>
    rw [List.mapM_cons]
    rcases h a (by simp) with ⟨y, hy⟩ | hy
    · rw [hy]
      simp only [res_bind_ok]
      rw [ih (fun b hb => h b (by simp [hb])) ?_]
      · rfl
      · obtain ⟨b, hb, he⟩ := hex
        rcases List.mem_cons.1 hb with rfl | hb
        · rw [hy] at he; cases he
        · exact ⟨b, hb, he⟩
    · rw [hy]; rfl

/-- **C39 (finding: schedules that do not begin at 0).**  A contiguous schedule that begins at a time `t > 0` is accepted, and then rejects every series: the length it asks for is that of the
scheduled interval, but the samples are looked up at their absolute times, so that the last one is always beyond the end of the series (IndexError), in both modes. -/
theorem decimator_late_start {α : Type} (sr t : Nat) (hsr : 0 < sr) (ht : 0 < t) (l : List Seg) (split : Bool) (hne : l ≠ []) (hc : Contiguous t l) (hok : ∀ s ∈ l, s.Ok sr)
    (h2 : ∀ s ∈ l.dropLast, 2 ≤ (s.stop - s.start) * s.rate) (x : Tensor α) (lead : List Nat) (n : Nat) (hx : x.shape = lead ++ [n]) :
    ∃ st, init sr (schedOf l) split = .ok st ∧ (n = (endTime l - t) * sr → forward st x = .error .index) ∧ (n ≠ (endTime l - t) * sr → forward st x = .error .value) := by
  have hb : buildIndices sr (l.map toRow) = .ok ((l.flatMap (kept sr)).map fun (k : Nat) => (k : Int)) := by
    unfold buildIndices
    rw [build_ok sr hsr l t [] hc hok h2 (Or.inl rfl)]
    simp
  have hlast := List.getLast_mem hne
  have hend : endTime l = (l.getLast hne).stop := by simp [endTime, List.getLast?_eq_getLast_of_ne_nil hne]
  have hle : t ≤ endTime l := by
    have h1 := (contiguous_le l t sr hc hok _ hlast).1
    have h3 := (hok _ hlast).1
    omega
  have hinit : init sr (schedOf l) split =
      .ok ⟨sr, l.map toRow, split, (l.flatMap (kept sr)).map fun (k : Nat) => (k : Int), ((endTime l - t : Nat) : Int) * sr⟩ := by
    unfold init
    rw [validate_ok sr l split hok (fun _ => overlap_contiguous l t hc)]
    simp only [res_bind_ok]
    rw [rowsOf_sched]
    simp only [hb, res_bind_ok]
    cases l with
    | nil => exact absurd rfl hne
    | cons a l =>
      have h0 : a.start = t := hc.1
      rw [List.getLast?_map, List.getLast?_eq_getLast_of_ne_nil (by simp : a :: l ≠ []), Nat.cast_sub hle, hend]
      simp [toRow, h0]
  -- the last kept sample
  obtain ⟨s, hs⟩ : ∃ s, s = l.getLast hne := ⟨_, rfl⟩
  rw [← hs] at hlast hend
  obtain ⟨-, hq, h3⟩ := rate_div sr s (hok s hlast) hsr
  have hpos : 1 ≤ (s.stop - s.start) * s.rate := Nat.mul_pos (by have := (hok s hlast).1; omega) (hok s hlast).2.1
  have hqs : sr / s.rate ≤ sr := Nat.div_le_self _ _
  have hk : s.stop * sr - sr / s.rate ∈ kept sr s := by
    refine List.mem_map.2 ⟨(s.stop - s.start) * s.rate - 1, List.mem_range.2 (by omega), ?_⟩
    have h4 : (s.stop - s.start) * s.rate * (sr / s.rate) = (s.stop - s.start) * sr := by rw [mul_assoc, ← h3]
    have h5 : ((s.stop - s.start) * s.rate - 1) * (sr / s.rate) = (s.stop - s.start) * sr - sr / s.rate := by
      rw [Nat.sub_mul, one_mul, h4]
    have h6 : s.start * sr ≤ s.stop * sr := Nat.mul_le_mul_right _ (hok s hlast).1.le
    have h7 : (s.stop - s.start) * sr = s.stop * sr - s.start * sr := Nat.sub_mul _ _ _
    have h8 : sr ≤ (s.stop - s.start) * sr := Nat.le_mul_of_pos_left _ (by have := (hok s hlast).1; omega)
    omega
  have hge : (endTime l - t) * sr ≤ s.stop * sr - sr / s.rate := by
    rw [hend, Nat.sub_mul]
    have : sr ≤ t * sr := Nat.le_mul_of_pos_left _ ht
    omega
  refine ⟨_, hinit, ?_, ?_⟩
  · intro hn
    subst hn
    unfold forward
    simp only [Slicing.lastDim_append x lead _ hx, res_bind_ok]
    rw [if_neg (by push_cast; simp)]
    have hsel := indexSelect_error x lead _ (l.flatMap (kept sr)) hx _ (List.mem_flatMap.2 ⟨s, hlast, hk⟩) hge
    cases split with
    | false => simp only [hsel]; rfl
    | true =>
      rw [if_pos rfl]
      have hseg : ∀ r ∈ l, segment (sr : Int) x (toRow r) = indexSelect x ((kept sr r).map fun (k : Nat) => (k : Int)) := by
        intro r hr
        unfold segment
        have := arange_seg sr r (hok r hr) hsr
        rw [show ((r.start : Int) * sr + ((r.stop : Int) - r.start) * sr) = (r.stop : Int) * sr by ring] at this
        simp only [toRow]
        rw [this]
        rfl
      have hm : (l.map toRow).mapM (segment (sr : Int) x) = .error .index := by
        rw [List.mapM_map]
        refine mapM_first_error _ _ _ (fun r hr => ?_) ⟨s, hlast, ?_⟩
        · rw [Function.comp_apply, hseg r hr]
          by_cases hall : ∀ k ∈ kept sr r, k < (endTime l - t) * sr
          · obtain ⟨y, hy, -⟩ := indexSelect_ok x lead _ _ hx hall
            exact Or.inl ⟨y, hy⟩
          · push Not at hall
            obtain ⟨k, hk1, hk2⟩ := hall
            exact Or.inr (indexSelect_error x lead _ _ hx k hk1 hk2)
        · rw [Function.comp_apply, hseg s hlast]
          exact indexSelect_error x lead _ _ hx _ hk hge
      unfold splitBySchedule
      simp only [hm]
      rfl
  · intro hn
    unfold forward
    simp only [Slicing.lastDim_append x lead _ hx, res_bind_ok]
    rw [if_pos (by exact_mod_cast hn)]

example : ∃ st, init 4 (schedOf [⟨1, 3, 2⟩, ⟨3, 4, 4⟩]) true = .ok st ∧ forward st (⟨[2, 12], fun _ => 0⟩ : Tensor Nat) = .error .index := by
  obtain ⟨st, h1, h2, -⟩ := decimator_late_start 4 1 (by norm_num) (by norm_num) [⟨1, 3, 2⟩, ⟨3, 4, 4⟩] true (by simp) ⟨rfl, rfl, trivial⟩
    (by intro s hs; simp at hs; rcases hs with rfl | rfl <;> exact ⟨by norm_num, by norm_num, by norm_num⟩)
    (by intro s hs; simp at hs; subst hs; norm_num) (⟨[2, 12], fun _ => 0⟩ : Tensor Nat) [2] 12 rfl
  exact ⟨st, h1, h2 rfl⟩

/-- **C40 (rejections).**  Construction raises ValueError if the schedule is not an `N×3` table; or a segment does
not end after it starts; or (all rates being non-zero) a rate does not divide the sample rate; or, with
`split=False`, a segment starts before the previous one ends. -/
theorem decimator_rejects (sr : Int) (sched : Tensor Int) (split : Bool) :
    ((¬ ∃ n, sched.shape = [n, 3]) → init sr sched split = .error .value) ∧
    (∀ n i, sched.shape = [n, 3] → i < n → sched.get [i, 1] ≤ sched.get [i, 0] → init sr sched split = .error .value) ∧
    (∀ n i, sched.shape = [n, 3] → i < n → (∀ j < n, sched.get [j, 2] ≠ 0) → ¬ sched.get [i, 2] ∣ sr →
      init sr sched split = .error .value) ∧
    (∀ n i, sched.shape = [n, 3] → i + 1 < n → (∀ j < n, sched.get [j, 2] ≠ 0) →
      sched.get [i + 1, 0] < sched.get [i, 1] → split = false → init sr sched split = .error .value) := by
  have key : validate sr sched split = .error .value → init sr sched split = .error .value := by
    intro h; unfold init; rw [h]; rfl
  refine ⟨?_, ?_, ?_, ?_⟩
  · intro h
    apply key
    unfold validate
    rw [if_pos]
    by_contra hc
    push Not at hc
    apply h
    match hs : sched.shape with
    | [a, b] => rw [hs] at hc; simp at hc; exact ⟨a, by rw [hc]⟩
    | [] => rw [hs] at hc; simp at hc
    | [_] => rw [hs] at hc; simp at hc
    | _ :: _ :: _ :: _ => rw [hs] at hc; simp at hc
  · intro n i hs hi hle
    apply key
    unfold validate
    rw [if_neg (by rw [hs]; simp), if_pos]
    simp only [List.any_eq_true, decide_eq_true_eq]
    refine ⟨_, List.mem_map.2 ⟨i, by simpa [hs] using hi, rfl⟩, hle⟩
  · intro n i hs hi h0 hd
    apply key
    unfold validate
    rw [if_neg (by rw [hs]; simp)]
    split_ifs with h1 h2 h3 h4
    · rfl
    · simp only [List.any_eq_true, decide_eq_true_eq] at h2
      obtain ⟨r, hr, hr0⟩ := h2
      obtain ⟨j, hj, rfl⟩ := List.mem_map.1 hr
      exact absurd hr0 (h0 j (by simpa [hs] using hj))
    · rfl
    · rfl
    · exfalso
      apply h3
      simp only [List.any_eq_true, decide_eq_true_eq]
      refine ⟨_, List.mem_map.2 ⟨i, by simpa [hs] using hi, rfl⟩, ?_⟩
      intro hf
      exact hd (Int.dvd_of_fmod_eq_zero hf)
  · intro n i hs hi h0 hlt hsp
    apply key
    unfold validate
    rw [if_neg (by rw [hs]; simp)]
    split_ifs with h1 h2 h3 h4
    · rfl
    · simp only [List.any_eq_true, decide_eq_true_eq] at h2
      obtain ⟨r, hr, hr0⟩ := h2
      obtain ⟨j, hj, rfl⟩ := List.mem_map.1 hr
      exact absurd hr0 (h0 j (by simpa [hs] using hj))
    · rfl
    · rfl
    · exfalso
      apply h4
      refine ⟨hsp, ?_⟩
      have aux : ∀ (l : List Row) (i : Nat) (h : i + 1 < l.length), l[i + 1].start < l[i].stop → adjacentOverlap l = true := by
        intro l
        induction l with
        | nil => intro i h; simp at h
        | cons a l ih =>
          intro i h hlt
          cases l with
          | nil => simp at h
          | cons b l =>
            cases i with
            | zero =>
              simp only [adjacentOverlap, Bool.or_eq_true, decide_eq_true_eq]
              exact Or.inl hlt
            | succ i =>
              simp only [adjacentOverlap, Bool.or_eq_true, decide_eq_true_eq]
              exact Or.inr (ih i (by simpa using h) hlt)
      have hlen : (rowsOf sched).length = n := by simp [rowsOf, hs]
      refine aux (rowsOf sched) i (by omega) ?_
      simp [rowsOf]
      exact hlt

example : init 8 ⟨[2, 2], fun _ => 1⟩ true = .error .value :=
  (decimator_rejects 8 ⟨[2, 2], fun _ => 1⟩ true).1 (by rintro ⟨n, h⟩; simp at h)
example : init 8 (schedOf [⟨0, 4, 3⟩]) true = .error .value :=
  (decimator_rejects 8 _ true).2.2.1 1 0 rfl (by norm_num)
    (by intro j hj; have : j = 0 := by omega
        subst this; decide) (by decide)
example : init 8 (schedOf [⟨0, 4, 4⟩, ⟨3, 6, 4⟩]) false = .error .value :=
  (decimator_rejects 8 _ false).2.2.2 2 0 rfl (by norm_num)
    (by intro j hj; have : j = 0 ∨ j = 1 := by omega
        rcases this with rfl | rfl <;> decide) (by decide) rfl

/-- **C40 (degenerate schedules).**  A schedule without rows passes validation and then raises IndexError when the expected length is computed; a target rate of zero (all segments
ending after they start) raises RuntimeError. -/
theorem decimator_degenerate (sr : Int) (sched : Tensor Int) (split : Bool) :
    (sched.shape = [0, 3] → init sr sched split = .error .index) ∧
    (∀ n i, sched.shape = [n, 3] → i < n → (∀ j < n, sched.get [j, 0] < sched.get [j, 1]) → sched.get [i, 2] = 0 → init sr sched split = .error .runtime) := by
  constructor
  · intro hs
    have hr : rowsOf sched = [] := by simp [rowsOf, hs]
    have hv : validate sr sched split = .ok () := by
      unfold validate
      rw [if_neg (by rw [hs]; simp)]
      simp [hr, adjacentOverlap]
    unfold init
    rw [hv, hr]
    rfl
  · intro n i hs hi hlt h0
    have hv : validate sr sched split = .error .runtime := by
      unfold validate
      rw [if_neg (by rw [hs]; simp), if_neg, if_pos]
      · simp only [List.any_eq_true, decide_eq_true_eq]
        exact ⟨_, List.mem_map.2 ⟨i, by simpa [hs] using hi, rfl⟩, h0⟩
      · simp only [List.any_eq_true, decide_eq_true_eq]
        rintro ⟨r, hr, hle⟩
        obtain ⟨j, hj, rfl⟩ := List.mem_map.1 hr
        exact absurd (hlt j (by simpa [hs] using hj)) (not_lt.2 hle)
    unfold init
    rw [hv]
    rfl

example : init 8 ⟨[0, 3], fun _ => 1⟩ true = .error .index := (decimator_degenerate 8 ⟨[0, 3], fun _ => 1⟩ true).1 rfl

/-- **C40 (overlap allowed when splitting).**  With `split=True` overlap is not a reason for rejection. -/
theorem validate_split_overlap (sr : Nat) (l : List Seg) (hok : ∀ s ∈ l, s.Ok sr) : validate sr (schedOf l) true = .ok () :=
  validate_ok sr l true hok (by simp)

example : validate 2048 (schedOf [⟨0, 40, 256⟩, ⟨32, 58, 512⟩, ⟨52, 60, 2048⟩]) true = .ok () :=
  validate_split_overlap 2048 _ (by intro s hs; simp at hs; rcases hs with rfl | rfl | rfl <;> exact ⟨by norm_num, by norm_num, by norm_num⟩)

/-- **C40 (input length).**  A series whose length is not the scheduled duration times the sample rate is
rejected with ValueError. -/
theorem decimator_wrong_length {α : Type} (sr : Int) (sched : Tensor Int) (split : Bool) (st : State) (n : Nat) (h : init sr sched split = .ok st)
    (hs : sched.shape = [n, 3]) (x : Tensor α) (lead : List Nat) (T : Nat) (hx : x.shape = lead ++ [T])
    (hT : (T : Int) ≠ (sched.get [n - 1, 1] - sched.get [0, 0]) * sr) : forward st x = .error .value := by
  have he : st.expectedLen = (sched.get [n - 1, 1] - sched.get [0, 0]) * sr := by
    unfold init at h
    cases hv : validate sr sched split with
    | error e => rw [hv] at h; cases h
    | ok u =>
      rw [hv] at h
      simp only [res_bind_ok] at h
      cases hb : buildIndices sr (rowsOf sched) with
      | error e => rw [hb] at h; cases h
      | ok idx =>
        rw [hb] at h
        simp only [res_bind_ok] at h
        cases n with
        | zero =>
          have : rowsOf sched = [] := by simp [rowsOf, hs]
          rw [this] at h
          cases h
        | succ m =>
          have h1 : (rowsOf sched).head? = some ⟨sched.get [0, 0], sched.get [0, 1], sched.get [0, 2]⟩ := by
            simp [rowsOf, hs, List.range_succ_eq_map]
          have h2 : (rowsOf sched).getLast? = some ⟨sched.get [m, 0], sched.get [m, 1], sched.get [m, 2]⟩ := by
            simp [rowsOf, hs, List.range_succ]
          rw [h1, h2] at h
          obtain rfl := Except.ok.inj h
          rfl
  unfold forward
  simp only [Slicing.lastDim_append x lead _ hx, res_bind_ok]
  rw [if_pos]
  rw [he]
  exact hT

example : ∃ st, init 4 (schedOf [⟨0, 2, 2⟩, ⟨2, 3, 4⟩]) false = .ok st ∧ forward st (⟨[3, 11], fun _ => 0⟩ : Tensor Nat) = .error .value :=
  ⟨_, rfl, decimator_wrong_length 4 (schedOf [⟨0, 2, 2⟩, ⟨2, 3, 4⟩]) false _ 2 rfl rfl _ [3] 11 rfl (by decide)⟩

end Verif.Decimator
