import Verif.Model.Fittable
import Verif.Lemmas.Broadcast
import Mathlib.Tactic.FieldSimp
import Mathlib.Algebra.BigOperators.Field
/-!
# Properties of `FittableTransform` (C31) and `ChannelWiseScaler` (C32)
-/
set_option linter.unusedSimpArgs false
namespace Verif.Fittable
open Finset Spectral
variable {α : Type}

/-- An operation that makes a transform usable: a `build` that raised nothing, or the load of a state dict
in which every buffer *that occurs* has the right shape. -/
def Enables (s : State α) : Op α → Prop
  | .build p => (build s p).2 = none
  | .load sd _ => ∀ b ∈ s.buffers, ∀ v, lookup sd b.1 = some v → v.shape = b.2.shape
  | .call => False

theorem loadErrors_zero (bs sd : List (String × Tensor α)) :
    loadErrors bs sd = 0 ↔ ∀ b ∈ bs, ∀ v, lookup sd b.1 = some v → v.shape = b.2.shape := by
  unfold loadErrors
  rw [List.length_eq_zero_iff, List.filter_eq_nil_iff]
  refine forall₂_congr fun b _ => ?_
  cases h : lookup sd b.1 with
  | none => simp
  | some v => simp

theorem step_built (s : State α) (o : Op α) : (step s o).1.built = true ↔ s.built = true ∨ Enables s o := by
  cases o with
  | build p =>
    simp only [step, build, Enables]
    rcases copyLoop s.buffers p with ⟨bs, _ | e⟩ <;> simp
  | load sd strict =>
    simp only [step, load, Enables]
    rw [← loadErrors_zero]
    by_cases h : loadErrors s.buffers sd = 0 <;> simp [h]
  | call => simp [step, Enables]

/-- **C31.**  After any history of operations (including failed ones) on a fresh transform, the check before
`forward` passes exactly when some operation of the history enabled the transform in the state it met;
otherwise it raises ValueError. -/
theorem callable_iff (s : State α) (hs : s.built = false) (ops : List (Op α)) :
    ((step (runOps s ops) .call).2 = none ↔
      ∃ pre o post, ops = pre ++ o :: post ∧ Enables (runOps s pre) o) ∧
    ((step (runOps s ops) .call).2 ≠ none → (step (runOps s ops) .call).2 = some .value) := by
  have hc : ∀ s : State α, (step s .call).2 = if s.built then none else some .value := by
    intro s; cases h : s.built <;> simp [step, checkBuilt, h]
  have key : (runOps s ops).built = true ↔ ∃ pre o post, ops = pre ++ o :: post ∧ Enables (runOps s pre) o := by
    induction ops using List.reverseRecOn with
    | nil => simp [runOps, hs]
    | append_singleton ops o ih =>
      have e : runOps s (ops ++ [o]) = (step (runOps s ops) o).1 := by simp [runOps]
      rw [e, step_built, ih]
      constructor
      · rintro (⟨pre, o', post, h, he⟩ | h)
        · exact ⟨pre, o', post ++ [o], by rw [h]; simp, he⟩
        · exact ⟨ops, o, [], rfl, h⟩
      · rintro ⟨pre, o', post, h, he⟩
        rcases List.eq_nil_or_concat post with rfl | ⟨post', z, rfl⟩
        · obtain ⟨h1, h2⟩ := List.append_inj' h rfl
          obtain rfl := h1
          obtain rfl := List.singleton_inj.1 h2
          exact .inr he
        · left
          refine ⟨pre, o', post', ?_, he⟩
          have h' : ops ++ [o] = (pre ++ o' :: post') ++ [z] := by rw [h]; simp
          exact (List.append_inj' h' rfl).1
  constructor
  · rw [hc, ← key]
    cases (runOps s ops).built <;> simp
  · rw [hc]
    cases (runOps s ops).built <;> simp

/-- **C31 (refusal).**  Before any `fit`/`build` or load, every call raises ValueError. -/
theorem call_before_fit (s : State α) (hs : s.built = false) (n : ℕ) :
    (step (runOps s (List.replicate n .call)) .call).2 = some .value := by
  have : runOps s (List.replicate n .call) = s := by
    induction n with
    | zero => rfl
    | succ n ih => rw [List.replicate_succ]; exact ih
  rw [this]; simp [step, checkBuilt, hs]

theorem lookup_setBuf (bs : List (String × Tensor α)) (name name' : String) (v : Tensor α) :
    lookup (setBuf bs name v) name' =
      if name' = name then (lookup bs name').map fun _ => v else lookup bs name' := by
  induction bs with
  | nil => simp [lookup, setBuf]
  | cons b bs ih =>
    unfold lookup setBuf at *
    simp only [List.map_cons, List.find?_cons]
    by_cases h1 : b.1 = name
    · simp only [h1, if_true]
      by_cases h2 : name = name'
      · subst h2; simp
      · rw [decide_eq_false h2]
        simp only
        rw [ih]
    · simp only [h1, if_false]
      by_cases h2 : b.1 = name'
      · subst h2; simp [h1]
      · rw [decide_eq_false h2]
        simp only
        rw [ih]

theorem copyInto_ok (d v d' : Tensor α) (h : copyInto d v = .ok d') :
    d'.shape = d.shape ∧ (v.shape = d.shape → Tensor.Same d' v) := by
  unfold copyInto at h
  split_ifs at h with hb
  obtain rfl := Except.ok.inj h
  refine ⟨rfl, fun hv => ⟨hv.symm, fun i hi => ?_⟩⟩
  dsimp only at hi ⊢
  rw [bcIdx_self _ i (by rw [hv]; exact hi)]

theorem copyLoop_ok (params : List (String × Tensor α)) :
    ∀ (bs bs' : List (String × Tensor α)), (params.map (·.1)).Nodup → copyLoop bs params = (bs', none) →
      (∀ p ∈ params, ∃ d b, lookup bs p.1 = some d ∧ lookup bs' p.1 = some b ∧ b.shape = d.shape ∧
        (p.2.shape = d.shape → Tensor.Same b p.2)) ∧
      ∀ name, name ∉ params.map (·.1) → lookup bs' name = lookup bs name := by
  induction params with
  | nil =>
    intro bs bs' _ h
    simp only [copyLoop, Prod.mk.injEq] at h
    simp [h.1]
  | cons p rest ih =>
    obtain ⟨n, v⟩ := p
    intro bs bs' hnd h
    simp only [List.map_cons, List.nodup_cons] at hnd
    unfold copyLoop at h
    cases hl : lookup bs n with
    | none => simp [hl] at h
    | some d =>
      simp only [hl] at h
      cases hcp : copyInto d v with
      | error e => simp [hcp] at h
      | ok d' =>
        simp only [hcp] at h
        obtain ⟨h1, h2⟩ := ih _ _ hnd.2 h
        have h3 := copyInto_ok d v d' hcp
        constructor
        · intro p hp
          rcases List.mem_cons.1 hp with rfl | hp
          · refine ⟨d, d', hl, ?_, h3.1, h3.2⟩
            rw [h2 n hnd.1, lookup_setBuf]; simp [hl]
          · obtain ⟨d0, b, e1, e2, e3⟩ := h1 p hp
            refine ⟨d0, b, ?_, e2, e3⟩
            rw [lookup_setBuf, if_neg] at e1
            · exact e1
            · intro e
              exact hnd.1 (e ▸ List.mem_map.2 ⟨p, hp, rfl⟩)
        · intro name hname
          simp only [List.map_cons, List.mem_cons, not_or] at hname
          rw [h2 name hname.2, lookup_setBuf, if_neg hname.1]

/-- **C31 (values).**  After a `build` that raised nothing, every buffer that was given holds exactly the given
value (broadcast to the shape of the buffer), every other buffer is unchanged, and no number of later
calls changes anything. -/
theorem build_values (s : State α) (params : List (String × Tensor α)) (hnd : (params.map (·.1)).Nodup)
    (h : (build s params).2 = none) (n : ℕ) :
    let s' := runOps (build s params).1 (List.replicate n .call)
    s'.built = true ∧
    (∀ p ∈ params, ∃ d b, lookup s.buffers p.1 = some d ∧ lookup s'.buffers p.1 = some b ∧
      b.shape = d.shape ∧ (p.2.shape = d.shape → Tensor.Same b p.2)) ∧
    ∀ name, name ∉ params.map (·.1) → lookup s'.buffers name = lookup s.buffers name := by
  have e : ∀ s : State α, runOps s (List.replicate n .call) = s := by
    intro s
    induction n with
    | zero => rfl
    | succ n ih => rw [List.replicate_succ]; exact ih
  dsimp only
  rw [e]
  unfold build at h ⊢
  cases hc : copyLoop s.buffers params with
  | mk bs o =>
    cases o with
    | some err => simp [hc] at h
    | none => exact ⟨rfl, copyLoop_ok params _ _ hnd hc⟩

theorem lookup_map (bs : List (String × Tensor α)) (f : String × Tensor α → Tensor α) (name : String) :
    lookup (bs.map fun p => (p.1, f p)) name = (bs.find? fun p => p.1 = name).map f := by
  induction bs with
  | nil => rfl
  | cons b bs ih =>
    unfold lookup at *
    simp only [List.map_cons, List.find?_cons]
    by_cases hb : b.1 = name
    · simp [hb]
    · simp only [hb, decide_false]; exact ih

theorem lookup_loadBuffers (bs sd : List (String × Tensor α)) (name : String) (d : Tensor α) (h : lookup bs name = some d) :
    lookup (loadBuffers bs sd) name = some (match lookup sd name with
      | some v => if v.shape = d.shape then v else d
      | none => d) := by
  unfold loadBuffers
  rw [lookup_map]
  unfold lookup at h
  cases hf : List.find? (fun p => decide (p.1 = name)) bs with
  | none => simp [hf] at h
  | some b =>
    have hb : b.1 = name := by simpa using List.find?_some hf
    simp only [hf, Option.map_some, Option.some.injEq] at h ⊢
    rw [← h, hb]
    cases lookup sd name <;> rfl

/-- **C31 (loading).**  A strict `load_state_dict` that raises nothing leaves every buffer with exactly the value
in the state dict. -/
theorem load_values (s : State α) (sd : List (String × Tensor α)) (h : (load s sd true).2 = none)
    (hnd : (s.buffers.map (·.1)).Nodup) :
    (load s sd true).1.built = true ∧
    ∀ b ∈ s.buffers, ∃ v, lookup sd b.1 = some v ∧ lookup (load s sd true).1.buffers b.1 = some v := by
  unfold load at h ⊢
  dsimp only at h ⊢
  rw [ite_eq_right_iff] at h
  have h0 : loadErrors s.buffers sd = 0 := by
    by_contra hne
    exact absurd (h (.inl hne)) (by simp)
  have hm : (s.buffers.any fun p => (lookup sd p.1).isNone) = false := by
    by_contra hne
    exact absurd (h (.inr ⟨rfl, .inl (by simpa using hne)⟩)) (by simp)
  refine ⟨by simp [h0], fun b hb => ?_⟩
  rw [List.any_eq_false] at hm
  have := hm b hb
  cases hl : lookup sd b.1 with
  | none => simp [hl] at this
  | some v =>
    refine ⟨v, rfl, ?_⟩
    have hlb : lookup s.buffers b.1 = some b.2 := by
      generalize s.buffers = bs at hb hnd
      induction bs with
      | nil => cases hb
      | cons a bs ih =>
        simp only [List.map_cons, List.nodup_cons] at hnd
        unfold lookup
        rw [List.find?_cons]
        rcases List.mem_cons.1 hb with rfl | hb'
        · simp
        · have : a.1 ≠ b.1 := fun e => hnd.1 (e ▸ List.mem_map.2 ⟨b, hb', rfl⟩)
          rw [decide_eq_false this]
          exact ih hb' hnd.2
    rw [lookup_loadBuffers _ sd b.1 b.2 hlb, hl]
    simp only
    rw [if_pos ((loadErrors_zero _ _).1 h0 b hb v hl)]

/-- **C31 (negation).**  "A load enables the transform only if it supplies every buffer" is false: loading an
*empty* state dict into a fresh transform raises RuntimeError (strict mode; nothing in non-strict mode), but
afterwards calls are accepted with the initial buffers. -/
theorem load_missing_enables (s : State α) (strict : Bool) (hb : s.buffers ≠ []) :
    (load s [] strict).2 = (if strict then some .runtime else none) ∧
    (load s [] strict).1 = ⟨s.buffers, true⟩ ∧
    (step (load s [] strict).1 .call).2 = none := by
  have h1 : loadErrors s.buffers [] = 0 := by rw [loadErrors_zero]; simp [lookup]
  have h2 : loadBuffers s.buffers [] = s.buffers := by simp [loadBuffers, lookup]
  refine ⟨?_, ?_, ?_⟩
  · obtain ⟨b, bs, h⟩ := List.exists_cons_of_ne_nil hb
    rw [h] at h1
    cases strict <;> simp [load, h1, h, lookup]
  · simp [load, h1, h2]
  · simp [load, h1, h2, step, checkBuilt]

/-- **C31 (negation).**  `build` is not atomic: when it raises on the second buffer the first has already been
overwritten, and a transform fitted before stays usable with the mixture. -/
theorem build_not_atomic : ∃ (s : State ℝ) (params : List (String × Tensor ℝ)),
    s.built = true ∧ (build s params).2 = some .runtime ∧ (build s params).1.built = true ∧
    ∃ b, lookup (build s params).1.buffers "mean" = some b ∧ b.get [0] = 5 ∧
      ∃ b, lookup (build s params).1.buffers "std" = some b ∧ b.get [0] = 1 := by
  refine ⟨⟨[("mean", ⟨[1], fun _ => 0⟩), ("std", ⟨[1], fun _ => 1⟩)], true⟩,
    [("mean", ⟨[1], fun _ => 5⟩), ("std", ⟨[2], fun _ => 5⟩)], rfl, ?_, ?_, ?_⟩ <;>
  simp [build, copyLoop, lookup, copyInto, setBuf, Tensor.bcShapeRev]

/-- Non-vacuity of `callable_iff` and `build_values`: a refused call, a fit, an accepted call. -/
example : ∃ (s : State ℝ), s.built = false ∧ (step s .call).2 = some .value ∧
    (step (runOps s [.call, .build [("mean", ⟨[1], fun _ => 5⟩)]]) .call).2 = none := by
  refine ⟨scalerInit none, rfl, by simp [step, checkBuilt, scalerInit], ?_⟩
  rw [(callable_iff (scalerInit none) rfl _).1]
  refine ⟨[.call], _, [], rfl, ?_⟩
  simp [Enables, runOps, step, build, copyLoop, lookup, copyInto, scalerInit, Tensor.bcShapeRev]

end Verif.Fittable
