import Verif.Lemmas.Tensor
import Mathlib.Data.List.Basic
/-!
# `foldlM` in the exception monad as a chain of steps
-/
namespace Verif

/-- A fold succeeds exactly when there is a chain of successful steps. -/
theorem foldlM_ok_iff {σ β : Type*} (f : σ → β → Res σ) (l : List β) (a z : σ) :
    l.foldlM f a = .ok z ↔ ∃ v : ℕ → σ, v 0 = a ∧ v l.length = z ∧ ∀ i (h : i < l.length), f (v i) l[i] = .ok (v (i + 1)) := by
  induction l generalizing a with
  | nil =>
    simp only [List.foldlM_nil, pure, Except.pure, List.length_nil]
    constructor
    · intro h
      exact ⟨fun _ => a, rfl, Except.ok.inj h, fun i h => absurd h (by omega)⟩
    · rintro ⟨v, h0, h1, -⟩
      rw [← h0, h1]
  | cons b l ih =>
    rw [List.foldlM_cons]
    cases hfb : f a b with
    | error e =>
      constructor
      · intro h; cases h
      · rintro ⟨v, h0, -, h2⟩
        have := h2 0 (by simp)
        rw [h0] at this
        simp only [List.getElem_cons_zero] at this
        rw [hfb] at this
        cases this
    | ok s =>
      simp only [res_bind_ok]
      rw [ih]
      constructor
      · rintro ⟨v, h0, h1, h2⟩
        refine ⟨fun i => if i = 0 then a else v (i - 1), by simp, by simp [h1], ?_⟩
        intro i hi
        rcases i with _ | i
        · simp [hfb, h0]
        · have := h2 i (by simpa using hi)
          simpa using this
      · rintro ⟨v, h0, h1, h2⟩
        refine ⟨fun i => v (i + 1), ?_, by simpa using h1, ?_⟩
        · have := h2 0 (by simp)
          rw [h0] at this
          simp only [List.getElem_cons_zero] at this
          rw [hfb] at this
          exact (Except.ok.inj this).symm
        · intro i hi
          have := h2 (i + 1) (by simpa using hi)
          simpa using this

/-- A fold whose steps succeed and keep an indexed invariant succeeds. -/
theorem foldlM_inv {σ β : Type*} (f : σ → β → Res σ) (I : ℕ → σ → Prop) (l : List β) (k : ℕ) (a : σ) (h0 : I k a)
    (hstep : ∀ i (h : i < l.length) s, I (k + i) s → ∃ s', f s l[i] = .ok s' ∧ I (k + i + 1) s') :
    ∃ z, l.foldlM f a = .ok z ∧ I (k + l.length) z := by
  induction l generalizing a k with
  | nil => exact ⟨a, rfl, by simpa using h0⟩
  | cons b l ih =>
    obtain ⟨s', h1, h2⟩ := hstep 0 (by simp) a (by simpa using h0)
    simp only [List.getElem_cons_zero] at h1
    obtain ⟨z, hz, hI⟩ := ih (k + 1) s' (by simpa using h2) (by
      intro i hi s hs
      have := hstep (i + 1) (by simpa using hi) s (by rwa [show k + (i + 1) = k + 1 + i by omega])
      simp only [List.getElem_cons_succ] at this
      rwa [show k + (i + 1) + 1 = k + 1 + i + 1 by omega] at this)
    refine ⟨z, ?_, ?_⟩
    · rw [List.foldlM_cons, h1]
      simp only [res_bind_ok]
      exact hz
    · rw [List.length_cons, show k + (l.length + 1) = k + 1 + l.length by omega]
      exact hI

end Verif
