import Verif.Model.WaveformSampler
import Verif.Lemmas.Tensor
import Mathlib.Data.List.GetD
import Mathlib.Tactic.NormNum
/-!
# Properties of `WaveformSampler` (C45)
-/
set_option linter.unusedSimpArgs false
set_option linter.unusedVariables false
namespace Verif.WaveformSampler
variable {α β : Type}

/-- What `torch.randint(n, size=(k,))` may return: `k` numbers below `n`, not necessarily distinct. -/
def Draws (draw : Nat → Nat → List Nat) : Prop := ∀ n k, 0 < n → (draw n k).length = k ∧ ∀ j ∈ draw n k, j < n

theorem fold_some (n : Nat) (pols : List (String × Tensor α)) (h : ∀ p ∈ pols, ∃ r, p.2.shape = n :: r) :
    pols.foldlM checkPol (some n) = .ok (some n) := by
  induction pols with
  | nil => rfl
  | cons p l ih =>
    obtain ⟨r, hr⟩ := h p (by simp)
    rw [List.foldlM_cons]
    have : checkPol (some n) p = .ok (some n) := by simp [checkPol, Tensor.len, hr]
    rw [this]
    exact ih (fun q hq => h q (by simp [hq]))

/-- **C45 (construction).**  Polarizations with the same number `n` of waveforms, and parameters (if any) with `n`
rows, are accepted. -/
theorem sampler_init (params : Option (Tensor β)) (pols : List (String × Tensor α)) (n : Nat) (hne : pols ≠ [])
    (h : ∀ p ∈ pols, ∃ r, p.2.shape = n :: r) (hp : ∀ p ∈ params, ∃ r, p.shape = n :: r) :
    init params pols = .ok ⟨pols, some n, params⟩ := by
  have h1 : pols.foldlM checkPol none = .ok (some n) := by
    cases pols with
    | nil => exact absurd rfl hne
    | cons p l =>
      obtain ⟨r, hr⟩ := h p (by simp)
      rw [List.foldlM_cons]
      have : checkPol none p = .ok (some n) := by simp [checkPol, firstDim, hr]
      rw [this]
      exact fold_some n l (fun q hq => h q (by simp [hq]))
  have h2 : checkParams (some n) params = .ok () := by
    cases params with
    | none => rfl
    | some p =>
      obtain ⟨r, hr⟩ := hp p rfl
      simp [checkParams, Tensor.len, hr]
  unfold init
  simp only [h1, h2, res_bind_ok]

/-- **C45 (mismatch).**  A polarization with another number of waveforms than the first one, or parameters with
another number of rows, are rejected with ValueError. -/
theorem sampler_rejects (params : Option (Tensor β)) (p : String × Tensor α) (l : List (String × Tensor α)) (n : Nat) (r : List Nat)
    (hp : p.2.shape = n :: r) (hl : ∀ q ∈ l, q.2.shape ≠ []) :
    ((∃ q ∈ l, ∃ m r', q.2.shape = m :: r' ∧ m ≠ n) → init params (p :: l) = .error .value) ∧
    (∀ t m r', params = some t → t.shape = m :: r' → m ≠ n → init params (p :: l) = .error .value) := by
  have h0 : checkPol none p = .ok (some n) := by simp [checkPol, firstDim, hp]
  have key : ∀ l : List (String × Tensor α), (∀ q ∈ l, q.2.shape ≠ []) →
      l.foldlM checkPol (some n) = .ok (some n) ∨ l.foldlM checkPol (some n) = .error .value := by
    intro l
    induction l with
    | nil => intro _; exact Or.inl rfl
    | cons q l ih =>
      intro hl
      have := ih (fun x hx => hl x (by simp [hx]))
      rw [List.foldlM_cons]
      cases hq : q.2.shape with
      | nil => exact absurd hq (hl q (by simp))
      | cons m r' =>
        by_cases hm : m = n
        · have e : checkPol (some n) q = .ok (some n) := by simp [checkPol, Tensor.len, hq, hm]
          rw [e]; exact this
        · have e : checkPol (some n) q = .error .value := by simp [checkPol, Tensor.len, hq, hm]
          rw [e]; exact Or.inr rfl
  constructor
  · rintro ⟨q, hq, m, r', hs, hm⟩
    have bad : l.foldlM checkPol (some n) = .error .value := by
      have : ∀ l : List (String × Tensor α), (∀ x ∈ l, x.2.shape ≠ []) → q ∈ l → l.foldlM checkPol (some n) = .error .value := by
        intro l
        induction l with
        | nil => intro _ h; simp at h
        | cons a l ih =>
          intro hl hql
          rw [List.foldlM_cons]
          rcases List.mem_cons.1 hql with rfl | hql
          · have e : checkPol (some n) q = .error .value := by simp [checkPol, Tensor.len, hs, hm]
            rw [e]; rfl
          · cases ha : a.2.shape with
            | nil => exact absurd ha (hl a (by simp))
            | cons m' r'' =>
              by_cases hm' : m' = n
              · have e : checkPol (some n) a = .ok (some n) := by simp [checkPol, Tensor.len, ha, hm']
                rw [e]; exact ih (fun x hx => hl x (by simp [hx])) hql
              · have e : checkPol (some n) a = .error .value := by simp [checkPol, Tensor.len, ha, hm']
                rw [e]; rfl
      exact this l hl hq
    unfold init
    rw [List.foldlM_cons, h0]
    simp only [res_bind_ok]
    rw [bad]; rfl
  · rintro t m r' rfl ht hm
    unfold init
    rw [List.foldlM_cons, h0]
    simp only [res_bind_ok]
    rcases key l hl with h | h
    · rw [h]
      have : checkParams (some n) (some t) = .error .value := by
        simp [checkParams, Tensor.len, ht, Ne.symm hm]
      simp only [res_bind_ok, this]; rfl
    · rw [h]; rfl

example : init (some (⟨[5, 2], fun _ => 0⟩ : Tensor Nat)) [("plus", (⟨[4, 8], fun _ => 0⟩ : Tensor Nat))] = .error .value :=
  (sampler_rejects _ _ [] 4 [8] rfl (by simp)).2 _ 5 [2] rfl rfl (by norm_num)

/-- **C45 (what is accepted).**  A sampler is constructed exactly when there are no polarizations and no parameters, or all
polarizations and the parameters have one common number of rows. -/
theorem sampler_init_iff (params : Option (Tensor β)) (pols : List (String × Tensor α)) :
    (∃ s, init params pols = .ok s) ↔ (pols = [] ∧ params = none) ∨
      (pols ≠ [] ∧ ∃ n, (∀ p ∈ pols, ∃ r, p.2.shape = n :: r) ∧ ∀ p ∈ params, ∃ r, p.shape = n :: r) := by
  constructor
  · rintro ⟨s, h⟩
    cases pols with
    | nil =>
      refine Or.inl ⟨rfl, ?_⟩
      cases params with
      | none => rfl
      | some t =>
        exfalso
        cases ht : t.shape with
        | nil => simp [init, List.foldlM_nil, checkParams, Tensor.len, ht, pure, Except.pure] at h
        | cons a r => simp [init, List.foldlM_nil, checkParams, Tensor.len, ht, pure, Except.pure] at h
    | cons p l =>
      refine Or.inr ⟨by simp, ?_⟩
      unfold init at h
      rw [List.foldlM_cons] at h
      cases hp : p.2.shape with
      | nil =>
        have e : checkPol none p = .error .index := by simp only [checkPol, firstDim, hp]; rfl
        rw [e] at h; cases h
      | cons n r =>
        have e : checkPol none p = .ok (some n) := by simp [checkPol, firstDim, hp]
        rw [e] at h
        simp only [res_bind_ok] at h
        have key : ∀ (l : List (String × Tensor α)) o, l.foldlM checkPol (some n) = .ok o → o = some n ∧ ∀ q ∈ l, ∃ r, q.2.shape = n :: r := by
          intro l
          induction l with
          | nil => intro o ho; cases ho; exact ⟨rfl, by simp⟩
          | cons q l ih =>
            intro o ho
            rw [List.foldlM_cons] at ho
            cases hq : q.2.shape with
            | nil =>
              have e : ∃ x, checkPol (some n) q = .error x := by simp only [checkPol, Tensor.len, hq]; exact ⟨_, rfl⟩
              obtain ⟨x, e⟩ := e
              rw [e] at ho; cases ho
            | cons m r' =>
              by_cases hm : m = n
              · have e : checkPol (some n) q = .ok (some n) := by simp [checkPol, Tensor.len, hq, hm]
                rw [e] at ho
                obtain ⟨h1, h2⟩ := ih o ho
                refine ⟨h1, ?_⟩
                intro x hx
                rcases List.mem_cons.1 hx with rfl | hx
                · exact ⟨r', by rw [hq, hm]⟩
                · exact h2 x hx
              · have e : checkPol (some n) q = .error .value := by simp [checkPol, Tensor.len, hq, hm]
                rw [e] at ho; cases ho
        cases hl : l.foldlM checkPol (some n) with
        | error x => rw [hl] at h; cases h
        | ok o =>
          obtain ⟨rfl, h2⟩ := key l o hl
          rw [hl] at h
          simp only [res_bind_ok] at h
          refine ⟨n, ?_, ?_⟩
          · intro x hx
            rcases List.mem_cons.1 hx with rfl | hx
            · exact ⟨r, hp⟩
            · exact h2 x hx
          · rintro t ht
            cases ht
            cases ht : t.shape with
            | nil =>
              have e : ∃ x, checkParams (some n) (some t) = .error x := by simp only [checkParams, Tensor.len, ht]; exact ⟨_, rfl⟩
              obtain ⟨x, e⟩ := e
              rw [e] at h; cases h
            | cons m r' =>
              by_cases hm : m = n
              · exact ⟨r', by rw [hm]⟩
              · have e : checkParams (some n) (some t) = .error .value := by simp [checkParams, Tensor.len, ht, Ne.symm hm]
                rw [e] at h; cases h
  · rintro (⟨rfl, rfl⟩ | ⟨hne, n, h1, h2⟩)
    · exact ⟨_, rfl⟩
    · exact ⟨_, sampler_init params pols n hne h1 h2⟩

example : ∃ s, init (some (⟨[4], fun _ => 0⟩ : Tensor Nat)) [("plus", (⟨[4, 8], fun _ => 0⟩ : Tensor Nat))] = .ok s :=
  (sampler_init_iff _ _).2 (Or.inr ⟨by simp, 4, by simp, by simp⟩)

/-- **C45 (scalars).**  A scalar first polarization raises IndexError, a scalar later one, when the number of waveforms is known, or scalar
parameters TypeError. -/
theorem sampler_scalars (params : Option (Tensor β)) (p : String × Tensor α) (l : List (String × Tensor α)) :
    (p.2.shape = [] → init params (p :: l) = .error .index) ∧
    (∀ n r q, p.2.shape = n :: r → q.2.shape = [] → init params (p :: q :: l) = .error .type) ∧
    (∀ n r (t : Tensor β), p.2.shape = n :: r → t.shape = [] → init (some t) [p] = .error .type) := by
  refine ⟨?_, ?_, ?_⟩
  · intro hp
    have e : checkPol none p = .error .index := by simp only [checkPol, firstDim, hp]; rfl
    unfold init
    rw [List.foldlM_cons, e]; rfl
  · intro n r q hp hq
    have e : checkPol none p = .ok (some n) := by simp [checkPol, firstDim, hp]
    have e' : checkPol (some n) q = .error .type := by simp only [checkPol, Tensor.len, hq]; rfl
    unfold init
    rw [List.foldlM_cons, e]
    simp only [res_bind_ok]
    rw [List.foldlM_cons, e']; rfl
  · intro n r t hp ht
    have e : checkPol none p = .ok (some n) := by simp [checkPol, firstDim, hp]
    have e' : checkParams (some n) (some t) = .error .type := by simp only [checkParams, Tensor.len, ht]; rfl
    unfold init
    rw [List.foldlM_cons, e]
    simp only [res_bind_ok, List.foldlM_nil]
    show (do let _ ← checkParams (some n) (some t); _) = _
    rw [e']; rfl

example : init (none : Option (Tensor Nat)) [("plus", (⟨[], fun _ => 0⟩ : Tensor Nat))] = .error .index := (sampler_scalars _ _ []).1 rfl

/-- **C45 (alignment).**  For every draw of the generator there is one index per requested waveform such that row
`j` of *every* polarization and of the parameters is the stored row of that same index, and each stored name appears
in order. -/
theorem sampler_aligned (params : Option (Tensor β)) (pols : List (String × Tensor α)) (n : Nat) (draw : Nat → Nat → List Nat)
    (hd : Draws draw) (hn : 0 < n) (N : Int) (h0 : 0 ≤ N) (hN : N ≤ n) :
    ∃ idx : Nat → Nat, (∀ j, j < N.toNat → idx j < n) ∧
      ∃ out, forward ⟨pols, some n, params⟩ draw N = .ok out ∧ out.1.map (·.1) = pols.map (·.1) ∧
        (∀ i, (hi : i < pols.length) → ∃ hi' : i < out.1.length, (out.1[i]).2.shape = N.toNat :: pols[i].2.shape.tail ∧
          ∀ j k, j < N.toNat → (out.1[i]).2.get (j :: k) = pols[i].2.get (idx j :: k)) ∧
        (∀ p, params = some p → ∃ q, out.2 = some q ∧ q.shape = N.toNat :: p.shape.tail ∧
          ∀ j k, j < N.toNat → q.get (j :: k) = p.get (idx j :: k)) ∧
        (params = none → out.2 = none) := by
  obtain ⟨hl, hlt⟩ := hd n N.toNat hn
  refine ⟨fun j => (draw n N.toNat).getD j 0, ?_, ?_⟩
  · intro j hj
    dsimp only
    rw [List.getD_eq_getElem _ _ (by omega)]
    exact hlt _ (List.getElem_mem _)
  · have hi : indices (some n) draw N = .ok (draw n N.toNat) := by
      unfold indices
      simp only
      rw [if_neg (by omega), if_neg (by omega), if_neg (by omega)]
    refine ⟨_, by unfold forward; simp only [hi, res_bind_ok]; rfl, by simp, ?_, ?_, ?_⟩
    · intro i hi
      refine ⟨by simpa using hi, ?_, ?_⟩
      · simp [rows, hl]
      · intro j k hj; simp [rows]
    · rintro p rfl
      refine ⟨_, rfl, by simp [rows, hl], ?_⟩
      intro j k hj; simp [rows]
    · rintro rfl; rfl

example : ∃ idx : Nat → Nat, (∀ j, j < 2 → idx j < 3) ∧ ∃ out, forward ⟨[("plus", (⟨[3, 4], fun i => i.headD 0⟩ : Tensor Nat))], some 3,
    some (⟨[3], fun i => 10 * i.headD 0⟩ : Tensor Nat)⟩ (fun n k => List.replicate k (n - 1)) 2 = .ok out := by
  obtain ⟨idx, h1, out, h2, -⟩ := sampler_aligned (some (⟨[3], fun i => 10 * i.headD 0⟩ : Tensor Nat))
    [("plus", (⟨[3, 4], fun i => i.headD 0⟩ : Tensor Nat))] 3 (fun n k => List.replicate k (n - 1))
    (by intro n k hn; refine ⟨by simp, ?_⟩; intro j hj; rw [List.eq_of_mem_replicate hj]; omega)
    (by norm_num) 2 (by norm_num) (by norm_num)
  exact ⟨idx, h1, out, h2⟩

/-- **C45 (all).**  `N = -1` returns every waveform, in order, whatever the generator does. -/
theorem sampler_all (params : Option (Tensor β)) (pols : List (String × Tensor α)) (n : Nat) (draw : Nat → Nat → List Nat)
    (h : ∀ p ∈ pols, ∃ r, p.2.shape = n :: r) (hp : ∀ p ∈ params, ∃ r, p.shape = n :: r) :
    ∃ out, forward ⟨pols, some n, params⟩ draw (-1) = .ok out ∧ out.1.length = pols.length ∧
      (∀ i, (hi : i < pols.length) → ∃ hi' : i < out.1.length, (out.1[i]).1 = pols[i].1 ∧ (out.1[i]).2.Same pols[i].2) ∧
      (∀ p, params = some p → ∃ q, out.2 = some q ∧ q.Same p) := by
  have hi : indices (some n) draw (-1) = .ok (List.range n) := by
    unfold indices
    simp only
    rw [if_neg (by omega)]; simp
  have same : ∀ {γ : Type} (v : Tensor γ), (∃ r, v.shape = n :: r) → (rows v (List.range n)).Same v := by
    intro γ v ⟨r, hr⟩
    refine ⟨by simp [rows, hr], ?_⟩
    intro i hi
    simp only [rows, List.length_range, hr, List.tail_cons] at hi ⊢
    cases i with
    | nil => exact absurd hi (by simp [InB])
    | cons j k =>
      have hj : j < n := hi.1
      simp [hj]
  refine ⟨_, by unfold forward; simp only [hi, res_bind_ok]; rfl, by simp, ?_, ?_⟩
  · intro i hi
    refine ⟨by simpa using hi, by simp, ?_⟩
    simpa using same pols[i].2 (h _ (List.getElem_mem _))
  · rintro p rfl
    exact ⟨_, rfl, same p (hp p rfl)⟩

example : ∃ out, forward ⟨[("plus", (⟨[3, 4], fun i => i.headD 0⟩ : Tensor Nat))], some 3, (none : Option (Tensor Nat))⟩ (fun _ _ => []) (-1) = .ok out := by
  obtain ⟨out, h, -⟩ := sampler_all (none : Option (Tensor Nat)) [("plus", (⟨[3, 4], fun i => i.headD 0⟩ : Tensor Nat))] 3 (fun _ _ => [])
    (by intro p hp; simp at hp; subst hp; exact ⟨_, rfl⟩) (by simp)
  exact ⟨out, h⟩

/-- **C45 (errors).**  More waveforms than available: ValueError; a negative number other than -1: RuntimeError; a
sampler without polarizations can be constructed but every call raises TypeError. -/
theorem sampler_errors (pols : List (String × Tensor α)) (params : Option (Tensor β)) (n : Nat) (draw : Nat → Nat → List Nat) (N : Int) :
    (N > n → forward ⟨pols, some n, params⟩ draw N = .error .value) ∧
    (N < -1 → forward ⟨pols, some n, params⟩ draw N = .error .runtime) ∧
    (∃ s, init (none : Option (Tensor β)) ([] : List (String × Tensor α)) = .ok s ∧ forward s draw N = .error .type) := by
  refine ⟨?_, ?_, ?_⟩
  · intro h
    unfold forward indices
    simp only [h, if_true]; rfl
  · intro h
    unfold forward indices
    simp only
    rw [if_neg (by omega), if_neg (by omega), if_pos (by omega)]; rfl
  · exact ⟨⟨[], none, none⟩, rfl, rfl⟩

/-- **C45 (finding: sampling is with replacement).**  Although more waveforms than available are refused, a draw may
repeat: for `n ≥ 2` there is an admissible outcome of the generator for which two rows of the sample are the same
stored waveform and another stored waveform is missing. -/
theorem sampler_repeats (n : Nat) (hn : 2 ≤ n) :
    ∃ draw, Draws draw ∧ ∃ out, forward ⟨[("plus", (⟨[n, 1], fun i => i.headD 0⟩ : Tensor Nat))], some n, (none : Option (Tensor Nat))⟩ draw n = .ok out ∧
      ∃ y : Tensor Nat, out.1 = [("plus", y)] ∧ y.shape = [n, 1] ∧ y.get [0, 0] = y.get [1, 0] ∧ ∀ j < n, y.get [j, 0] ≠ 1 := by
  refine ⟨fun _ k => List.replicate k 0, ?_, ?_⟩
  · intro m k hm
    refine ⟨by simp, ?_⟩
    intro j hj
    rw [List.eq_of_mem_replicate hj]; exact hm
  · have hi : indices (some n) (fun _ k => List.replicate k 0) n = .ok (List.replicate n 0) := by
      unfold indices
      simp only
      rw [if_neg (by omega), if_neg (by omega), if_neg (by omega)]
      simp
    refine ⟨_, by unfold forward; simp only [hi, res_bind_ok]; rfl, _, rfl, by simp [rows], ?_, ?_⟩
    · simp [rows, show 0 < n by omega, show 1 < n by omega]
    · intro j hj; simp [rows, hj]

end Verif.WaveformSampler
