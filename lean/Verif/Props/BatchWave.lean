import Verif.Props.TaylorF2
import Verif.Props.PhenomD
import Verif.Props.PhenomPForward
/-!
# A frequency-domain waveform is a function of a binary and a frequency (C86)

The three approximants take a batch of binaries and a grid of frequencies.  The entry they return for a binary and a frequency does not depend on where the two stand in
the batch and the grid, nor on what else is in them.
-/
set_option linter.unusedSimpArgs false
namespace Verif.BatchWave

/-- Entry `(i, j)` of a batch-by-frequency result. -/
def entry (r : List (List ℂ) × List (List ℂ)) (i j : ℕ) : Option (ℂ × ℂ) := do
  let c ← r.1[i]?
  let s ← r.2[i]?
  return (← c[j]?, ← s[j]?)

/-- The seven parameters of batch element `i`. -/
def row (p : TaylorF2.Params) (i : ℕ) : List (Option ℝ) :=
  [p.chirpMass[i]?, p.massRatio[i]?, p.chi1[i]?, p.chi2[i]?, p.distance[i]?, p.phic[i]?, p.inclination[i]?]

/-- The batch that contains binary `i` only. -/
def single (p : TaylorF2.Params) (i : ℕ) : TaylorF2.Params :=
  ⟨p.chirpMass[i]?.toList, p.massRatio[i]?.toList, p.chi1[i]?.toList, p.chi2[i]?.toList, p.distance[i]?.toList, p.phic[i]?.toList, p.inclination[i]?.toList⟩

theorem row_getD (p p' : TaylorF2.Params) (i i' : ℕ) (h : row p i = row p' i') :
    p.chirpMass.getD i 0 = p'.chirpMass.getD i' 0 ∧ p.massRatio.getD i 0 = p'.massRatio.getD i' 0 ∧ p.chi1.getD i 0 = p'.chi1.getD i' 0 ∧
      p.chi2.getD i 0 = p'.chi2.getD i' 0 ∧ p.distance.getD i 0 = p'.distance.getD i' 0 ∧ p.phic.getD i 0 = p'.phic.getD i' 0 ∧
      p.inclination.getD i 0 = p'.inclination.getD i' 0 := by
  simp only [row, List.cons.injEq, and_true] at h
  obtain ⟨a, b, c, d, e, f, g⟩ := h
  simp only [List.getD_eq_getElem?_getD, a, b, c, d, e, f, g, and_self]

theorem single_same (p : TaylorF2.Params) (n i : ℕ) (h : p.Same n) (hi : i < n) : (single p i).Same 1 ∧ row (single p i) 0 = row p i := by
  obtain ⟨a, b, c, d, e, g, k⟩ := h
  unfold single row TaylorF2.Params.Same
  rw [List.getElem?_eq_getElem (l := p.chirpMass) (by omega), List.getElem?_eq_getElem (l := p.massRatio) (by omega), List.getElem?_eq_getElem (l := p.chi1) (by omega),
    List.getElem?_eq_getElem (l := p.chi2) (by omega), List.getElem?_eq_getElem (l := p.distance) (by omega), List.getElem?_eq_getElem (l := p.phic) (by omega),
    List.getElem?_eq_getElem (l := p.inclination) (by omega)]
  simp

theorem entry_eq (r : List (List ℂ) × List (List ℂ)) (i j : ℕ) (c s : List ℂ) (h1 : r.1[i]? = some c) (h2 : r.2[i]? = some s) (x y : ℂ) (h3 : c[j]? = some x) (h4 : s[j]? = some y) :
    entry r i j = some (x, y) := by
  unfold entry
  rw [h1, h2]
  simp [h3, h4]

/-- **C86 (TaylorF2).**  Equal binaries at equal frequencies get equal polarizations, whatever batches and grids they stand in. -/
theorem taylorF2 (f f' : List ℝ) (p p' : TaylorF2.Params) (fRef : ℝ) (n n' : ℕ) (h : p.Same n) (h' : p'.Same n') :
    ∃ r r', TaylorF2.forward f p fRef = .ok r ∧ TaylorF2.forward f' p' fRef = .ok r' ∧
      ∀ i < n, ∀ i' < n', row p i = row p' i' → ∀ (j j' : ℕ) (x : ℝ), f[j]? = some x → f'[j']? = some x →
        (∃ v, entry r i j = some v) ∧ entry r i j = entry r' i' j' := by
  obtain ⟨c, s, hr, -, -, hv⟩ := TaylorF2.forward_ok f p fRef n h
  obtain ⟨c', s', hr', -, -, hv'⟩ := TaylorF2.forward_ok f' p' fRef n' h'
  refine ⟨_, _, hr, hr', fun i hi i' hi' e j j' x hx hx' => ?_⟩
  obtain ⟨a1, a2, a3, a4, a5, a6, a7⟩ := row_getD _ _ _ _ e
  obtain ⟨rc, rp, h1, h2, -, -, h3⟩ := hv i hi
  obtain ⟨rc', rp', h1', h2', -, -, h3'⟩ := hv' i' hi'
  have hb : p.bin i = p'.bin i' := by unfold TaylorF2.Params.bin; rw [a1, a2, a3, a4]
  rw [entry_eq _ i j rc rp h1 h2 _ _ (h3 j x hx).2 (h3 j x hx).1, entry_eq _ i' j' rc' rp' h1' h2' _ _ (h3' j' x hx').2 (h3' j' x hx').1, hb, a5, a6, a7]
  exact ⟨⟨_, rfl⟩, rfl⟩

/-- The final spins of a batch. -/
noncomputable def spins (p : TaylorF2.Params) (n : ℕ) : List ℝ :=
  (List.range n).map fun i => PhenomD.finalSpin (PhenomD.etaOf (p.chirpMass.getD i 0) (p.massRatio.getD i 0)) (p.chi1.getD i 0) (p.chi2.getD i 0)

theorem phenomD_value (f : List ℝ) (p : TaylorF2.Params) (fRef : ℝ) (n : ℕ) (h : p.Same n) (hs : ∀ x ∈ spins p n, -1 ≤ x ∧ x ≤ 1) :
    ∃ r, PhenomD.forward f p fRef = .ok r ∧ ∀ i < n, ∀ (j : ℕ) (x : ℝ), f[j]? = some x →
      let w := PhenomD.htilde (p.chirpMass.getD i 0) (p.massRatio.getD i 0)
        (PhenomD.ctxOf (p.chirpMass.getD i 0) (p.massRatio.getD i 0) (p.chi1.getD i 0) (p.chi2.getD i 0)) x (p.distance.getD i 0) (p.phic.getD i 0) fRef
      entry r i j = some (-Complex.I * (w * (Real.cos (p.inclination.getD i 0) : ℝ)),
        w * ((0.5 * (1 + Real.cos (p.inclination.getD i 0) * Real.cos (p.inclination.getD i 0)) : ℝ) : ℂ)) := by
  obtain ⟨a, b, c, d, e, g, k⟩ := h
  unfold PhenomD.forward raiseIf
  rw [if_neg (by rw [not_not]; omega), res_bind_ok]
  dsimp only
  rw [a]
  rw [show PhenomD.interpFinspin ((List.range n).map fun i => PhenomD.finalSpin (PhenomD.etaOf (p.chirpMass.getD i 0) (p.massRatio.getD i 0)) (p.chi1.getD i 0) (p.chi2.getD i 0)) = _
    from PhenomD.interpFinspin_ok (spins p n) hs, res_bind_ok]
  refine ⟨_, rfl, fun i hi j x hx => ?_⟩
  refine entry_eq _ i j _ _ (by rw [List.getElem?_map, List.getElem?_range hi]; rfl) (by rw [List.getElem?_map, List.getElem?_range hi]; rfl) _ _ ?_ ?_
  · rw [List.getElem?_map, hx]
    simp [spins, List.getD_eq_getElem?_getD, hi, PhenomD.ctxOf, PhenomD.rdOf]
  · rw [List.getElem?_map, hx]
    simp [spins, List.getD_eq_getElem?_getD, hi, PhenomD.ctxOf, PhenomD.rdOf]

/-- **C86 (IMRPhenomD).**  A batch is accepted exactly when each of its binaries is accepted alone. -/
theorem phenomD_accept (f : List ℝ) (p : TaylorF2.Params) (fRef : ℝ) (n : ℕ) (h : p.Same n) :
    (∃ r, PhenomD.forward f p fRef = .ok r) ↔ ∀ i < n, ∃ r, PhenomD.forward f (single p i) fRef = .ok r := by
  have key : ∀ (q : TaylorF2.Params) (m : ℕ), q.Same m → ((∃ r, PhenomD.forward f q fRef = .ok r) ↔ ∀ x ∈ spins q m, -1 ≤ x ∧ x ≤ 1) := by
    intro q m hq
    constructor
    · rintro ⟨r, hr⟩ x hx
      by_contra hc
      obtain ⟨i, hi, rfl⟩ := List.mem_map.1 hx
      rw [PhenomD.forward_spin_reject f q fRef m hq ⟨i, List.mem_range.1 hi, ?_⟩] at hr
      · cases hr
      · by_contra hle
        exact hc (abs_le.1 (not_lt.1 hle))
    · intro hx
      obtain ⟨r, hr, -⟩ := phenomD_value f q fRef m hq hx
      exact ⟨r, hr⟩
  have hone : ∀ i < n, spins (single p i) 1 = [PhenomD.finalSpin (PhenomD.etaOf (p.chirpMass.getD i 0) (p.massRatio.getD i 0)) (p.chi1.getD i 0) (p.chi2.getD i 0)] := by
    intro i hi
    obtain ⟨a1, a2, a3, a4, -⟩ := row_getD _ _ _ _ (single_same p n i h hi).2
    simp only [spins, List.range_one, List.map_cons, List.map_nil, a1, a2, a3, a4]
  rw [key p n h]
  constructor
  · intro hx i hi
    rw [key _ 1 (single_same p n i h hi).1, hone i hi]
    intro x hx'
    exact hx x (List.mem_map.2 ⟨i, List.mem_range.2 hi, (List.mem_singleton.1 hx').symm⟩)
  · intro hx x hx'
    obtain ⟨i, hi, rfl⟩ := List.mem_map.1 hx'
    have hi := List.mem_range.1 hi
    have := (key _ 1 (single_same p n i h hi).1).1 (hx i hi)
    rw [hone i hi] at this
    exact this _ (List.mem_singleton.2 rfl)

/-- **C86 (IMRPhenomD).**  In two accepted batches equal binaries at equal frequencies get equal polarizations. -/
theorem phenomD (f f' : List ℝ) (p p' : TaylorF2.Params) (fRef : ℝ) (n n' : ℕ) (h : p.Same n) (h' : p'.Same n')
    (r r' : List (List ℂ) × List (List ℂ)) (hr : PhenomD.forward f p fRef = .ok r) (hr' : PhenomD.forward f' p' fRef = .ok r') :
    ∀ i < n, ∀ i' < n', row p i = row p' i' → ∀ (j j' : ℕ) (x : ℝ), f[j]? = some x → f'[j']? = some x →
      (∃ v, entry r i j = some v) ∧ entry r i j = entry r' i' j' := by
  have key : ∀ (g : List ℝ) (q : TaylorF2.Params) (m : ℕ) (r : _), q.Same m → PhenomD.forward g q fRef = .ok r → ∀ x ∈ spins q m, -1 ≤ x ∧ x ≤ 1 := by
    intro g q m r hq hr x hx
    by_contra hc
    obtain ⟨i, hi, rfl⟩ := List.mem_map.1 hx
    rw [PhenomD.forward_spin_reject g q fRef m hq ⟨i, List.mem_range.1 hi, ?_⟩] at hr
    · cases hr
    · by_contra hle
      exact hc (abs_le.1 (not_lt.1 hle))
  obtain ⟨s, hs, hv⟩ := phenomD_value f p fRef n h (key f p n r h hr)
  obtain ⟨s', hs', hv'⟩ := phenomD_value f' p' fRef n' h' (key f' p' n' r' h' hr')
  obtain rfl := Except.ok.inj (hr.symm.trans hs)
  obtain rfl := Except.ok.inj (hr'.symm.trans hs')
  intro i hi i' hi' e j j' x hx hx'
  obtain ⟨a1, a2, a3, a4, a5, a6, a7⟩ := row_getD _ _ _ _ e
  rw [hv i hi j x hx, hv' i' hi' j' x hx', a1, a2, a3, a4, a5, a6, a7]
  exact ⟨⟨_, rfl⟩, rfl⟩

/-- What a successful `mapM` did to each element. -/
theorem mapM_elem {α β : Type _} (f : α → Res β) (l : List α) (ys : List β) (h : l.mapM f = .ok ys) (i : ℕ) (x : α) (hx : l[i]? = some x) :
    ∃ y, ys[i]? = some y ∧ f x = .ok y := by
  induction l generalizing ys i with
  | nil => simp at hx
  | cons a l ih =>
    rw [List.mapM_cons] at h
    cases ha : f a with
    | error e => rw [ha] at h; cases h
    | ok b =>
      rw [ha, res_bind_ok] at h
      cases hl : l.mapM f with
      | error e => rw [hl] at h; cases h
      | ok bs =>
        rw [hl, res_bind_ok] at h
        obtain rfl := Except.ok.inj h
        cases i with
        | zero =>
          simp only [List.getElem?_cons_zero, Option.some.injEq] at hx
          subst hx
          exact ⟨b, rfl, ha⟩
        | succ i =>
          rw [List.getElem?_cons_succ] at hx
          simpa using ih bs hl i hx

theorem phenomP_value (fs : List ℝ) (ps : List PhenomP.Par) (fRef : ℝ) (r : List (List ℂ) × List (List ℂ)) (hr : PhenomP.forward fs ps fRef = .ok r)
    (i j : ℕ) (p : PhenomP.Par) (x : ℝ) (hp : ps[i]? = some p) (hx : fs[j]? = some x) :
    ∃ e, PhenomP.elem p fRef = .ok e ∧ entry r i j = some (PhenomP.polarizations p e x) := by
  unfold PhenomP.forward at hr
  cases hm : ps.mapM fun p => (PhenomP.elem p fRef).map fun e => (p, e) with
  | error e => rw [hm] at hr; cases hr
  | ok es =>
    rw [hm, res_bind_ok] at hr
    obtain rfl := Except.ok.inj hr
    obtain ⟨q, hq1, hq2⟩ := mapM_elem _ ps es hm i p hp
    cases he : PhenomP.elem p fRef with
    | error e => rw [he] at hq2; cases hq2
    | ok e =>
      rw [he] at hq2
      obtain rfl := Except.ok.inj hq2
      refine ⟨e, rfl, ?_⟩
      refine entry_eq _ i j _ _ (by rw [List.getElem?_map, hq1]; rfl) (by rw [List.getElem?_map, hq1]; rfl) _ _ ?_ ?_
      · rw [List.getElem?_map, hx]; rfl
      · rw [List.getElem?_map, hx]; rfl

/-- **C86 (IMRPhenomPv2).**  A batch is accepted exactly when each of its binaries is accepted alone. -/
theorem phenomP_accept (fs : List ℝ) (ps : List PhenomP.Par) (fRef : ℝ) :
    (∃ r, PhenomP.forward fs ps fRef = .ok r) ↔ ∀ p ∈ ps, ∃ r, PhenomP.forward fs [p] fRef = .ok r := by
  have key : ∀ l : List PhenomP.Par, (∃ r, PhenomP.forward fs l fRef = .ok r) ↔ ∀ p ∈ l, ∃ e, PhenomP.elem p fRef = .ok e := by
    intro l
    constructor
    · rintro ⟨r, hr⟩ p hp
      unfold PhenomP.forward at hr
      cases hm : l.mapM fun p => (PhenomP.elem p fRef).map fun e => (p, e) with
      | error e => rw [hm] at hr; cases hr
      | ok es =>
        obtain ⟨i, hi⟩ := List.getElem?_of_mem hp
        obtain ⟨q, -, hq2⟩ := mapM_elem _ l es hm i p hi
        cases he : PhenomP.elem p fRef with
        | error e => rw [he] at hq2; cases hq2
        | ok e => exact ⟨e, rfl⟩
    · intro h
      obtain ⟨es, hes, -⟩ := mapM_ok_exists (fun p => (PhenomP.elem p fRef).map fun e => (p, e)) (fun _ _ => True) l (by
        intro p hp
        obtain ⟨e, he⟩ := h p hp
        exact ⟨(p, e), by rw [he]; rfl, trivial⟩)
      unfold PhenomP.forward
      rw [hes]
      exact ⟨_, rfl⟩
  rw [key]
  refine forall₂_congr fun p _ => ?_
  rw [key]
  simp

/-- **C86 (IMRPhenomPv2).**  In two accepted batches equal binaries at equal frequencies get equal polarizations. -/
theorem phenomP (fs fs' : List ℝ) (ps ps' : List PhenomP.Par) (fRef : ℝ) (r r' : List (List ℂ) × List (List ℂ))
    (hr : PhenomP.forward fs ps fRef = .ok r) (hr' : PhenomP.forward fs' ps' fRef = .ok r') (i i' j j' : ℕ) (p : PhenomP.Par) (x : ℝ)
    (hp : ps[i]? = some p) (hp' : ps'[i']? = some p) (hx : fs[j]? = some x) (hx' : fs'[j']? = some x) :
    (∃ v, entry r i j = some v) ∧ entry r i j = entry r' i' j' := by
  obtain ⟨e, he, hv⟩ := phenomP_value fs ps fRef r hr i j p x hp hx
  obtain ⟨e', he', hv'⟩ := phenomP_value fs' ps' fRef r' hr' i' j' p x hp' hx'
  obtain rfl := Except.ok.inj (he.symm.trans he')
  rw [hv, hv']
  exact ⟨⟨_, rfl⟩, rfl⟩

/-! ## The hypotheses can be met -/

example (fRef : ℝ) : ∃ r r', TaylorF2.forward [20, 30] TaylorF2.exParams fRef = .ok r ∧ TaylorF2.forward [30] (single TaylorF2.exParams 1) fRef = .ok r' ∧
    entry r 1 1 = entry r' 0 0 := by
  have hs : TaylorF2.exParams.Same 2 := ⟨rfl, rfl, rfl, rfl, rfl, rfl, rfl⟩
  obtain ⟨h1, h2⟩ := single_same TaylorF2.exParams 2 1 hs (by norm_num)
  obtain ⟨r, r', hr, hr', h⟩ := taylorF2 [20, 30] [30] TaylorF2.exParams (single TaylorF2.exParams 1) fRef 2 1 hs h1
  exact ⟨r, r', hr, hr', (h 1 (by norm_num) 0 (by norm_num) h2.symm 1 0 30 rfl rfl).2⟩

example (fRef : ℝ) : ∃ r r', PhenomP.forward [20, 30] [PhenomP.exPar, PhenomP.exPar] fRef = .ok r ∧ PhenomP.forward [30] [PhenomP.exPar] fRef = .ok r' ∧
    entry r 1 1 = entry r' 0 0 := by
  have hr := PhenomP.forward_ok [20, 30] [PhenomP.exPar, PhenomP.exPar] fRef (by intro p hp; simp at hp; rw [hp]; exact PhenomP.exPar_physical)
  have hr' := PhenomP.forward_ok [30] [PhenomP.exPar] fRef (by intro p hp; simp at hp; rw [hp]; exact PhenomP.exPar_physical)
  exact ⟨_, _, hr, hr', (phenomP _ _ _ _ fRef _ _ hr hr' 1 0 1 0 PhenomP.exPar 30 rfl rfl rfl rfl).2⟩

end Verif.BatchWave
