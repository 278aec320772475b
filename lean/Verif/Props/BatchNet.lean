import Verif.Props.Batch
import Verif.Props.S4D
import Verif.Props.Spline
import Verif.Props.Decimator
import Verif.Props.Heterodyne
/-!
# Batch independence of the S4 model, spline interpolation, decimation and heterodyning (C84)
-/
namespace Verif.Batch
open Spec.Batch Finset

/-- **C84 (S4 model)**, in evaluation mode. -/
theorem s4_model (m : S4D.Model) (hl : ∀ p ∈ m.layers, p.1.H = m.dModel ∧ p.1.transposed = true) :
    BatchWise (fun s => ∃ L, 0 < L ∧ s = [m.dIn, L]) 0 m.forward := by
  rintro B _ x σ hx ⟨L, hL, rfl⟩ hσ
  obtain ⟨hB, hn⟩ := pos_batch hσ
  have key : ∀ b < σ.length, ∃ y y', m.forward x = .ok y ∧ m.forward (x.pick 0 σ) = .ok y' ∧ y.shape = [B, m.dOut] ∧ y'.shape = [σ.length, m.dOut] ∧
      ∀ o, y.get [σ.getD b 0, o] = y'.get [b, o] := fun b hb =>
    S4D.s4model_correct m hl x (x.pick 0 σ) B σ.length L (σ.getD b 0) b hx (pick_shape x σ B _ hx) hL (getD_lt hσ hb) hb fun c t _ _ => rfl
  obtain ⟨y, y', h1, h2, h3, h4, -⟩ := key 0 hn
  refine ⟨y, y', h1, h2, by simp [h3], by rw [h4, pick_shape y σ B _ h3], ?_⟩
  intro i hi
  rw [h4] at hi
  obtain ⟨b, o, rfl, hb, ho⟩ := InB.eq2 hi
  obtain ⟨z, z', g1, g2, -, -, g5⟩ := key b hb
  rw [h1] at g1; cases g1
  rw [h2] at g2; cases g2
  exact (g5 o).symm

/-- **C84 (decimation)**, without and with splitting. -/
theorem decimator {α : Type} (st : Decimator.State) (x : Tensor α) (B : ℕ) (rest : List ℕ) (hr : rest ≠ []) (hx : x.shape = B :: rest) (σ : List ℕ)
    (o : Decimator.Out α) (h : Decimator.forward st x = .ok o) :
    (∃ y y', o = .one y ∧ Decimator.forward st (x.pick 0 σ) = .ok (.one y') ∧ y'.Same (y.pick 0 σ)) ∨
    ∃ ys ys', o = .list ys ∧ Decimator.forward st (x.pick 0 σ) = .ok (.list ys') ∧ List.Forall₂ (fun y y' => y'.Same (y.pick 0 σ)) ys ys' := by
  have hcons : ∀ (g : ℕ → ℕ) (b : ℕ) (i : List ℕ), i ≠ [] → mapLast g (b :: i) = b :: mapLast g i := by
    intro g b i hi
    cases i with
    | nil => exact absurd rfl hi
    | cons a i => rfl
  have hx' := pick_shape x σ B _ hx
  have hlast : (x.pick 0 σ).lastDim = x.lastDim := by
    unfold Tensor.lastDim
    rw [hx, hx']
    cases rest with
    | nil => exact absurd rfl hr
    | cons a l => simp [List.getLast?_cons_cons]
  have hsel : ∀ (idx : List Int) (y : Tensor α), Decimator.indexSelect x idx = .ok y →
      ∃ y', Decimator.indexSelect (x.pick 0 σ) idx = .ok y' ∧ y'.Same (y.pick 0 σ) := by
    intro idx y hy
    unfold Decimator.indexSelect at hy ⊢
    rw [hlast]
    cases hd : x.lastDim with
    | error e => rw [hd] at hy; simp at hy
    | ok n =>
      rw [hd] at hy
      simp only [res_bind_ok] at hy ⊢
      split_ifs at hy ⊢ with hc
      cases hy
      refine ⟨_, rfl, ?_, ?_⟩
      · show mapLast _ (x.pick 0 σ).shape = (mapLast _ x.shape).set 0 σ.length
        rw [hx', hx, hcons _ _ _ hr, hcons _ _ _ hr]
        rfl
      · intro i hi
        have hi' : InB i (mapLast (fun _ => idx.length) (x.pick 0 σ).shape) := hi
        rw [hx', hcons _ _ _ hr] at hi'
        cases i with
        | nil => exact absurd hi' (by simp [InB])
        | cons b i =>
          have hne : i ≠ [] := by
            rintro rfl
            obtain ⟨-, h2⟩ := hi'
            cases rest with
            | nil => exact hr rfl
            | cons a l => cases l <;> exact absurd h2 (by simp [InB, mapLast])
          show (x.pick 0 σ).get (mapLast _ (b :: i)) = x.get (mapLast _ (σ.getD b 0 :: i))
          rw [hcons _ _ _ hne, hcons _ _ _ hne]
          rfl
  unfold Decimator.forward at h ⊢
  rw [hlast]
  cases hd : x.lastDim with
  | error e => rw [hd] at h; simp at h
  | ok n =>
    rw [hd] at h
    simp only [res_bind_ok] at h ⊢
    split_ifs at h ⊢ with h1 h2
    · right
      unfold Decimator.splitBySchedule at h ⊢
      cases hm : st.rows.mapM (Decimator.segment st.sr x) with
      | error e => rw [hm] at h; simp at h
      | ok ys =>
        rw [hm] at h
        simp only [res_bind_ok, Except.ok.injEq] at h
        have : ∀ (rows : List Decimator.Row) ys, rows.mapM (Decimator.segment st.sr x) = .ok ys →
            ∃ ys', rows.mapM (Decimator.segment st.sr (x.pick 0 σ)) = .ok ys' ∧ List.Forall₂ (fun y y' => Tensor.Same y' (y.pick 0 σ)) ys ys' := by
          intro rows
          induction rows with
          | nil =>
            intro ys hys
            simp at hys
            subst hys
            exact ⟨[], by simp, .nil⟩
          | cons r rows ih =>
            intro ys hys
            rw [List.mapM_cons] at hys
            cases hseg : Decimator.segment st.sr x r with
            | error e => rw [hseg] at hys; simp at hys
            | ok z =>
              rw [hseg] at hys
              simp only [res_bind_ok] at hys
              cases hrs : rows.mapM (Decimator.segment st.sr x) with
              | error e => rw [hrs] at hys; simp at hys
              | ok zs =>
                rw [hrs] at hys
                simp at hys
                obtain ⟨zs', e1, e2⟩ := ih zs hrs
                unfold Decimator.segment at hseg
                cases ha : Decimator.arangeI (r.start * st.sr) (r.stop * st.sr) (Int.fdiv st.sr r.rate) with
                | error e => rw [ha] at hseg; simp at hseg
                | ok idx =>
                  rw [ha] at hseg
                  simp only [res_bind_ok] at hseg
                  obtain ⟨z', g1, g2⟩ := hsel idx z hseg
                  refine ⟨z' :: zs', ?_, ?_⟩
                  · rw [List.mapM_cons]
                    have e0 : Decimator.segment st.sr (x.pick 0 σ) r = .ok z' := by simp [Decimator.segment, ha, g1]
                    rw [e0, e1]
                    rfl
                  · rw [← hys]; exact .cons g2 e2
        obtain ⟨ys', e1, e2⟩ := this _ ys hm
        exact ⟨ys, ys', h.symm, by rw [e1]; rfl, e2⟩
    · left
      cases hs : Decimator.indexSelect x st.idx with
      | error e => rw [hs] at h; simp at h
      | ok y =>
        rw [hs] at h
        simp only [res_bind_ok, Except.ok.injEq] at h
        obtain ⟨y', e1, e2⟩ := hsel _ y hs
        exact ⟨y, y', h.symm, by rw [e1]; rfl, e2⟩

open Spline Matrix in
/-- **C84 (spline interpolation).**  The result always has four dimensions, so the batch is found behind the added ones. -/
theorem spline1d (x : List ℝ) (k : ℕ) (s : ℝ) (hk : 1 ≤ k) (hx : k + 2 ≤ x.length) (hinc : Spec.Increasing x.length (at' x)) (hs : 0 ≤ s) (xs : List ℝ) :
    ∃ f, Interp1D.init x k s (some xs) = .ok f ∧ ∀ r ≤ 2,
      BatchWise (fun sh => ∃ rest, rest.length = r ∧ sh = rest ++ [x.length]) (2 - r) (fun Z => (f.forward Z none).1) := by
  obtain ⟨f, _, hf, -⟩ := spline1d_total x k s hk hx hinc hs (some xs) none xs (Or.inr ⟨rfl, rfl⟩) ⟨[x.length], fun _ => 0⟩ [] rfl (by simp)
  refine ⟨f, hf, ?_⟩
  rintro r hr B _ Z σ hZ ⟨rest, hlen, rfl⟩ hσ
  obtain ⟨hB, hn⟩ := pos_batch hσ
  obtain ⟨f1, y, e1, h1, h2, h3⟩ := spline1d_total x k s hk hx hinc hs (some xs) none xs (Or.inr ⟨rfl, rfl⟩) Z (B :: rest) hZ (by simp; omega)
  obtain ⟨f2, y', e2, h1', h2', h3'⟩ := spline1d_total x k s hk hx hinc hs (some xs) none xs (Or.inr ⟨rfl, rfl⟩) (Z.pick 0 σ) (σ.length :: rest)
    (pick_shape Z σ B _ hZ) (by simp; omega)
  rw [hf] at e1 e2
  cases e1; cases e2
  have hrl : 3 - (rest.length + 1) = 2 - r := by omega
  simp only [List.length_cons, hrl] at h2 h3 h2' h3'
  refine ⟨y, y', h1, h1', ?_, ?_, ?_⟩
  · rw [h2, List.append_assoc, List.getElem?_append_right (by simp)]
    simp
  · rw [h2', Tensor.pick, h2, List.append_assoc, List.append_assoc, List.set_append_right _ _ (by simp)]
    simp
  · intro i hi
    rw [h2'] at hi
    obtain ⟨l, t, rfl, hl, ht⟩ := inB_append hi
    have hsplit : ∀ (n : ℕ) (l s : List ℕ), InB l (List.replicate n 1 ++ s) → ∃ l', l = List.replicate n 0 ++ l' ∧ InB l' s := by
      intro n
      induction n with
      | zero => intro l s h; exact ⟨l, by simp, by simpa using h⟩
      | succ n ih =>
        intro l s h
        rw [List.replicate_succ, List.cons_append] at h
        cases l with
        | nil => exact absurd h (by simp [InB])
        | cons a l =>
          obtain ⟨l', e, h'⟩ := ih l s h.2
          have : a = 0 := by have := h.1; omega
          exact ⟨l', by rw [this, e]; simp [List.replicate_succ], h'⟩
    obtain ⟨l', rfl, hl'⟩ := hsplit _ _ _ hl
    cases l' with
    | nil => exact absurd hl' (by simp [InB])
    | cons b l' =>
      have hlen' : ∀ {i s : List ℕ}, InB i s → i.length = s.length := by
        intro i
        induction i with
        | nil => intro s h; cases s with
          | nil => rfl
          | cons => exact absurd h (by simp [InB])
        | cons a i ih => intro s h; cases s with
          | nil => exact absurd h (by simp [InB])
          | cons c s => simp [ih h.2]
      have hll := hlen' hl'.2
      obtain ⟨c', hc', hv'⟩ := h3' (b :: l') (by simp [hll])
      obtain ⟨c, hc, hv⟩ := h3 (σ.getD b 0 :: l') (by simp [hll])
      have hcc : c' = c := by
        have hdet := fit_solvable ⟨x, k, s⟩ (hs.lt_or_eq.imp id fun h => ⟨h.symm, hk, hx, hinc⟩)
        apply Matrix.mulVec_injective_of_isUnit ((Matrix.isUnit_iff_isUnit_det _).2 (isUnit_iff_ne_zero.2 hdet))
        rw [hc', hc]
        rfl
      rw [hv' t ht, hcc, ← hv t ht]
      show _ = y.get _
      congr 1
      rw [List.append_assoc, List.append_assoc, List.set_append_right _ _ (by simp)]
      simp

/-! ## The hypotheses can be met -/

example : BatchWise (fun s => ∃ L, 0 < L ∧ s = [5, L]) 0
    (S4D.Model.mk 5 3 2 (fun _ _ => 1) (fun _ => 0) (fun _ _ => 1) (fun _ => 0) [(S4D.demo, ⟨1, fun _ => 1, fun _ => 0⟩)]).forward :=
  s4_model ⟨5, 3, 2, fun _ _ => 1, fun _ => 0, fun _ _ => 1, fun _ => 0, [(S4D.demo, ⟨1, fun _ => 1, fun _ => 0⟩)]⟩ (by simp [S4D.demo])
example : ∃ f, Spline.Interp1D.init [0, 1, 2, 4, 5] 3 0 (some [1 / 2, 3]) = .ok f ∧ ∀ r ≤ 2,
    BatchWise (fun sh => ∃ rest, rest.length = r ∧ sh = rest ++ [5]) (2 - r) (fun Z => (f.forward Z none).1) :=
  spline1d [0, 1, 2, 4, 5] 3 0 (by norm_num) (by norm_num) (by
    intro i j hij hj
    simp only [List.length_cons, List.length_nil] at hj
    have hj' : j = 1 ∨ j = 2 ∨ j = 3 ∨ j = 4 := by omega
    have hi' : i = 0 ∨ i = 1 ∨ i = 2 ∨ i = 3 := by omega
    rcases hi' with rfl | rfl | rfl | rfl <;> rcases hj' with rfl | rfl | rfl | rfl <;> first | omega | norm_num [Spline.at']) le_rfl _
example : ∃ st y y', Decimator.init 4 (Decimator.schedOf [⟨0, 2, 2⟩, ⟨2, 3, 4⟩]) false = .ok st ∧
    Decimator.forward st (⟨[4, 12], fun i => ravel [4, 12] i⟩ : Tensor Nat) = .ok (.one y) ∧
    Decimator.forward st (Tensor.pick 0 [2, 0, 2] (⟨[4, 12], fun i => ravel [4, 12] i⟩ : Tensor Nat)) = .ok (.one y') ∧ y'.Same (y.pick 0 [2, 0, 2]) := by
  obtain ⟨st, st', y, ys, h1, -, h3, -, -⟩ := Decimator.decimator_modes_agree 4 (by norm_num) [⟨0, 2, 2⟩, ⟨2, 3, 4⟩] (by simp)
    ⟨rfl, rfl, trivial⟩ (by intro s hs; simp at hs; rcases hs with rfl | rfl <;> exact ⟨by norm_num, by norm_num, by norm_num⟩)
    (by intro s hs; simp at hs; subst hs; norm_num)
    (⟨[4, 12], fun i => ravel [4, 12] i⟩ : Tensor Nat) [4] (by simp [Decimator.endTime])
  rcases decimator st (⟨[4, 12], fun i => ravel [4, 12] i⟩ : Tensor Nat) 4 [12] (by simp) rfl [2, 0, 2] _ h3 with ⟨z, z', e1, e2, e3⟩ | ⟨z, z', e1, -⟩
  · cases e1
    exact ⟨st, y, z', h1, h3, e2, e3⟩
  · cases e1

end Verif.Batch
