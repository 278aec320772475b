import Verif.Props.Autoencoder
/-!
# Properties of the autoencoder classes (C62)
-/
set_option linter.unusedSimpArgs false
set_option linter.unusedVariables false
namespace Verif.Autoencoder
variable {V : Type}

/-- **C62 (encode).**  `encode` succeeds exactly when the blocks' `encode` methods do one after the other; the output is the last
value and `states` lists the outputs of all blocks but the last, in order. -/
theorem encode_correct (blocks : List (Block V)) (x y : V) (st : List V) :
    encode blocks x = .ok (y, st) ↔ ∃ v : ℕ → V, v 0 = x ∧ (∀ i (h : i < blocks.length), blocks[i].enc (v i) = .ok (v (i + 1))) ∧
      y = v blocks.length ∧ st = (List.range (blocks.length - 1)).map fun i => v (i + 1) := by
  have key : ∀ p, encodeLoop blocks x = .ok p ↔ ∃ v : ℕ → V, v 0 = x ∧ (∀ i (h : i < blocks.length), blocks[i].enc (v i) = .ok (v (i + 1))) ∧
      p = (v blocks.length, (List.range blocks.length).map fun i => v (i + 1)) := by
    intro p
    unfold encodeLoop
    rw [foldlM_ok_iff]
    constructor
    · rintro ⟨v, h0, h1, h2⟩
      have h3 : ∀ i, i ≤ blocks.length → (v i).2 = (List.range i).map fun j => (v (j + 1)).1 := by
        intro i
        induction i with
        | zero => intro _; rw [h0]; rfl
        | succ i ih =>
          intro hi
          have := h2 i (by omega)
          cases he : blocks[i].enc (v i).1 with
          | error e => rw [he] at this; cases this
          | ok z =>
            rw [he] at this
            simp only [res_bind_ok] at this
            rw [← Except.ok.inj this, List.range_succ, List.map_append, ← ih (by omega)]
            simp [← Except.ok.inj this]
      refine ⟨fun i => (v i).1, by simp [h0], ?_, ?_⟩
      · intro i hi
        have := h2 i hi
        cases he : blocks[i].enc (v i).1 with
        | error e => rw [he] at this; cases this
        | ok z =>
          rw [he] at this
          simp only [res_bind_ok] at this
          simp only
          rw [← Except.ok.inj this]
      · rw [← h1]
        exact Prod.ext rfl (h3 _ le_rfl)
    · rintro ⟨v, h0, h1, rfl⟩
      refine ⟨fun i => (v i, (List.range i).map fun j => v (j + 1)), by simp [h0], rfl, ?_⟩
      intro i hi
      simp only [h1 i hi, res_bind_ok, List.range_succ, List.map_append]
      rfl
  unfold encode
  constructor
  · intro h
    cases hp : encodeLoop blocks x with
    | error e => rw [hp] at h; cases h
    | ok p =>
      obtain ⟨v, h0, h1, rfl⟩ := (key p).1 hp
      rw [hp] at h
      simp only [res_bind_ok] at h
      have := Except.ok.inj h
      rw [Prod.mk.injEq] at this
      refine ⟨v, h0, h1, this.1.symm, ?_⟩
      rw [← this.2, ← List.map_dropLast]
      cases blocks.length with
      | zero => rfl
      | succ n => simp [List.range_succ]
  · rintro ⟨v, h0, h1, rfl, rfl⟩
    rw [(key _).2 ⟨v, h0, h1, rfl⟩]
    simp only [res_bind_ok]
    rw [← List.map_dropLast]
    cases blocks.length with
    | zero => rfl
    | succ n => simp [List.range_succ]

/-- Non-vacuity: three blocks that add 1, double, and square. -/
example : encode [⟨fun n => .ok (n + 1), fun n => .ok n⟩, ⟨fun n => .ok (2 * n), fun n => .ok n⟩, ⟨fun n => .ok (n * n), fun n => .ok n⟩] 4 =
    .ok (100, [5, 10]) := by
  rw [encode_correct]
  refine ⟨fun i => [4, 5, 10, 100].getD i 0, rfl, ?_, rfl, rfl⟩
  intro i hi
  match i with
  | 0 => rfl
  | 1 => rfl
  | 2 => rfl

/-- **C62 (decode rejects missing states).**  With a skip connection `states` must be given, with one state fewer than there are
blocks; otherwise ValueError. -/
theorem decode_rejects (blocks : List (Block V)) (f : V → V → Res V) (skip : Option (V → V → Res V)) (x : V) :
    decode blocks (some f) x none = .error .value ∧
    ∀ st : List V, st.length + 1 ≠ blocks.length → decode blocks skip x (some st) = .error .value := by
  refine ⟨rfl, ?_⟩
  intro st h
  simp only [decode]
  rw [if_pos (by omega)]

example : decode [⟨fun n : ℕ => .ok (n + 1), fun n => .ok n⟩] (some fun a b => .ok (a + b)) 4 (some [3]) = .error .value :=
  (decode_rejects _ (fun a b => .ok (a + b)) _ 4).2 [3] (by simp)

theorem stateAt_zero (st : List V) : stateAt (some (st.reverse.map some ++ [none])) 0 = .ok none := by
  simp [stateAt]

theorem stateAt_succ (st : List V) (i : ℕ) (hi : i < st.length) :
    stateAt (some (st.reverse.map some ++ [none])) (i + 1) = .ok (some st[i]) := by
  unfold stateAt
  simp only
  rw [if_pos (by simp; omega)]
  have : (st.reverse.map some ++ [none])[(st.reverse.map some ++ [none]).length - 1 - (i + 1)]? = some (some st[i]) := by
    rw [List.getElem?_append_left (by simp; omega)]
    simp only [List.length_append, List.length_map, List.length_reverse, List.length_singleton, List.getElem?_map]
    rw [List.getElem?_reverse (by omega)]
    rw [List.getElem?_eq_getElem (by omega)]
    simp only [Option.map_some, Option.some.injEq]
    congr 1
    omega
  rw [this]

/-- **C62 (decode, what is really paired).**  With `n` blocks and states `s_0, …, s_{n-2}` (outputs of encoder blocks `0, …, n-2`)
the decoder runs blocks `n-1, n-2, …, 0`; the output of block `n-1` is NOT combined with a state and the output of
block `n-1-i` is combined with `s_{i-1}`. -/
theorem decode_pairing (blocks : List (Block V)) (f : V → V → Res V) (x y : V) (st : List V) (hst : st.length + 1 = blocks.length) :
    decode blocks (some f) x (some st) = .ok y ↔
      ∃ d : ℕ → V, d 0 = x ∧ d blocks.length = y ∧
        (∀ h : 0 < blocks.length, blocks[blocks.length - 1].dec x = .ok (d 1)) ∧
        ∀ i (h : i < st.length), ∃ e, blocks[blocks.length - 1 - (i + 1)].dec (d (i + 1)) = .ok e ∧ f e st[i] = .ok (d (i + 2)) := by
  have hloop : decode blocks (some f) x (some st) = decodeLoop blocks (some f) (some (st.reverse.map some ++ [none])) x := by
    simp only [decode]
    rw [if_neg (by omega)]
  rw [hloop]
  unfold decodeLoop
  have hstep : ∀ (i : ℕ) (u : V) (b : Block V) (p : ℕ × V), i < blocks.length →
      (decodeStep (some f) (some (st.reverse.map some ++ [none])) (i, u) b = .ok p ↔
        ∃ e, b.dec u = .ok e ∧ p.1 = i + 1 ∧ (i = 0 → p.2 = e) ∧ ∀ j (h : j < st.length), i = j + 1 → f e st[j] = .ok p.2) := by
    intro i u b p hi
    unfold decodeStep
    cases hb : b.dec u with
    | error e =>
      constructor
      · intro h; cases h
      · rintro ⟨e', h, -⟩; cases h
    | ok e =>
      simp only [res_bind_ok]
      rcases i with _ | i
      · rw [stateAt_zero]
        simp only [res_bind_ok, applySkip]
        constructor
        · intro h
          have := Except.ok.inj h
          exact ⟨e, rfl, by rw [← this], fun _ => by rw [← this], fun j h h' => by omega⟩
        · rintro ⟨e', h1, h2, h3, -⟩
          rw [Except.ok.inj h1, ← h3 trivial, ← h2]
      · have hi' : i < st.length := by omega
        rw [stateAt_succ st i hi']
        simp only [res_bind_ok, applySkip]
        constructor
        · intro h
          cases hf : f e st[i] with
          | error e' => rw [hf] at h; cases h
          | ok z =>
            rw [hf] at h
            simp only [res_bind_ok] at h
            have := Except.ok.inj h
            refine ⟨e, rfl, by rw [← this], fun h => by omega, ?_⟩
            intro j hj hij
            obtain rfl : j = i := by omega
            rw [← this]
            exact hf
        · rintro ⟨e', h1, h2, -, h4⟩
          have := h4 i hi' rfl
          rw [← Except.ok.inj h1] at this
          rw [this]
          simp only [res_bind_ok]
          rw [← h2]
  constructor
  · intro h
    cases hp : blocks.reverse.foldlM (decodeStep (some f) (some (st.reverse.map some ++ [none]))) (0, x) with
    | error e => rw [hp] at h; cases h
    | ok p =>
      rw [hp] at h
      simp only [res_bind_ok] at h
      have hy := Except.ok.inj h
      obtain ⟨v, h0, h1, h2⟩ := (foldlM_ok_iff _ _ _ _).1 hp
      rw [List.length_reverse] at h1
      have hcount : ∀ i, i ≤ blocks.length → (v i).1 = i := by
        intro i
        induction i with
        | zero => intro _; rw [h0]
        | succ i ih =>
          intro hi
          have := h2 i (by simpa using hi)
          have hv : v i = (i, (v i).2) := Prod.ext (ih (by omega)) rfl
          rw [hv] at this
          exact ((hstep i _ _ _ (by omega)).1 this).choose_spec.2.1
      have hs : ∀ i (hi : i < blocks.length), ∃ e, blocks[blocks.length - 1 - i].dec (v i).2 = .ok e ∧ (v (i + 1)).1 = i + 1 ∧ (i = 0 → (v (i + 1)).2 = e) ∧
          ∀ j (h : j < st.length), i = j + 1 → f e st[j] = .ok (v (i + 1)).2 := by
        intro i hi
        have := h2 i (by simpa using hi)
        have hv : v i = (i, (v i).2) := Prod.ext (hcount i (by omega)) rfl
        rw [hv, List.getElem_reverse] at this
        exact (hstep i _ _ _ hi).1 this
      refine ⟨fun i => (v i).2, by simp [h0], by simp only; rw [h1, hy], ?_, ?_⟩
      · intro h
        obtain ⟨e, e1, -, e3, -⟩ := hs 0 h
        rw [h0] at e1
        show _ = Except.ok (v (0 + 1)).2
        rw [e3 rfl]
        exact e1
      · intro i hi
        obtain ⟨e, e1, -, -, e4⟩ := hs (i + 1) (by omega)
        exact ⟨e, e1, e4 i hi rfl⟩
  · rintro ⟨d, h0, h1, h2, h3⟩
    have : blocks.reverse.foldlM (decodeStep (some f) (some (st.reverse.map some ++ [none]))) (0, x) = .ok (blocks.length, y) := by
      rw [foldlM_ok_iff]
      refine ⟨fun i => (i, d i), by simp only [h0], by simp only [List.length_reverse, h1], ?_⟩
      intro i hi
      rw [List.length_reverse] at hi
      rw [hstep i _ _ _ hi, List.getElem_reverse]
      rcases i with _ | i
      · refine ⟨d 1, ?_, rfl, fun _ => rfl, fun j hj h => by omega⟩
        rw [h0]
        exact h2 hi
      · obtain ⟨e, e1, e2⟩ := h3 i (by omega)
        refine ⟨e, e1, rfl, fun h => by omega, ?_⟩
        intro j hj hij
        obtain rfl : j = i := by omega
        exact e2
    rw [this]
    rfl

/-- **C62 (finding: pairing).**  The documented pairing combines the output of decoder block `k` with the encoder state of the same
depth (the input of encoder block `k`, i.e. `s_{k-1}`).  The code uses `s_{n-2-k}`: these differ unless block `k` is the
middle one, and the last block, which has a state of its own depth, gets none. -/
theorem pairing_wrong (n k i : ℕ) (hk : k = n - 1 - (i + 1)) (hi : i + 2 ≤ n) (h0 : 0 < k) : (i = k - 1 ↔ n - 1 = 2 * k) := by
  omega

/-- A concrete wrong pairing: values are strings, `decode` of block `k` prefixes `Dk`, the skip connection notes the state.  With
three blocks the wanted result is `D0(D1(D2 z + s1) + s0)`. -/
theorem pairing_example :
    forward [⟨fun x => .ok ("E0" ++ x), fun x => .ok ("D0" ++ x)⟩, ⟨fun x => .ok ("E1" ++ x), fun x => .ok ("D1" ++ x)⟩,
        ⟨fun x => .ok ("E2" ++ x), fun x => .ok ("D2" ++ x)⟩]
      (some fun x s => .ok ("(" ++ x ++ "+" ++ s ++ ")")) "x" = .ok "(D0(D1D2E2E1E0x+E0x)+E1E0x)" := rfl

/-- **C62.**  States passed to a network without skip connection: accepted when there is nothing to combine (one layer, no states), a `TypeError` at the second layer otherwise. -/
theorem decode_states_no_skip (blocks : List (Block V)) (x : V) (st : List V) (hst : st.length + 1 = blocks.length) (hd : ∀ b ∈ blocks, ∀ v, ∃ w, b.dec v = .ok w) :
    (st = [] → ∃ b, blocks = [b] ∧ decode blocks none x (some st) = b.dec x) ∧ (st ≠ [] → decode blocks none x (some st) = .error .type) := by
  constructor
  · rintro rfl
    obtain ⟨b, rfl⟩ := List.length_eq_one_iff.1 hst.symm
    refine ⟨b, rfl, ?_⟩
    obtain ⟨w, hw⟩ := hd b (by simp) x
    simp [decode, decodeLoop, decodeStep, stateAt, applySkip, hw, bind, Except.bind, pure, Except.pure]
  · intro hne
    have hl : 0 < st.length := List.length_pos_iff.2 hne
    obtain ⟨b, c, rest, hr⟩ : ∃ b c rest, blocks.reverse = b :: c :: rest := by
      match h : blocks.reverse with
      | [] => have := congrArg List.length h; simp at this; subst this; simp at hst
      | [_] => have := congrArg List.length h; simp at this; omega
      | b :: c :: rest => exact ⟨b, c, rest, rfl⟩
    have hm : ∀ a ∈ b :: c :: rest, a ∈ blocks := fun a ha => List.mem_reverse.1 (hr ▸ ha)
    obtain ⟨v, hv⟩ := hd b (hm b (by simp)) x
    obtain ⟨w, hw⟩ := hd c (hm c (by simp)) v
    unfold decode decodeLoop
    dsimp only
    have e0 : decodeStep none (some (st.reverse.map some ++ [none])) (0, x) b = .ok (1, v) := by
      simp only [decodeStep, hv, res_bind_ok, stateAt_zero, applySkip]
    have e1 : decodeStep none (some (st.reverse.map some ++ [none])) (1, v) c = .error .type := by
      simp only [decodeStep, hw, res_bind_ok, stateAt_succ _ 0 hl, applySkip]
      rfl
    rw [if_neg (by omega), hr, List.foldlM_cons, e0]
    simp only [res_bind_ok]
    rw [List.foldlM_cons, e1]
    rfl

example : decode [⟨fun v : ℕ => .ok v, fun v => .ok (v + 1)⟩, ⟨fun v => .ok v, fun v => .ok (2 * v)⟩] none 3 (some [7]) = .error .type :=
  (decode_states_no_skip [⟨fun v : ℕ => .ok v, fun v => .ok (v + 1)⟩, ⟨fun v => .ok v, fun v => .ok (2 * v)⟩] 3 [7] rfl (by simp)).2 (by simp)

/-- **C62 (finding: no skip connection).**  Without a skip connection `decode` and `forward` never succeed on an autoencoder with
at least one block (`None` is subscripted). -/
theorem decode_no_skip_fails (blocks : List (Block V)) (hne : blocks ≠ []) (x : V) :
    (∃ e, decode blocks none x none = .error e) ∧ ∃ e, forward blocks none x = .error e := by
  have h : ∀ x, ∃ e, decode blocks none x none = .error e := by
    intro x
    simp only [decode, Option.isSome_none, Bool.false_eq_true, if_false, decodeLoop]
    cases hr : blocks.reverse with
    | nil => exact absurd (List.reverse_eq_nil_iff.1 hr) hne
    | cons b l =>
      rw [List.foldlM_cons]
      cases hb : b.dec x with
      | error e => exact ⟨e, by simp only [decodeStep, hb]; rfl⟩
      | ok y => exact ⟨.type, by simp only [decodeStep, hb, res_bind_ok, stateAt]; rfl⟩
  refine ⟨h x, ?_⟩
  unfold forward
  cases he : encode blocks x with
  | error e => exact ⟨e, rfl⟩
  | ok p => exact h p.1

example : ∃ e, forward [⟨fun n : ℕ => .ok (n + 1), fun n => .ok (n - 1)⟩] none 3 = .error e :=
  (decode_no_skip_fails _ (by simp) 3).2

/-! ## The convolutional autoencoder -/

theorem convBlocks_append (cfg : Config) (l : List (ℕ × Weights)) (i inC ch : ℕ) (w : Weights) :
    ∃ i' inC', convBlocks cfg i inC (l ++ [(ch, w)]) = convBlocks cfg i inC l ++ [convBlock cfg i' inC' ch w] := by
  induction l generalizing i inC with
  | nil => exact ⟨i, inC, rfl⟩
  | cons a l ih =>
    obtain ⟨c, w'⟩ := a
    obtain ⟨i', inC', h⟩ := ih (i + 1) (c * cfg.groups)
    exact ⟨i', inC', by simp only [List.cons_append, convBlocks, h]⟩

theorem convBlocks_length (cfg : Config) (l : List (ℕ × Weights)) (i inC : ℕ) : (convBlocks cfg i inC l).length = l.length := by
  induction l generalizing i inC with
  | nil => rfl
  | cons a l ih => obtain ⟨c, w'⟩ := a; simp [convBlocks, ih]

/-- **C62 (finding: module classes as activation).**  If `activation` and `output_activation` are module classes, as the signature
and the defaults (`torch.nn.ReLU`) say, `ConvolutionalAutoencoder.forward` fails for every architecture with at least one
layer and every input: the decoder calls the class instead of an instance. -/
theorem conv_class_activation_fails (cfg : Config) (inC : ℕ) (layers : List (ℕ × Weights)) (hne : layers ≠ []) (x : Tensor ℝ)
    (h1 : cfg.activation.IsClass) (h2 : ∀ a, cfg.outputActivation = some a → a.IsClass) :
    ∃ e, convForward cfg inC layers x = .error e := by
  by_contra hcon
  push Not at hcon
  obtain ⟨r, hr⟩ : ∃ r, convForward cfg inC layers x = .ok r := by
    cases h : convForward cfg inC layers x with
    | error e => exact absurd h (hcon e)
    | ok r => exact ⟨r, rfl⟩
  unfold convForward at hr
  cases hn : x.lastDim with
  | error e => rw [hn] at hr; cases hr
  | ok n =>
  rw [hn] at hr
  simp only [res_bind_ok] at hr
  have hblk : (convBlocks cfg 0 inC layers) ≠ [] := by
    intro h
    have := convBlocks_length cfg layers 0 inC
    rw [h] at this
    exact hne (List.length_eq_zero_iff.1 this.symm)
  cases hs : cfg.skip with
  | none =>
    rw [hs] at hr
    obtain ⟨e, he⟩ := (decode_no_skip_fails (convBlocks cfg 0 inC layers) hblk (.tensor x)).2
    simp only [Option.map_none] at hr
    rw [he] at hr
    cases hr
  | some s =>
    rw [hs] at hr
    simp only [Option.map_some] at hr
    cases hf : forward (convBlocks cfg 0 inC layers) (some s.onVal) (.tensor x) with
    | error e => rw [hf] at hr; cases hr
    | ok v =>
      rw [hf] at hr
      simp only [res_bind_ok] at hr
      unfold forward at hf
      cases hen : encode (convBlocks cfg 0 inC layers) (.tensor x) with
      | error e => rw [hen] at hf; cases hf
      | ok p =>
        rw [hen] at hf
        simp only [res_bind_ok, Option.isSome_some, if_true] at hf
        obtain ⟨p1, p2⟩ := p
        by_cases hlen : p2.length + 1 = (convBlocks cfg 0 inC layers).length
        · rw [decode_pairing _ _ _ _ _ hlen] at hf
          obtain ⟨d, d0, d1, d2, d3⟩ := hf
          -- the block decoded first
          obtain ⟨l, ⟨ch, w⟩, rfl⟩ : ∃ l a, layers = l ++ [a] :=
            ⟨layers.dropLast, layers.getLast hne, (List.dropLast_append_getLast hne).symm⟩
          obtain ⟨i', inC', hb⟩ := convBlocks_append cfg l 0 inC ch w
          have hlast : ∀ h : 0 < (convBlocks cfg 0 inC (l ++ [(ch, w)])).length,
              (convBlocks cfg 0 inC (l ++ [(ch, w)]))[(convBlocks cfg 0 inC (l ++ [(ch, w)])).length - 1] = convBlock cfg i' inC' ch w := by
            intro h
            simp [hb]
          have hd1 := d2 (by rw [hb]; simp)
          rw [hlast (by rw [hb]; simp)] at hd1
          -- it returns a module
          have hmod : d 1 = .module := by
            simp only [convBlock, convDecode] at hd1
            cases p1 with
            | module => cases hd1
            | tensor t =>
              simp only at hd1
              split at hd1
              all_goals first
                | (cases hd1; done)
                | skip
              all_goals
                revert hd1
                generalize hcall : Conv.callT _ t = c
                intro hd1
                cases c with
                | error e => cases hd1
                | ok u =>
                  simp only [res_bind_ok] at hd1
                  have hcls : (if i' = 0 then cfg.outputActivation.getD cfg.activation else cfg.activation).IsClass := by
                    split
                    · cases ho : cfg.outputActivation with
                      | none => simpa [ho] using h1
                      | some a => simpa [ho] using h2 a ho
                    · exact h1
                  rcases hcls ⟨u.shape, w.decNorm u⟩ with h | ⟨e, h⟩
                  · rw [h] at hd1; exact (Except.ok.inj hd1).symm
                  · rw [h] at hd1; cases hd1
          by_cases hp2 : p2.length = 0
          · have : (convBlocks cfg 0 inC (l ++ [(ch, w)])).length = 1 := by omega
            rw [this, hmod] at d1
            rw [← d1] at hr
            cases hr
          · obtain ⟨e, e1, -⟩ := d3 0 (by omega)
            rw [hmod] at e1
            -- every block rejects a module
            have : ∀ b ∈ convBlocks cfg 0 inC (l ++ [(ch, w)]), b.dec .module = .error .type := by
              have : ∀ (L : List (ℕ × Weights)) i c, ∀ b ∈ convBlocks cfg i c L, b.dec .module = .error .type := by
                intro L
                induction L with
                | nil => intro i c b hb; simp [convBlocks] at hb
                | cons a L ih =>
                  obtain ⟨c', w'⟩ := a
                  intro i c b hb
                  simp only [convBlocks, List.mem_cons] at hb
                  rcases hb with rfl | hb
                  · rfl
                  · exact ih _ _ b hb
              exact this _ _ _
            rw [this _ (List.getElem_mem _)] at e1
            cases e1
        · rw [(decode_rejects _ s.onVal _ p1).2 p2 hlen] at hf
          cases hf

/-- `torch.nn.ReLU`. -/
noncomputable def relu : Activation := ⟨fun x => max x 0, fun _ => .ok .module⟩

/-- Non-vacuity: the default activation with an additive skip connection. -/
example (w : Weights) (x : Tensor ℝ) : ∃ e, convForward ⟨3, 2, 1, relu, none, none, some ⟨addOutChannels, addSkip⟩⟩ 2 [(4, w), (8, w)] x = .error e :=
  conv_class_activation_fails _ 2 _ (by simp) x (fun x => Or.inl rfl) (fun a h => by cases h)

/-- **C62 (finding: concatenating skip connections).**  With a skip connection that doubles the channels the network fails for
every architecture with at least one layer (of a positive number of channels) and every input: the innermost decoder
is built for doubled channels, but nothing is concatenated to its input. -/
theorem conv_concat_fails (cfg : Config) (inC : ℕ) (layers : List (ℕ × Weights)) (hne : layers ≠ []) (x : Tensor ℝ) (s : Skip)
    (hs : cfg.skip = some s) (hout : ∀ c, s.outChannels c = concatOutChannels c) (hpos : ∀ a ∈ layers, 0 < a.1 * cfg.groups) :
    ∃ e, convForward cfg inC layers x = .error e := by
  by_contra hcon
  push Not at hcon
  obtain ⟨r, hr⟩ : ∃ r, convForward cfg inC layers x = .ok r := by
    cases h : convForward cfg inC layers x with
    | error e => exact absurd h (hcon e)
    | ok r => exact ⟨r, rfl⟩
  unfold convForward at hr
  cases hn : x.lastDim with
  | error e => rw [hn] at hr; cases hr
  | ok n =>
  rw [hn, hs] at hr
  simp only [res_bind_ok, Option.map_some] at hr
  cases hf : forward (convBlocks cfg 0 inC layers) (some s.onVal) (.tensor x) with
  | error e => rw [hf] at hr; cases hr
  | ok v =>
    unfold forward at hf
    cases hen : encode (convBlocks cfg 0 inC layers) (.tensor x) with
    | error e => rw [hen] at hf; cases hf
    | ok p =>
      rw [hen] at hf
      simp only [res_bind_ok, Option.isSome_some, if_true] at hf
      obtain ⟨p1, p2⟩ := p
      obtain ⟨l, ⟨ch, w⟩, rfl⟩ : ∃ l a, layers = l ++ [a] :=
        ⟨layers.dropLast, layers.getLast hne, (List.dropLast_append_getLast hne).symm⟩
      obtain ⟨i', inC', hb⟩ := convBlocks_append cfg l 0 inC ch w
      have hch : 0 < ch * cfg.groups := hpos (ch, w) (by simp)
      by_cases hlen : p2.length + 1 = (convBlocks cfg 0 inC (l ++ [(ch, w)])).length
      · rw [decode_pairing _ _ _ _ _ hlen] at hf
        obtain ⟨d, d0, d1, d2, d3⟩ := hf
        obtain ⟨u, u0, u1, u2, -⟩ := (encode_correct _ _ _ _).1 hen
        have hlen' : (convBlocks cfg 0 inC (l ++ [(ch, w)])).length = (convBlocks cfg 0 inC l).length + 1 := by rw [hb]; simp
        have hlast : ∀ h : (convBlocks cfg 0 inC l).length < (convBlocks cfg 0 inC (l ++ [(ch, w)])).length,
            (convBlocks cfg 0 inC (l ++ [(ch, w)]))[(convBlocks cfg 0 inC l).length] = convBlock cfg i' inC' ch w := by
          intro h
          simp [hb]
        have he := u1 (convBlocks cfg 0 inC l).length (by omega)
        rw [hlast (by omega), ← hlen', ← u2] at he
        have hd := d2 (by omega)
        have hidx : (convBlocks cfg 0 inC (l ++ [(ch, w)])).length - 1 = (convBlocks cfg 0 inC l).length := by omega
        simp only [hidx] at hd
        rw [hlast (by omega)] at hd
        -- the encoding has the undoubled number of channels
        obtain ⟨t, B, L, ht, hts⟩ : ∃ t B L, p1 = .tensor t ∧ t.shape = [B, ch * cfg.groups, L] := by
          simp only [convBlock, convEncode] at he
          cases hu : u (convBlocks cfg 0 inC l).length with
          | module => rw [hu] at he; cases he
          | tensor t =>
            rw [hu] at he
            simp only [Conv.call] at he
            split at he
            · split at he
              · cases he
              · simp only [res_bind_ok] at he
                exact ⟨_, _, _, (Except.ok.inj he).symm, rfl⟩
            · cases he
        rw [ht] at hd
        simp only [convBlock, convDecode, Conv.callT, hts, hs, hout, concatOutChannels] at hd
        rw [if_pos (Or.inl (by omega))] at hd
        cases hd
      · rw [(decode_rejects _ s.onVal _ p1).2 p2 hlen] at hf
        cases hf

example (w : Weights) (a : Activation) (x : Tensor ℝ) :
    ∃ e, convForward ⟨3, 2, 1, a, none, none, some ⟨concatOutChannels, concatSkip 1⟩⟩ 2 [(4, w), (8, w)] x = .error e :=
  conv_concat_fails _ 2 _ (by simp) x ⟨concatOutChannels, concatSkip 1⟩ rfl (fun c => rfl)
    (by intro a ha; simp at ha; rcases ha with rfl | rfl <;> simp)

/-- If encoders, decoders and the skip connection keep a property of values, so does the network, and it succeeds. -/
theorem forward_invariant (blocks : List (Block V)) (hne : blocks ≠ []) (f : V → V → Res V) (P : V → Prop)
    (henc : ∀ b ∈ blocks, ∀ v, P v → ∃ v', b.enc v = .ok v' ∧ P v') (hdec : ∀ b ∈ blocks, ∀ v, P v → ∃ v', b.dec v = .ok v' ∧ P v')
    (hf : ∀ v s, P v → P s → ∃ v', f v s = .ok v' ∧ P v') (x : V) (hx : P x) : ∃ y, forward blocks (some f) x = .ok y ∧ P y := by
  obtain ⟨p, hp, hP1, hP2⟩ := foldlM_inv (fun (p : V × List V) (b : Block V) => do
    let y ← b.enc p.1
    .ok (y, p.2 ++ [y])) (fun i p => P p.1 ∧ ∀ s ∈ p.2, P s) blocks 0 (x, []) ⟨hx, by simp⟩ (by
      rintro i hi ⟨v, st⟩ ⟨h1, h2⟩
      obtain ⟨v', e, h⟩ := henc _ (List.getElem_mem hi) v h1
      refine ⟨(v', st ++ [v']), by simp only [e, res_bind_ok], h, ?_⟩
      intro s hs
      rcases List.mem_append.1 hs with hs | hs
      · exact h2 s hs
      · simp at hs; rw [hs]; exact h)
  have hen : encode blocks x = .ok (p.1, p.2.dropLast) := by
    unfold encode encodeLoop
    rw [hp]
    rfl
  obtain ⟨v, -, -, -, hst⟩ := (encode_correct _ _ _ _).1 hen
  have hlen : p.2.dropLast.length + 1 = blocks.length := by
    rw [hst]
    have : 0 < blocks.length := List.length_pos_iff.2 hne
    simp; omega
  have hPs : ∀ s ∈ p.2.dropLast, P s := fun s hs => hP2 s (List.dropLast_subset _ hs)
  unfold forward
  rw [hen]
  simp only [res_bind_ok, Option.isSome_some, if_true, decode]
  rw [if_neg (by omega)]
  unfold decodeLoop
  obtain ⟨q, hq, -, hQ⟩ := foldlM_inv (decodeStep (some f) (some (p.2.dropLast.reverse.map some ++ [none]))) (fun i q => q.1 = i ∧ P q.2) blocks.reverse 0 (0, p.1)
    ⟨rfl, hP1⟩ (by
      rintro i hi ⟨j, v⟩ ⟨h1, h2⟩
      simp only [Nat.zero_add] at h1
      subst h1
      rw [List.length_reverse] at hi
      obtain ⟨v', e, h⟩ := hdec _ (List.mem_reverse.1 (List.getElem_mem (by rw [List.length_reverse]; exact hi))) v h2
      rcases j with _ | j
      · refine ⟨(1, v'), ?_, rfl, h⟩
        simp only [decodeStep, e, res_bind_ok, stateAt_zero, applySkip]
      · have hj : j < p.2.dropLast.length := by omega
        obtain ⟨v'', e', h'⟩ := hf v' (p.2.dropLast[j]) h (hPs _ (List.getElem_mem hj))
        refine ⟨(j + 2, v''), ?_, by simp, h'⟩
        simp only [decodeStep, e, res_bind_ok, stateAt_succ _ j hj, applySkip, e'])
  rw [hq]
  exact ⟨q.2, rfl, hQ⟩

/-- **C62 (shape, partial).**  With an activation that may be called both ways, stride 1, odd kernel, and every layer having as many
channels as the input, a network with any number of layers and a skip connection that keeps shapes returns a tensor of the
input's shape.  (Missing: strides, changing channels, even kernels, module-class activations — the full claim is false of
the code, see the findings.) -/
theorem conv_shape_partial (cfg : Config) (s : Skip) (B inC L p : ℕ) (hL : 0 < L) (layers : List (ℕ × Weights)) (hne : layers ≠ [])
    (x : Tensor ℝ) (hx : x.shape = [B, inC, L]) (hk : cfg.kernel = 2 * p + 1) (hst : cfg.stride = 1)
    (ha : cfg.activation.IsDual) (ho : ∀ a, cfg.outputActivation = some a → a.IsDual) (hd : cfg.decodeChannels = none)
    (hs : cfg.skip = some s) (hc : ∀ a ∈ layers, a.1 * cfg.groups = inC) (hsc : s.outChannels inC = inC)
    (hsf : ∀ u v : Tensor ℝ, u.shape = [B, inC, L] → v.shape = [B, inC, L] → ∃ y, s.forward u v = .ok y ∧ y.shape = [B, inC, L]) :
    ∃ y, convForward cfg inC layers x = .ok (.tensor y) ∧ y.shape = x.shape := by
  have hpad : (2 * p + 1 - 1) / 2 = p := by omega
  have hcl : convLen L (2 * p + 1) 1 p = L := by unfold convLen; rw [Nat.div_one]; omega
  have hct : convTLen L (2 * p + 1) 1 p = L := by unfold convTLen; push_cast; ring
  have hgood : ∀ (l : List (ℕ × Weights)) (i : ℕ), (∀ a ∈ l, a.1 * cfg.groups = inC) → ∀ b ∈ convBlocks cfg i inC l,
      ∀ t : Tensor ℝ, t.shape = [B, inC, L] → (∃ t', b.enc (.tensor t) = .ok (.tensor t') ∧ t'.shape = [B, inC, L]) ∧
        ∃ t', b.dec (.tensor t) = .ok (.tensor t') ∧ t'.shape = [B, inC, L] := by
    intro l
    induction l with
    | nil => intro i _ b hb; simp [convBlocks] at hb
    | cons a l ih =>
      obtain ⟨c, w⟩ := a
      intro i hl b hb t ht
      have hci : c * cfg.groups = inC := hl (c, w) (by simp)
      simp only [convBlocks, List.mem_cons] at hb
      rcases hb with rfl | hb
      · constructor
        · simp only [convBlock, convEncode, Conv.call, ht, hk, hst, hpad]
          rw [if_neg (by push Not; exact ⟨rfl, by omega⟩)]
          refine ⟨_, rfl, ?_⟩
          simp [hcl, hci]
        · have hdual : (if i = 0 then cfg.outputActivation.getD cfg.activation else cfg.activation).IsDual := by
            split
            · cases ho' : cfg.outputActivation with
              | none => simpa [ho'] using ha
              | some a => simpa [ho'] using ho a ho'
            · exact ha
          have hz : (if inC = 0 then inC else inC) = inC := by split <;> rfl
          simp only [convBlock, convDecode, Conv.callT, ht, hk, hst, hpad, hs, hci, hsc, hct, hd]
          rw [if_neg (by push Not; exact ⟨rfl, by omega, by omega⟩)]
          simp only [res_bind_ok]
          rw [hdual]
          refine ⟨_, rfl, ?_⟩
          by_cases hi : i = 0 <;> simp [Tensor.map, hi]
      · rw [hci] at hb
        exact ih (i + 1) (fun a ha => hl a (by simp [ha])) b hb t ht
  have hblk : (convBlocks cfg 0 inC layers) ≠ [] := by
    intro h
    have := convBlocks_length cfg layers 0 inC
    rw [h] at this
    exact hne (List.length_eq_zero_iff.1 this.symm)
  obtain ⟨y, hy, t, rfl, ht⟩ := forward_invariant (convBlocks cfg 0 inC layers) hblk s.onVal
    (fun v => ∃ t, v = .tensor t ∧ t.shape = [B, inC, L])
    (by rintro b hb v ⟨t, rfl, ht⟩
        obtain ⟨t', h1, h2⟩ := (hgood layers 0 hc b hb t ht).1
        exact ⟨_, h1, t', rfl, h2⟩)
    (by rintro b hb v ⟨t, rfl, ht⟩
        obtain ⟨t', h1, h2⟩ := (hgood layers 0 hc b hb t ht).2
        exact ⟨_, h1, t', rfl, h2⟩)
    (by rintro u v ⟨t, rfl, ht⟩ ⟨t', rfl, ht'⟩
        obtain ⟨z, h1, h2⟩ := hsf t t' ht ht'
        exact ⟨.tensor z, by simp only [Skip.onVal, h1, res_bind_ok], z, rfl, h2⟩)
    (.tensor x) ⟨x, rfl, hx⟩
  have hl : x.lastDim = .ok L := by simp [Tensor.lastDim, hx]
  refine ⟨t, ?_, by rw [ht, hx]⟩
  unfold convForward
  rw [hl, hs]
  simp only [res_bind_ok, Option.map_some, hy, matchVal]
  have hm : matchSize t L = .ok t := by
    unfold matchSize; rw [ht]; simp
  rw [hm]
  rfl

/-- An activation that may be called both ways. -/
noncomputable def dualRelu : Activation := ⟨fun x => max x 0, fun x => .ok (.tensor (x.map fun v => max v 0))⟩

/-- Non-vacuity: two layers of the input's 4 channels, additive skip connection. -/
example (w : Weights) : ∃ y, convForward ⟨7, 1, 2, dualRelu, none, none, some ⟨addOutChannels, addSkip⟩⟩ 4 [(2, w), (2, w)] ⟨[1, 4, 16], fun _ => 1⟩ =
    .ok (.tensor y) ∧ y.shape = [1, 4, 16] :=
  conv_shape_partial _ ⟨addOutChannels, addSkip⟩ 1 4 16 3 (by norm_num) _ (by simp) _ rfl rfl rfl (fun x => rfl) (fun a h => by cases h) rfl rfl
    (by intro a ha; simp at ha; rw [ha]; rfl) rfl
    (by intro u v hu hv
        obtain ⟨r, y, -, h2, h3, -⟩ := add_skip_correct u v 1 4 16 16 hu hv (by norm_num)
        exact ⟨y, h2, h3⟩)

/-- **C62 (shape of one layer, any stride and kernel; partial).**  One layer returns a tensor of the input's batch and length, with
`decode_channels` channels (the input's by default).  (Missing: several layers, see above.) -/
theorem conv_one_layer_partial (cfg : Config) (s : Skip) (B inC L c : ℕ) (w : Weights) (x : Tensor ℝ) (hx : x.shape = [B, inC, L])
    (hk : 0 < cfg.kernel) (hst : 0 < cfg.stride) (hL : cfg.kernel ≤ L + 2 * ((cfg.kernel - 1) / 2))
    (ha : cfg.activation.IsDual) (ho : ∀ a, cfg.outputActivation = some a → a.IsDual)
    (hd : ∀ d, cfg.decodeChannels = some d → 0 < d)
    (hs : cfg.skip = some s) (hsc : s.outChannels (c * cfg.groups) = c * cfg.groups) :
    ∃ y, convForward cfg inC [(c, w)] x = .ok (.tensor y) ∧ y.shape = [B, cfg.decodeChannels.getD inC, L] := by
  have hl : x.lastDim = .ok L := by simp [Tensor.lastDim, hx]
  have hpk : 2 * ((cfg.kernel - 1) / 2) + 1 ≤ cfg.kernel := by omega
  generalize hp : (cfg.kernel - 1) / 2 = p at hL hpk
  generalize hL' : convLen L cfg.kernel cfg.stride p = L'
  have hL'pos : L' ≠ 0 := by rw [← hL']; exact Nat.succ_ne_zero _
  generalize hT : convTLen L' cfg.kernel cfg.stride p = T
  have hTv : 0 < T ∧ T ≤ L := by
    rw [← hT, ← hL']
    unfold convTLen convLen
    have h1 := Nat.div_mul_le_self (L + 2 * p - cfg.kernel) cfg.stride
    have e : ((((L + 2 * p - cfg.kernel) / cfg.stride + 1 : ℕ) : Int) - 1) * cfg.stride = (((L + 2 * p - cfg.kernel) / cfg.stride * cfg.stride : ℕ) : Int) := by
      push_cast; ring
    rw [e]
    generalize (L + 2 * p - cfg.kernel) / cfg.stride * cfg.stride = m at *
    constructor <;> omega
  have hdual : (cfg.outputActivation.getD cfg.activation).IsDual := by
    cases ho' : cfg.outputActivation with
    | none => simpa [ho'] using ha
    | some a => simpa [ho'] using ho a ho'
  obtain ⟨n, hn⟩ : ∃ n : ℕ, T = n := ⟨T.toNat, by omega⟩
  subst hn
  obtain ⟨t, ht1, ht2⟩ : ∃ t : Tensor ℝ, forward (convBlocks cfg 0 inC [(c, w)]) (some s.onVal) (.tensor x) = .ok (.tensor t) ∧
      t.shape = [B, cfg.decodeChannels.getD inC, n] := by
    unfold forward encode encodeLoop decode decodeLoop
    simp only [convBlocks, List.foldlM_cons, List.foldlM_nil, convBlock, convEncode, Conv.call, hx, hp]
    rw [if_neg (by push Not; exact ⟨rfl, by omega⟩)]
    simp only [res_bind_ok, pure, Except.pure, Option.isSome_some, if_true, List.nil_append, List.dropLast_singleton, List.length_nil,
      List.length_cons, List.reverse_cons, List.reverse_nil]
    rw [if_neg (by norm_num)]
    simp only [List.foldlM_cons, List.foldlM_nil, decodeStep, convDecode, Conv.callT, hL', hs, hsc, hT]
    rw [if_neg (by push Not; exact ⟨rfl, hL'pos, hTv.1⟩)]
    simp only [res_bind_ok, if_true]
    rw [hdual]
    simp only [res_bind_ok, List.map_nil, List.nil_append, stateAt, List.length_singleton, applySkip, pure, Except.pure]
    refine ⟨_, rfl, ?_⟩
    cases hdc : cfg.decodeChannels with
    | none => simp [Tensor.map]
    | some d =>
      have := hd d hdc
      simp [Tensor.map, show d ≠ 0 by omega]
  obtain ⟨y, hy1, hy2, -⟩ := match_size_partial t B _ n ht2 L (by omega)
  refine ⟨y, ?_, hy2⟩
  unfold convForward
  rw [hl, hs]
  simp only [res_bind_ok, Option.map_some, ht1, matchVal, hy1]

example (w : Weights) : ∃ y, convForward ⟨4, 3, 1, dualRelu, none, some 5, some ⟨addOutChannels, addSkip⟩⟩ 2 [(8, w)] ⟨[1, 2, 20], fun _ => 1⟩ =
    .ok (.tensor y) ∧ y.shape = [1, 5, 20] :=
  conv_one_layer_partial _ ⟨addOutChannels, addSkip⟩ 1 2 20 8 w _ rfl (by norm_num) (by norm_num) (by norm_num) (fun x => rfl) (fun a h => by cases h)
    (by intro d hd; simp at hd; omega) rfl rfl

/-- **C61 (decode with a size).**  `ConvolutionalAutoencoder.decode` without `input_size` is the base class's `decode`; with it, errors of the base class are kept, an output at most one sample longer than
the target is resized to it, and a longer one comes back empty. -/
theorem decode_input_size (blocks : List (Block Val)) (skip : Option (Val → Val → Res Val)) (x : Val) (states : Option (List Val)) :
    convDecodeSized blocks skip x states none = decode blocks skip x states ∧
      (∀ e n, decode blocks skip x states = .error e → convDecodeSized blocks skip x states n = .error e) ∧
      (∀ t B C L, decode blocks skip x states = .ok (.tensor t) → t.shape = [B, C, L] → ∀ n : ℕ,
        (L ≤ n + 1 → ∃ y, convDecodeSized blocks skip x states (some n) = .ok (.tensor y) ∧ y.shape = [B, C, n] ∧
          ∀ b c l, l < n → y.get [b, c, l] =
            if L ≤ n then (if (n - L) / 2 ≤ l ∧ l < (n - L) / 2 + L then t.get [b, c, l - (n - L) / 2] else 0) else t.get [b, c, l + 1]) ∧
        (n + 2 ≤ L → ∃ y, convDecodeSized blocks skip x states (some n) = .ok (.tensor y) ∧ y.shape = [B, C, 0])) := by
  unfold convDecodeSized
  refine ⟨?_, ?_, ?_⟩
  · cases decode blocks skip x states <;> rfl
  · intro e n h
    rw [h]; rfl
  · intro t B C L h hs n
    rw [h]
    simp only [res_bind_ok, matchVal]
    constructor
    · intro hn
      obtain ⟨y, h1, h2, h3⟩ := match_size_partial t B C L hs n hn
      refine ⟨y, ?_, h2, h3⟩
      rw [h1]; rfl
    · intro hn
      obtain ⟨y, h1, h2⟩ := match_size_crop_empty t B C L hs n hn
      refine ⟨y, ?_, h2⟩
      rw [h1]; rfl

/-- A decoder that returns the same tensor of length 5. -/
example : ∃ y, convDecodeSized [⟨fun v => .ok v, fun _ => .ok (.tensor ⟨[1, 1, 5], fun i => (i.getD 2 0 : ℝ)⟩)⟩] (some fun v _ => .ok v) .module (some []) (some (8 : ℕ)) = .ok (.tensor y) ∧
    y.shape = [1, 1, 8] := by
  obtain ⟨y, h1, h2, -⟩ := ((decode_input_size [⟨fun v => .ok v, fun _ => .ok (.tensor ⟨[1, 1, 5], fun i => (i.getD 2 0 : ℝ)⟩)⟩] (some fun v _ => .ok v) .module (some [])).2.2
    ⟨[1, 1, 5], fun i => (i.getD 2 0 : ℝ)⟩ 1 1 5 (by simp [decode, decodeLoop, decodeStep, stateAt, applySkip]) rfl 8).1 (by norm_num)
  exact ⟨y, h1, h2⟩

end Verif.Autoencoder
