import Verif.Model.Hdf5
import Verif.Spec.Hdf5
import Verif.Lemmas.Chunk
import Mathlib.Data.List.Nodup
import Mathlib.Data.List.Induction
import Mathlib.Data.List.Forall2
set_option linter.unusedSimpArgs false
namespace Verif.Hdf5
variable {α β : Type _}

theorem applyWrites_spec (x : Nat → Nat → β) (ws : List ((Nat × Nat) × β)) (b c : Nat) (P : β → Prop)
    (hex : ∃ w ∈ ws, w.1 = (b, c)) (hall : ∀ w ∈ ws, w.1 = (b, c) → P w.2) :
    P (applyWrites x ws b c) := by
  unfold applyWrites
  induction ws using List.reverseRecOn with
  | nil => simp at hex
  | append_singleton ws w ih =>
    rw [List.foldl_append]
    simp only [List.foldl_cons, List.foldl_nil]
    by_cases h : (b, c) = w.1
    · rw [if_pos h]
      exact hall w (by simp) h.symm
    · rw [if_neg h]
      refine ih ?_ (fun w hw => hall w (by simp [hw]))
      obtain ⟨w', hw', he⟩ := hex
      rw [List.mem_append] at hw'
      rcases hw' with hw' | hw'
      · exact ⟨w', hw', he⟩
      · simp at hw'; subst hw'; exact absurd he.symm h

theorem repeatEach_get (l : List β) (n q : Nat) (hn : 0 < n) : (repeatEach l n)[q]? = l[q / n]? := by
  induction l generalizing q with
  | nil => simp [repeatEach]
  | cons x xs ih =>
    simp only [repeatEach, List.flatMap_cons] at ih ⊢
    by_cases h : q < n
    · rw [List.getElem?_append_left (by simpa using h), Nat.div_eq_of_lt h]
      simp [h]
    · have h' : n ≤ q := by omega
      rw [List.getElem?_append_right (by simpa using h'), List.length_replicate, ih,
        Nat.div_eq_sub_div hn h']
      simp

theorem repeatEach_length (l : List β) (n : Nat) : (repeatEach l n).length = l.length * n := by
  induction l with
  | nil => simp [repeatEach]
  | cons x xs ih =>
    simp only [repeatEach, List.flatMap_cons, List.length_append, List.length_replicate,
      List.length_cons] at ih ⊢
    rw [ih, Nat.succ_mul]; omega

theorem tileRange_get (m n q : Nat) (hq : q < m * n) :
    ((List.replicate m (List.range n)).flatten)[q]? = some (q % n) := by
  induction m generalizing q with
  | zero => omega
  | succ m ih =>
    rw [List.replicate_succ, List.flatten_cons]
    by_cases h : q < n
    · rw [List.getElem?_append_left (by simpa using h), Nat.mod_eq_of_lt h]
      simp [h]
    · rw [Nat.succ_mul] at hq
      have h' : n ≤ q := by omega
      rw [List.getElem?_append_right (by simpa using h'), List.length_range, ih _ (by omega),
        Nat.mod_eq_sub_mod h']

theorem tileRange_length (m n : Nat) :
    ((List.replicate m (List.range n)).flatten).length = m * n := by
  simp [List.length_flatten]

theorem uniq_aux (l ks : List String) (h : ks.Nodup) :
    (l.foldl (fun ks f => if f ∈ ks then ks else ks ++ [f]) ks).Nodup ∧
    ∀ f, f ∈ l.foldl (fun ks f => if f ∈ ks then ks else ks ++ [f]) ks ↔ f ∈ ks ∨ f ∈ l := by
  induction l generalizing ks with
  | nil => simp [h]
  | cons x xs ih =>
    simp only [List.foldl_cons]
    by_cases hx : x ∈ ks
    · simp only [hx, if_true]
      refine ⟨(ih ks h).1, fun f => ?_⟩
      rw [(ih ks h).2]
      simp only [List.mem_cons]
      constructor
      · tauto
      · rintro (h | rfl | h) <;> tauto
    · simp only [hx, if_false]
      have hn : (ks ++ [x]).Nodup := by
        rw [List.nodup_append]
        refine ⟨h, by simp, ?_⟩
        intro a ha b hb
        simp at hb; subst hb
        rintro rfl; exact hx ha
      refine ⟨(ih _ hn).1, fun f => ?_⟩
      rw [(ih _ hn).2]
      simp only [List.mem_append, List.mem_cons, List.mem_singleton, List.not_mem_nil, or_false]
      tauto

theorem unique_nodup (l : List String) : (unique l).Nodup := (uniq_aux l [] (by simp)).1
theorem mem_unique (l : List String) (f : String) : f ∈ unique l ↔ f ∈ l := by
  have := (uniq_aux l [] (by simp)).2 f
  rw [unique, this]; simp
theorem mem_sizeKeys (cfg : Config α) (f : String) : f ∈ sizeKeys cfg ↔ f ∈ cfg.fnames := by
  have := (uniq_aux cfg.fnames [] (by simp)).2 f
  rw [sizeKeys, this]; simp

theorem uniq_of_nodup_aux (l ks : List String) (h : (ks ++ l).Nodup) :
    l.foldl (fun ks f => if f ∈ ks then ks else ks ++ [f]) ks = ks ++ l := by
  induction l generalizing ks with
  | nil => simp
  | cons x xs ih =>
    have hx : x ∉ ks := by
      intro hx
      exact (List.nodup_append.1 h).2.2 x hx x (by simp) rfl
    simp only [List.foldl_cons, hx, if_false]
    rw [ih _ (by simpa using h)]
    simp

theorem sizeKeys_of_nodup (cfg : Config α) (h : cfg.fnames.Nodup) : sizeKeys cfg = cfg.fnames := by
  rw [sizeKeys, uniq_of_nodup_aux cfg.fnames [] (by simpa using h)]; rfl

theorem uniq_len_le (l ks : List String) :
    (l.foldl (fun ks f => if f ∈ ks then ks else ks ++ [f]) ks).length ≤ ks.length + l.length := by
  induction l generalizing ks with
  | nil => simp
  | cons x xs ih =>
    simp only [List.foldl_cons]
    by_cases hx : x ∈ ks
    · simp only [hx, if_true]; have := ih ks; simp; omega
    · simp only [hx, if_false]; have := ih (ks ++ [x]); simp at this ⊢; omega

theorem uniq_len_lt (l ks : List String) (h : ¬ (ks ++ l).Nodup) (hk : ks.Nodup) :
    (l.foldl (fun ks f => if f ∈ ks then ks else ks ++ [f]) ks).length < ks.length + l.length := by
  induction l generalizing ks with
  | nil => simp at h; exact absurd hk h
  | cons x xs ih =>
    simp only [List.foldl_cons]
    by_cases hx : x ∈ ks
    · simp only [hx, if_true]; have := uniq_len_le xs ks; simp; omega
    · simp only [hx, if_false]
      have hn : (ks ++ [x]).Nodup := by
        rw [List.nodup_append]
        refine ⟨hk, by simp, ?_⟩
        intro a ha b hb
        simp at hb; subst hb
        rintro rfl; exact hx ha
      have := ih (ks ++ [x]) (by simpa using h) hn
      simp at this ⊢; omega

theorem mem_indicesOf (fs : List String) (f : String) (j : Nat) :
    j ∈ indicesOf fs f ↔ j < fs.length ∧ fs.getD j "" = f := by
  simp [indicesOf]

theorem indicesOf_nodup (fs : List String) (f : String) : (indicesOf fs f).Nodup :=
  List.Nodup.filter _ List.nodup_range

/-- Flat position of the draw that fills cell `(b, c)`. -/
def key (cfg : Config α) (b c : Nat) : Nat := if cfg.coincident = .no then b * cfg.numChannels + c else b

/-- Which draw of `randint` fills cell `(b, c)` from the file with the given indices. -/
def drawNo (cfg : Config α) (indices : List Nat) (b c : Nat) : Nat :=
  match cfg.coincident with
  | .yes => indices.idxOf (key cfg b c)
  | .no => indices.idxOf (key cfg b c)
  | _ => indices.idxOf (key cfg b c) * cfg.numChannels + c

/-- The assignments of one file: exactly one triple for every cell whose draw chose this file. -/
theorem writes_ok (cfg : Config α) (r : Nat → Nat) (fs : List String) (f : String)
    (hC : 0 < cfg.numChannels) (hK : cfg.kernelSize < size cfg f) :
    ∃ ws, writes cfg r fs f = .ok ws ∧
      (∀ b c, c < cfg.numChannels → key cfg b c ∈ indicesOf fs f →
        (b, c, r (drawNo cfg (indicesOf fs f) b c) % (size cfg f - cfg.kernelSize)) ∈ ws) ∧
      (∀ b c i, (b, c, i) ∈ ws → c < cfg.numChannels ∧ key cfg b c ∈ indicesOf fs f ∧
        i = r (drawNo cfg (indicesOf fs f) b c) % (size cfg f - cfg.kernelSize)) := by
  have hM : ¬ ((size cfg f : Int) - cfg.kernelSize ≤ 0) := by omega
  have hMn : ((size cfg f : Int) - cfg.kernelSize).toNat = size cfg f - cfg.kernelSize := by omega
  have hnd := indicesOf_nodup fs f
  generalize hI : indicesOf fs f = I at *
  generalize hC' : cfg.numChannels = C at *
  generalize hMM : size cfg f - cfg.kernelSize = M at *
  have zip3 : ∀ (A B D : List Nat) (b c i : Nat), (b, c, i) ∈ A.zip (B.zip D) ↔
      ∃ q : Nat, A[q]? = some b ∧ B[q]? = some c ∧ D[q]? = some i := by
    intro A B D b c i
    rw [List.mem_iff_getElem?]
    simp only [List.getElem?_zip_eq_some]
  have hgetI : ∀ p b, I[p]? = some b → I.idxOf b = p := by
    intro p b h
    obtain ⟨hp, rfl⟩ := List.getElem?_eq_some_iff.1 h
    exact List.Nodup.idxOf_getElem hnd p hp
  have hmemI : ∀ b, b ∈ I → I[I.idxOf b]? = some b := by
    intro b h
    have := List.idxOf_lt_length_of_mem h
    rw [List.getElem?_eq_getElem this, List.getElem_idxOf]
  have hlt : ∀ b, b ∈ I → I.idxOf b < I.length := fun b h => List.idxOf_lt_length_of_mem h
  cases hco : cfg.coincident with
  | no =>
    refine ⟨(I.map (· / C)).zip ((I.map (· % C)).zip ((List.range I.length).map fun k => r k % M)), ?_, ?_, ?_⟩
    · simp [writes, hco, hI, hC', randintN, hM, hMn]
    · intro b c hc hk
      rw [zip3]
      simp only [key, hco, if_true, hC', drawNo] at hk ⊢
      refine ⟨I.idxOf (b * C + c), ?_, ?_, ?_⟩
      · rw [List.getElem?_map, hmemI _ hk]; simp [idx_div _ hc]
      · rw [List.getElem?_map, hmemI _ hk]; simp [idx_mod _ hc]
      · simp [hlt _ hk]
    · intro b c i h
      rw [zip3] at h
      obtain ⟨q, h1, h2, h3⟩ := h
      simp only [List.getElem?_map, Option.map_eq_some_iff] at h1 h2 h3
      obtain ⟨j, hj, rfl⟩ := h1
      obtain ⟨j', hj', rfl⟩ := h2
      obtain ⟨k, hk, rfl⟩ := h3
      rw [hj] at hj'; obtain rfl : j = j' := by simpa using hj'
      have hkey : key cfg (j / C) (j % C) = j := by
        simp only [key, hco, if_true, hC']; rw [Nat.mul_comm]; exact Nat.div_add_mod j C
      have hjm : j ∈ I := List.mem_of_getElem? hj
      have hkq : k = q := by
        rw [List.getElem?_range (List.getElem?_eq_some_iff.1 hj).1] at hk
        simpa using hk.symm
      refine ⟨Nat.mod_lt _ hC, by rw [hkey]; exact hjm, ?_⟩
      simp only [drawNo, hco, hkey]
      rw [hgetI _ _ hj, hkq]
  | yes =>
    refine ⟨(repeatEach I C).zip (((List.replicate I.length (List.range C)).flatten).zip
      (repeatEach ((List.range I.length).map fun k => r k % M) C)), ?_, ?_, ?_⟩
    · simp [writes, hco, hI, hC', randintN, hM, hMn, repeatEach_length, tileRange_length]
    · intro b c hc hk
      rw [zip3]
      simp only [key, hco, drawNo, reduceCtorEq, if_false] at hk ⊢
      have hp := hlt _ hk
      refine ⟨I.idxOf b * C + c, ?_, ?_, ?_⟩
      · rw [repeatEach_get _ _ _ hC, idx_div _ hc, hmemI _ hk]
      · rw [tileRange_get _ _ _ (idx_lt hp hc), idx_mod _ hc]
      · rw [repeatEach_get _ _ _ hC, idx_div _ hc]
        simp [hp]
    · intro b c i h
      rw [zip3] at h
      obtain ⟨q, h1, h2, h3⟩ := h
      rw [repeatEach_get _ _ _ hC] at h1 h3
      have hq : q / C < I.length := (List.getElem?_eq_some_iff.1 h1).1
      have hq' : q < I.length * C := (Nat.div_lt_iff_lt_mul hC).1 hq
      rw [tileRange_get _ _ _ hq'] at h2
      simp only [List.getElem?_map, List.getElem?_range hq, Option.map_some] at h3
      obtain rfl : q % C = c := by simpa using h2
      obtain rfl := Option.some.inj h3
      refine ⟨Nat.mod_lt _ hC, by simp only [key, hco, reduceCtorEq, if_false]; exact List.mem_of_getElem? h1, ?_⟩
      simp only [drawNo, hco, key, reduceCtorEq, if_false, hgetI _ _ h1]
  | files =>
    refine ⟨(repeatEach I C).zip (((List.replicate I.length (List.range C)).flatten).zip
      ((List.range (I.length * C)).map fun k => r k % M)), ?_, ?_, ?_⟩
    · simp [writes, hco, hI, hC', randintN, hM, hMn, repeatEach_length, tileRange_length]
    · intro b c hc hk
      rw [zip3]
      simp only [key, hco, drawNo, reduceCtorEq, if_false, hC'] at hk ⊢
      have hp := hlt _ hk
      refine ⟨I.idxOf b * C + c, ?_, ?_, ?_⟩
      · rw [repeatEach_get _ _ _ hC, idx_div _ hc, hmemI _ hk]
      · rw [tileRange_get _ _ _ (idx_lt hp hc), idx_mod _ hc]
      · simp [idx_lt hp hc]
    · intro b c i h
      rw [zip3] at h
      obtain ⟨q, h1, h2, h3⟩ := h
      rw [repeatEach_get _ _ _ hC] at h1
      have hq : q / C < I.length := (List.getElem?_eq_some_iff.1 h1).1
      have hq' : q < I.length * C := (Nat.div_lt_iff_lt_mul hC).1 hq
      rw [tileRange_get _ _ _ hq'] at h2
      simp only [List.getElem?_map, List.getElem?_range hq', Option.map_some] at h3
      obtain rfl : q % C = c := by simpa using h2
      obtain rfl := Option.some.inj h3
      refine ⟨Nat.mod_lt _ hC, by simp only [key, hco, reduceCtorEq, if_false]; exact List.mem_of_getElem? h1, ?_⟩
      simp only [drawNo, hco, key, reduceCtorEq, if_false, hgetI _ _ h1, hC']
      rw [Nat.mul_comm, Nat.div_add_mod]
  | other =>
    refine ⟨(repeatEach I C).zip (((List.replicate I.length (List.range C)).flatten).zip
      ((List.range (I.length * C)).map fun k => r k % M)), ?_, ?_, ?_⟩
    · simp [writes, hco, hI, hC', randintN, hM, hMn, repeatEach_length, tileRange_length]
    · intro b c hc hk
      rw [zip3]
      simp only [key, hco, drawNo, reduceCtorEq, if_false, hC'] at hk ⊢
      have hp := hlt _ hk
      refine ⟨I.idxOf b * C + c, ?_, ?_, ?_⟩
      · rw [repeatEach_get _ _ _ hC, idx_div _ hc, hmemI _ hk]
      · rw [tileRange_get _ _ _ (idx_lt hp hc), idx_mod _ hc]
      · simp [idx_lt hp hc]
    · intro b c i h
      rw [zip3] at h
      obtain ⟨q, h1, h2, h3⟩ := h
      rw [repeatEach_get _ _ _ hC] at h1
      have hq : q / C < I.length := (List.getElem?_eq_some_iff.1 h1).1
      have hq' : q < I.length * C := (Nat.div_lt_iff_lt_mul hC).1 hq
      rw [tileRange_get _ _ _ hq'] at h2
      simp only [List.getElem?_map, List.getElem?_range hq', Option.map_some] at h3
      obtain rfl : q % C = c := by simpa using h2
      obtain rfl := Option.some.inj h3
      refine ⟨Nat.mod_lt _ hC, by simp only [key, hco, reduceCtorEq, if_false]; exact List.mem_of_getElem? h1, ?_⟩
      simp only [drawNo, hco, key, reduceCtorEq, if_false, hgetI _ _ h1, hC']
      rw [Nat.mul_comm, Nat.div_add_mod]

end Verif.Hdf5
