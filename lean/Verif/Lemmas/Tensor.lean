import Verif.Tensor
/-! Arithmetic facts about row-major indexing. -/
namespace Verif

theorem idx_lt {i j a b : Nat} (hi : i < a) (hj : j < b) : i * b + j < a * b := by
  have h : (i + 1) * b ≤ a * b := Nat.mul_le_mul_right b hi
  rw [Nat.add_mul] at h; omega

theorem idx_div {j b : Nat} (i : Nat) (hj : j < b) : (i * b + j) / b = i := by
  rw [Nat.mul_comm, Nat.mul_add_div (by omega), Nat.div_eq_of_lt hj]; omega

theorem idx_mod {j b : Nat} (i : Nat) (hj : j < b) : (i * b + j) % b = j := by
  rw [Nat.mul_comm, Nat.mul_add_mod, Nat.mod_eq_of_lt hj]

theorem InB.eq1 {i : List Nat} {a : Nat} (h : InB i [a]) : ∃ x, i = [x] ∧ x < a := by
  match i, h with
  | [x], ⟨h, _⟩ => exact ⟨x, rfl, h⟩

theorem InB.eq2 {i : List Nat} {a b : Nat} (h : InB i [a, b]) :
    ∃ x y, i = [x, y] ∧ x < a ∧ y < b := by
  match i, h with
  | [x, y], ⟨h, h', _⟩ => exact ⟨x, y, rfl, h, h'⟩

theorem InB.eq3 {i : List Nat} {a b c : Nat} (h : InB i [a, b, c]) :
    ∃ x y z, i = [x, y, z] ∧ x < a ∧ y < b ∧ z < c := by
  match i, h with
  | [x, y, z], ⟨h, h', h'', _⟩ => exact ⟨x, y, z, rfl, h, h', h''⟩

theorem InB.eq0 {i : List Nat} (h : InB i []) : i = [] := by
  match i, h with
  | [], _ => rfl

theorem list_len_le2 {α : Type _} (l : List α) (h : l.length ≤ 2) :
    l = [] ∨ (∃ a, l = [a]) ∨ (∃ a b, l = [a, b]) := by
  match l, h with
  | [], _ => simp
  | [a], _ => simp
  | [a, b], _ => simp

@[simp] theorem res_bind_ok {α β : Type _} (a : α) (f : α → Res β) :
    (Except.ok a >>= f) = f a := rfl

@[simp] theorem res_bind_error {α β : Type _} (e : Err) (f : α → Res β) :
    ((Except.error e : Res α) >>= f) = Except.error e := rfl

@[simp] theorem res_pure {α : Type _} (a : α) : (pure a : Res α) = Except.ok a := rfl

theorem numel_append (a b : List Nat) : numel (a ++ b) = numel a * numel b := by
  induction a with
  | nil => simp [numel]
  | cons x xs ih => simp [numel, ih, Nat.mul_assoc]

theorem mem_allIdx (shape i : List Nat) : i ∈ Tensor.allIdx shape ↔ InB i shape := by
  induction shape generalizing i with
  | nil => cases i <;> simp [Tensor.allIdx, InB]
  | cons s ss ih =>
    cases i with
    | nil => simp [Tensor.allIdx, InB]
    | cons a is =>
      simp only [Tensor.allIdx, List.mem_flatMap, List.mem_range, List.mem_map, List.cons.injEq, InB]
      constructor
      · rintro ⟨b, hb, c, hc, rfl, rfl⟩; exact ⟨hb, (ih c).1 hc⟩
      · rintro ⟨h1, h2⟩; exact ⟨a, h1, is, (ih is).2 h2, rfl, rfl⟩

namespace Tensor
variable {α : Type _}

theorem arange_ok (k : Nat) : arange (k : Int) = .ok ⟨[k], fun i => (i.headD 0 : Nat)⟩ := by
  have : ¬ ((k:Int) < 0) := by omega
  simp [arange, this]

theorem take_ok (x : Tensor α) (index : Tensor Int)
    (h : ∀ i, InB i index.shape → 0 ≤ index.get i ∧ index.get i < numel x.shape) :
    ∃ y, x.take index = .ok y ∧ y.shape = index.shape ∧
      ∀ i, InB i index.shape → y.get i = x.get (unravel x.shape (index.get i).toNat) := by
  have h1 : (allIdx index.shape).all
      (fun i => decide (-(numel x.shape:Int) ≤ index.get i ∧ index.get i < numel x.shape)) = true := by
    rw [List.all_eq_true]
    intro i hi
    have := h i ((mem_allIdx _ _).1 hi)
    simp only [decide_eq_true_eq]
    omega
  refine ⟨_, by unfold take; simp only [h1, if_true]; rfl, rfl, ?_⟩
  intro i hi
  have := h i hi
  have h2 : ¬ (index.get i < 0) := by omega
  simp only [h2, if_false]

theorem take_error (x : Tensor α) (index : Tensor Int) (i : List Nat) (hi : InB i index.shape)
    (h : index.get i < -(numel x.shape : Int) ∨ (numel x.shape : Int) ≤ index.get i) :
    x.take index = .error .index := by
  have h1 : ¬ (allIdx index.shape).all
      (fun i => decide (-(numel x.shape:Int) ≤ index.get i ∧ index.get i < numel x.shape)) = true := by
    rw [List.all_eq_true]
    intro hc
    have := hc i ((mem_allIdx _ _).2 hi)
    simp only [decide_eq_true_eq] at this
    omega
  unfold take; simp only [h1]; rfl

theorem takeAlongLast_ok (x : Tensor α) (index : Tensor Int) (lead : List Nat) (n m : Nat)
    (hx : x.shape = lead ++ [n]) (hi : index.shape = lead ++ [m])
    (h : ∀ i, InB i index.shape → 0 ≤ index.get i ∧ index.get i < n) :
    x.takeAlongLast index =
      .ok ⟨index.shape, fun i => x.get (mapLast (fun _ => (index.get i).toNat) i)⟩ := by
  have h1 : (allIdx index.shape).all
      (fun i => decide (0 ≤ index.get i ∧ index.get i < n)) = true := by
    rw [List.all_eq_true]
    intro i hi
    simpa only [decide_eq_true_eq] using h i ((mem_allIdx _ _).1 hi)
  have h2 : x.lastDim = .ok n := by simp [lastDim, hx]
  have h3 : x.shape.dropLast = index.shape.dropLast ∧ x.shape.length = index.shape.length := by
    simp [hx, hi]
  simp only [takeAlongLast, h2, res_bind_ok, h3, and_self, if_true, h1]

theorem takeAlongLast_error (x : Tensor α) (index : Tensor Int) (lead : List Nat) (n m : Nat)
    (hx : x.shape = lead ++ [n]) (hi : index.shape = lead ++ [m])
    (i : List Nat) (hib : InB i index.shape) (h : index.get i < 0 ∨ (n : Int) ≤ index.get i) :
    x.takeAlongLast index = .error .runtime := by
  have h1 : ¬ (allIdx index.shape).all
      (fun i => decide (0 ≤ index.get i ∧ index.get i < n)) = true := by
    rw [List.all_eq_true]
    intro hc
    have := hc i ((mem_allIdx _ _).2 hib)
    simp only [decide_eq_true_eq] at this
    omega
  have h2 : x.lastDim = .ok n := by simp [lastDim, hx]
  have h3 : x.shape.dropLast = index.shape.dropLast ∧ x.shape.length = index.shape.length := by
    simp [hx, hi]
  simp only [takeAlongLast, h2, res_bind_ok, h3, and_self, if_true, h1]
  rfl

theorem reshape_ok (t : Tensor α) (ns : List Nat) (h : numel ns = numel t.shape) :
    t.reshape ns = .ok ⟨ns, fun i => t.get (unravel t.shape (ravel ns i))⟩ := by
  simp [reshape, h]

theorem reshapeInfer_ok (t : Tensor α) (front back : List Nat) (d : Nat)
    (h0 : 0 < numel front * numel back) (h : numel t.shape = numel front * numel back * d) :
    t.reshapeInfer front back =
      .ok ⟨front ++ d :: back, fun i => t.get (unravel t.shape (ravel (front ++ d :: back) i))⟩ := by
  have h1 : ¬ numel front * numel back = 0 := by omega
  have h2 : numel (front ++ d :: back) = numel t.shape := by
    rw [numel_append, numel, h, Nat.mul_assoc, Nat.mul_comm d]
  unfold reshapeInfer inferDim
  simp only [h1, if_false]
  rw [h, Nat.mul_mod_right, Nat.mul_div_cancel_left _ h0]
  simp only [if_true, res_bind_ok]
  exact reshape_ok _ _ h2

theorem unfold1_ok (t : Tensor α) (n c w kw dw l : Nat) (hs : t.shape = [n, c, 1, w])
    (hk : 0 < kw) (hd : 0 < dw) (hc : 0 < c) (hl : 0 < l) (hw : w = l + dw * (kw - 1)) :
    t.unfold1 (kw : Int) (dw : Int) = .ok ⟨[n, c * kw, l], fun i =>
      t.get [i.getD 0 0, i.getD 1 0 / kw, 0, i.getD 2 0 + (i.getD 1 0 % kw) * dw]⟩ := by
  unfold unfold1
  rw [hs]
  have h1 : ¬ ((kw:Int) ≤ 0 ∨ (dw:Int) ≤ 0 ∨ c = 0 ∨ 1 = 0 ∨ w = 0) := by omega
  have h2 : ((w:Int) - dw * ((kw:Int) - 1)) = l := by
    subst hw
    have : (kw:Int) - 1 = ((kw - 1 : Nat) : Int) := by omega
    rw [this]; push_cast; omega
  simp only [h1, if_false, h2]
  simp
  omega

end Tensor
end Verif
