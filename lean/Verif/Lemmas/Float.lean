import Verif.Lemmas.Ieee
import Verif.Lemmas.Loops

/-!
# Basic facts about rounded arithmetic
-/

namespace Stroke

namespace FloatFormat
variable (F : FloatFormat)

theorem zero_mem : (0 : ℝ) ∈ F.grid := by exact_mod_cast F.int_mem 0 (by norm_num)

theorem one_mem : (1 : ℝ) ∈ F.grid := by exact_mod_cast F.int_mem 1 (by norm_num)

theorem max_pos : 0 < F.max := by linarith [F.max_ge]

theorem rnd_zero : F.rnd 0 = 0 := F.rnd_of_mem 0 F.zero_mem

theorem rnd_nonneg {x : ℝ} (hx : 0 ≤ x) : 0 ≤ F.rnd x := by
  have := F.rnd_mono hx
  rwa [F.rnd_zero] at this

theorem rnd_nonpos {x : ℝ} (hx : x ≤ 0) : F.rnd x ≤ 0 := by
  have := F.rnd_mono hx
  rwa [F.rnd_zero] at this

/-- Rounding cannot cross a value of the format. -/
theorem abs_rnd_le {x y : ℝ} (hy : y ∈ F.grid) (h : |x| ≤ y) : |F.rnd x| ≤ y := by
  rw [abs_le] at h ⊢
  constructor
  · have := F.rnd_mono h.1
    rwa [F.rnd_of_mem _ (F.neg_mem _ hy)] at this
  · have := F.rnd_mono h.2
    rwa [F.rnd_of_mem _ hy] at this

/-- No overflow below the largest finite value. -/
theorem round_of_le {x : ℝ} (h : |x| ≤ F.max) :
    F.round x = .fin (F.rnd x) ⟨F.rnd_mem x, F.abs_rnd_le F.max_mem h⟩ := by
  unfold round
  rw [dif_pos (F.abs_rnd_le F.max_mem h)]

theorem round_of_rnd_le {x : ℝ} (h : |F.rnd x| ≤ F.max) :
    F.round x = .fin (F.rnd x) ⟨F.rnd_mem x, h⟩ := by
  unfold round
  rw [dif_pos h]

theorem round_of_mem {x : ℝ} (hx : x ∈ F.grid ∧ |x| ≤ F.max) : F.round x = .fin x hx := by
  rw [F.round_of_le hx.2]
  congr 1
  exact F.rnd_of_mem x hx.1

theorem int_ok (n : ℤ) (hn : |n| ≤ 1024) : (n : ℝ) ∈ F.grid ∧ |(n : ℝ)| ≤ F.max := by
  refine ⟨F.int_mem n hn, ?_⟩
  have : |(n : ℝ)| ≤ 1024 := by exact_mod_cast hn
  exact this.trans F.max_ge

theorem zero_ok : (0 : ℝ) ∈ F.grid ∧ |(0 : ℝ)| ≤ F.max := by
  have := F.int_ok 0 (by norm_num)
  rwa [Int.cast_zero] at this

theorem one_ok : (1 : ℝ) ∈ F.grid ∧ |(1 : ℝ)| ≤ F.max := by
  have := F.int_ok 1 (by norm_num)
  rwa [Int.cast_one] at this

theorem epsilon_ok : F.epsilon ∈ F.grid ∧ |F.epsilon| ≤ F.max := by
  refine ⟨F.epsilon_mem, ?_⟩
  rw [abs_of_pos F.epsilon_pos]
  linarith [F.epsilon_le, F.max_ge]

theorem round_not_nan (x : ℝ) : (F.round x).isNaN = false := by
  unfold round
  split_ifs <;> rfl

end FloatFormat

namespace Fl
variable {F : FloatFormat}

theorem fin_congr {a b : ℝ} {ha : a ∈ F.grid ∧ |a| ≤ F.max} {hb : b ∈ F.grid ∧ |b| ≤ F.max}
    (h : a = b) : (fin a ha : Fl F) = fin b hb := by
  subst h
  rfl

theorem fin_add {a b : ℝ} {ha : a ∈ F.grid ∧ |a| ≤ F.max} {hb : b ∈ F.grid ∧ |b| ≤ F.max} :
    (fin a ha : Fl F) + fin b hb = F.round (a + b) := rfl

theorem fin_sub {a b : ℝ} {ha : a ∈ F.grid ∧ |a| ≤ F.max} {hb : b ∈ F.grid ∧ |b| ≤ F.max} :
    (fin a ha : Fl F) - fin b hb = F.round (a - b) := by
  rw [sub_eq_add_neg]
  rfl

theorem fin_mul {a b : ℝ} {ha : a ∈ F.grid ∧ |a| ≤ F.max} {hb : b ∈ F.grid ∧ |b| ≤ F.max} :
    (fin a ha : Fl F) * fin b hb = F.round (a * b) := rfl

theorem fin_div {a b : ℝ} {ha : a ∈ F.grid ∧ |a| ≤ F.max} {hb : b ∈ F.grid ∧ |b| ≤ F.max}
    (h : b ≠ 0) : (fin a ha : Fl F) / fin b hb = F.round (a / b) :=
  if_neg h

theorem fin_neg {a : ℝ} {ha : a ∈ F.grid ∧ |a| ≤ F.max} :
    -(fin a ha : Fl F) = fin (-a) ⟨F.neg_mem a ha.1, by rw [abs_neg]; exact ha.2⟩ := rfl

theorem lit_zero : (lit 0 : Fl F) = fin 0 F.zero_ok := by
  show F.round ((0 : ℚ) : ℝ) = _
  rw [Rat.cast_zero, F.round_of_mem F.zero_ok]

theorem lit_one : (lit 1 : Fl F) = fin 1 F.one_ok := by
  show F.round ((1 : ℚ) : ℝ) = _
  rw [Rat.cast_one, F.round_of_mem F.one_ok]

theorem lit_int (n : ℤ) (hn : |n| ≤ 1024) : (lit (n : ℚ) : Fl F) = fin n (F.int_ok n hn) := by
  show F.round (((n : ℤ) : ℚ) : ℝ) = _
  rw [Rat.cast_intCast, F.round_of_mem (F.int_ok n hn)]

theorem epsilon_eq : (Scalar.epsilon : Fl F) = fin F.epsilon F.epsilon_ok :=
  F.round_of_mem F.epsilon_ok

theorem isFinite_iff {x : Fl F} : x.IsFinite ↔ ∃ r h, x = fin r h := by
  cases x with
  | nan => simp [IsFinite]
  | inf s => simp [IsFinite]
  | fin r h => exact ⟨fun _ => ⟨r, h, rfl⟩, fun _ => trivial⟩

@[simp] theorem isFinite_fin {a : ℝ} {ha : a ∈ F.grid ∧ |a| ≤ F.max} :
    (fin a ha : Fl F).IsFinite := trivial

@[simp] theorem toReal_fin {a : ℝ} {ha : a ∈ F.grid ∧ |a| ≤ F.max} :
    (fin a ha : Fl F).toReal = a := rfl

theorem lt_fin {a b : ℝ} {ha : a ∈ F.grid ∧ |a| ≤ F.max} {hb : b ∈ F.grid ∧ |b| ≤ F.max} :
    Scalar.lt (fin a ha : Fl F) (fin b hb) = true ↔ a < b := by
  show decide ((a : EReal) < (b : EReal)) = true ↔ _
  rw [decide_eq_true_iff, EReal.coe_lt_coe_iff]

theorem le_fin {a b : ℝ} {ha : a ∈ F.grid ∧ |a| ≤ F.max} {hb : b ∈ F.grid ∧ |b| ≤ F.max} :
    Scalar.le (fin a ha : Fl F) (fin b hb) = true ↔ a ≤ b := by
  show decide ((a : EReal) ≤ (b : EReal)) = true ↔ _
  rw [decide_eq_true_iff, EReal.coe_le_coe_iff]

theorem eq_fin {a b : ℝ} {ha : a ∈ F.grid ∧ |a| ≤ F.max} {hb : b ∈ F.grid ∧ |b| ≤ F.max} :
    Scalar.eq (fin a ha : Fl F) (fin b hb) = true ↔ a = b := by
  show decide ((a : EReal) = (b : EReal)) = true ↔ _
  rw [decide_eq_true_iff, EReal.coe_eq_coe_iff]

@[simp] theorem lt_nan_left (x : Fl F) : Scalar.lt nan x = false := rfl
@[simp] theorem lt_nan_right (x : Fl F) : Scalar.lt x nan = false := by
  show lt x nan = false
  unfold lt
  cases x.val? <;> rfl
@[simp] theorem le_nan_left (x : Fl F) : Scalar.le nan x = false := rfl
@[simp] theorem le_nan_right (x : Fl F) : Scalar.le x nan = false := by
  show le x nan = false
  unfold le
  cases x.val? <;> rfl
@[simp] theorem eq_nan_left (x : Fl F) : Scalar.eq nan x = false := rfl
@[simp] theorem eq_nan_right (x : Fl F) : Scalar.eq x nan = false := by
  show beq x nan = false
  unfold beq
  cases x.val? <;> rfl

/-- `==` on floats without NaN is equality (zeros identified). -/
theorem eq_iff (x y : Fl F) : Scalar.eq x y = true ↔ x = y ∧ x ≠ nan := by
  show beq x y = true ↔ _
  unfold beq
  cases x with
  | nan => simp [val?]
  | inf s =>
    cases y with
    | nan => cases s <;> simp [val?]
    | inf s' => cases s <;> cases s' <;> simp [val?]
    | fin r h => cases s <;> simp [val?]
  | fin r h =>
    cases y with
    | nan => simp [val?]
    | inf s' => cases s' <;> simp [val?]
    | fin r' h' => simp [val?]

theorem mul_litZero {x : Fl F} (hx : x.IsFinite) : x * (lit 0 : Fl F) = lit 0 := by
  obtain ⟨r, h, rfl⟩ := isFinite_iff.1 hx
  rw [lit_zero, fin_mul, mul_zero, F.round_of_mem F.zero_ok]

theorem litZero_mul {x : Fl F} (hx : x.IsFinite) : (lit 0 : Fl F) * x = lit 0 := by
  obtain ⟨r, h, rfl⟩ := isFinite_iff.1 hx
  rw [lit_zero, fin_mul, zero_mul, F.round_of_mem F.zero_ok]

theorem mul_litOne {x : Fl F} (hx : x.IsFinite) : x * (lit 1 : Fl F) = x := by
  obtain ⟨r, h, rfl⟩ := isFinite_iff.1 hx
  rw [lit_one, fin_mul, mul_one, F.round_of_mem h]

theorem litOne_mul {x : Fl F} (hx : x.IsFinite) : (lit 1 : Fl F) * x = x := by
  obtain ⟨r, h, rfl⟩ := isFinite_iff.1 hx
  rw [lit_one, fin_mul, one_mul, F.round_of_mem h]

theorem add_litZero {x : Fl F} (hx : x.IsFinite) : x + (lit 0 : Fl F) = x := by
  obtain ⟨r, h, rfl⟩ := isFinite_iff.1 hx
  rw [lit_zero, fin_add, add_zero, F.round_of_mem h]

theorem litZero_add {x : Fl F} (hx : x.IsFinite) : (lit 0 : Fl F) + x = x := by
  obtain ⟨r, h, rfl⟩ := isFinite_iff.1 hx
  rw [lit_zero, fin_add, zero_add, F.round_of_mem h]

theorem one_sub_zero : -(lit 0 : Fl F) + lit 1 = lit 1 := by
  rw [lit_zero, lit_one, fin_neg, fin_add, neg_zero, zero_add, F.round_of_mem F.one_ok]

theorem one_sub_one : -(lit 1 : Fl F) + lit 1 = lit 0 := by
  rw [lit_zero, lit_one, fin_neg, fin_add, neg_add_cancel, F.round_of_mem F.zero_ok]

theorem isFinite_lit (n : ℤ) (hn : |n| ≤ 1024) : (lit (n : ℚ) : Fl F).IsFinite := by
  rw [lit_int n hn]; trivial

theorem isFinite_zero : (lit 0 : Fl F).IsFinite := by rw [lit_zero]; trivial
theorem isFinite_one : (lit 1 : Fl F).IsFinite := by rw [lit_one]; trivial

end Fl

end Stroke
