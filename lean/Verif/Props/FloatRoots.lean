import Verif.Props.FloatLine
import Verif.Props.AnyArithmetic
import Verif.Props.FloatBoxContains

/-!
# Root finding in floating point (C90)

The quadratic formula of `QuadraticBezier::real_roots`, and `solve_t_for_axis` built on it, under
rounding: what the residual of a returned parameter can be, and that it can be large.
-/

set_option linter.unusedSectionVars false

namespace Stroke

open Fl

variable {F : FloatFormat} {n : ℕ}

/-! ### Reading a finite result backwards -/

theorem round_inv {z x : ℝ} {hx : x ∈ F.grid ∧ |x| ≤ F.max} (h : F.round z = fin x hx) :
    x = F.rnd z := by
  unfold FloatFormat.round at h
  split_ifs at h with hm
  cases h
  rfl

theorem mul_inv_fin {y z : Fl F} {x : ℝ} {hx : x ∈ F.grid ∧ |x| ≤ F.max} (h : y * z = fin x hx) :
    ∃ a ha b hb, y = fin a ha ∧ z = fin b hb ∧ x = F.rnd (a * b) := by
  obtain ⟨h1, h2⟩ := Reflects.finite.mul y z (by rw [h]; trivial)
  obtain ⟨a, ha, rfl⟩ := isFinite_iff.1 h1
  obtain ⟨b, hb, rfl⟩ := isFinite_iff.1 h2
  exact ⟨a, ha, b, hb, rfl, rfl, round_inv h⟩

theorem sub_inv_fin {y z : Fl F} {x : ℝ} {hx : x ∈ F.grid ∧ |x| ≤ F.max} (h : y - z = fin x hx) :
    ∃ a ha b hb, y = fin a ha ∧ z = fin b hb ∧ x = F.rnd (a - b) := by
  obtain ⟨h1, h2⟩ := Reflects.finite.sub y z (by rw [h]; trivial)
  obtain ⟨a, ha, rfl⟩ := isFinite_iff.1 h1
  obtain ⟨b, hb, rfl⟩ := isFinite_iff.1 h2
  rw [fin_sub] at h
  exact ⟨a, ha, b, hb, rfl, rfl, round_inv h⟩

theorem add_inv_fin {y z : Fl F} {x : ℝ} {hx : x ∈ F.grid ∧ |x| ≤ F.max} (h : y + z = fin x hx) :
    ∃ a ha b hb, y = fin a ha ∧ z = fin b hb ∧ x = F.rnd (a + b) := by
  obtain ⟨h1, h2⟩ := Reflects.finite.add y z (by rw [h]; trivial)
  obtain ⟨a, ha, rfl⟩ := isFinite_iff.1 h1
  obtain ⟨b, hb, rfl⟩ := isFinite_iff.1 h2
  exact ⟨a, ha, b, hb, rfl, rfl, round_inv h⟩

/-- A finite quotient other than zero comes from finite operands. -/
theorem div_inv_fin {y z : Fl F} {x : ℝ} {hx : x ∈ F.grid ∧ |x| ≤ F.max} (h : y / z = fin x hx)
    (x0 : x ≠ 0) : ∃ a ha b hb, y = fin a ha ∧ z = fin b hb ∧ b ≠ 0 ∧ x = F.rnd (a / b) := by
  cases y with
  | nan => cases z <;> cases h
  | inf s => cases z <;> cases h
  | fin a ha =>
    cases z with
    | nan => cases h
    | inf s =>
      have h' : F.round 0 = fin x hx := h
      have := round_inv h'
      rw [F.rnd_of_mem 0 F.zero_ok.1] at this
      exact absurd this x0
    | fin b hb =>
      have h' : (if b = 0 then (if a = 0 then nan else inf (decide (a < 0))) else F.round (a / b)
        : Fl F) = fin x hx := h
      split_ifs at h' with h1 h2
      exact ⟨a, ha, b, hb, rfl, rfl, h1, round_inv h'⟩

theorem sqrt_inv_fin {y : Fl F} {x : ℝ} {hx : x ∈ F.grid ∧ |x| ≤ F.max}
    (h : Scalar.sqrt y = fin x hx) :
    ∃ a ha, y = fin a ha ∧ 0 ≤ a ∧ x = F.rnd (Real.sqrt a) := by
  cases y with
  | nan => cases h
  | inf s => cases s <;> cases h
  | fin a ha =>
    have h' : (open Classical in if a < 0 then nan else F.round (Real.sqrt a) : Fl F) = fin x hx := h
    split_ifs at h' with h1
    exact ⟨a, ha, rfl, not_lt.1 h1, round_inv h'⟩

theorem finite_of_abs_lt {d : Fl F} {r : ℝ} {hr : r ∈ F.grid ∧ |r| ≤ F.max}
    (h : Scalar.lt (Scalar.abs d) (fin r hr) = true) : ∃ δ hδ, d = fin δ hδ := by
  cases d with
  | nan =>
    have : Scalar.lt (Scalar.abs (nan : Fl F)) (fin r hr) = false := rfl
    rw [this] at h
    exact absurd h Bool.false_ne_true
  | inf s =>
    have : Scalar.lt (Scalar.abs (inf s : Fl F)) (fin r hr) = false := rfl
    rw [this] at h
    exact absurd h Bool.false_ne_true
  | fin δ hδ => exact ⟨δ, hδ, rfl⟩

/-! ### Arithmetic of the quadratic formula -/

/-- Error of the discriminant. -/
theorem discriminant_error {u η a b c P Q₁ Q δ : ℝ} (u0 : 0 ≤ u) (hu : u ≤ 1 / 1024) (η0 : 0 ≤ η)
    (hP : |P - b * b| ≤ u * |b * b| + η) (hQ₁ : |Q₁ - a * c| ≤ u * |a * c| + η)
    (hQ : |Q - Q₁ * 4| ≤ u * |Q₁ * 4| + η) (hδ : |δ - (P - Q)| ≤ u * |P - Q| + η) :
    |δ - (b ^ 2 - 4 * (a * c))| ≤ 13 / 4 * (u * (b ^ 2 + 4 * |a * c|)) + 9 * η := by
  set y := |a * c| with hy
  have y0 : 0 ≤ y := abs_nonneg _
  have b0 : 0 ≤ b ^ 2 := sq_nonneg b
  have ebb : |b * b| = b ^ 2 := by rw [abs_mul_self, sq]
  rw [ebb] at hP
  have hQ₁' : |Q₁| ≤ y + (u * y + η) := by
    have := abs_add_le (a * c) (Q₁ - a * c)
    rw [add_sub_cancel] at this
    linarith
  rw [abs_mul, abs_of_pos (by norm_num : (0 : ℝ) < 4)] at hQ
  have uη : u * η ≤ 1 / 1024 * η := mul_le_mul_of_nonneg_right hu η0
  have uy : 0 ≤ u * y := mul_nonneg u0 y0
  have uuy : u * (u * y) ≤ 1 / 1024 * (u * y) := mul_le_mul_of_nonneg_right hu uy
  have uQ : u * |Q₁| ≤ u * y + u * (u * y) + u * η := by
    have := mul_le_mul_of_nonneg_left hQ₁' u0
    linarith
  have h1 : |P - Q - (b ^ 2 - 4 * (a * c))| ≤ u * b ^ 2 + 4 * (2 * (u * y) + u * (u * y))
      + 4 * (u * η) + 6 * η := by
    have e : P - Q - (b ^ 2 - 4 * (a * c)) = (P - b * b) - ((Q - Q₁ * 4) + 4 * (Q₁ - a * c)) := by
      ring
    rw [e]
    have a1 := abs_sub (P - b * b) ((Q - Q₁ * 4) + 4 * (Q₁ - a * c))
    have a2 := abs_add_le (Q - Q₁ * 4) (4 * (Q₁ - a * c))
    rw [abs_mul, abs_of_pos (by norm_num : (0 : ℝ) < 4)] at a2
    linarith
  have h2 : |P - Q| ≤ (b ^ 2 + 4 * y) + (u * b ^ 2 + 4 * (2 * (u * y) + u * (u * y))
      + 4 * (u * η) + 6 * η) := by
    have a1 := abs_add_le (b ^ 2 - 4 * (a * c)) (P - Q - (b ^ 2 - 4 * (a * c)))
    rw [add_sub_cancel] at a1
    have a2 := abs_sub (b ^ 2) (4 * (a * c))
    rw [abs_of_nonneg b0, abs_mul, abs_of_pos (by norm_num : (0 : ℝ) < 4)] at a2
    linarith
  have ub : 0 ≤ u * b ^ 2 := mul_nonneg u0 b0
  have uub : u * (u * b ^ 2) ≤ 1 / 1024 * (u * b ^ 2) := mul_le_mul_of_nonneg_right hu ub
  have uuη : u * (u * η) ≤ 1 / 1024 * (u * η) := mul_le_mul_of_nonneg_right hu (mul_nonneg u0 η0)
  have uuuy : u * (u * (u * y)) ≤ 1 / 1024 * (u * (u * y)) :=
    mul_le_mul_of_nonneg_right hu (mul_nonneg u0 uy)
  have h3 := mul_le_mul_of_nonneg_left h2 u0
  have h4 := abs_add_le (δ - (P - Q)) (P - Q - (b ^ 2 - 4 * (a * c)))
  rw [sub_add_sub_cancel] at h4
  have h5 : u * (b ^ 2 + 4 * y) = u * b ^ 2 + 4 * (u * y) := by ring
  rw [h5]
  nlinarith

/-- The computed root almost satisfies `2 a x + b = m`, where `m - b` is the exact numerator. -/
theorem numerator_error {u η a b m N A x T : ℝ} (u0 : 0 ≤ u) (hu : u ≤ 1 / 1024) (η0 : 0 ≤ η)
    (hη : η ≤ 1 / 1024) (hT : |m - b| ≤ T) (hN : |N - (m - b)| ≤ u * |m - b| + η)
    (hA : |A - a * 2| ≤ u * |a * 2| + η) (A0 : A ≠ 0) (hx : |x - N / A| ≤ u * |N / A| + η)
    (x1 : |x| ≤ 1) :
    |2 * a * x + b - m| ≤ 25 / 8 * (u * T) + 5 * (η * (1 + |a|)) := by
  have T0 : 0 ≤ T := (abs_nonneg _).trans hT
  have a0 : 0 ≤ |a| := abs_nonneg a
  have hN' : |N| ≤ T + u * T + η := by
    have := abs_add_le (m - b) (N - (m - b))
    rw [add_sub_cancel] at this
    have := mul_le_mul_of_nonneg_left hT u0
    linarith
  have hAx : |A * x - N| ≤ u * |N| + η * |A| := by
    have e : A * x - N = A * (x - N / A) := by field_simp
    rw [e, abs_mul]
    have := mul_le_mul_of_nonneg_left hx (abs_nonneg A)
    have e2 : |A| * (u * |N / A| + η) = u * |N| + η * |A| := by
      rw [abs_div]
      have : |A| ≠ 0 := abs_ne_zero.2 A0
      field_simp
    linarith
  rw [abs_mul, abs_of_pos (by norm_num : (0 : ℝ) < 2)] at hA
  have hA' : |A| ≤ 2 * |a| + 2 * (u * |a|) + η := by
    have := abs_add_le (a * 2) (A - a * 2)
    rw [add_sub_cancel, abs_mul, abs_of_pos (by norm_num : (0 : ℝ) < 2)] at this
    linarith
  have ua : u * |a| ≤ 1 / 1024 * |a| := mul_le_mul_of_nonneg_right hu a0
  have hA'' : η * |A| ≤ 9 / 4 * (η * (1 + |a|)) := by
    have : |A| ≤ 9 / 4 * (1 + |a|) := by linarith
    have := mul_le_mul_of_nonneg_left this η0
    linarith
  -- |2 a x|
  have hd : |(a * 2 - A) * x| ≤ u * |2 * a * x| + η := by
    rw [abs_mul, abs_sub_comm]
    have h1 := mul_le_mul_of_nonneg_right hA (abs_nonneg x)
    have h2 : |2 * a * x| = 2 * |a| * |x| := by
      rw [abs_mul, abs_mul, abs_of_pos (by norm_num : (0 : ℝ) < 2)]
    rw [h2]
    have h3 : η * |x| ≤ η * 1 := mul_le_mul_of_nonneg_left x1 η0
    linarith
  set w := |2 * a * x| with hw
  have w0 : 0 ≤ w := abs_nonneg _
  have hw1 : w ≤ |N| + (u * |N| + η * |A|) + (u * w + η) := by
    have e : 2 * a * x = N + (A * x - N) + (a * 2 - A) * x := by ring
    have h1 := abs_add_le (N + (A * x - N)) ((a * 2 - A) * x)
    have h2 := abs_add_le N (A * x - N)
    rw [← e] at h1
    linarith
  have uw : u * w ≤ 1 / 1024 * w := mul_le_mul_of_nonneg_right hu w0
  have uN : u * |N| ≤ 1 / 1024 * |N| := mul_le_mul_of_nonneg_right hu (abs_nonneg N)
  have uT : 0 ≤ u * T := mul_nonneg u0 T0
  have uuT : u * (u * T) ≤ 1 / 1024 * (u * T) := mul_le_mul_of_nonneg_right hu uT
  have uη : u * η ≤ 1 / 1024 * η := mul_le_mul_of_nonneg_right hu η0
  have z0 : 0 ≤ η * |a| := mul_nonneg η0 a0
  have ez : η * (1 + |a|) = η + η * |a| := by ring
  rw [ez] at hA'' ⊢
  have hw2 : w ≤ 1025 / 1023 * |N| + 1024 / 1023 * (η * |A| + η) := by linarith
  have uw2 : u * w ≤ 1025 / 1023 * (u * |N|) + 1024 / 1023 * (u * (η * |A|) + u * η) := by
    have := mul_le_mul_of_nonneg_left hw2 u0
    linarith
  have uN2 : u * |N| ≤ u * T + u * (u * T) + u * η := by
    have := mul_le_mul_of_nonneg_left hN' u0
    linarith
  have uηA : u * (η * |A|) ≤ 1 / 1024 * (η * |A|) :=
    mul_le_mul_of_nonneg_right hu (mul_nonneg η0 (abs_nonneg A))
  have hmT := mul_le_mul_of_nonneg_left hT u0
  have e : 2 * a * x + b - m = (a * 2 - A) * x + (A * x - N) + (N - (m - b)) := by ring
  have h1 := abs_add_le ((a * 2 - A) * x + (A * x - N)) (N - (m - b))
  have h2 := abs_add_le ((a * 2 - A) * x) (A * x - N)
  rw [e]
  linarith

/-- Error of the square of the computed square root. -/
theorem root_sq_error {u η D δ s : ℝ} (u0 : 0 ≤ u) (hu : u ≤ 1 / 1024) (η0 : 0 ≤ η)
    (hη : η ≤ 1 / 1024) (D0 : 0 ≤ D) (hδD : δ ≤ D + 13 / 4 * (u * D) + 9 * η)
    (δ0 : 0 ≤ δ) (hs : |s - Real.sqrt δ| ≤ u * Real.sqrt δ + η) :
    |s ^ 2 - δ| ≤ 201 / 100 * (u * D) + 11 / 10 * (η + η * D) ∧
      s ^ 2 ≤ 101 / 100 * D + 51 / 5 * η := by
  set r := Real.sqrt δ with hr
  have r0 : 0 ≤ r := Real.sqrt_nonneg _
  have r2 : r ^ 2 = δ := Real.sq_sqrt δ0
  have uD : 0 ≤ u * D := mul_nonneg u0 D0
  have uD' : u * D ≤ 1 / 1024 * D := mul_le_mul_of_nonneg_right hu D0
  have uuD : u * (u * D) ≤ 1 / 1024 * (u * D) := mul_le_mul_of_nonneg_right hu uD
  have uη : u * η ≤ 1 / 1024 * η := mul_le_mul_of_nonneg_right hu η0
  have ηD : 0 ≤ η * D := mul_nonneg η0 D0
  have ηη : η * η ≤ 1 / 1024 * η := mul_le_mul_of_nonneg_right hη η0
  have uηD : u * (η * D) ≤ 1 / 1024 * (η * D) := mul_le_mul_of_nonneg_right hu ηD
  have uδ : u * δ ≤ u * D + 13 / 4 * (u * (u * D)) + 9 * (u * η) := by
    have := mul_le_mul_of_nonneg_left hδD u0
    linarith
  have ηδ : η * δ ≤ η * D + 13 / 4 * (u * (η * D)) + 9 * (η * η) := by
    have := mul_le_mul_of_nonneg_left hδD η0
    linarith
  have hsr : |s ^ 2 - δ| ≤ 201 / 100 * (u * D) + 11 / 10 * (η + η * D) := by
    have e : s ^ 2 - δ = (s - r) * ((s - r) + 2 * r) := by rw [← r2]; ring
    rw [e, abs_mul]
    have h1 : |(s - r) + 2 * r| ≤ (u * r + η) + 2 * r := by
      have := abs_add_le (s - r) (2 * r)
      rw [abs_of_nonneg (by positivity : 0 ≤ 2 * r)] at this
      linarith
    have h2 : |s - r| * |(s - r) + 2 * r| ≤ (u * r + η) * ((u * r + η) + 2 * r) :=
      mul_le_mul hs h1 (abs_nonneg _) (by positivity)
    have h3 : (u * r + η) * ((u * r + η) + 2 * r)
        = 2 * (u * δ) + u * (u * δ) + 2 * (u * (η * r)) + 2 * (η * r) + η * η := by
      rw [← r2]; ring
    have h4 : 2 * (η * r) ≤ η + η * δ := by
      have : 2 * r ≤ 1 + r ^ 2 := by nlinarith [sq_nonneg (r - 1)]
      rw [r2] at this
      have := mul_le_mul_of_nonneg_left this η0
      linarith
    have h5 : u * (η * r) ≤ 1 / 1024 * (η * r) :=
      mul_le_mul_of_nonneg_right hu (mul_nonneg η0 r0)
    have h6 : u * (u * δ) ≤ 1 / 1024 * (u * δ) :=
      mul_le_mul_of_nonneg_right hu (mul_nonneg u0 δ0)
    linarith
  refine ⟨hsr, ?_⟩
  have h1 := le_abs_self (s ^ 2 - δ)
  have h2 : η * D ≤ 1 / 1024 * D := mul_le_mul_of_nonneg_right hη D0
  linarith

theorem product_error {u D b s z m y : ℝ} (u0 : 0 ≤ u)
    (hbD : b ^ 2 ≤ D) (z0 : 0 ≤ z)
    (hm : |m| = |s|) (hx : |y - m| ≤ 25 / 8 * (u * (|b| + |s|)) + 5 * z) :
    |y ^ 2 - s ^ 2| ≤ 25 / 4 * (1 / 2 * (u * D) + 3 / 2 * (u * s ^ 2))
      + 5 * (z + z * s ^ 2) + (40 * (u * (u * D) + u * (u * s ^ 2)) + 50 * z ^ 2) := by
  set e := 25 / 8 * (u * (|b| + |s|)) + 5 * z with he
  have e0 : 0 ≤ e := by positivity
  have hprod : |y ^ 2 - s ^ 2| ≤ e * (2 * |s| + e) := by
    have h0 : s ^ 2 = m ^ 2 := by rw [← sq_abs s, ← hm, sq_abs]
    have h1 : y ^ 2 - s ^ 2 = (y - m) * ((y - m) + 2 * m) := by rw [h0]; ring
    rw [h1, abs_mul]
    apply mul_le_mul hx _ (abs_nonneg _) e0
    have := abs_add_le (y - m) (2 * m)
    rw [abs_mul, abs_of_pos (by norm_num : (0 : ℝ) < 2), hm] at this
    linarith
  have hb2 : |b| ^ 2 = b ^ 2 := sq_abs b
  have hs2' : |s| ^ 2 = s ^ 2 := sq_abs s
  have hbs : 2 * (|b| * |s|) ≤ b ^ 2 + s ^ 2 := by
    rw [← hb2, ← hs2']; nlinarith [sq_nonneg (|b| - |s|)]
  have hlin : 2 * |s| * e ≤ 25 / 4 * (1 / 2 * (u * D) + 3 / 2 * (u * s ^ 2))
      + 5 * (z + z * s ^ 2) := by
    have h1 : 2 * |s| * e = 25 / 4 * (u * (|b| * |s| + |s| ^ 2)) + 5 * (z * (2 * |s|)) := by
      rw [he]; ring
    rw [h1, hs2']
    have h2 : |b| * |s| + s ^ 2 ≤ 1 / 2 * D + 3 / 2 * s ^ 2 := by linarith
    have h3 := mul_le_mul_of_nonneg_left h2 u0
    have h4 : 2 * |s| ≤ 1 + s ^ 2 := by rw [← hs2']; nlinarith [sq_nonneg (|s| - 1)]
    have h5 := mul_le_mul_of_nonneg_left h4 z0
    linarith
  have hquad : e ^ 2 ≤ 40 * (u * (u * D) + u * (u * s ^ 2)) + 50 * z ^ 2 := by
    have h1 : e ^ 2 ≤ 2 * (25 / 8 * (u * (|b| + |s|))) ^ 2 + 2 * (5 * z) ^ 2 := by
      rw [he]; nlinarith [sq_nonneg (25 / 8 * (u * (|b| + |s|)) - 5 * z)]
    have h2 : (|b| + |s|) ^ 2 ≤ 2 * (D + s ^ 2) := by
      have : (|b| + |s|) ^ 2 = b ^ 2 + s ^ 2 + 2 * (|b| * |s|) := by rw [← hb2, ← hs2']; ring
      linarith
    have h3 : 2 * (25 / 8 * (u * (|b| + |s|))) ^ 2 = 625 / 32 * (u * (u * (|b| + |s|) ^ 2)) := by
      ring
    have h4 := mul_le_mul_of_nonneg_left (mul_le_mul_of_nonneg_left h2 u0) u0
    have h5 : 0 ≤ u * (u * (D + s ^ 2)) := by
      have := sq_nonneg b
      have : 0 ≤ D + s ^ 2 := by linarith [sq_nonneg s]
      positivity
    have h6 : 2 * (5 * z) ^ 2 = 50 * z ^ 2 := by ring
    have h7 : u * (u * (2 * (D + s ^ 2))) = 2 * (u * (u * (D + s ^ 2))) := by ring
    have h8 : u * (u * (D + s ^ 2)) = u * (u * D) + u * (u * s ^ 2) := by ring
    rw [h3, h6] at h1
    rw [h7] at h4
    linarith
  have ee : e * (2 * |s| + e) = 2 * |s| * e + e ^ 2 := by ring
  rw [ee] at hprod
  linarith

/-- The residual of a root computed with the quadratic formula. -/
theorem formula_residual {u η a b c x δ s m : ℝ} (u0 : 0 ≤ u) (hu : u ≤ 1 / 1024) (η0 : 0 ≤ η)
    (hη : η ≤ 1 / 1024)
    (hδ : |δ - (b ^ 2 - 4 * (a * c))| ≤ 13 / 4 * (u * (b ^ 2 + 4 * |a * c|)) + 9 * η)
    (δ0 : 0 ≤ δ) (hs : |s - Real.sqrt δ| ≤ u * Real.sqrt δ + η) (hm : |m| = |s|)
    (hx : |2 * a * x + b - m| ≤ 25 / 8 * (u * (|b| + |s|)) + 5 * (η * (1 + |a|))) :
    |4 * a * (a * x ^ 2 + b * x + c)| ≤ 18 * (u * (b ^ 2 + 4 * |a * c|))
      + 16 * (η * (1 + |a|) ^ 2 * (1 + (b ^ 2 + 4 * |a * c|))) := by
  have hac := neg_abs_le (a * c)
  have hac0 := abs_nonneg (a * c)
  set D := b ^ 2 + 4 * |a * c| with hD
  have hbD : b ^ 2 ≤ D := by linarith
  have D0 : 0 ≤ D := (sq_nonneg b).trans hbD
  have hδD : δ ≤ D + 13 / 4 * (u * D) + 9 * η := by
    have h1 := le_abs_self (δ - (b ^ 2 - 4 * (a * c)))
    linarith
  obtain ⟨hsr, hs2⟩ := root_sq_error u0 hu η0 hη D0 hδD δ0 hs
  have a0 : 0 ≤ |a| := abs_nonneg a
  have z0 : 0 ≤ η * (1 + |a|) := by positivity
  have hp := product_error u0 hbD z0 hm hx
  have hfin : 4 * a * (a * x ^ 2 + b * x + c) = ((2 * a * x + b) ^ 2 - s ^ 2) + (s ^ 2 - δ)
      + (δ - (b ^ 2 - 4 * (a * c))) := by ring
  rw [hfin]
  have t1 := abs_add_le (((2 * a * x + b) ^ 2 - s ^ 2) + (s ^ 2 - δ)) (δ - (b ^ 2 - 4 * (a * c)))
  have t2 := abs_add_le ((2 * a * x + b) ^ 2 - s ^ 2) (s ^ 2 - δ)
  refine t1.trans (le_trans (add_le_add (t2.trans (add_le_add hp hsr)) hδ) ?_)
  clear t1 t2 hfin hp hsr hδ hδD hx hm hs hac hac0
  clear_value D
  set z := η * (1 + |a|) with hz
  set Z := η * (1 + |a|) ^ 2 with hZ
  have Z0 : 0 ≤ Z := by positivity
  have zZ : z ≤ Z := by
    rw [hz, hZ]
    apply mul_le_mul_of_nonneg_left _ η0
    nlinarith
  have ηz : η ≤ z := by rw [hz]; nlinarith
  have z2 : z ^ 2 ≤ 1 / 1024 * Z := by
    have e : z ^ 2 = η * Z := by rw [hz, hZ]; ring
    rw [e]
    exact mul_le_mul_of_nonneg_right hη Z0
  clear_value z Z
  have zD : z * D ≤ Z * D := mul_le_mul_of_nonneg_right zZ D0
  have ηDz : η * D ≤ z * D := mul_le_mul_of_nonneg_right ηz D0
  have zs2 : z * s ^ 2 ≤ 101 / 100 * (z * D) + 51 / 5 * (z * η) := by
    have := mul_le_mul_of_nonneg_left hs2 z0
    linarith
  have zη : z * η ≤ 1 / 1024 * z := by
    have := mul_le_mul_of_nonneg_left hη z0
    linarith
  have us0 : 0 ≤ u * s ^ 2 := by positivity
  have uus2 : u * (u * s ^ 2) ≤ 1 / 1024 * (u * s ^ 2) := mul_le_mul_of_nonneg_right hu us0
  have us2 : u * s ^ 2 ≤ 101 / 100 * (u * D) + 51 / 5 * (u * η) := by
    have := mul_le_mul_of_nonneg_left hs2 u0
    linarith
  have uD : 0 ≤ u * D := mul_nonneg u0 D0
  have uuD : u * (u * D) ≤ 1 / 1024 * (u * D) := mul_le_mul_of_nonneg_right hu uD
  have uη : u * η ≤ 1 / 1024 * η := mul_le_mul_of_nonneg_right hu η0
  have eZ : Z * (1 + D) = Z + Z * D := by ring
  have ηD : 0 ≤ η * D := mul_nonneg η0 D0
  rw [eZ]
  linarith

/-- The residual of the double root that is returned if the computed discriminant is not positive
but almost zero. -/
theorem double_residual {u η ε a b c x δ : ℝ} (u0 : 0 ≤ u) (hu : u ≤ 1 / 1024) (η0 : 0 ≤ η)
    (hη : η ≤ 1 / 1024)
    (hδ : |δ - (b ^ 2 - 4 * (a * c))| ≤ 13 / 4 * (u * (b ^ 2 + 4 * |a * c|)) + 9 * η)
    (hδε : |δ| ≤ ε)
    (hx : |2 * a * x + b| ≤ 25 / 8 * (u * |b|) + 5 * (η * (1 + |a|))) :
    |4 * a * (a * x ^ 2 + b * x + c)| ≤ ε + (18 * (u * (b ^ 2 + 4 * |a * c|))
      + 16 * (η * (1 + |a|) ^ 2 * (1 + (b ^ 2 + 4 * |a * c|)))) := by
  set D := b ^ 2 + 4 * |a * c| with hD
  have hbD : b ^ 2 ≤ D := by rw [hD]; linarith [abs_nonneg (a * c)]
  have D0 : 0 ≤ D := (sq_nonneg b).trans hbD
  have uD : 0 ≤ u * D := mul_nonneg u0 D0
  have uuD : u * (u * D) ≤ 1 / 1024 * (u * D) := mul_le_mul_of_nonneg_right hu uD
  set y := 2 * a * x + b with hy
  have a0 : 0 ≤ |a| := abs_nonneg a
  set z := η * (1 + |a|) with hz
  have z0 : 0 ≤ z := by positivity
  set Z := η * (1 + |a|) ^ 2 with hZ
  have Z0 : 0 ≤ Z := by positivity
  have zZ : z ≤ Z := by
    rw [hz, hZ]
    apply mul_le_mul_of_nonneg_left _ η0
    nlinarith
  have ηz : η ≤ z := by rw [hz]; nlinarith
  have z2 : z ^ 2 ≤ 1 / 1024 * Z := by
    have e : z ^ 2 = η * Z := by rw [hz, hZ]; ring
    rw [e]
    exact mul_le_mul_of_nonneg_right hη Z0
  have hy2 : y ^ 2 ≤ 20 * (u * (u * D)) + 50 * z ^ 2 := by
    have h1 : y ^ 2 ≤ (25 / 8 * (u * |b|) + 5 * z) ^ 2 := by
      rw [← sq_abs y]; exact pow_le_pow_left₀ (abs_nonneg _) hx 2
    have h2 : (25 / 8 * (u * |b|) + 5 * z) ^ 2 ≤ 2 * (25 / 8 * (u * |b|)) ^ 2 + 2 * (5 * z) ^ 2 := by
      nlinarith [sq_nonneg (25 / 8 * (u * |b|) - 5 * z)]
    have h3 : (u * |b|) ^ 2 = u * (u * b ^ 2) := by rw [mul_pow, sq_abs]; ring
    have h4 := mul_le_mul_of_nonneg_left (mul_le_mul_of_nonneg_left hbD u0) u0
    nlinarith
  have hfin : 4 * a * (a * x ^ 2 + b * x + c) = y ^ 2 - δ
      + (δ - (b ^ 2 - 4 * (a * c))) := by rw [hy]; ring
  rw [hfin]
  have t1 := abs_add_le (y ^ 2 - δ) (δ - (b ^ 2 - 4 * (a * c)))
  have t2 := abs_sub (y ^ 2) δ
  rw [abs_of_nonneg (sq_nonneg y)] at t2
  have ZD : 0 ≤ Z * D := mul_nonneg Z0 D0
  have eZ : Z * (1 + D) = Z + Z * D := by ring
  rw [eZ]
  linarith

/-- A bound for the residual of a root of `a x² + b x + c` computed with the quadratic formula. -/
noncomputable def rootTiny (F : FloatFormat) (a b c : ℝ) : ℝ :=
  (F.epsilon / 4 + 9 / 2 * (F.u * (b ^ 2 + 4 * |a * c|))
    + 4 * (F.eta * (1 + |a|) ^ 2 * (1 + (b ^ 2 + 4 * |a * c|)))) / |a|

theorem of_four_mul {a r B : ℝ} (a0 : a ≠ 0) (h : |4 * a * r| ≤ 4 * B) : |r| ≤ B / |a| := by
  have : 0 < |a| := abs_pos.2 a0
  rw [abs_mul, abs_mul, abs_of_pos (by norm_num : (0 : ℝ) < 4)] at h
  rw [le_div_iff₀ this]
  linarith

/-- **C90**, `QuadraticBezier::real_roots` in floating point: every returned root in (0, 1] nearly
solves the equation.  If the leading coefficient is below the machine epsilon in magnitude it is
dropped; otherwise the residual is bounded by `rootTiny`, which is small unless the leading
coefficient is. -/
theorem C90_real_roots (q : QuadraticBezier (PointN (Fl F) n)) {a b c x : ℝ}
    {ha : a ∈ F.grid ∧ |a| ≤ F.max} {hb : b ∈ F.grid ∧ |b| ≤ F.max}
    {hc : c ∈ F.grid ∧ |c| ≤ F.max} {hx : x ∈ F.grid ∧ |x| ≤ F.max}
    (hu : F.u ≤ 1 / 1024) (hη : F.eta ≤ 1 / 1024) {roots : List (Fl F)}
    (h : q.realRoots (fin a ha) (fin b hb) (fin c hc) = some roots)
    (hmem : (fin x hx : Fl F) ∈ roots) (x0 : 0 < x) (x1 : x ≤ 1) :
    (|a| < F.epsilon ∧ F.epsilon ≤ |b| ∧ |b * x + c| ≤ F.u * |c| + F.eta * |b|) ∨
    (F.epsilon ≤ |a| ∧ |a * x ^ 2 + b * x + c| ≤ rootTiny F a b c) := by
  have u0 := F.u_nonneg
  have η0 := F.eta_nonneg
  have ε0 := F.epsilon_pos
  have xabs : |x| ≤ 1 := by rw [abs_of_pos x0]; exact x1
  have e2 : (lit 2 : Fl F) = fin ((2 : ℤ) : ℝ) (F.int_ok 2 (by norm_num)) :=
    lit_int 2 (by norm_num)
  have e4 : (lit 4 : Fl F) = fin ((4 : ℤ) : ℝ) (F.int_ok 4 (by norm_num)) :=
    lit_int 4 (by norm_num)
  have habs : ∀ (r : ℝ) (hr : r ∈ F.grid ∧ |r| ≤ F.max), ∃ h',
      (Scalar.abs (fin r hr : Fl F)) = fin |r| h' := fun r hr => ⟨_, rfl⟩
  unfold QuadraticBezier.realRoots at h
  simp only [Option.bind_eq_bind, Option.pure_def] at h
  rw [epsilon_eq] at h
  obtain ⟨wa, ea⟩ := habs a ha
  obtain ⟨wb, eb⟩ := habs b hb
  rw [ea, eb] at h
  by_cases h1 : |a| < F.epsilon
  · left
    rw [if_pos (lt_fin.2 h1)] at h
    by_cases h2 : |b| < F.epsilon
    · rw [if_pos (lt_fin.2 h2)] at h
      obtain rfl := Option.some.inj h
      simp at hmem
    · rw [if_neg (fun h' => h2 (lt_fin.1 h'))] at h
      push Not at h2
      have hbne : b ≠ 0 := by
        rintro rfl
        rw [abs_zero] at h2
        linarith
      have hl := avPush_eq h
      rw [hl, List.nil_append, List.mem_singleton] at hmem
      rw [fin_neg, fin_div hbne] at hmem
      have hxe := round_inv hmem.symm
      have herr := F.rnd_err (-c / b)
      rw [← hxe] at herr
      refine ⟨h1, h2, ?_⟩
      have e : b * x + c = b * (x - -c / b) := by field_simp; ring
      rw [e, abs_mul]
      have := mul_le_mul_of_nonneg_left herr (abs_nonneg b)
      have e' : |b| * (F.u * |-c / b| + F.eta) = F.u * |c| + F.eta * |b| := by
        rw [abs_div, abs_neg]
        have : |b| ≠ 0 := abs_ne_zero.2 hbne
        field_simp
      linarith
  · right
    rw [if_neg (fun h' => h1 (lt_fin.1 h'))] at h
    push Not at h1
    refine ⟨h1, ?_⟩
    have hane : a ≠ 0 := by
      rintro rfl
      rw [abs_zero] at h1
      linarith
    unfold rootTiny
    apply of_four_mul hane
    -- the discriminant, if finite
    have hdisc : ∀ (δ : ℝ) (hδ : δ ∈ F.grid ∧ |δ| ≤ F.max),
        (fin b hb : Fl F) * fin b hb - fin a ha * fin c hc * lit 4 = fin δ hδ →
        |δ - (b ^ 2 - 4 * (a * c))| ≤ 13 / 4 * (F.u * (b ^ 2 + 4 * |a * c|)) + 9 * F.eta := by
      intro δ hδ hd
      obtain ⟨P, hP, Q, hQ, eP, eQ, rfl⟩ := sub_inv_fin hd
      rw [e4] at eQ
      obtain ⟨Q₁, hQ₁, f, hf, eQ₁, ef, rfl⟩ := mul_inv_fin eQ
      have ef' : f = 4 := by
        injection ef with ef
        rw [← ef]; norm_num
      subst ef'
      rw [fin_mul] at eP eQ₁
      have hP' := round_inv eP
      have hQ₁' := round_inv eQ₁
      subst hP'
      subst hQ₁'
      exact discriminant_error u0 hu η0 (F.rnd_err _) (F.rnd_err _) (F.rnd_err _) (F.rnd_err _)
    set d := (fin b hb : Fl F) * fin b hb - fin a ha * fin c hc * lit 4 with hd
    -- a root from a finite numerator
    have hroot : ∀ (N : ℝ) (hN : N ∈ F.grid ∧ |N| ≤ F.max) (m T : ℝ),
        (fin x hx : Fl F) = fin N hN / (fin a ha * lit 2) → |m - b| ≤ T →
        |N - (m - b)| ≤ F.u * |m - b| + F.eta →
        |2 * a * x + b - m| ≤ 25 / 8 * (F.u * T) + 5 * (F.eta * (1 + |a|)) := by
      intro N hN m T hq hT hNm
      obtain ⟨N', hN', A, hA, eN, eA, A0, ex⟩ := div_inv_fin hq.symm x0.ne'
      injection eN with eN
      subst eN
      rw [e2] at eA
      obtain ⟨a', ha', f, hf, ea', ef, rfl⟩ := mul_inv_fin eA
      injection ea' with ea'
      subst ea'
      have ef' : f = 2 := by
        injection ef with ef
        rw [← ef]; norm_num
      subst ef'
      exact numerator_error u0 hu η0 hη hT hNm (F.rnd_err _) A0 (ex ▸ F.rnd_err _) xabs
    have hpos : 0 ≤ 18 * (F.u * (b ^ 2 + 4 * |a * c|)) + 16 * (F.eta * (1 + |a|) ^ 2
        * (1 + (b ^ 2 + 4 * |a * c|))) := by positivity
    by_cases h3 : Scalar.lt (lit 0) d = true
    · rw [if_pos h3] at h
      obtain ⟨l1, hl1, h⟩ := Option.bind_eq_some_iff.1 h
      have hl1 := avPush_eq hl1
      have hl2 := avPush_eq h
      rw [hl2, hl1, List.nil_append] at hmem
      simp only [List.cons_append, List.nil_append, List.mem_cons, List.not_mem_nil,
        or_false] at hmem
      -- both signs at once
      have key : ∃ (s : ℝ) (hs : s ∈ F.grid ∧ |s| ≤ F.max) (m N : ℝ)
          (hN : N ∈ F.grid ∧ |N| ≤ F.max), Scalar.sqrt d = fin s hs ∧ |m| = |s| ∧
          N = F.rnd (m - b) ∧ (fin x hx : Fl F) = fin N hN / (fin a ha * lit 2) := by
        rcases hmem with hm | hm
        · obtain ⟨N, hN, A, hA, eN, eA, A0, ex⟩ := div_inv_fin hm.symm x0.ne'
          rw [eN] at hm
          obtain ⟨b', hb', s, hs, eb', es, rfl⟩ := sub_inv_fin eN
          rw [fin_neg] at eb'
          injection eb' with eb'
          subst eb'
          exact ⟨s, hs, -s, _, hN, es, abs_neg s, by congr 1; ring, hm⟩
        · obtain ⟨N, hN, A, hA, eN, eA, A0, ex⟩ := div_inv_fin hm.symm x0.ne'
          rw [eN] at hm
          obtain ⟨b', hb', s, hs, eb', es, rfl⟩ := add_inv_fin eN
          rw [fin_neg] at eb'
          injection eb' with eb'
          subst eb'
          exact ⟨s, hs, s, _, hN, es, rfl, by congr 1; ring, hm⟩
      obtain ⟨s, hs, m, N, hN, es, hms, eN, hq⟩ := key
      obtain ⟨δ, hδ, eδ, δ0, rfl⟩ := sqrt_inv_fin es
      have hT : |m - b| ≤ |b| + |F.rnd (Real.sqrt δ)| := by
        have := abs_sub m b
        rw [hms] at this
        linarith
      have hx' := hroot N hN m _ hq hT (eN ▸ F.rnd_err _)
      have hse := F.rnd_err (Real.sqrt δ)
      rw [abs_of_nonneg (Real.sqrt_nonneg δ)] at hse
      have := formula_residual u0 hu η0 hη (hdisc δ hδ eδ) δ0 hse hms hx'
      refine this.trans ?_
      linarith
    · rw [if_neg h3] at h
      by_cases h4 : Scalar.lt (Scalar.abs d) (fin F.epsilon F.epsilon_ok) = true
      · rw [if_pos h4] at h
        have hl1 := avPush_eq h
        rw [hl1, List.nil_append, List.mem_singleton] at hmem
        obtain ⟨δ, hδ, eδ⟩ := finite_of_abs_lt h4
        obtain ⟨wd, ed⟩ := habs δ hδ
        rw [eδ, ed] at h4
        have h4 := lt_fin.1 h4
        rw [fin_neg] at hmem
        have hx' := hroot (-b) _ 0 |b| hmem (by rw [zero_sub, abs_neg]) (by
          rw [zero_sub, sub_self, abs_zero]; positivity)
        rw [sub_zero] at hx'
        have := double_residual u0 hu η0 hη (hdisc δ hδ eδ) h4.le hx'
        refine this.trans ?_
        linarith
      · rw [if_neg h4] at h
        obtain rfl := Option.some.inj h
        simp at hmem

/-! ### `solve_t_for_axis` of quadratic curves -/

/-- One rounded operation whose exact value is known up to an error. -/
theorem round_step {x y B ex : ℝ} (hu : F.u ≤ 1 / 1024) (hB : |x| ≤ B) (hxy : |x - y| ≤ ex)
    (hmax : B + F.u * B + F.eta ≤ F.max) :
    ∃ z hz, F.round x = fin z hz ∧ |z - y| ≤ F.u * B + F.eta + ex ∧ |z| ≤ B + F.u * B + F.eta := by
  have u0 := F.u_nonneg
  have herr := F.rnd_err x
  have huB := mul_le_mul_of_nonneg_left hB u0
  have h1 := abs_add_le x (F.rnd x - x)
  rw [add_sub_cancel] at h1
  have h2 : |F.rnd x| ≤ B + F.u * B + F.eta := by linarith
  refine ⟨F.rnd x, ⟨F.rnd_mem x, h2.trans hmax⟩, F.round_of_rnd_le (h2.trans hmax), ?_, h2⟩
  have h3 := abs_add_le (F.rnd x - x) (x - y)
  rw [sub_add_sub_cancel] at h3
  linarith

/-- The coefficients computed by `solve_t_for_axis`. -/
theorem solve_coefficients {s k e v M : ℝ} {hs : s ∈ F.grid ∧ |s| ≤ F.max}
    {hk : k ∈ F.grid ∧ |k| ≤ F.max} {he : e ∈ F.grid ∧ |e| ≤ F.max}
    {hv : v ∈ F.grid ∧ |v| ≤ F.max} (hu : F.u ≤ 1 / 1024) (hη : F.eta ≤ 1 / 1024)
    (bs : |s| ≤ M) (bk : |k| ≤ M) (be : |e| ≤ M) (bv : |v| ≤ M) (hmax : 5 * M + 1 ≤ F.max) :
    ∃ a ha b hb c hc,
      (fin s hs + fin k hk * lit (-2) + fin e he : Fl F) = fin a ha ∧
      (fin s hs * lit (-2) + fin k hk * lit 2 : Fl F) = fin b hb ∧
      (fin s hs - fin v hv : Fl F) = fin c hc ∧
      |a - (s - 2 * k + e)| ≤ 11 * (F.u * M) + 5 * F.eta ∧
      |b - (2 * k - 2 * s)| ≤ 9 * (F.u * M) + 4 * F.eta ∧
      |c - (s - v)| ≤ 2 * (F.u * M) + F.eta := by
  have u0 := F.u_nonneg
  have η0 := F.eta_nonneg
  have M0 : 0 ≤ M := (abs_nonneg s).trans bs
  have uM0 : 0 ≤ F.u * M := mul_nonneg u0 M0
  have uM : F.u * M ≤ 1 / 1024 * M := mul_le_mul_of_nonneg_right hu M0
  have uuM : F.u * (F.u * M) ≤ 1 / 1024 * (F.u * M) := mul_le_mul_of_nonneg_right hu uM0
  have uη : F.u * F.eta ≤ 1 / 1024 * F.eta := mul_le_mul_of_nonneg_right hu η0
  have uη0 : 0 ≤ F.u * F.eta := mul_nonneg u0 η0
  have uuM0 : 0 ≤ F.u * (F.u * M) := mul_nonneg u0 uM0
  have uuuM : F.u * (F.u * (F.u * M)) ≤ 1 / 1024 * (F.u * (F.u * M)) :=
    mul_le_mul_of_nonneg_right hu uuM0
  have uuη : F.u * (F.u * F.eta) ≤ 1 / 1024 * (F.u * F.eta) :=
    mul_le_mul_of_nonneg_right hu uη0
  have em2 : (lit (-2) : Fl F) = fin ((-2 : ℤ) : ℝ) (F.int_ok (-2) (by norm_num)) := by
    have := lit_int (F := F) (-2) (by norm_num)
    rw [← this]; norm_num
  have e2 : (lit 2 : Fl F) = fin ((2 : ℤ) : ℝ) (F.int_ok 2 (by norm_num)) :=
    lit_int 2 (by norm_num)
  have b2 : ∀ r, |r| ≤ M → |r * ((-2 : ℤ) : ℝ)| ≤ 2 * M ∧ |r * ((2 : ℤ) : ℝ)| ≤ 2 * M := by
    intro r hr
    constructor <;> (rw [abs_mul]; norm_num; linarith)
  obtain ⟨k1, hk1, ek1, dk1, nk1⟩ := round_step (F := F) (x := k * ((-2 : ℤ) : ℝ)) (y := -2 * k)
    (B := 2 * M) (ex := 0) hu (b2 k bk).1 (by push_cast; rw [abs_le]; constructor <;> linarith)
    (by linarith)
  obtain ⟨k2, hk2, ek2, dk2, nk2⟩ := round_step (F := F) (x := k * ((2 : ℤ) : ℝ)) (y := 2 * k)
    (B := 2 * M) (ex := 0) hu (b2 k bk).2 (by push_cast; rw [abs_le]; constructor <;> linarith)
    (by linarith)
  obtain ⟨s1, hs1, es1, ds1, ns1⟩ := round_step (F := F) (x := s * ((-2 : ℤ) : ℝ)) (y := -2 * s)
    (B := 2 * M) (ex := 0) hu (b2 s bs).1 (by push_cast; rw [abs_le]; constructor <;> linarith)
    (by linarith)
  obtain ⟨a1, ha1, ea1, da1, na1⟩ := round_step (F := F) (x := s + k1) (y := s - 2 * k)
    (B := 3 * M + 2 * (F.u * M) + F.eta) (ex := 2 * (F.u * M) + F.eta) hu
    (by have := abs_add_le s k1; linarith)
    (by rw [show s + k1 - (s - 2 * k) = k1 - -2 * k by ring]; linarith) (by linarith)
  obtain ⟨a, ha, ea, da, na⟩ := round_step (F := F) (x := a1 + e) (y := s - 2 * k + e)
    (B := 4 * M + 6 * (F.u * M) + 3 * F.eta) (ex := 6 * (F.u * M) + 3 * F.eta) hu
    (by have := abs_add_le a1 e; linarith)
    (by rw [show a1 + e - (s - 2 * k + e) = a1 - (s - 2 * k) by ring]; linarith) (by linarith)
  obtain ⟨b, hb, eb, db, nb⟩ := round_step (F := F) (x := s1 + k2) (y := 2 * k - 2 * s)
    (B := 4 * M + 4 * (F.u * M) + 2 * F.eta) (ex := 4 * (F.u * M) + 2 * F.eta) hu
    (by have := abs_add_le s1 k2; linarith)
    (by
      have := abs_add_le (s1 - -2 * s) (k2 - 2 * k)
      rw [show s1 - -2 * s + (k2 - 2 * k) = s1 + k2 - (2 * k - 2 * s) by ring] at this
      linarith) (by linarith)
  obtain ⟨c, hc, ec, dc, nc⟩ := round_step (F := F) (x := s - v) (y := s - v)
    (B := 2 * M) (ex := 0) hu (by have := abs_sub s v; linarith) (by simp) (by linarith)
  refine ⟨a, ha, b, hb, c, hc, ?_, ?_, ?_, by linarith, by linarith, by linarith⟩
  · rw [em2, fin_mul, ek1, fin_add, ea1, fin_add, ea]
  · rw [em2, e2, fin_mul, es1, fin_mul, ek2, fin_add, eb]
  · rw [fin_sub, ec]

theorem finite_of_between {t : Fl F} (h0 : Scalar.lt (lit 0) t = true)
    (h1 : Scalar.lt t (lit 1) = true) : ∃ r hr, t = fin r hr ∧ 0 < r ∧ r < 1 := by
  rw [lit_zero] at h0
  rw [lit_one] at h1
  cases t with
  | nan =>
    have : Scalar.lt (nan : Fl F) (fin 1 F.one_ok) = false := rfl
    rw [this] at h1
    exact absurd h1 Bool.false_ne_true
  | inf s =>
    cases s with
    | true =>
      have : Scalar.lt (fin 0 F.zero_ok) (inf true : Fl F) = false := rfl
      rw [this] at h0
      exact absurd h0 Bool.false_ne_true
    | false =>
      have : Scalar.lt (inf false : Fl F) (fin 1 F.one_ok) = false := rfl
      rw [this] at h1
      exact absurd h1 Bool.false_ne_true
  | fin r hr => exact ⟨r, hr, rfl, (lt_fin ..).1 h0, (lt_fin ..).1 h1⟩

/-- The bound of `rootTiny` in terms of the size of the coefficients. -/
theorem rootTiny_le {a b c N : ℝ} (hN : 0 ≤ N) (ha : |a| ≤ 201 / 50 * N) (hb : |b| ≤ 201 / 50 * N)
    (hc : |c| ≤ 201 / 100 * N) :
    rootTiny F a b c ≤ (F.epsilon / 4 + 221 * (F.u * N ^ 2)
      + 4 * (F.eta * (1 + |a|) ^ 2 * (1 + 49 * N ^ 2))) / |a| := by
  unfold rootTiny
  have u0 := F.u_nonneg
  have η0 := F.eta_nonneg
  have hD : b ^ 2 + 4 * |a * c| ≤ 49 * N ^ 2 := by
    have h1 := mul_le_mul hb hb (abs_nonneg b) (by linarith)
    have h2 := mul_le_mul ha hc (abs_nonneg c) (by linarith)
    rw [abs_mul_abs_self] at h1
    rw [← abs_mul] at h2
    have h3 : 0 ≤ N * N := mul_nonneg hN hN
    nlinarith
  have h4 := mul_le_mul_of_nonneg_left hD u0
  have h5 : 0 ≤ F.eta * (1 + |a|) ^ 2 := by positivity
  have h6 := mul_le_mul_of_nonneg_left hD h5
  have h7 : 0 ≤ F.u * N ^ 2 := by positivity
  apply div_le_div_of_nonneg_right _ (abs_nonneg a)
  linarith

/-- Errors of the coefficients carried over to the value of the polynomial. -/
theorem coefficients_residual {a b c a' b' c' x R ea eb ec : ℝ} (x0 : 0 < x) (x1 : x ≤ 1)
    (ha : |a - a'| ≤ ea) (hb : |b - b'| ≤ eb) (hc : |c - c'| ≤ ec)
    (h : |a * x ^ 2 + b * x + c| ≤ R) : |a' * x ^ 2 + b' * x + c'| ≤ R + (ea + eb + ec) := by
  have hx2 : |x ^ 2| ≤ 1 := by rw [abs_of_pos (by positivity)]; exact pow_le_one₀ x0.le x1
  have hx : |x| ≤ 1 := by rw [abs_of_pos x0]; exact x1
  have h1 : |(a - a') * x ^ 2| ≤ ea := by
    rw [abs_mul]
    exact (mul_le_of_le_one_right (abs_nonneg _) hx2).trans ha
  have h2 : |(b - b') * x| ≤ eb := by
    rw [abs_mul]
    exact (mul_le_of_le_one_right (abs_nonneg _) hx).trans hb
  rw [show a' * x ^ 2 + b' * x + c'
    = (a * x ^ 2 + b * x + c) - (a - a') * x ^ 2 - (b - b') * x - (c - c') by ring]
  have := abs_le.1 h
  have := abs_le.1 h1
  have := abs_le.1 h2
  have := abs_le.1 hc
  rw [abs_le]
  constructor <;> linarith

/-- **C90**, `QuadraticBezier::solve_t_for_axis` in floating point: at every returned parameter the
exact curve has the value asked for, up to an error that depends on the size of the second
difference of the coordinates (`A` is the second difference as computed). Missing for the full
property: a bound that does not depend on the second difference, see `C90_false`. -/
theorem C90_solve_t_partial (q : QuadraticBezier (PointN (Fl F) n)) {v : ℝ}
    {hv : v ∈ F.grid ∧ |v| ≤ F.max} (i : Fin n) {M : ℝ} (hu : F.u ≤ 1 / 1024)
    (hη : F.eta ≤ 1 / 1024) (hs : BoundedBy M q.start) (hk : BoundedBy M q.ctrl)
    (he : BoundedBy M q.end_) (bv : |v| ≤ M) (hmax : 5 * M + 1 ≤ F.max)
    {ts : List (Fl F)} (h : q.solveTForAxis (fin v hv) i = some ts) (t : Fl F) (ht : t ∈ ts) :
    ∃ r, (∃ hr, t = fin r hr) ∧ 0 < r ∧ r < 1 ∧
    ∃ A, |A - ((q.start.coords i).toReal - 2 * (q.ctrl.coords i).toReal
        + (q.end_.coords i).toReal)| ≤ 11 * (F.u * M) + 5 * F.eta ∧
      (|A| < F.epsilon ∧ |(q.real.eval r).coords i - v|
          ≤ F.epsilon + 25 * (F.u * (M + 2 * F.eta)) + 5 * (F.eta * (M + 2 * F.eta))
            + 10 * F.eta ∨
       F.epsilon ≤ |A| ∧ |(q.real.eval r).coords i - v|
          ≤ (F.epsilon / 4 + 221 * (F.u * (M + 2 * F.eta) ^ 2)
            + 4 * (F.eta * (1 + |A|) ^ 2 * (1 + 49 * (M + 2 * F.eta) ^ 2))) / |A|
            + (22 * (F.u * M) + 10 * F.eta)) := by
  have u0 := F.u_nonneg
  have η0 := F.eta_nonneg
  obtain ⟨i, hi⟩ := i
  obtain ⟨bs1, bs⟩ := hs ⟨i, hi⟩
  obtain ⟨bk1, bk⟩ := hk ⟨i, hi⟩
  obtain ⟨be1, be⟩ := he ⟨i, hi⟩
  obtain ⟨s, ws, es⟩ := isFinite_iff.1 bs1
  obtain ⟨k, wk, ek⟩ := isFinite_iff.1 bk1
  obtain ⟨e, we, ee⟩ := isFinite_iff.1 be1
  rw [es, toReal_fin] at bs
  rw [ek, toReal_fin] at bk
  rw [ee, toReal_fin] at be
  have M0 : 0 ≤ M := (abs_nonneg s).trans bs
  obtain ⟨a, ha, b, hb, c, hc, ea, eb, ec, da, db, dc⟩ :=
    solve_coefficients (hs := ws) (hk := wk) (he := we) (hv := hv) hu hη bs bk be bv hmax
  obtain ⟨roots, hroots, hl⟩ := quad_roots_some q (fin a ha) (fin b hb) (fin c hc)
  have hts : ts = [] ∨
      ts = roots.filter fun r => Scalar.lt (lit 0) r && Scalar.lt r (lit 1) := by
    unfold QuadraticBezier.solveTForAxis at h
    obtain ⟨col, hcol⟩ := Option.isSome_iff_exists.1 (quad_colinear_isSome q (lit 0 : Fl F))
    rw [hcol] at h
    simp only [axis_some_pn _ hi, Option.bind_eq_bind, Option.bind_some, Option.pure_def] at h
    rw [es, ek, ee, ea, eb, ec, hroots] at h
    simp only [Option.bind_some, keep_some roots (by omega)] at h
    split_ifs at h <;> first
      | (left; simpa using h.symm)
      | (right; simpa using h.symm)
  rcases hts with rfl | rfl
  · simp at ht
  obtain ⟨hmem, hcond⟩ := List.mem_filter.1 ht
  rw [Bool.and_eq_true] at hcond
  obtain ⟨x, hx, rfl, x0, x1⟩ := finite_of_between hcond.1 hcond.2
  refine ⟨x, ⟨hx, rfl⟩, x0, x1, a, ?_, ?_⟩
  · rw [es, ek, ee]; exact da
  have hval : (q.real.eval x).coords ⟨i, hi⟩ - v
      = (s - 2 * k + e) * x ^ 2 + (2 * k - 2 * s) * x + (s - v) := by
    rw [quadratic_real_eval, es, ek, ee, toReal_fin, toReal_fin, toReal_fin]
    ring
  rw [hval]
  have uM0 : 0 ≤ F.u * M := mul_nonneg u0 M0
  have uM : F.u * M ≤ 1 / 1024 * M := mul_le_mul_of_nonneg_right hu M0
  have sa : |a| ≤ 201 / 50 * (M + 2 * F.eta) := by
    have := abs_le.1 da; have := abs_le.1 bs; have := abs_le.1 bk; have := abs_le.1 be
    rw [abs_le]; constructor <;> linarith
  have sb : |b| ≤ 201 / 50 * (M + 2 * F.eta) := by
    have := abs_le.1 db; have := abs_le.1 bs; have := abs_le.1 bk
    rw [abs_le]; constructor <;> linarith
  have sc : |c| ≤ 201 / 100 * (M + 2 * F.eta) := by
    have := abs_le.1 dc; have := abs_le.1 bs; have := abs_le.1 bv
    rw [abs_le]; constructor <;> linarith
  rcases C90_real_roots q hu hη hroots hmem x0 x1.le with ⟨h1, _, h3⟩ | ⟨h1, h2⟩
  · left
    refine ⟨h1, ?_⟩
    have h4 : |a * x ^ 2| ≤ F.epsilon := by
      rw [abs_mul, abs_of_pos (show 0 < x ^ 2 by positivity)]
      exact (mul_le_of_le_one_right (abs_nonneg _) (pow_le_one₀ x0.le x1.le)).trans h1.le
    have h5 : |a * x ^ 2 + b * x + c| ≤ F.epsilon + (F.u * |c| + F.eta * |b|) := by
      have := abs_add_le (a * x ^ 2) (b * x + c)
      rw [← add_assoc] at this
      linarith
    have h6 := coefficients_residual x0 x1.le da db dc h5
    have h7 := mul_le_mul_of_nonneg_left sc u0
    have h8 := mul_le_mul_of_nonneg_left sb η0
    have h9 : 0 ≤ F.u * F.eta := mul_nonneg u0 η0
    have h10 : 0 ≤ F.eta * M := mul_nonneg η0 M0
    have h11 : 0 ≤ F.eta * F.eta := mul_nonneg η0 η0
    refine h6.trans ?_
    linarith
  · right
    refine ⟨h1, ?_⟩
    have h6 := coefficients_residual x0 x1.le da db dc
      (h2.trans (rootTiny_le (by linarith) sa sb sc))
    refine h6.trans ?_
    linarith

/-! ### Numbers for binary64 -/

theorem solve_numbers (hu : F.u = 2 ^ (-53 : ℤ)) (hε : F.epsilon = 2 ^ (-52 : ℤ))
    (hη : F.eta ≤ 1 / 10 ^ 60) {A A0 M R : ℝ} (M1 : 1 ≤ M) (M6 : M ≤ 10 ^ 6)
    (hA : |A - A0| ≤ 11 * (F.u * M) + 5 * F.eta) (hA0 : M / 100 ≤ |A0|) (hA4 : |A0| ≤ 4 * M)
    (h : |A| < F.epsilon ∧ R ≤ F.epsilon + 25 * (F.u * (M + 2 * F.eta))
            + 5 * (F.eta * (M + 2 * F.eta)) + 10 * F.eta ∨
       F.epsilon ≤ |A| ∧ R ≤ (F.epsilon / 4 + 221 * (F.u * (M + 2 * F.eta) ^ 2)
            + 4 * (F.eta * (1 + |A|) ^ 2 * (1 + 49 * (M + 2 * F.eta) ^ 2))) / |A|
            + (22 * (F.u * M) + 10 * F.eta)) : R ≤ 1 / 10 ^ 11 * M := by
  have η0 := F.eta_nonneg
  have u16 : F.u ≤ 112 / 10 ^ 18 := by rw [hu]; norm_num
  have u0 := F.u_nonneg
  have ε16 : F.epsilon ≤ 23 / 10 ^ 17 := by rw [hε]; norm_num
  have uM : F.u * M ≤ 112 / 10 ^ 18 * M := mul_le_mul_of_nonneg_right u16 (by linarith)
  have hη' : F.eta ≤ 1 / 10 ^ 60 * M := hη.trans (by linarith)
  have hlo : M / 101 ≤ |A| := by
    have := abs_sub_abs_le_abs_sub A0 A
    rw [abs_sub_comm] at this
    linarith
  have hhi : |A| ≤ 5 * M := by
    have := abs_sub_abs_le_abs_sub A A0
    linarith
  rcases h with ⟨h1, -⟩ | ⟨-, h⟩
  · exfalso
    linarith
  have hA : 0 < |A| := by linarith
  have hN : (M + 2 * F.eta) ^ 2 ≤ 101 / 100 * M ^ 2 := by
    have : M + 2 * F.eta ≤ 1001 / 1000 * M := by linarith
    have := mul_le_mul this this (by linarith) (by linarith)
    nlinarith [sq_nonneg M]
  have M2 : 1 ≤ M ^ 2 := one_le_pow₀ M1
  have h1 : F.u * (M + 2 * F.eta) ^ 2 ≤ 112 / 10 ^ 18 * (101 / 100 * M ^ 2) :=
    mul_le_mul u16 hN (by positivity) (by norm_num)
  have h2 : (1 + |A|) ^ 2 ≤ 36 * M ^ 2 := by
    have h3 : 1 + |A| ≤ 6 * M := by linarith
    have := mul_le_mul h3 h3 (by linarith) (by linarith)
    linarith
  have M12 : M ^ 2 ≤ 10 ^ 12 := by
    have := pow_le_pow_left₀ (by linarith : 0 ≤ M) M6 2
    linarith
  have h3 : 1 + 49 * (M + 2 * F.eta) ^ 2 ≤ 10 ^ 14 := by linarith
  have h4 : F.eta * (1 + |A|) ^ 2 * (1 + 49 * (M + 2 * F.eta) ^ 2)
      ≤ 1 / 10 ^ 60 * (36 * M ^ 2) * 10 ^ 14 := by
    apply mul_le_mul _ h3 (by positivity) (by positivity)
    exact mul_le_mul hη h2 (by positivity) (by norm_num)
  have h5 : (F.epsilon / 4 + 221 * (F.u * (M + 2 * F.eta) ^ 2)
            + 4 * (F.eta * (1 + |A|) ^ 2 * (1 + 49 * (M + 2 * F.eta) ^ 2))) / |A|
      ≤ 9 / 10 ^ 12 * M := by
    rw [div_le_iff₀ hA]
    have h6 := mul_le_mul_of_nonneg_left hlo (show 0 ≤ 9 / 10 ^ 12 * M by positivity)
    refine le_trans ?_ h6
    rw [show 9 / 10 ^ 12 * M * (M / 101) = 9 / 10 ^ 12 / 101 * M ^ 2 by ring]
    linarith
  linarith

section
variable (cosI acosI : ℝ → ℝ) (powI : ℝ → ℝ → ℝ)

/-- **C90** in numbers, for binary64: if the coordinates and the value are at most `M` in magnitude
and the second difference of the coordinates on the axis is at least `M / 100`, every returned
parameter hits the value up to `10⁻¹¹ M`. -/
theorem C90_binary64_partial (q : QuadraticBezier (PointN (Fl (binary64 cosI acosI powI)) n)) {v : ℝ}
    {hv : v ∈ (binary64 cosI acosI powI).grid ∧ |v| ≤ (binary64 cosI acosI powI).max} (i : Fin n)
    {M : ℝ} (M1 : 1 ≤ M) (M6 : M ≤ 10 ^ 6) (hs : BoundedBy M q.start) (hk : BoundedBy M q.ctrl)
    (he : BoundedBy M q.end_) (bv : |v| ≤ M)
    (hd : M / 100 ≤ |(q.start.coords i).toReal - 2 * (q.ctrl.coords i).toReal
        + (q.end_.coords i).toReal|)
    {ts : List (Fl (binary64 cosI acosI powI))} (h : q.solveTForAxis (fin v hv) i = some ts)
    (t : Fl (binary64 cosI acosI powI)) (ht : t ∈ ts) :
    ∃ r, (∃ hr, t = fin r hr) ∧ 0 < r ∧ r < 1 ∧
      |(q.real.eval r).coords i - v| ≤ 1 / 10 ^ 11 * M := by
  have hη := binary64_eta cosI acosI powI
  have hm := binary64_max cosI acosI powI
  obtain ⟨r, hr, r0, r1, A, hA, hR⟩ := C90_solve_t_partial q i (M := M)
    (by show (2 : ℝ) ^ (-(53 : ℕ) : ℤ) ≤ _; norm_num) (hη.trans (by norm_num)) hs hk he bv
    (by linarith) h t ht
  refine ⟨r, hr, r0, r1, ?_⟩
  refine solve_numbers (F := binary64 cosI acosI powI) rfl rfl hη M1 M6 hA hd ?_ hR
  have h1 := abs_le.1 (hs i).2
  have h2 := abs_le.1 (hk i).2
  have h3 := abs_le.1 (he i).2
  rw [abs_le]
  constructor <;> linarith

/-- binary64 rounding between 1 and 2. -/
theorem rnd_one_two {x : ℝ} (h1 : 1 ≤ x) (h2 : x < 2) :
    (binary64 cosI acosI powI).rnd x = roundEven (x / 2 ^ (-52 : ℤ)) * 2 ^ (-52 : ℤ) := by
  show ieeeRnd 53 (-1074) x = _
  have x0 : 0 < x := by linarith
  have hl : Int.log 2 |x| = 0 := by
    rw [abs_of_pos x0]
    apply le_antisymm
    · have : Int.log 2 x < 1 := by
        rw [← Int.lt_zpow_iff_log_lt (by norm_num) x0]
        norm_num
        exact h2
      omega
    · rw [← Int.zpow_le_iff_le_log (by norm_num) x0]
      norm_num
      exact h1
  have hu : ulpExp 53 (-1074) x = -52 := by
    unfold ulpExp
    rw [hl]
    norm_num
  unfold ieeeRnd
  rw [hu]

/-- A curve in one dimension with control points `0, 1/2, 1 + 2⁻⁵¹`: nearly uniform. -/
noncomputable def nearlyLinear : QuadraticBezier (PointN (Fl (binary64 cosI acosI powI)) 1) :=
  ⟨⟨fun _ => fin 0 (FloatFormat.zero_ok _)⟩,
   ⟨fun _ => fin (1 / 2) (dyadic_ok _ _ _ 1 (-1) (by norm_num) (by norm_num) (by norm_num)
      (by norm_num [abs_le]))⟩,
   ⟨fun _ => fin (1 + 2 ^ (-51 : ℤ)) (dyadic_ok _ _ _ (2 ^ 51 + 1) (-51)
      (by norm_num) (by norm_num) (by norm_num) (by norm_num [abs_le]))⟩⟩

/-- The roots the code computes for `2⁻⁵¹ x² + x - 5/16`: a negative one and 1/4. -/
theorem wrong_root (q : QuadraticBezier (PointN (Fl (binary64 cosI acosI powI)) n))
    {ha hb hc h4} : ∃ r, r ≤ 0 ∧
    q.realRoots (fin (2 ^ (-51 : ℤ)) ha) (fin 1 hb) (fin (-5 / 16) hc)
      = some [(binary64 cosI acosI powI).round r, fin (1 / 4) h4] := by
  set F := binary64 cosI acosI powI with hF
  have ok := dyadic_ok cosI acosI powI
  rw [← hF] at ok
  have l2 : (lit 2 : Fl F) = fin 2 (ok 2 0 (by norm_num) (by norm_num) (by norm_num)
      (by norm_num)) := round_eq (by norm_num) _
  have l4 : (lit 4 : Fl F) = fin 4 (ok 4 0 (by norm_num) (by norm_num) (by norm_num)
      (by norm_num)) := round_eq (by norm_num) _
  have hD : (1 + 2 ^ (-51 : ℤ) : ℝ) ∈ F.grid ∧ |(1 + 2 ^ (-51 : ℤ) : ℝ)| ≤ F.max :=
    ok (2 ^ 51 + 1) (-51) (by norm_num) (by norm_num) (by norm_num) (by norm_num [abs_le])
  have hS : (1 + 2 ^ (-52 : ℤ) : ℝ) ∈ F.grid ∧ |(1 + 2 ^ (-52 : ℤ) : ℝ)| ≤ F.max :=
    ok (2 ^ 52 + 1) (-52) (by norm_num) (by norm_num) (by norm_num) (by norm_num [abs_le])
  have hdelta : (fin 1 hb : Fl F) * fin 1 hb
      - fin (2 ^ (-51 : ℤ)) ha * fin (-5 / 16) hc * (lit 4 : Fl F) = fin (1 + 2 ^ (-51 : ℤ)) hD := by
    have e := rnd_one_two cosI acosI powI (x := 1 + 5 * 2 ^ (-53 : ℤ)) (by norm_num) (by norm_num)
    have : roundEven ((1 + 5 * 2 ^ (-53 : ℤ)) / 2 ^ (-52 : ℤ)) = 2 ^ 52 + 2 := by
      refine roundEven_unique (roundEven_spec _) (Or.inr ⟨?_, by decide⟩)
      norm_num
    rw [this, ← hF] at e
    have e' : F.rnd (1 + 5 * 2 ^ (-53 : ℤ)) = 1 + 2 ^ (-51 : ℤ) := by
      rw [e]; norm_num
    rw [l4, fin_mul, round_eq (y := 1) (by norm_num) hb, fin_mul,
      round_eq (y := -5 * 2 ^ (-55 : ℤ)) (by norm_num)
      (ok (-5) (-55) (by norm_num) (by norm_num) (by norm_num) (by norm_num [abs_le])), fin_mul,
      round_eq (y := -5 * 2 ^ (-53 : ℤ)) (by norm_num)
      (ok (-5) (-53) (by norm_num) (by norm_num) (by norm_num) (by norm_num [abs_le])), fin_sub]
    rw [show (1 : ℝ) - -5 * 2 ^ (-53 : ℤ) = 1 + 5 * 2 ^ (-53 : ℤ) by ring,
      F.round_of_rnd_le (by rw [e']; exact hD.2)]
    exact fin_congr e'
  have hsqrt : Scalar.sqrt (fin (1 + 2 ^ (-51 : ℤ)) hD : Fl F) = fin (1 + 2 ^ (-52 : ℤ)) hS := by
    show (open Classical in if (1 + 2 ^ (-51 : ℤ) : ℝ) < 0 then (nan : Fl F)
      else F.round (Real.sqrt (1 + 2 ^ (-51 : ℤ)))) = _
    rw [if_neg (by norm_num)]
    have hlo : 1 + 2 ^ (-53 : ℤ) < Real.sqrt (1 + 2 ^ (-51 : ℤ)) :=
      Real.lt_sqrt_of_sq_lt (by norm_num)
    have hhi : Real.sqrt (1 + 2 ^ (-51 : ℤ)) < 1 + 3 * 2 ^ (-53 : ℤ) := by
      rw [Real.sqrt_lt' (by norm_num)]
      norm_num
    have e := rnd_one_two cosI acosI powI (x := Real.sqrt (1 + 2 ^ (-51 : ℤ)))
      (by refine le_trans ?_ hlo.le; norm_num) (by refine hhi.trans ?_; norm_num)
    have : roundEven (Real.sqrt (1 + 2 ^ (-51 : ℤ)) / 2 ^ (-52 : ℤ)) = 2 ^ 52 + 1 := by
      refine roundEven_unique (roundEven_spec _) (Or.inl ?_)
      rw [abs_lt, lt_sub_iff_add_lt, sub_lt_iff_lt_add, lt_div_iff₀ (by positivity),
        div_lt_iff₀ (by positivity)]
      constructor
      · refine lt_of_le_of_lt ?_ hlo
        norm_num
      · refine lt_of_lt_of_le hhi ?_
        norm_num
    rw [this, ← hF] at e
    have e' : F.rnd (Real.sqrt (1 + 2 ^ (-51 : ℤ))) = 1 + 2 ^ (-52 : ℤ) := by
      rw [e]; norm_num
    rw [F.round_of_rnd_le (by rw [e']; exact hS.2)]
    exact fin_congr e'
  have n1 : ¬ (Scalar.lt (Scalar.abs (fin (2 ^ (-51 : ℤ)) ha : Fl F)) Scalar.epsilon
      = true) := by
    rw [epsilon_eq]
    show ¬ (Scalar.lt (fin |2 ^ (-51 : ℤ)| _ : Fl F) (fin F.epsilon _) = true)
    rw [lt_fin, not_lt, abs_of_pos (by positivity)]
    show (2 : ℝ) ^ (1 - ((53 : ℕ) : ℤ)) ≤ _
    norm_num
  have n2 : Scalar.lt (lit 0 : Fl F) (fin (1 + 2 ^ (-51 : ℤ)) hD) = true := by
    rw [lit_zero]
    exact lt_fin.2 (by norm_num)
  have h2 : (2 : ℝ) ∈ F.grid ∧ |(2 : ℝ)| ≤ F.max :=
    ok 2 0 (by norm_num) (by norm_num) (by norm_num) (by norm_num)
  have e1 : ∃ z, ∃ hz, z ≤ 0 ∧ -(fin 1 hb : Fl F) - fin (1 + 2 ^ (-52 : ℤ)) hS = fin z hz := by
    rw [fin_neg, fin_sub]
    have hz : |(-1 - (1 + 2 ^ (-52 : ℤ)) : ℝ)| ≤ 3 := by norm_num [abs_le]
    have hle : |F.rnd (-1 - (1 + 2 ^ (-52 : ℤ)))| ≤ F.max := by
      have h := F.rnd_err (-1 - (1 + 2 ^ (-52 : ℤ)))
      have hu : F.u ≤ 1 := by show (2 : ℝ) ^ (-(53 : ℕ) : ℤ) ≤ _; norm_num
      have hη := binary64_eta cosI acosI powI
      rw [← hF] at hη
      have hm := F.max_ge
      have h3 := mul_le_mul hu hz (abs_nonneg _) zero_le_one
      have h4 := abs_sub_abs_le_abs_sub (F.rnd (-1 - (1 + 2 ^ (-52 : ℤ)))) (-1 - (1 + 2 ^ (-52 : ℤ)))
      have hη' : F.eta ≤ 1 := hη.trans (by norm_num)
      rw [one_mul] at h3
      clear hη hdelta hsqrt n1 n2
      exact (show |F.rnd (-1 - (1 + 2 ^ (-52 : ℤ)))| ≤ 1024 by linarith).trans hm
    exact ⟨_, ⟨F.rnd_mem _, hle⟩, F.rnd_nonpos (by norm_num), F.round_of_rnd_le hle⟩
  obtain ⟨z, hz, z0, ez⟩ := e1
  have e2 : -(fin 1 hb : Fl F) + fin (1 + 2 ^ (-52 : ℤ)) hS = fin (2 ^ (-52 : ℤ)) (ok 1 (-52)
      (by norm_num) (by norm_num) (by norm_num) (by norm_num [abs_le])) := by
    rw [fin_neg, fin_add]
    exact round_eq (by ring) _
  have e3 : (fin (2 ^ (-51 : ℤ)) ha : Fl F) * (lit 2 : Fl F) = fin (2 ^ (-50 : ℤ))
      (ok 1 (-50) (by norm_num) (by norm_num) (by norm_num) (by norm_num [abs_le])) := by
    rw [l2, fin_mul]
    exact round_eq (by norm_num) _
  unfold QuadraticBezier.realRoots
  simp only [hdelta, hsqrt, n1, n2, ez, e2, e3, Bool.false_eq_true, if_false, if_true]
  rw [fin_div (by positivity), fin_div (by positivity),
    round_eq (x := 2 ^ (-52 : ℤ) / 2 ^ (-50 : ℤ)) (y := 1 / 4) (by norm_num) h4]
  refine ⟨z / 2 ^ (-50 : ℤ), ?_, rfl⟩
  exact div_nonpos_of_nonpos_of_nonneg z0 (by positivity)

theorem not_pos_round {r : ℝ} (h : r ≤ 0) : Scalar.lt (lit 0) (F.round r) = false := by
  rw [lit_zero]
  unfold FloatFormat.round
  split_ifs with hm
  · rw [Bool.eq_false_iff]
    intro h'
    have h1 := lt_fin.1 h'
    have h2 := F.rnd_nonpos h
    linarith
  · have hr : r < 0 := by
      rcases h.lt_or_eq with h | h
      · exact h
      · exfalso
        apply hm
        rw [h, F.rnd_of_mem _ F.zero_ok.1]
        exact F.zero_ok.2
    rw [decide_eq_true hr]
    rfl

/-- The squared distance between the ends of `nearlyLinear` is a float of at least 1. -/
theorem nearlyLinear_length : ∃ R h, 1 ≤ R ∧
    Point.squaredLength ((nearlyLinear cosI acosI powI).start
      - (nearlyLinear cosI acosI powI).end_) = fin R h := by
  set F := binary64 cosI acosI powI with hF
  have ok := dyadic_ok cosI acosI powI
  rw [← hF] at ok
  have h1 : (fin 0 (FloatFormat.zero_ok _) : Fl F) - fin (1 + 2 ^ (-51 : ℤ)) (ok (2 ^ 51 + 1) (-51)
      (by norm_num) (by norm_num) (by norm_num) (by norm_num [abs_le]))
      = fin (-(1 + 2 ^ (-51 : ℤ))) (ok (-(2 ^ 51 + 1)) (-51)
      (by norm_num) (by norm_num) (by norm_num) (by norm_num [abs_le])) := by
    rw [fin_sub]
    exact round_eq (by ring) _
  set x : ℝ := -(1 + 2 ^ (-51 : ℤ)) * -(1 + 2 ^ (-51 : ℤ)) with hx
  have x1 : 1 ≤ x := by rw [hx]; norm_num
  have x2 : x ≤ 2 := by rw [hx]; norm_num
  have r1 : 1 ≤ F.rnd x := by
    have := F.rnd_mono x1
    rwa [F.rnd_of_mem _ F.one_ok.1] at this
  have r2 : F.rnd x ≤ 2 := by
    have := F.rnd_mono x2
    rwa [F.rnd_of_mem 2 (ok 2 0 (by norm_num) (by norm_num) (by norm_num) (by norm_num)).1] at this
  have hm : |F.rnd x| ≤ F.max := by
    rw [abs_of_nonneg (by linarith)]
    linarith [F.max_ge]
  refine ⟨F.rnd x, ⟨F.rnd_mem x, hm⟩, r1, ?_⟩
  show (lit 0 : Fl F) + (fin 0 _ - fin (1 + 2 ^ (-51 : ℤ)) _) * (fin 0 _ - fin (1 + 2 ^ (-51 : ℤ)) _)
    = _
  rw [h1, fin_mul, ← hx, F.round_of_rnd_le hm, lit_zero, fin_add]
  exact round_eq (zero_add _) _

/-- **C90** is false in general: in binary64 there is a curve with coordinates at most 2 in
magnitude for which `solve_t_for_axis` returns the single parameter 1/4 although the curve is
further than 1/17 from the value there. The quadratic formula divides rounding errors by the
second difference, which is as small as twice the machine epsilon. -/
theorem C90_false : ∃ (q : QuadraticBezier (PointN (Fl (binary64 cosI acosI powI)) 1)) (v r : ℝ)
    (hv : v ∈ (binary64 cosI acosI powI).grid ∧ |v| ≤ (binary64 cosI acosI powI).max)
    (hr : r ∈ (binary64 cosI acosI powI).grid ∧ |r| ≤ (binary64 cosI acosI powI).max),
    (BoundedBy 2 q.start ∧ BoundedBy 2 q.ctrl ∧ BoundedBy 2 q.end_ ∧ |v| ≤ 2) ∧
    q.solveTForAxis (fin v hv) 0 = some [fin r hr] ∧
    1 / 17 < |(q.real.eval r).coords 0 - v| := by
  obtain ⟨R, hR, R1, eR⟩ := nearlyLinear_length cosI acosI powI
  set F := binary64 cosI acosI powI with hF
  have ok := dyadic_ok cosI acosI powI
  rw [← hF] at ok
  set q := nearlyLinear cosI acosI powI with hq
  have hv : (5 / 16 : ℝ) ∈ F.grid ∧ |(5 / 16 : ℝ)| ≤ F.max :=
    ok 5 (-4) (by norm_num) (by norm_num) (by norm_num) (by norm_num [abs_le])
  have h4 : (1 / 4 : ℝ) ∈ F.grid ∧ |(1 / 4 : ℝ)| ≤ F.max :=
    ok 1 (-2) (by norm_num) (by norm_num) (by norm_num) (by norm_num [abs_le])
  have ha : (2 ^ (-51 : ℤ) : ℝ) ∈ F.grid ∧ |(2 ^ (-51 : ℤ) : ℝ)| ≤ F.max :=
    ok 1 (-51) (by norm_num) (by norm_num) (by norm_num) (by norm_num [abs_le])
  have hc : (-5 / 16 : ℝ) ∈ F.grid ∧ |(-5 / 16 : ℝ)| ≤ F.max :=
    ok (-5) (-4) (by norm_num) (by norm_num) (by norm_num) (by norm_num [abs_le])
  have l2 : (lit 2 : Fl F) = fin 2 (ok 2 0 (by norm_num) (by norm_num) (by norm_num)
      (by norm_num)) := round_eq (by norm_num) _
  have lm2 : (lit (-2) : Fl F) = fin (-2) (ok (-2) 0 (by norm_num) (by norm_num) (by norm_num)
      (by norm_num)) := round_eq (by norm_num) _
  have c0 : q.start.coords ⟨0, by norm_num⟩ = fin 0 F.zero_ok := rfl
  have c1 : ∃ h, q.ctrl.coords ⟨0, by norm_num⟩ = fin (1 / 2) h := ⟨_, rfl⟩
  have c2 : ∃ h, q.end_.coords ⟨0, by norm_num⟩ = fin (1 + 2 ^ (-51 : ℤ)) h := ⟨_, rfl⟩
  obtain ⟨w1, c1⟩ := c1
  obtain ⟨w2, c2⟩ := c2
  have ea : (fin 0 F.zero_ok + fin (1 / 2) w1 * lit (-2) + fin (1 + 2 ^ (-51 : ℤ)) w2 : Fl F)
      = fin (2 ^ (-51 : ℤ)) ha := by
    rw [lm2, fin_mul, round_eq (y := -1) (by norm_num) (ok (-1) 0 (by norm_num) (by norm_num)
      (by norm_num) (by norm_num)), fin_add, round_eq (y := -1) (by norm_num) (ok (-1) 0
      (by norm_num) (by norm_num) (by norm_num) (by norm_num)), fin_add]
    exact round_eq (by ring) _
  have eb : (fin 0 F.zero_ok * lit (-2) + fin (1 / 2) w1 * lit 2 : Fl F) = fin 1 F.one_ok := by
    rw [lm2, l2, fin_mul, round_eq (y := 0) (by norm_num) F.zero_ok, fin_mul,
      round_eq (y := 1) (by norm_num) F.one_ok, fin_add]
    exact round_eq (by norm_num) _
  have ec : (fin 0 F.zero_ok - fin (5 / 16) hv : Fl F) = fin (-5 / 16) hc := by
    rw [fin_sub]
    exact round_eq (by norm_num) _
  obtain ⟨r, hr, hroots⟩ := wrong_root cosI acosI powI q (ha := ha) (hb := F.one_ok) (hc := hc)
    (h4 := h4)
  have hpt : q.isAPoint Scalar.epsilon = false := by
    unfold QuadraticBezier.isAPoint
    rw [Bool.and_eq_false_iff]
    left
    rw [eR, epsilon_eq, fin_mul, round_eq (y := 2 ^ (-104 : ℤ)) (by
      show (2 : ℝ) ^ (1 - ((53 : ℕ) : ℤ)) * (2 : ℝ) ^ (1 - ((53 : ℕ) : ℤ)) = _
      norm_num) (ok 1 (-104) (by norm_num) (by norm_num) (by norm_num) (by norm_num [abs_le])),
      Bool.eq_false_iff]
    intro h
    have h1 := le_fin.1 h
    have h2 : (2 : ℝ) ^ (-104 : ℤ) < 1 := by norm_num
    linarith
  have hlen : Scalar.lt (Point.squaredLength (q.start - q.end_)) (Scalar.epsilon : Fl F) = false := by
    rw [eR, epsilon_eq, Bool.eq_false_iff]
    intro h
    have h1 := lt_fin.1 h
    have h2 : F.epsilon ≤ 1 := by
      show (2 : ℝ) ^ (1 - ((53 : ℕ) : ℤ)) ≤ _
      norm_num
    linarith
  refine ⟨q, 5 / 16, 1 / 4, hv, h4, ⟨fun i => ⟨trivial, ?_⟩, fun i => ⟨trivial, ?_⟩,
    fun i => ⟨trivial, ?_⟩, ?_⟩, ?_, ?_⟩
  · show |(0 : ℝ)| ≤ 2; norm_num
  · show |(1 / 2 : ℝ)| ≤ 2; norm_num [abs_le]
  · show |(1 + 2 ^ (-51 : ℤ) : ℝ)| ≤ 2; norm_num [abs_le]
  · norm_num [abs_le]
  · unfold QuadraticBezier.solveTForAxis
    obtain ⟨col, hcol⟩ := Option.isSome_iff_exists.1 (quad_colinear_isSome q (lit 0 : Fl F))
    rw [hcol]
    simp only [axis_some_pn _ (show 0 < 1 by norm_num), Option.bind_eq_bind, Option.bind_some,
      Option.pure_def, hpt, hlen, Bool.and_false, Bool.false_eq_true, if_false]
    rw [c0, c1, c2, ea, eb, ec, hroots]
    simp only [Option.bind_some]
    rw [keep_some _ (by simp)]
    congr 1
    rw [List.filter_cons_of_neg (by
      rw [not_pos_round hr]; simp), List.filter_cons_of_pos, List.filter_nil]
    rw [lit_zero, lit_one, Bool.and_eq_true]
    exact ⟨lt_fin.2 (by norm_num), lt_fin.2 (by norm_num)⟩
  · rw [quadratic_real_eval]
    show (1 : ℝ) / 17 < |(1 - 1 / 4) ^ 2 * 0 + 2 * (1 / 4) * (1 - 1 / 4) * (1 / 2)
      + (1 / 4) ^ 2 * (1 + 2 ^ (-51 : ℤ)) - 5 / 16|
    rw [lt_abs]
    right
    norm_num

/-- The hypotheses of `C90_binary64_partial` are met, with a parameter returned: the curve with
control points `0, 0, 1` takes the value 1/4 at 1/2. -/
example : ∃ (q : QuadraticBezier (PointN (Fl (binary64 cosI acosI powI)) 1)) (v : ℝ)
    (hv : v ∈ (binary64 cosI acosI powI).grid ∧ |v| ≤ (binary64 cosI acosI powI).max)
    (t : Fl (binary64 cosI acosI powI)),
    BoundedBy 1 q.start ∧ BoundedBy 1 q.ctrl ∧ BoundedBy 1 q.end_ ∧ |v| ≤ 1 ∧
    (1 : ℝ) / 100 ≤ |(q.start.coords 0).toReal - 2 * (q.ctrl.coords 0).toReal
        + (q.end_.coords 0).toReal| ∧
    q.solveTForAxis (fin v hv) 0 = some [t] := by
  set F := binary64 cosI acosI powI with hF
  have ok := dyadic_ok cosI acosI powI
  rw [← hF] at ok
  have h4 : (1 / 4 : ℝ) ∈ F.grid ∧ |(1 / 4 : ℝ)| ≤ F.max :=
    ok 1 (-2) (by norm_num) (by norm_num) (by norm_num) (by norm_num [abs_le])
  have h4' : (-(1 / 4) : ℝ) ∈ F.grid ∧ |(-(1 / 4) : ℝ)| ≤ F.max :=
    ok (-1) (-2) (by norm_num) (by norm_num) (by norm_num) (by norm_num [abs_le])
  have h2 : (2 : ℝ) ∈ F.grid ∧ |(2 : ℝ)| ≤ F.max :=
    ok 2 0 (by norm_num) (by norm_num) (by norm_num) (by norm_num)
  have hm1 : (-1 : ℝ) ∈ F.grid ∧ |(-1 : ℝ)| ≤ F.max :=
    ok (-1) 0 (by norm_num) (by norm_num) (by norm_num) (by norm_num)
  have hh : (1 / 2 : ℝ) ∈ F.grid ∧ |(1 / 2 : ℝ)| ≤ F.max :=
    ok 1 (-1) (by norm_num) (by norm_num) (by norm_num) (by norm_num [abs_le])
  have hh' : (-(1 / 2) : ℝ) ∈ F.grid ∧ |(-(1 / 2) : ℝ)| ≤ F.max :=
    ok (-1) (-1) (by norm_num) (by norm_num) (by norm_num) (by norm_num [abs_le])
  have l2 : (lit 2 : Fl F) = fin 2 h2 := round_eq (by norm_num) _
  have l4 : (lit 4 : Fl F) = fin 4 (ok 4 0 (by norm_num) (by norm_num) (by norm_num)
      (by norm_num)) := round_eq (by norm_num) _
  have lm2 : (lit (-2) : Fl F) = fin (-2) (ok (-2) 0 (by norm_num) (by norm_num) (by norm_num)
      (by norm_num)) := round_eq (by norm_num) _
  set q : QuadraticBezier (PointN (Fl F) 1) :=
    ⟨⟨fun _ => fin 0 F.zero_ok⟩, ⟨fun _ => fin 0 F.zero_ok⟩, ⟨fun _ => fin 1 F.one_ok⟩⟩ with hq
  have ea : (fin 0 F.zero_ok + fin 0 F.zero_ok * lit (-2) + fin 1 F.one_ok : Fl F)
      = fin 1 F.one_ok := by
    rw [lm2, fin_mul, round_eq (y := 0) (by norm_num) F.zero_ok, fin_add,
      round_eq (y := 0) (by norm_num) F.zero_ok, fin_add]
    exact round_eq (by norm_num) _
  have eb : (fin 0 F.zero_ok * lit (-2) + fin 0 F.zero_ok * lit 2 : Fl F) = fin 0 F.zero_ok := by
    rw [lm2, l2, fin_mul, round_eq (y := 0) (by norm_num) F.zero_ok, fin_mul,
      round_eq (y := 0) (by norm_num) F.zero_ok, fin_add]
    exact round_eq (by norm_num) _
  have ec : (fin 0 F.zero_ok - fin (1 / 4) h4 : Fl F) = fin (-(1 / 4)) h4' := by
    rw [fin_sub]
    exact round_eq (by norm_num) _
  have hdelta : (fin 0 F.zero_ok : Fl F) * fin 0 F.zero_ok
      - fin 1 F.one_ok * fin (-(1 / 4)) h4' * (lit 4 : Fl F) = fin 1 F.one_ok := by
    rw [l4, fin_mul, round_eq (y := 0) (by norm_num) F.zero_ok, fin_mul,
      round_eq (y := -(1 / 4)) (by norm_num) h4', fin_mul,
      round_eq (y := -1) (by norm_num) hm1, fin_sub]
    exact round_eq (by norm_num) _
  have hsqrt : Scalar.sqrt (fin 1 F.one_ok : Fl F) = fin 1 F.one_ok := by
    show (open Classical in if (1 : ℝ) < 0 then (nan : Fl F) else F.round (Real.sqrt 1)) = _
    rw [if_neg (by norm_num)]
    exact round_eq Real.sqrt_one _
  have hε : F.epsilon < 1 := by
    show (2 : ℝ) ^ (1 - ((53 : ℕ) : ℤ)) < _
    norm_num
  have n1 : ¬ (Scalar.lt (Scalar.abs (fin 1 F.one_ok : Fl F)) Scalar.epsilon = true) := by
    rw [epsilon_eq]
    show ¬ (Scalar.lt (fin |1| _ : Fl F) (fin F.epsilon _) = true)
    rw [lt_fin, not_lt, abs_one]
    exact hε.le
  have n2 : Scalar.lt (lit 0 : Fl F) (fin 1 F.one_ok) = true := by
    rw [lit_zero]
    exact lt_fin.2 (by norm_num)
  have e1 : -(fin 0 F.zero_ok : Fl F) - fin 1 F.one_ok = fin (-1) hm1 := by
    rw [fin_neg, fin_sub]
    exact round_eq (by norm_num) _
  have e2 : -(fin 0 F.zero_ok : Fl F) + fin 1 F.one_ok = fin 1 F.one_ok := by
    rw [fin_neg, fin_add]
    exact round_eq (by norm_num) _
  have e3 : (fin 1 F.one_ok : Fl F) * (lit 2 : Fl F) = fin 2 h2 := by
    rw [l2, fin_mul]
    exact round_eq (by norm_num) _
  have hroots : q.realRoots (fin 1 F.one_ok) (fin 0 F.zero_ok) (fin (-(1 / 4)) h4')
      = some [fin (-(1 / 2)) hh', fin (1 / 2) hh] := by
    unfold QuadraticBezier.realRoots
    simp only [hdelta, hsqrt, n1, n2, e1, e2, e3, Bool.false_eq_true, if_false, if_true]
    rw [fin_div (by norm_num), fin_div (by norm_num),
      round_eq (x := -1 / 2) (y := -(1 / 2)) (by norm_num) hh', round_eq (x := 1 / 2) rfl hh]
    rfl
  have eR : Point.squaredLength (q.start - q.end_) = fin 1 F.one_ok := by
    show (lit 0 : Fl F) + (fin 0 _ - fin 1 _) * (fin 0 _ - fin 1 _) = _
    rw [fin_sub, round_eq (y := -1) (by norm_num) hm1, fin_mul,
      round_eq (y := 1) (by norm_num) F.one_ok, lit_zero, fin_add]
    exact round_eq (by norm_num) _
  have hpt : q.isAPoint Scalar.epsilon = false := by
    unfold QuadraticBezier.isAPoint
    rw [Bool.and_eq_false_iff]
    left
    rw [eR, epsilon_eq, fin_mul, round_eq (y := 2 ^ (-104 : ℤ)) (by
      show (2 : ℝ) ^ (1 - ((53 : ℕ) : ℤ)) * (2 : ℝ) ^ (1 - ((53 : ℕ) : ℤ)) = _
      norm_num) (ok 1 (-104) (by norm_num) (by norm_num) (by norm_num) (by norm_num [abs_le])),
      Bool.eq_false_iff]
    intro h
    have h1 := le_fin.1 h
    norm_num at h1
  have hlen : Scalar.lt (Point.squaredLength (q.start - q.end_)) (Scalar.epsilon : Fl F) = false := by
    rw [eR, epsilon_eq, Bool.eq_false_iff]
    intro h
    have h1 := lt_fin.1 h
    linarith
  refine ⟨q, 1 / 4, h4, fin (1 / 2) hh, fun i => ⟨trivial, ?_⟩, fun i => ⟨trivial, ?_⟩,
    fun i => ⟨trivial, ?_⟩, ?_, ?_, ?_⟩
  · show |(0 : ℝ)| ≤ 1; norm_num
  · show |(0 : ℝ)| ≤ 1; norm_num
  · show |(1 : ℝ)| ≤ 1; norm_num
  · norm_num [abs_le]
  · show (1 : ℝ) / 100 ≤ |0 - 2 * 0 + 1|; norm_num
  · unfold QuadraticBezier.solveTForAxis
    obtain ⟨col, hcol⟩ := Option.isSome_iff_exists.1 (quad_colinear_isSome q (lit 0 : Fl F))
    rw [hcol]
    simp only [axis_some_pn _ (show 0 < 1 by norm_num), Option.bind_eq_bind, Option.bind_some,
      Option.pure_def, hpt, hlen, Bool.and_false, Bool.false_eq_true, if_false]
    rw [show q.start.coords ⟨0, by norm_num⟩ = fin 0 F.zero_ok from rfl,
      show q.end_.coords ⟨0, by norm_num⟩ = fin 1 F.one_ok from rfl, ea, eb, ec, hroots]
    simp only [Option.bind_some]
    rw [keep_some _ (by simp)]
    congr 1
    rw [List.filter_cons_of_neg (by
      rw [lit_zero, Bool.and_eq_true, lt_fin]; norm_num), List.filter_cons_of_pos, List.filter_nil]
    rw [lit_zero, lit_one, Bool.and_eq_true]
    exact ⟨lt_fin.2 (by norm_num), lt_fin.2 (by norm_num)⟩

end

end Stroke
