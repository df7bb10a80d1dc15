import Verif.Lemmas.Exact

/-!
# Properties of `PointN` (C01–C04)
-/

namespace Stroke

section AnyScalar
variable {S : Type} [Scalar S] {n : ℕ}

private theorem axis_def (p : PointN S n) (i : ℕ) :
    Point.axis p i = if h : i < n then some (p.coords ⟨i, h⟩) else none := by
  show PointN.axis p i = _
  unfold PointN.axis Arr.get?
  by_cases h : i < n
  · simp [h, h.le]
  · simp [h]

/-- **C01** (any scalar type): reading component `i` of a sum, difference, scalar
multiple, scalar sum or scalar difference gives the corresponding operation on
component `i` of the operands; the default point reads `0.0` everywhere. -/
theorem C01_componentwise (p q : PointN S n) (s : S) (i : ℕ) :
    Point.axis (p + q) i = Option.map₂ (· + ·) (Point.axis p i) (Point.axis q i) ∧
    Point.axis (p - q) i = Option.map₂ (· - ·) (Point.axis p i) (Point.axis q i) ∧
    Point.axis (p * s) i = (Point.axis p i).map (· * s) ∧
    Point.axis (p.addScalar s) i = (Point.axis p i).map (· + s) ∧
    Point.axis (p.subScalar s) i = (Point.axis p i).map (· - s) ∧
    (i < n → Point.axis (Point.default : PointN S n) i = some (lit 0)) := by
  have e1 : p + q = PointN.add p q := rfl
  have e2 : p - q = PointN.sub p q := rfl
  have e3 : p * s = PointN.mul p s := rfl
  have e4 : (Point.default : PointN S n) = PointN.default := rfl
  rw [e1, e2, e3, e4]
  simp only [axis_def]
  by_cases h : i < n
  · simp [h, PointN.add, PointN.sub, PointN.mul, PointN.addScalar, PointN.subScalar,
      PointN.default]
  · simp [h]

/-- **C01**: construction and iteration round-trip: `new` followed by by-value
iteration yields the array, and component `i` is the array's entry `i`. -/
theorem C01_new_iter (a : Arr S n) :
    Point.iter (PointN.new a) = List.ofFn a ∧
    ∀ (i : ℕ) (h : i < n), Point.axis (PointN.new a) i = some (a ⟨i, h⟩) := by
  refine ⟨rfl, fun i h => ?_⟩
  rw [axis_def]; simp [h, PointN.new]

/-- **C03**: `axis(i)` returns component `i` inside the dimension and panics for
every index outside it, `i = n` included. -/
theorem C03_axis (p : PointN S n) (i : ℕ) :
    (∀ h : i < n, Point.axis p i = some (p.coords ⟨i, h⟩)) ∧ (n ≤ i → Point.axis p i = none) := by
  rw [axis_def]
  exact ⟨fun h => by simp [h], fun h => by simp [Nat.not_lt.2 h]⟩

end AnyScalar

section Exact
variable {n : ℕ}

/-- **C01**: in exact arithmetic the operators satisfy the vector-space laws, with
`Default` as zero. -/
theorem C01_vector_space (p q r : PointN ℝ n) (a b : ℝ) :
    p + q = q + p ∧ (p + q) + r = p + (q + r) ∧ p + Point.default = p ∧
    p - p = Point.default ∧ (p - q) + q = p ∧
    (p + q) * a = p * a + q * a ∧ p * (a + b) = p * a + p * b ∧
    (p * a) * b = p * (a * b) ∧ p * (1 : ℝ) = p ∧ p * (0 : ℝ) = Point.default := by
  refine ⟨?_, ?_, ?_, ?_, ?_, ?_, ?_, ?_, ?_, ?_⟩ <;> apply point_ext <;> intro i <;>
    simp only [coord_add, coord_sub, coord_mul, coord_default] <;> ring

/-- **C02**: `==` is componentwise equality. -/
theorem C02_eq_iff (p q : PointN ℝ n) : Point.eq p q = true ↔ p = q := by
  rw [LawfulPoint.eq_iff]
  exact ⟨point_ext, fun h i => by rw [h]⟩

/-- **C02**: `==` is an equivalence relation (without NaN). -/
theorem C02_equivalence (p q r : PointN ℝ n) :
    Point.eq p p = true ∧ (Point.eq p q = true → Point.eq q p = true) ∧
    (Point.eq p q = true → Point.eq q r = true → Point.eq p r = true) := by
  simp only [C02_eq_iff]
  exact ⟨trivial, fun h => h.symm, fun h1 h2 => h1.trans h2⟩

/-- **C04**: `squared_length` is the sum of the squared components, is never
negative, and vanishes only at the zero point. -/
theorem C04_squared_length (p : PointN ℝ n) :
    Point.squaredLength p = ∑ i : Fin n, (p.coords i) ^ 2 ∧
    0 ≤ Point.squaredLength p ∧ (Point.squaredLength p = 0 ↔ p = Point.default) := by
  have hc : ∀ i : Fin n, coord p i.val = p.coords i := by
    intro i; unfold coord; rw [(C03_axis p i.val).1 i.isLt]; rfl
  have h1 : Point.squaredLength p = ∑ i : Fin n, (p.coords i) ^ 2 := by
    rw [LawfulPoint.squaredLength_eq]
    show ∑ i ∈ Finset.range n, coord p i ^ 2 = _
    rw [← Fin.sum_univ_eq_sum_range (fun i => coord p i ^ 2)]
    simp [hc]
  refine ⟨h1, ?_, ?_⟩
  · rw [h1]; exact Finset.sum_nonneg fun _ _ => sq_nonneg _
  · rw [squaredLength_eq_norm, sq_eq_zero_iff, norm_eq_zero]
    constructor
    · intro h; apply toE_inj; rw [h]; simp
    · rintro rfl; simp

/-- Test: a concrete, non-trivial instance of the statements above. -/
example : Point.squaredLength (PointN.new (fun i : Fin 2 => if i = 0 then (3 : ℝ) else 4)) = 25 := by
  rw [(C04_squared_length _).1]; simp [PointN.new, Fin.sum_univ_two]; norm_num

end Exact

end Stroke
