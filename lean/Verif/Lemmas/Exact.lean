import Verif.Spec.Exact

/-!
# Basic lemmas about the exact instance and lawful points
-/

namespace Stroke

section Scalars

@[simp] theorem lit_real (q : Rat) : (lit q : ℝ) = (q : ℝ) := rfl
@[simp] theorem ofUsize_real (n : ℕ) : (Scalar.ofUsize n : ℝ) = (n : ℝ) := rfl
@[simp] theorem lt_real (a b : ℝ) : Scalar.lt a b = decide (a < b) := rfl
@[simp] theorem le_real (a b : ℝ) : Scalar.le a b = decide (a ≤ b) := rfl
@[simp] theorem eq_real (a b : ℝ) : Scalar.eq a b = decide (a = b) := rfl
@[simp] theorem abs_real (a : ℝ) : Scalar.abs a = |a| := rfl
@[simp] theorem sqrt_real (a : ℝ) : Scalar.sqrt a = Real.sqrt a := rfl
@[simp] theorem cos_real (a : ℝ) : Scalar.cos a = Real.cos a := rfl
@[simp] theorem acos_real (a : ℝ) : Scalar.acos a = Real.arccos a := rfl
@[simp] theorem signum_real (a : ℝ) : Scalar.signum a = if a < 0 then -1 else 1 := rfl
@[simp] theorem powf_real (a b : ℝ) : Scalar.powf a b = a ^ b := rfl
@[simp] theorem isNaN_real (a : ℝ) : Scalar.isNaN a = false := rfl
@[simp] theorem epsilon_real : (Scalar.epsilon : ℝ) = eps := rfl

theorem eps_pos : 0 < eps := by unfold eps; positivity
theorem eps_lt_one : eps < 1 := by unfold eps; norm_num

end Scalars

section Points

variable {P : Type} [Point ℝ P] [LawfulPoint P]

theorem axis_eq (p : P) {i : ℕ} (h : i < Point.dim P) : Point.axis p i = some (coord p i) := by
  have := (LawfulPoint.axis_isSome p i).2 h
  unfold coord
  cases hx : Point.axis p i with
  | none => simp [hx] at this
  | some v => simp

theorem axis_none (p : P) {i : ℕ} (h : ¬ i < Point.dim P) : Point.axis p i = none := by
  have := mt (LawfulPoint.axis_isSome p i).1 h
  simpa using this

theorem coord_out (p : P) {i : ℕ} (h : ¬ i < Point.dim P) : coord p i = 0 := by
  unfold coord; simp [axis_none p h]

@[simp] theorem coord_add (p q : P) (i : ℕ) : coord (p + q) i = coord p i + coord q i :=
  LawfulPoint.coord_add p q i
@[simp] theorem coord_sub (p q : P) (i : ℕ) : coord (p - q) i = coord p i - coord q i :=
  LawfulPoint.coord_sub p q i
@[simp] theorem coord_mul (p : P) (s : ℝ) (i : ℕ) : coord (p * s) i = coord p i * s :=
  LawfulPoint.coord_mul p s i
@[simp] theorem coord_default (i : ℕ) : coord (Point.default : P) i = 0 :=
  LawfulPoint.coord_default i
theorem iter_length (p : P) : (Point.iter p).length = Point.dim P := LawfulPoint.iter_length p

theorem point_ext {p q : P} (h : ∀ i, coord p i = coord q i) : p = q := LawfulPoint.ext p q h

/-- The point as a vector of Euclidean space. -/
noncomputable def toE (p : P) : EuclideanSpace ℝ (Fin (Point.dim P)) :=
  WithLp.toLp 2 fun i => coord p i.val

omit [LawfulPoint P] in
@[simp] theorem toE_apply (p : P) (i : Fin (Point.dim P)) : toE p i = coord p i.val := rfl

@[simp] theorem toE_add (p q : P) : toE (p + q) = toE p + toE q := by ext i; simp
@[simp] theorem toE_sub (p q : P) : toE (p - q) = toE p - toE q := by ext i; simp
@[simp] theorem toE_mul (p : P) (s : ℝ) : toE (p * s) = s • toE p := by ext i; simp [mul_comm]
@[simp] theorem toE_default : toE (Point.default : P) = 0 := by ext i; simp

theorem toE_inj {p q : P} (h : toE p = toE q) : p = q := by
  apply point_ext
  intro i
  by_cases hi : i < Point.dim P
  · have := congrArg (fun v => v ⟨i, hi⟩) h
    simpa using this
  · rw [coord_out p hi, coord_out q hi]

theorem squaredLength_eq_norm (p : P) : Point.squaredLength p = ‖toE p‖ ^ 2 := by
  rw [LawfulPoint.squaredLength_eq, EuclideanSpace.norm_eq, Real.sq_sqrt (Finset.sum_nonneg fun _ _ => by positivity),
    ← Fin.sum_univ_eq_sum_range (fun i => coord p i ^ 2)]
  simp

omit [LawfulPoint P] in
theorem pdist_eq_norm (p q : P) : pdist p q = ‖toE p - toE q‖ := by
  unfold pdist
  rw [EuclideanSpace.norm_eq, ← Fin.sum_univ_eq_sum_range (fun i => (coord p i - coord q i) ^ 2)]
  simp

theorem sqrt_squaredLength_sub (p q : P) :
    Real.sqrt (Point.squaredLength (p - q)) = pdist p q := by
  rw [squaredLength_eq_norm, toE_sub, Real.sqrt_sq (norm_nonneg _), pdist_eq_norm]

theorem squaredLength_sub (p q : P) : Point.squaredLength (p - q) = pdist p q ^ 2 := by
  rw [squaredLength_eq_norm, toE_sub, pdist_eq_norm]

omit [LawfulPoint P] in
theorem pdist_nonneg (p q : P) : 0 ≤ pdist p q := Real.sqrt_nonneg _

omit [LawfulPoint P] in
theorem pdist_comm (p q : P) : pdist p q = pdist q p := by
  rw [pdist_eq_norm, pdist_eq_norm, norm_sub_rev]

omit [LawfulPoint P] in
theorem pdist_triangle (p q r : P) : pdist p r ≤ pdist p q + pdist q r := by
  simp only [pdist_eq_norm]
  exact norm_sub_le_norm_sub_add_norm_sub _ _ _

theorem pdist_eq_zero {p q : P} : pdist p q = 0 ↔ p = q := by
  rw [pdist_eq_norm, norm_sub_eq_zero_iff]
  exact ⟨toE_inj, fun h => by rw [h]⟩

end Points

/-- `PointN` is a lawful point type in every dimension. -/
instance instLawfulPointN (n : ℕ) : LawfulPoint (PointN ℝ n) := by
  have hax : ∀ (p : PointN ℝ n) (i : ℕ), Point.axis p i = if h : i < n then some (p.coords ⟨i, h⟩) else none := by
    intro p i
    show PointN.axis p i = _
    unfold PointN.axis Arr.get?
    by_cases h : i < n
    · simp [h, h.le]
    · simp [h]
  have hc : ∀ (p : PointN ℝ n) (i : ℕ), coord p i = if h : i < n then p.coords ⟨i, h⟩ else 0 := by
    intro p i
    unfold coord
    rw [hax]
    split <;> simp
  have hd : Point.dim (PointN ℝ n) = n := rfl
  have hext : ∀ p q : PointN ℝ n, (∀ i, coord p i = coord q i) → p = q := by
    intro p q h
    cases p with | mk p => cases q with | mk q =>
    congr 1
    funext i
    have := h i.val
    rw [hc, hc] at this
    simpa using this
  constructor
  · intro p i; rw [hax, hd]; split <;> simp_all
  · exact hext
  · intro p q i; rw [hc, hc, hc]
    show (if h : i < n then (PointN.add p q).coords ⟨i, h⟩ else 0) = _
    split <;> simp [PointN.add]
  · intro p q i; rw [hc, hc, hc]
    show (if h : i < n then (PointN.sub p q).coords ⟨i, h⟩ else 0) = _
    split <;> simp [PointN.sub]
  · intro p s i; rw [hc, hc]
    show (if h : i < n then (PointN.mul p s).coords ⟨i, h⟩ else 0) = _
    split <;> simp [PointN.mul]
  · intro i; rw [hc]
    show (if h : i < n then (PointN.default : PointN ℝ n).coords ⟨i, h⟩ else 0) = _
    split <;> simp [PointN.default]
  · intro p q
    show PointN.eq p q = true ↔ _
    unfold PointN.eq
    simp only [List.all_eq_true, List.mem_finRange, forall_const, eq_real, decide_eq_true_eq]
    constructor
    · intro h i; rw [hc, hc]; split
      · exact h _
      · rfl
    · intro h i
      have := h i.val
      rw [hc, hc] at this
      simpa using this
  · intro p
    show (List.ofFn p.coords).length = n
    simp
  · intro p
    show PointN.squaredLength p = _
    unfold PointN.squaredLength
    rw [hd, ← Fin.sum_univ_eq_sum_range (fun i => coord p i ^ 2)]
    have : ∀ (l : List (Fin n)) (a : ℝ),
        l.foldl (fun s i => s + p.coords i * p.coords i) a
          = a + (l.map fun i => p.coords i * p.coords i).sum := by
      intro l
      induction l with
      | nil => intro a; simp
      | cons x xs ih => intro a; simp [ih, add_assoc]
    rw [this]
    have hs : (List.finRange n).map (fun i => p.coords i * p.coords i)
        = List.ofFn fun i => p.coords i * p.coords i := by
      simp [List.ofFn_eq_map]
    rw [hs, List.sum_ofFn]
    simp [hc, sq]

end Stroke
