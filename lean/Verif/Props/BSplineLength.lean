import Verif.Props.AnyMaps
import Verif.Props.BSplineCalculus
import Verif.Props.FloatBSplineEval
import Verif.Props.FloatDistance

set_option linter.unusedSectionVars false

/-!
# The arc length of B-splines: panics, sign and symmetries (C99)
-/

namespace Stroke

open Fl

/-! ### Maps of the control points -/

section
variable {S P Q : Type} [Scalar S] [Point S P] [Point S Q] {K C D : ℕ} {f : P → Q}

/-- The spline with every control point moved by `f`. -/
def BSpline.mapPts (f : P → Q) (b : BSpline S P K C D) : BSpline S Q K C D :=
  ⟨b.knots, b.knot_kind, fun i => f (b.control_points i)⟩

theorem evalOrDefault_map (hf : RespectsOps (S := S) f) (b : BSpline S P K C D) (t : S) :
    (b.mapPts f).evalOrDefault t = (b.evalOrDefault t).map f := by
  unfold BSpline.evalOrDefault
  rw [BSpline.mapPts, C80_any_arithmetic hf b t]
  cases b.eval t with
  | ok p => rfl
  | err e => simp [Outcome.mapOk, hf.default]
  | panic => rfl

theorem arclen_map (hf : KeepsMetric (S := S) f) (b : BSpline S P K C D) (n : ℕ) :
    (b.mapPts f).arclen n = b.arclen n := by
  unfold BSpline.arclen
  have hd : (b.mapPts f).knotDomain = b.knotDomain := rfl
  simp only [hd, Option.bind_eq_bind, evalOrDefault_map hf.toRespectsOps]
  rcases b.knotDomain with _ | ⟨lo, hi⟩
  · rfl
  simp only [Option.bind_some]
  congr 1
  funext i s
  rcases b.evalOrDefault (lo + Scalar.ofUsize i / Scalar.ofUsize n * (hi - lo)) with _ | p
  · rfl
  simp only [Option.map_some, Option.bind_some]
  rcases b.evalOrDefault (lo + Scalar.ofUsize i / Scalar.ofUsize n * (hi - lo)
    + lit 1 / Scalar.ofUsize n) with _ | q
  · rfl
  simp only [Option.map_some, Option.bind_some]
  rw [← hf.sub, hf.squaredLength]

/-- **C99**: a map of the control points that keeps the operations and the metric, such as
exchanging or negating axes, keeps the result of `arclen` bit for bit, panics included. -/
theorem C99_isometry_partial (hf : KeepsMetric (S := S) f) {knots : Arr S K} {ps : Arr P C}
    {b : BSpline S P K C D} (h : BSpline.new knots ps = .ok b) :
    ∃ b' : BSpline S Q K C D, BSpline.new knots (fun i => f (ps i)) = .ok b' ∧
      ∀ n, b'.arclen n = b.arclen n := by
  obtain ⟨h1, h2, h3, rfl⟩ := (new_generic _ _ _).1 h
  exact ⟨_, (new_generic _ _ _).2 ⟨h1, h2, h3, rfl⟩, fun n =>
    arclen_map hf ⟨knots, kindB _ _, ps⟩ n⟩

end

/-! ### Exact arithmetic -/

section
variable {P Q : Type} [Point ℝ P] [LawfulPoint P] [Point ℝ Q] [LawfulPoint Q] {K C D : ℕ}

/-- **C99**: rotations and scalings about the origin scale the result. -/
theorem C99_similarity_partial {f : P → Q} (hf : IsLinearMap f) {r : ℝ}
    (hr : ∀ p q, pdist (f p) (f q) = r * pdist p q) {knots : Arr ℝ K} {ps : Arr P C}
    {b : BSpline ℝ P K C D} (h : BSpline.new knots ps = .ok b) :
    ∃ b' : BSpline ℝ Q K C D, BSpline.new knots (fun i => f (ps i)) = .ok b' ∧
      ∀ n, b'.arclen n = (b.arclen n).map fun x => r * x := by
  obtain ⟨v, rfl⟩ := (new_ok_iff _ _ _).1 h
  refine ⟨_, (new_ok_iff _ _ _).2 ⟨v, rfl⟩, fun n => ?_⟩
  set b : BSpline ℝ P K C D := ⟨knots, kindOf D knots, ps⟩ with hb
  show (b.mapPts f).arclen n = _
  unfold BSpline.arclen
  have hd : (b.mapPts f).knotDomain = b.knotDomain := rfl
  simp only [hd, Option.bind_eq_bind, evalOrDefault_map (linear_respects hf).1]
  rcases b.knotDomain with _ | ⟨lo, hi⟩
  · rfl
  simp only [Option.bind_some]
  unfold forRange
  have key : ∀ (l : List ℕ) (s : ℝ),
      l.foldlM (fun s i => ((b.evalOrDefault (lo + Scalar.ofUsize i / Scalar.ofUsize n
          * (hi - lo))).map f).bind fun p1 => ((b.evalOrDefault (lo + Scalar.ofUsize i
          / Scalar.ofUsize n * (hi - lo) + lit 1 / Scalar.ofUsize n)).map f).bind fun p2 =>
          (pure (s + Scalar.sqrt (Point.squaredLength (p1 - p2))) : Option ℝ)) (r * s)
        = (l.foldlM (fun s i => (b.evalOrDefault (lo + Scalar.ofUsize i / Scalar.ofUsize n
          * (hi - lo))).bind fun p1 => (b.evalOrDefault (lo + Scalar.ofUsize i
          / Scalar.ofUsize n * (hi - lo) + lit 1 / Scalar.ofUsize n)).bind fun p2 =>
          (pure (s + Scalar.sqrt (Point.squaredLength (p1 - p2))) : Option ℝ)) s).map
            fun x => r * x := by
    intro l
    induction l with
    | nil => intro s; rfl
    | cons i l ih =>
      intro s
      simp only [List.foldlM_cons, Option.bind_eq_bind]
      rcases b.evalOrDefault (lo + Scalar.ofUsize i / Scalar.ofUsize n * (hi - lo)) with _ | p
      · rfl
      simp only [Option.map_some, Option.bind_some]
      rcases b.evalOrDefault (lo + Scalar.ofUsize i / Scalar.ofUsize n * (hi - lo)
        + lit 1 / Scalar.ofUsize n) with _ | q
      · rfl
      simp only [Option.map_some, Option.bind_some]
      have e : Scalar.sqrt (Point.squaredLength (f p - f q) : ℝ)
          = r * Scalar.sqrt (Point.squaredLength (p - q) : ℝ) := by
        have := hr p q
        rw [← sqrt_squaredLength_sub, ← sqrt_squaredLength_sub] at this
        exact this
      have e2 : r * s + Scalar.sqrt (Point.squaredLength (f p - f q) : ℝ)
          = r * (s + Scalar.sqrt (Point.squaredLength (p - q) : ℝ)) := by rw [e]; ring
      simp only [Option.pure_def, Option.bind_some, e2]
      exact ih _
  have := key (List.range' 0 (n + 1 - 0)) 0
  rw [mul_zero] at this
  have l0 : (lit 0 : ℝ) = 0 := by simp [lit_real]
  rw [l0]
  exact this

end

/-- **C99** is false of the code for translations: moving both control points of a straight
spline by 2 changes `arclen` from 20 to 22. -/
theorem C99_translation_false : ¬ ∀ (knots : Arr ℝ 4) (ps : Arr (PointN ℝ 1) 2) (v : PointN ℝ 1)
    (b b' : BSpline ℝ (PointN ℝ 1) 4 2 1), BSpline.new knots ps = .ok b →
    BSpline.new knots (fun i => ps i + v) = .ok b' → ∀ n, b'.arclen n = b.arclen n := by
  intro h
  obtain ⟨⟨b, hb, e⟩, ⟨b', hb', e'⟩⟩ := C53_false
  have hp : (fun i => (![p1 0, p1 10] : Arr (PointN ℝ 1) 2) i + p1 2) = ![p1 2, p1 12] := by
    funext i
    have key : ∀ a c : ℝ, (p1 a + p1 c : PointN ℝ 1) = p1 (a + c) := fun a c => rfl
    fin_cases i
    · exact (key 0 2).trans (by norm_num)
    · exact (key 10 2).trans (by norm_num)
  have := h _ _ (p1 2) b b' hb (by rw [hp]; exact hb') 1
  rw [e, e'] at this
  norm_num at this

/-! ### Floats -/

section
variable {F : FloatFormat} {m K C D : ℕ}

/-- NaN, `+∞` or a number that is not negative. -/
def NotNegative (x : Fl F) : Prop := x = nan ∨ x = inf false ∨ ∃ r h, 0 ≤ r ∧ x = fin r h

theorem notNegative_round {x : ℝ} (hx : 0 ≤ x) : NotNegative (F.round x) := by
  unfold FloatFormat.round
  split_ifs with h
  · exact Or.inr (Or.inr ⟨_, ⟨F.rnd_mem x, h⟩, F.rnd_nonneg hx, rfl⟩)
  · right; left; rw [decide_eq_false (not_lt.2 hx)]

theorem notNegative_sqrt (x : Fl F) : NotNegative (Scalar.sqrt x) := by
  cases x with
  | nan => exact Or.inl rfl
  | inf s => cases s; exacts [Or.inr (Or.inl rfl), Or.inl rfl]
  | fin r h =>
    show NotNegative (if r < 0 then nan else F.round (Real.sqrt r))
    split_ifs
    · exact Or.inl rfl
    · exact notNegative_round (Real.sqrt_nonneg r)

theorem notNegative_add {x y : Fl F} (hx : NotNegative x) (hy : NotNegative y) :
    NotNegative (x + y) := by
  rcases hx with rfl | rfl | ⟨a, ha, a0, rfl⟩
  · exact Or.inl rfl
  · rcases hy with rfl | rfl | ⟨b, hb, b0, rfl⟩
    · exact Or.inl rfl
    · right; left; show (if false = false then inf false else nan) = _; simp
    · exact Or.inr (Or.inl rfl)
  · rcases hy with rfl | rfl | ⟨b, hb, b0, rfl⟩
    · exact Or.inl rfl
    · exact Or.inr (Or.inl rfl)
    · rw [fin_add]; exact notNegative_round (add_nonneg a0 b0)

/-- **C99** (floats): for a spline clamped at both ends, `arclen` never panics, whatever the
number of steps and the control points, and its result is NaN, `+∞` or not negative. -/
theorem C99_total {knots : Arr (Fl F) K} {ps : Arr (PointN (Fl F) m) C}
    {b : BSpline (Fl F) (PointN (Fl F) m) K C D}
    (h : BSpline.new knots ps = .ok b) (hk : FiniteKnots knots) (hf : ClampedFront D knots)
    (hb : ClampedBack D knots)
    (hspan : ∀ i j : Fin K, (knots j).toReal - (knots i).toReal ≤ F.max) (n : ℕ) :
    ∃ r, b.arclen n = some r ∧
      (r = nan ∨ r = inf false ∨ (r.IsFinite ∧ 0 ≤ r.toReal)) := by
  obtain ⟨lo, hi, hd, hin⟩ := C47_float_clamped h hk hf hb hspan
  obtain ⟨lo', hi', hd', _, hout⟩ := C46_float h hk
  rw [hd, Option.some.injEq, Prod.mk.injEq] at hd'
  obtain ⟨rfl, rfl⟩ := hd'
  have hev : ∀ t, ∃ p, b.evalOrDefault t = some p := by
    intro t
    unfold BSpline.evalOrDefault
    by_cases ht : (Scalar.le lo t && Scalar.le t hi) = true
    · rw [Bool.and_eq_true] at ht
      obtain ⟨q, e⟩ := hin t ht.1 ht.2
      exact ⟨q, by rw [e]⟩
    · exact ⟨_, by rw [hout t (by simpa using ht)]⟩
  unfold BSpline.arclen
  simp only [hd, Option.bind_eq_bind, Option.bind_some]
  obtain ⟨r, e, hr⟩ := forRange_inv (m := Option) (fun _ s => NotNegative (F := F) s)
    (lo := 0) (hi := n + 1) (s := lit 0)
    (body := fun i s => (b.evalOrDefault (lo + Scalar.ofUsize i / Scalar.ofUsize n
      * (hi - lo))).bind fun p1 => (b.evalOrDefault (lo + Scalar.ofUsize i / Scalar.ofUsize n
      * (hi - lo) + lit 1 / Scalar.ofUsize n)).bind fun p2 =>
      pure (s + Scalar.sqrt (Point.squaredLength (p1 - p2))))
    (Nat.zero_le _) (Or.inr (Or.inr ⟨0, F.zero_ok, le_rfl, lit_zero⟩)) (by
      intro i s _ _ hs
      obtain ⟨p, hp⟩ := hev (lo + Scalar.ofUsize i / Scalar.ofUsize n * (hi - lo))
      obtain ⟨q, hq⟩ := hev (lo + Scalar.ofUsize i / Scalar.ofUsize n * (hi - lo)
        + lit 1 / Scalar.ofUsize n)
      exact ⟨_, by rw [hp, Option.bind_some, hq, Option.bind_some],
        notNegative_add hs (notNegative_sqrt _)⟩)
  refine ⟨r, e, ?_⟩
  rcases hr with hr | hr | ⟨x, hx, x0, rfl⟩
  · exact Or.inl hr
  · exact Or.inr (Or.inl hr)
  · exact Or.inr (Or.inr ⟨trivial, x0⟩)

theorem squaredLength_default_sub :
    (Point.squaredLength ((Point.default : PointN (Fl F) m) - Point.default) : Fl F)
      = fin 0 F.zero_ok := by
  have key : ∀ l : List (Fin m), (l.foldl (fun (d : Fl F) _ => d
      + ((lit 0 : Fl F) - lit 0) * ((lit 0 : Fl F) - lit 0)) (fin 0 F.zero_ok))
      = fin 0 F.zero_ok := by
    intro l
    induction l with
    | nil => rfl
    | cons i l ih =>
      rw [List.foldl_cons, lit_zero, fin_sub, sub_zero, F.round_of_mem F.zero_ok, fin_mul, mul_zero,
        F.round_of_mem F.zero_ok, fin_add, add_zero, F.round_of_mem F.zero_ok]
      simpa [lit_zero, fin_sub, fin_mul, fin_add, F.round_of_mem F.zero_ok] using ih
  have := key (List.finRange m)
  rw [← lit_zero] at this
  exact this.trans lit_zero

theorem sqrt_zero' : (Scalar.sqrt (fin 0 F.zero_ok : Fl F)) = fin 0 F.zero_ok := by
  show (if (0 : ℝ) < 0 then nan else F.round (Real.sqrt 0)) = _
  rw [if_neg (lt_irrefl _), Real.sqrt_zero, F.round_of_mem F.zero_ok]

/-- **C99** (floats): with no steps the parameter is 0/0, every evaluation fails and the result
is 0, for every spline with finite knots. -/
theorem C99_no_steps {knots : Arr (Fl F) K} {ps : Arr (PointN (Fl F) m) C}
    {b : BSpline (Fl F) (PointN (Fl F) m) K C D}
    (h : BSpline.new knots ps = .ok b) (hk : FiniteKnots knots) :
    b.arclen 0 = some (lit 0) := by
  obtain ⟨lo, hi, hd, _, hout⟩ := C46_float h hk
  have hn : b.evalOrDefault nan = some Point.default := by
    unfold BSpline.evalOrDefault
    rw [hout nan (by simp)]
  have h0 : (Scalar.ofUsize 0 : Fl F) / Scalar.ofUsize 0 = nan := by
    have e : (Scalar.ofUsize 0 : Fl F) = fin 0 F.zero_ok := by
      show F.round ((0 : ℕ) : ℝ) = _
      rw [Nat.cast_zero]; exact F.round_of_mem F.zero_ok
    rw [e]
    show (if (0 : ℝ) = 0 then (if (0 : ℝ) = 0 then nan else inf (decide ((0 : ℝ) < 0)))
      else F.round (0 / 0)) = nan
    simp
  have e1 : lo + (nan : Fl F) * (hi - lo) = nan := by
    have : (nan : Fl F) * (hi - lo) = nan := by cases (hi - lo) <;> rfl
    rw [this]; cases lo <;> rfl
  have e2 : ∀ x : Fl F, (nan : Fl F) + x = nan := fun x => by cases x <;> rfl
  unfold BSpline.arclen
  simp only [hd, Option.bind_eq_bind, Option.bind_some]
  rw [forRange_first (by norm_num), h0, e1, e2, hn]
  simp only [Option.bind_some, Option.pure_def, Option.bind_eq_bind]
  rw [forRange_empty (by norm_num), squaredLength_default_sub, sqrt_zero', lit_zero, fin_add,
    add_zero, F.round_of_mem F.zero_ok]
  rfl

/-- A spline with repeated end knots, whose control points are all NaN, meets the hypotheses of
C99_total and C99_no_steps. -/
example : ∃ (b : BSpline (Fl F) (PointN (Fl F) 2) 5 3 1), b.arclen 0 = some (lit 0) ∧
    ∃ r, b.arclen 7 = some r := by
  obtain ⟨knots, b, h, hk, hf, hb, hs, -⟩ := clamped_float_witness (F := F)
  obtain ⟨r, hr, _⟩ := C99_total h hk hf hb hs 7
  exact ⟨b, C99_no_steps h hk, r, hr⟩

end

/-- Scaling the straight spline from 0 to 10 by -3 triples its `arclen` of 20. -/
example : ∃ b : BSpline ℝ (PointN ℝ 1) 4 2 1,
    BSpline.new ![0, 0, 1, 1] (fun i => (![p1 0, p1 10] : Arr (PointN ℝ 1) 2) i * (-3 : ℝ)) = .ok b ∧
      b.arclen 1 = some (60 : ℝ) := by
  obtain ⟨⟨b, hb, e⟩, _⟩ := C53_false
  obtain ⟨b', hb', e'⟩ := C99_similarity_partial (f := fun p : PointN ℝ 1 => p * (-3 : ℝ)) (r := 3)
    (fun i => ⟨fun j => if j = i then -3 else 0, fun p => by
      rw [coord_mul]
      by_cases hi : i < Point.dim (PointN ℝ 1)
      · simp [hi, mul_comm]
      · simp [hi, coord_out p hi]⟩)
    (fun p q => by
      rw [pdist_eq_norm, pdist_eq_norm, toE_mul, toE_mul, ← smul_sub, norm_smul]
      norm_num) hb
  refine ⟨b', hb', ?_⟩
  rw [e', e]
  norm_num

end Stroke
