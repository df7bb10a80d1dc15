import Verif.Props.Culling
import Verif.Props.Lipschitz
import Verif.Props.Subdivision

/-!
# Intersecting curves by subdivision (C120)

The usual program on top of `bounding_box` and `split(0.5)`: discard a pair of curves whose boxes
are apart, otherwise halve both and try the four pairs of halves, to a fixed depth.
-/

namespace Stroke

section General

variable {P : Type} [Point ℝ P] {Q R : Type}

/-- The boxes overlap on every axis, up to the margin `m`. -/
def Overlap {d : ℕ} (m : ℝ) (b b' : Arr (ℝ × ℝ) d) : Prop :=
  ∀ i, (b i).1 ≤ (b' i).2 + m ∧ (b' i).1 ≤ (b i).2 + m

/-- The boxes of the two curves overlap up to the margin `m`. -/
def Touch {d : ℕ} (box : Q → Option (Arr (ℝ × ℝ) d)) (box' : R → Option (Arr (ℝ × ℝ) d)) (m : ℝ)
    (q : Q) (r : R) : Prop :=
  ∃ b b', box q = some b ∧ box' r = some b' ∧ Overlap m b b'

open Classical in
/-- The pairs `(i, j)` of pieces of depth `n` that a subdivision intersector reports: piece `i` of
the first curve covers the parameters `i/2^n` to `(i+1)/2^n`. -/
noncomputable def intersect {d : ℕ} (split : Q → Q × Q) (split' : R → R × R)
    (box : Q → Option (Arr (ℝ × ℝ) d)) (box' : R → Option (Arr (ℝ × ℝ) d)) (m : ℝ) :
    ℕ → Q → R → List (ℕ × ℕ)
  | 0, q, r => if Touch box box' m q r then [(0, 0)] else []
  | n + 1, q, r =>
    if Touch box box' m q r then
      intersect split split' box box' m n (split q).1 (split' r).1 ++
      (intersect split split' box box' m n (split q).1 (split' r).2).map
        (fun p => (p.1, p.2 + 2 ^ n)) ++
      (intersect split split' box box' m n (split q).2 (split' r).1).map
        (fun p => (p.1 + 2 ^ n, p.2)) ++
      (intersect split split' box box' m n (split q).2 (split' r).2).map
        (fun p => (p.1 + 2 ^ n, p.2 + 2 ^ n))
    else []

variable {split : Q → Q × Q} {split' : R → R × R} {eval : Q → ℝ → P} {eval' : R → ℝ → P}
  {box : Q → Option (Arr (ℝ × ℝ) (Point.dim P))} {box' : R → Option (Arr (ℝ × ℝ) (Point.dim P))}
  {m : ℝ}

/-- No common point is lost. -/
theorem intersect_complete
    (h1 : ∀ q s, eval (split q).1 s = eval q (s / 2))
    (h2 : ∀ q s, eval (split q).2 s = eval q ((1 + s) / 2))
    (h1' : ∀ q s, eval' (split' q).1 s = eval' q (s / 2))
    (h2' : ∀ q s, eval' (split' q).2 s = eval' q ((1 + s) / 2))
    (ht : ∀ q r s t, 0 ≤ s → s ≤ 1 → 0 ≤ t → t ≤ 1 → eval q s = eval' r t → Touch box box' m q r)
    (n : ℕ) : ∀ (q : Q) (r : R) (s t : ℝ), 0 ≤ s → s ≤ 1 → 0 ≤ t → t ≤ 1 →
      eval q s = eval' r t → ∃ i j, (i, j) ∈ intersect split split' box box' m n q r ∧
        ((i : ℝ) ≤ 2 ^ n * s ∧ 2 ^ n * s ≤ i + 1) ∧ (j : ℝ) ≤ 2 ^ n * t ∧ 2 ^ n * t ≤ j + 1 := by
  induction n with
  | zero =>
    intro q r s t s0 s1 t0 t1 e
    refine ⟨0, 0, ?_, ?_⟩
    · rw [intersect, if_pos (ht q r s t s0 s1 t0 t1 e)]
      simp
    · simp only [pow_zero, one_mul, Nat.cast_zero, zero_add]
      exact ⟨⟨s0, s1⟩, t0, t1⟩
  | succ n ih =>
    intro q r s t s0 s1 t0 t1 e
    rw [intersect, if_pos (ht q r s t s0 s1 t0 t1 e)]
    have hp : (0 : ℝ) < 2 ^ n := by positivity
    rcases le_total s (1 / 2) with hs | hs <;> rcases le_total t (1 / 2) with ht' | ht'
    · obtain ⟨i, j, hm, hi, hj⟩ := ih (split q).1 (split' r).1 (2 * s) (2 * t) (by linarith)
        (by linarith) (by linarith) (by linarith) (by
          rw [h1, h1', mul_div_cancel_left₀ _ two_ne_zero, mul_div_cancel_left₀ _ two_ne_zero, e])
      refine ⟨i, j, by simp [hm], ?_⟩
      rw [pow_succ, mul_assoc, mul_assoc]
      exact ⟨hi, hj⟩
    · obtain ⟨i, j, hm, hi, hj⟩ := ih (split q).1 (split' r).2 (2 * s) (2 * t - 1) (by linarith)
        (by linarith) (by linarith) (by linarith) (by
          rw [h1, h2', mul_div_cancel_left₀ _ two_ne_zero, add_sub_cancel,
            mul_div_cancel_left₀ _ two_ne_zero, e])
      refine ⟨i, j + 2 ^ n, ?_, ?_⟩
      · simp only [List.mem_append, List.mem_map]
        exact Or.inl (Or.inl (Or.inr ⟨_, hm, rfl⟩))
      · rw [pow_succ, mul_assoc, mul_assoc]
        push_cast
        exact ⟨hi, by linarith [hj.1], by linarith [hj.2]⟩
    · obtain ⟨i, j, hm, hi, hj⟩ := ih (split q).2 (split' r).1 (2 * s - 1) (2 * t) (by linarith)
        (by linarith) (by linarith) (by linarith) (by
          rw [h2, h1', mul_div_cancel_left₀ _ two_ne_zero, add_sub_cancel,
            mul_div_cancel_left₀ _ two_ne_zero, e])
      refine ⟨i + 2 ^ n, j, ?_, ?_⟩
      · simp only [List.mem_append, List.mem_map]
        exact Or.inl (Or.inr ⟨_, hm, rfl⟩)
      · rw [pow_succ, mul_assoc, mul_assoc]
        push_cast
        exact ⟨⟨by linarith [hi.1], by linarith [hi.2]⟩, hj⟩
    · obtain ⟨i, j, hm, hi, hj⟩ := ih (split q).2 (split' r).2 (2 * s - 1) (2 * t - 1)
        (by linarith) (by linarith) (by linarith) (by linarith) (by
          rw [h2, h2', add_sub_cancel, add_sub_cancel, mul_div_cancel_left₀ _ two_ne_zero,
            mul_div_cancel_left₀ _ two_ne_zero, e])
      refine ⟨i + 2 ^ n, j + 2 ^ n, ?_, ?_⟩
      · simp only [List.mem_append, List.mem_map]
        exact Or.inr ⟨_, hm, rfl⟩
      · rw [pow_succ, mul_assoc, mul_assoc]
        push_cast
        exact ⟨⟨by linarith [hi.1], by linarith [hi.2]⟩, by linarith [hj.1], by linarith [hj.2]⟩

/-- Every reported pair is a pair of pieces whose boxes overlap. -/
theorem intersect_pieces
    (h1 : ∀ q s, eval (split q).1 s = eval q (s / 2))
    (h2 : ∀ q s, eval (split q).2 s = eval q ((1 + s) / 2))
    (h1' : ∀ q s, eval' (split' q).1 s = eval' q (s / 2))
    (h2' : ∀ q s, eval' (split' q).2 s = eval' q ((1 + s) / 2))
    (n : ℕ) : ∀ (q : Q) (r : R), ∀ i j, (i, j) ∈ intersect split split' box box' m n q r →
      i < 2 ^ n ∧ j < 2 ^ n ∧ ∃ p p', (∀ u : ℝ, eval p u = eval q ((i + u) / 2 ^ n)) ∧
        (∀ u : ℝ, eval' p' u = eval' r ((j + u) / 2 ^ n)) ∧ Touch box box' m p p' := by
  induction n with
  | zero =>
    intro q r i j h
    rw [intersect] at h
    split_ifs at h with ht
    · simp only [List.mem_singleton, Prod.mk.injEq] at h
      obtain ⟨rfl, rfl⟩ := h
      exact ⟨by simp, by simp, q, r, by simp, by simp, ht⟩
    · simp at h
  | succ n ih =>
    intro q r i j h
    rw [intersect] at h
    split_ifs at h with ht
    swap
    · simp at h
    have hp : (2 : ℝ) ^ n ≠ 0 := by positivity
    have hN : (2 : ℕ) ^ (n + 1) = 2 ^ n + 2 ^ n := by rw [pow_succ]; ring
    have a1 : ∀ (k : ℕ) (u : ℝ), ((k : ℝ) + u) / 2 ^ n / 2 = (k + u) / 2 ^ (n + 1) := by
      intro k u
      rw [pow_succ]; field_simp
    have a2 : ∀ (k : ℕ) (u : ℝ), (1 + ((k : ℝ) + u) / 2 ^ n) / 2
        = (((k + 2 ^ n : ℕ) : ℝ) + u) / 2 ^ (n + 1) := by
      intro k u
      rw [pow_succ]; push_cast; field_simp; ring
    simp only [List.mem_append, List.mem_map, Prod.mk.injEq] at h
    rcases h with ((h | ⟨⟨i', j'⟩, h, rfl, rfl⟩) | ⟨⟨i', j'⟩, h, rfl, rfl⟩) |
      ⟨⟨i', j'⟩, h, rfl, rfl⟩
    · obtain ⟨hi, hj, p, p', e, e', hT⟩ := ih _ _ _ _ h
      exact ⟨by omega, by omega, p, p', fun u => by rw [e, h1, a1], fun u => by rw [e', h1', a1],
        hT⟩
    · obtain ⟨hi, hj, p, p', e, e', hT⟩ := ih _ _ _ _ h
      exact ⟨by simp only; omega, by simp only; omega, p, p', fun u => by rw [e, h1, a1],
        fun u => by rw [e', h2', a2], hT⟩
    · obtain ⟨hi, hj, p, p', e, e', hT⟩ := ih _ _ _ _ h
      exact ⟨by simp only; omega, by simp only; omega, p, p', fun u => by rw [e, h2, a2],
        fun u => by rw [e', h1', a1], hT⟩
    · obtain ⟨hi, hj, p, p', e, e', hT⟩ := ih _ _ _ _ h
      exact ⟨by simp only; omega, by simp only; omega, p, p', fun u => by rw [e, h2, a2],
        fun u => by rw [e', h2', a2], hT⟩

end General

section Curves

variable {P : Type} [Point ℝ P] {Q R : Type} {eval : Q → ℝ → P} {eval' : R → ℝ → P}
  {box : Q → Option (Arr (ℝ × ℝ) (Point.dim P))} {box' : R → Option (Arr (ℝ × ℝ) (Point.dim P))}
  {m : ℝ}

variable [LawfulPoint P]

/-- Curves with a common point have boxes that overlap. -/
theorem touch_of_meet (hm : 2 * eps / 3 ≤ m)
    (hq : ∀ q, ∃ b, box q = some b ∧ HasBox (eval q) b)
    (hr : ∀ r, ∃ b, box' r = some b ∧ HasBox (eval' r) b)
    (q : Q) (r : R) (s t : ℝ) (s0 : 0 ≤ s) (s1 : s ≤ 1) (t0 : 0 ≤ t) (t1 : t ≤ 1)
    (e : eval q s = eval' r t) : Touch box box' m q r := by
  obtain ⟨b, hb, hf⟩ := hq q
  obtain ⟨b', hb', hg⟩ := hr r
  refine ⟨b, b', hb, hb', fun i => ⟨?_, ?_⟩⟩
  · by_contra hc
    exact C103_disjoint hg hf i (by linarith) t0 t1 s0 s1 e.symm
  · by_contra hc
    exact C103_disjoint hf hg i (by linarith) s0 s1 t0 t1 e

theorem abs_coord_le (p q : P) (i : Fin (Point.dim P)) : |coord p i - coord q i| ≤ pdist p q := by
  unfold pdist
  rw [← Real.sqrt_sq_eq_abs]
  refine Real.sqrt_le_sqrt ?_
  exact Finset.single_le_sum (f := fun k => (coord p k - coord q k) ^ 2)
    (fun k _ => sq_nonneg _) (Finset.mem_range.2 i.2)

/-- Overlapping boxes of two short pieces: any two points of the pieces are close. -/
theorem close_of_touch {f g F G : ℝ → P} {b b' : Arr (ℝ × ℝ) (Point.dim P)} {n a c : ℕ}
    {A B : ℝ} (hf : HasBox f b) (hg : HasBox g b') (hT : Overlap m b b')
    (ha : a < 2 ^ n) (hc : c < 2 ^ n)
    (ef : ∀ u : ℝ, f u = F ((a + u) / 2 ^ n)) (eg : ∀ u : ℝ, g u = G ((c + u) / 2 ^ n))
    (LF : ∀ s t : ℝ, 0 ≤ s → s ≤ t → t ≤ 1 → pdist (F s) (F t) ≤ A * (t - s))
    (LG : ∀ s t : ℝ, 0 ≤ s → s ≤ t → t ≤ 1 → pdist (G s) (G t) ≤ B * (t - s))
    (A0 : 0 ≤ A) (B0 : 0 ≤ B)
    {s t : ℝ} (hs : (a : ℝ) ≤ 2 ^ n * s ∧ 2 ^ n * s ≤ a + 1)
    (ht : (c : ℝ) ≤ 2 ^ n * t ∧ 2 ^ n * t ≤ c + 1) (i : Fin (Point.dim P)) :
    |coord (F s) i - coord (G t) i| ≤ (A + B) / 2 ^ n + m := by
  have hp : (0 : ℝ) < 2 ^ n := by positivity
  -- a curve of speed at most `A` moves at most `A / 2^n` along a piece
  have key : ∀ (H : ℝ → P) (k : ℕ) (D : ℝ), k < 2 ^ n → 0 ≤ D →
      (∀ s t : ℝ, 0 ≤ s → s ≤ t → t ≤ 1 → pdist (H s) (H t) ≤ D * (t - s)) →
      ∀ x y : ℝ, ((k : ℝ) ≤ 2 ^ n * x ∧ 2 ^ n * x ≤ k + 1) →
        ((k : ℝ) ≤ 2 ^ n * y ∧ 2 ^ n * y ≤ k + 1) → x ≤ y →
        |coord (H x) i - coord (H y) i| ≤ D / 2 ^ n := by
    intro H k D hk D0 L x y hx hy hxy
    have k0 : (0 : ℝ) ≤ k := Nat.cast_nonneg k
    have k1 : (k : ℝ) + 1 ≤ 2 ^ n := by exact_mod_cast hk
    have x0 : 0 ≤ x := by
      by_contra hc; nlinarith [hx.1]
    have y1 : y ≤ 1 := by
      by_contra hc; nlinarith [hy.2]
    refine ((abs_coord_le _ _ i).trans (L x y x0 hxy y1)).trans ?_
    rw [le_div_iff₀ hp]
    have : 2 ^ n * (y - x) ≤ 1 := by nlinarith [hx.1, hy.2]
    nlinarith
  have key2 : ∀ (H : ℝ → P) (k : ℕ) (D : ℝ), k < 2 ^ n → 0 ≤ D →
      (∀ s t : ℝ, 0 ≤ s → s ≤ t → t ≤ 1 → pdist (H s) (H t) ≤ D * (t - s)) →
      ∀ x y : ℝ, ((k : ℝ) ≤ 2 ^ n * x ∧ 2 ^ n * x ≤ k + 1) →
        ((k : ℝ) ≤ 2 ^ n * y ∧ 2 ^ n * y ≤ k + 1) →
        |coord (H x) i - coord (H y) i| ≤ D / 2 ^ n := by
    intro H k D hk D0 L x y hx hy
    rcases le_total x y with h | h
    · exact key H k D hk D0 L x y hx hy h
    · rw [abs_sub_comm]; exact key H k D hk D0 L y x hy hx h
  have par : ∀ (k : ℕ) (u : ℝ), 0 ≤ u → u ≤ 1 →
      ((k : ℝ) ≤ 2 ^ n * ((k + u) / 2 ^ n) ∧ 2 ^ n * ((k + u) / 2 ^ n) ≤ k + 1) := by
    intro k u u0 u1
    rw [mul_div_cancel₀ _ hp.ne']
    exact ⟨by linarith, by linarith⟩
  obtain ⟨⟨u, u0, u1, eu⟩, v, v0, v1, ev⟩ := (hf.attains i).1
  obtain ⟨⟨u', u0', u1', eu'⟩, v', v0', v1', ev'⟩ := (hg.attains i).1
  simp only [ef] at eu ev
  simp only [eg] at eu' ev'
  have k1 := key2 F a A ha A0 LF s _ hs (par a u u0 u1)
  have k2 := key2 F a A ha A0 LF s _ hs (par a v v0 v1)
  have k3 := key2 G c B hc B0 LG t _ ht (par c u' u0' u1')
  have k4 := key2 G c B hc B0 LG t _ ht (par c v' v0' v1')
  rw [eu] at k1; rw [ev] at k2; rw [eu'] at k3; rw [ev'] at k4
  obtain ⟨o1, o2⟩ := hT i
  rw [abs_le] at k1 k2 k3 k4 ⊢
  rw [add_div]
  constructor <;> linarith [k1.1, k1.2, k2.1, k2.2, k3.1, k3.2, k4.1, k4.2]

theorem quadratic_hasBox (q : QuadraticBezier P) :
    ∃ b, q.boundingBox = some b ∧ HasBox (fun t => q.eval t) b := by
  obtain ⟨b, h, _⟩ := C13_contains q
  exact ⟨b, h, Or.inr (Or.inl ⟨q, h, rfl⟩)⟩

theorem cubic_hasBox (q : CubicBezier P) :
    ∃ b, q.boundingBox = some b ∧ HasBox (fun t => q.eval t) b := by
  obtain ⟨b, h, _⟩ := C24_contains q
  exact ⟨b, h, Or.inr (Or.inr ⟨q, h, rfl⟩)⟩

theorem QuadraticBezier.leg_nonneg (q : QuadraticBezier P) : 0 ≤ q.leg :=
  (Real.sqrt_nonneg _).trans (le_max_left _ _)

theorem CubicBezier.leg_nonneg (q : CubicBezier P) : 0 ≤ q.leg :=
  (Real.sqrt_nonneg _).trans (le_max_left _ _)

theorem QuadraticBezier.speed_le (q : QuadraticBezier P) (s t : ℝ) (h0 : 0 ≤ s) (hst : s ≤ t)
    (h1 : t ≤ 1) : pdist (q.eval s) (q.eval t) ≤ 2 * q.leg * (t - s) :=
  (C73_specialised ⟨q.start, q.start⟩ q ⟨q.start, q.start, q.start, q.start⟩ s t h0 hst h1).2.1 _
    (le_max_left _ _) (le_max_right _ _)

theorem CubicBezier.speed_le (c : CubicBezier P) (s t : ℝ) (h0 : 0 ≤ s) (hst : s ≤ t)
    (h1 : t ≤ 1) : pdist (c.eval s) (c.eval t) ≤ 3 * c.leg * (t - s) :=
  (C73_specialised ⟨c.start, c.start⟩ ⟨c.start, c.start, c.start⟩ c s t h0 hst h1).2.2 _
    (le_max_left _ _) ((le_max_left _ _).trans (le_max_right _ _))
    ((le_max_right _ _).trans (le_max_right _ _))

theorem grid_point {n i : ℕ} (h : i < 2 ^ n) : 0 ≤ (i : ℝ) / 2 ^ n ∧ (i : ℝ) / 2 ^ n ≤ 1 ∧
    ((i : ℝ) ≤ 2 ^ n * ((i : ℝ) / 2 ^ n) ∧ 2 ^ n * ((i : ℝ) / 2 ^ n) ≤ i + 1) := by
  have hp : (0 : ℝ) < 2 ^ n := by positivity
  have hi : (i : ℝ) ≤ 2 ^ n := by exact_mod_cast h.le
  refine ⟨by positivity, (div_le_one hp).2 hi, ?_⟩
  rw [mul_div_cancel₀ _ hp.ne']
  exact ⟨le_rfl, by linarith⟩

/-- **C120**, two quadratic curves: a common point is never lost. Whatever the depth, some reported pair
of pieces contains it. -/
theorem C120_complete_quadratics (q : QuadraticBezier P) (r : QuadraticBezier P) (n : ℕ) (hm : 2 * eps / 3 ≤ m)
    {s t : ℝ} (s0 : 0 ≤ s) (s1 : s ≤ 1) (t0 : 0 ≤ t) (t1 : t ≤ 1) (e : q.eval s = r.eval t) :
    ∃ i j, (i, j) ∈ intersect QuadraticBezier.halve QuadraticBezier.halve QuadraticBezier.boundingBox
        QuadraticBezier.boundingBox m n q r ∧
      ((i : ℝ) ≤ 2 ^ n * s ∧ 2 ^ n * s ≤ i + 1) ∧ (j : ℝ) ≤ 2 ^ n * t ∧ 2 ^ n * t ≤ j + 1 :=
  intersect_complete (eval := fun (q : QuadraticBezier P) (s : ℝ) => q.eval s)
    (eval' := fun (q : QuadraticBezier P) (s : ℝ) => q.eval s)
    (fun q s => (q.halve_eval s).1) (fun q s => (q.halve_eval s).2)
    (fun q s => (q.halve_eval s).1) (fun q s => (q.halve_eval s).2)
    (touch_of_meet hm (fun q => quadratic_hasBox q) (fun q => quadratic_hasBox q)) n q r s t s0 s1 t0 t1 e

/-- **C120**, two quadratic curves: whatever is reported is nearly an intersection. All points of the two
pieces agree on every axis up to the margin and a bound that halves with every level. -/
theorem C120_sound_quadratics (q : QuadraticBezier P) (r : QuadraticBezier P) (n : ℕ) {i j : ℕ}
    (h : (i, j) ∈ intersect QuadraticBezier.halve QuadraticBezier.halve QuadraticBezier.boundingBox
      QuadraticBezier.boundingBox m n q r) :
    i < 2 ^ n ∧ j < 2 ^ n ∧ ∀ s t : ℝ, ((i : ℝ) ≤ 2 ^ n * s ∧ 2 ^ n * s ≤ i + 1) →
      ((j : ℝ) ≤ 2 ^ n * t ∧ 2 ^ n * t ≤ j + 1) → ∀ k : Fin (Point.dim P),
      |coord (q.eval s) k - coord (r.eval t) k| ≤ (2 * q.leg + 2 * r.leg) / 2 ^ n + m := by
  obtain ⟨hi, hj, p, p', e, e', b, b', hb, hb', hT⟩ := intersect_pieces
    (eval := fun (q : QuadraticBezier P) (s : ℝ) => q.eval s)
    (eval' := fun (q : QuadraticBezier P) (s : ℝ) => q.eval s)
    (fun q s => (q.halve_eval s).1) (fun q s => (q.halve_eval s).2)
    (fun q s => (q.halve_eval s).1) (fun q s => (q.halve_eval s).2) n q r i j h
  obtain ⟨c, hc, hB⟩ := quadratic_hasBox p
  obtain ⟨c', hc', hB'⟩ := quadratic_hasBox p'
  rw [hb] at hc
  rw [hb'] at hc'
  obtain rfl := Option.some.inj hc
  obtain rfl := Option.some.inj hc'
  refine ⟨hi, hj, fun s t hs ht k => ?_⟩
  exact close_of_touch (F := fun s => q.eval s) (G := fun s => r.eval s) hB hB' hT hi hj e e'
    (q.speed_le) (r.speed_le) (mul_nonneg (by norm_num) q.leg_nonneg)
    (mul_nonneg (by norm_num) r.leg_nonneg) hs ht k

/-- **C120**, two quadratic curves: an empty report means that the curves do not meet; and curves that stay
apart are reported as such from some depth on. -/
theorem C120_decide_quadratics (q : QuadraticBezier P) (r : QuadraticBezier P) (n : ℕ) :
    (2 * eps / 3 ≤ m → intersect QuadraticBezier.halve QuadraticBezier.halve QuadraticBezier.boundingBox
        QuadraticBezier.boundingBox m n q r = [] →
      ∀ s t : ℝ, 0 ≤ s → s ≤ 1 → 0 ≤ t → t ≤ 1 → q.eval s ≠ r.eval t) ∧
    ((∀ s t : ℝ, 0 ≤ s → s ≤ 1 → 0 ≤ t → t ≤ 1 → ∃ k : Fin (Point.dim P),
        (2 * q.leg + 2 * r.leg) / 2 ^ n + m < |coord (q.eval s) k - coord (r.eval t) k|) →
      intersect QuadraticBezier.halve QuadraticBezier.halve QuadraticBezier.boundingBox
        QuadraticBezier.boundingBox m n q r = []) := by
  constructor
  · intro hm h s t s0 s1 t0 t1 e
    obtain ⟨i, j, hij, _⟩ := C120_complete_quadratics q r n hm s0 s1 t0 t1 e
    rw [h] at hij
    simp at hij
  · intro h
    rw [List.eq_nil_iff_forall_not_mem]
    rintro ⟨i, j⟩ hij
    obtain ⟨hi, hj, hc⟩ := C120_sound_quadratics q r n hij
    obtain ⟨a0, a1, ha⟩ := grid_point hi
    obtain ⟨b0, b1, hb⟩ := grid_point hj
    obtain ⟨k, hk⟩ := h ((i : ℝ) / 2 ^ n) ((j : ℝ) / 2 ^ n) a0 a1 b0 b1
    exact absurd (hc _ _ ha hb k) (not_le.2 hk)

/-- **C120**, a quadratic and a cubic curve: a common point is never lost. Whatever the depth, some reported pair
of pieces contains it. -/
theorem C120_complete_mixed (q : QuadraticBezier P) (r : CubicBezier P) (n : ℕ) (hm : 2 * eps / 3 ≤ m)
    {s t : ℝ} (s0 : 0 ≤ s) (s1 : s ≤ 1) (t0 : 0 ≤ t) (t1 : t ≤ 1) (e : q.eval s = r.eval t) :
    ∃ i j, (i, j) ∈ intersect QuadraticBezier.halve CubicBezier.halve QuadraticBezier.boundingBox
        CubicBezier.boundingBox m n q r ∧
      ((i : ℝ) ≤ 2 ^ n * s ∧ 2 ^ n * s ≤ i + 1) ∧ (j : ℝ) ≤ 2 ^ n * t ∧ 2 ^ n * t ≤ j + 1 :=
  intersect_complete (eval := fun (q : QuadraticBezier P) (s : ℝ) => q.eval s)
    (eval' := fun (q : CubicBezier P) (s : ℝ) => q.eval s)
    (fun q s => (q.halve_eval s).1) (fun q s => (q.halve_eval s).2)
    (fun q s => (q.halve_eval s).1) (fun q s => (q.halve_eval s).2)
    (touch_of_meet hm (fun q => quadratic_hasBox q) (fun q => cubic_hasBox q)) n q r s t s0 s1 t0 t1 e

/-- **C120**, a quadratic and a cubic curve: whatever is reported is nearly an intersection. All points of the two
pieces agree on every axis up to the margin and a bound that halves with every level. -/
theorem C120_sound_mixed (q : QuadraticBezier P) (r : CubicBezier P) (n : ℕ) {i j : ℕ}
    (h : (i, j) ∈ intersect QuadraticBezier.halve CubicBezier.halve QuadraticBezier.boundingBox
      CubicBezier.boundingBox m n q r) :
    i < 2 ^ n ∧ j < 2 ^ n ∧ ∀ s t : ℝ, ((i : ℝ) ≤ 2 ^ n * s ∧ 2 ^ n * s ≤ i + 1) →
      ((j : ℝ) ≤ 2 ^ n * t ∧ 2 ^ n * t ≤ j + 1) → ∀ k : Fin (Point.dim P),
      |coord (q.eval s) k - coord (r.eval t) k| ≤ (2 * q.leg + 3 * r.leg) / 2 ^ n + m := by
  obtain ⟨hi, hj, p, p', e, e', b, b', hb, hb', hT⟩ := intersect_pieces
    (eval := fun (q : QuadraticBezier P) (s : ℝ) => q.eval s)
    (eval' := fun (q : CubicBezier P) (s : ℝ) => q.eval s)
    (fun q s => (q.halve_eval s).1) (fun q s => (q.halve_eval s).2)
    (fun q s => (q.halve_eval s).1) (fun q s => (q.halve_eval s).2) n q r i j h
  obtain ⟨c, hc, hB⟩ := quadratic_hasBox p
  obtain ⟨c', hc', hB'⟩ := cubic_hasBox p'
  rw [hb] at hc
  rw [hb'] at hc'
  obtain rfl := Option.some.inj hc
  obtain rfl := Option.some.inj hc'
  refine ⟨hi, hj, fun s t hs ht k => ?_⟩
  exact close_of_touch (F := fun s => q.eval s) (G := fun s => r.eval s) hB hB' hT hi hj e e'
    (q.speed_le) (r.speed_le) (mul_nonneg (by norm_num) q.leg_nonneg)
    (mul_nonneg (by norm_num) r.leg_nonneg) hs ht k

/-- **C120**, a quadratic and a cubic curve: an empty report means that the curves do not meet; and curves that stay
apart are reported as such from some depth on. -/
theorem C120_decide_mixed (q : QuadraticBezier P) (r : CubicBezier P) (n : ℕ) :
    (2 * eps / 3 ≤ m → intersect QuadraticBezier.halve CubicBezier.halve QuadraticBezier.boundingBox
        CubicBezier.boundingBox m n q r = [] →
      ∀ s t : ℝ, 0 ≤ s → s ≤ 1 → 0 ≤ t → t ≤ 1 → q.eval s ≠ r.eval t) ∧
    ((∀ s t : ℝ, 0 ≤ s → s ≤ 1 → 0 ≤ t → t ≤ 1 → ∃ k : Fin (Point.dim P),
        (2 * q.leg + 3 * r.leg) / 2 ^ n + m < |coord (q.eval s) k - coord (r.eval t) k|) →
      intersect QuadraticBezier.halve CubicBezier.halve QuadraticBezier.boundingBox
        CubicBezier.boundingBox m n q r = []) := by
  constructor
  · intro hm h s t s0 s1 t0 t1 e
    obtain ⟨i, j, hij, _⟩ := C120_complete_mixed q r n hm s0 s1 t0 t1 e
    rw [h] at hij
    simp at hij
  · intro h
    rw [List.eq_nil_iff_forall_not_mem]
    rintro ⟨i, j⟩ hij
    obtain ⟨hi, hj, hc⟩ := C120_sound_mixed q r n hij
    obtain ⟨a0, a1, ha⟩ := grid_point hi
    obtain ⟨b0, b1, hb⟩ := grid_point hj
    obtain ⟨k, hk⟩ := h ((i : ℝ) / 2 ^ n) ((j : ℝ) / 2 ^ n) a0 a1 b0 b1
    exact absurd (hc _ _ ha hb k) (not_le.2 hk)

/-- **C120**, two cubic curves: a common point is never lost. Whatever the depth, some reported pair
of pieces contains it. -/
theorem C120_complete_cubics (q : CubicBezier P) (r : CubicBezier P) (n : ℕ) (hm : 2 * eps / 3 ≤ m)
    {s t : ℝ} (s0 : 0 ≤ s) (s1 : s ≤ 1) (t0 : 0 ≤ t) (t1 : t ≤ 1) (e : q.eval s = r.eval t) :
    ∃ i j, (i, j) ∈ intersect CubicBezier.halve CubicBezier.halve CubicBezier.boundingBox
        CubicBezier.boundingBox m n q r ∧
      ((i : ℝ) ≤ 2 ^ n * s ∧ 2 ^ n * s ≤ i + 1) ∧ (j : ℝ) ≤ 2 ^ n * t ∧ 2 ^ n * t ≤ j + 1 :=
  intersect_complete (eval := fun (q : CubicBezier P) (s : ℝ) => q.eval s)
    (eval' := fun (q : CubicBezier P) (s : ℝ) => q.eval s)
    (fun q s => (q.halve_eval s).1) (fun q s => (q.halve_eval s).2)
    (fun q s => (q.halve_eval s).1) (fun q s => (q.halve_eval s).2)
    (touch_of_meet hm (fun q => cubic_hasBox q) (fun q => cubic_hasBox q)) n q r s t s0 s1 t0 t1 e

/-- **C120**, two cubic curves: whatever is reported is nearly an intersection. All points of the two
pieces agree on every axis up to the margin and a bound that halves with every level. -/
theorem C120_sound_cubics (q : CubicBezier P) (r : CubicBezier P) (n : ℕ) {i j : ℕ}
    (h : (i, j) ∈ intersect CubicBezier.halve CubicBezier.halve CubicBezier.boundingBox
      CubicBezier.boundingBox m n q r) :
    i < 2 ^ n ∧ j < 2 ^ n ∧ ∀ s t : ℝ, ((i : ℝ) ≤ 2 ^ n * s ∧ 2 ^ n * s ≤ i + 1) →
      ((j : ℝ) ≤ 2 ^ n * t ∧ 2 ^ n * t ≤ j + 1) → ∀ k : Fin (Point.dim P),
      |coord (q.eval s) k - coord (r.eval t) k| ≤ (3 * q.leg + 3 * r.leg) / 2 ^ n + m := by
  obtain ⟨hi, hj, p, p', e, e', b, b', hb, hb', hT⟩ := intersect_pieces
    (eval := fun (q : CubicBezier P) (s : ℝ) => q.eval s)
    (eval' := fun (q : CubicBezier P) (s : ℝ) => q.eval s)
    (fun q s => (q.halve_eval s).1) (fun q s => (q.halve_eval s).2)
    (fun q s => (q.halve_eval s).1) (fun q s => (q.halve_eval s).2) n q r i j h
  obtain ⟨c, hc, hB⟩ := cubic_hasBox p
  obtain ⟨c', hc', hB'⟩ := cubic_hasBox p'
  rw [hb] at hc
  rw [hb'] at hc'
  obtain rfl := Option.some.inj hc
  obtain rfl := Option.some.inj hc'
  refine ⟨hi, hj, fun s t hs ht k => ?_⟩
  exact close_of_touch (F := fun s => q.eval s) (G := fun s => r.eval s) hB hB' hT hi hj e e'
    (q.speed_le) (r.speed_le) (mul_nonneg (by norm_num) q.leg_nonneg)
    (mul_nonneg (by norm_num) r.leg_nonneg) hs ht k

/-- **C120**, two cubic curves: an empty report means that the curves do not meet; and curves that stay
apart are reported as such from some depth on. -/
theorem C120_decide_cubics (q : CubicBezier P) (r : CubicBezier P) (n : ℕ) :
    (2 * eps / 3 ≤ m → intersect CubicBezier.halve CubicBezier.halve CubicBezier.boundingBox
        CubicBezier.boundingBox m n q r = [] →
      ∀ s t : ℝ, 0 ≤ s → s ≤ 1 → 0 ≤ t → t ≤ 1 → q.eval s ≠ r.eval t) ∧
    ((∀ s t : ℝ, 0 ≤ s → s ≤ 1 → 0 ≤ t → t ≤ 1 → ∃ k : Fin (Point.dim P),
        (3 * q.leg + 3 * r.leg) / 2 ^ n + m < |coord (q.eval s) k - coord (r.eval t) k|) →
      intersect CubicBezier.halve CubicBezier.halve CubicBezier.boundingBox
        CubicBezier.boundingBox m n q r = []) := by
  constructor
  · intro hm h s t s0 s1 t0 t1 e
    obtain ⟨i, j, hij, _⟩ := C120_complete_cubics q r n hm s0 s1 t0 t1 e
    rw [h] at hij
    simp at hij
  · intro h
    rw [List.eq_nil_iff_forall_not_mem]
    rintro ⟨i, j⟩ hij
    obtain ⟨hi, hj, hc⟩ := C120_sound_cubics q r n hij
    obtain ⟨a0, a1, ha⟩ := grid_point hi
    obtain ⟨b0, b1, hb⟩ := grid_point hj
    obtain ⟨k, hk⟩ := h ((i : ℝ) / 2 ^ n) ((j : ℝ) / 2 ^ n) a0 a1 b0 b1
    exact absurd (hc _ _ ha hb k) (not_le.2 hk)

/-- `l.split(0.5)`. -/
noncomputable def LineSegment.halve (l : LineSegment P) : LineSegment P × LineSegment P :=
  l.split (1 / 2 : ℝ)

end Curves

/-- **C120** is false of line segments, whose `split` is wrong (C06): the segments from (0,0) to
(4,0) and from (1,-1) to (1,3) meet at a quarter of either, and the only pair of halves that
contains the point is not reported. -/
theorem C120_line_false {m : ℝ} (hm : m < 1) :
    let l : LineSegment (PointN ℝ 2) := LineSegment.new (pt2 0 0) (pt2 4 0)
    let r : LineSegment (PointN ℝ 2) := LineSegment.new (pt2 1 (-1)) (pt2 1 3)
    l.eval (1 / 4 : ℝ) = r.eval (1 / 4 : ℝ) ∧
    ¬ ∃ i j, (i, j) ∈ intersect LineSegment.halve LineSegment.halve LineSegment.boundingBox
        LineSegment.boundingBox m 1 l r ∧
      ((i : ℝ) ≤ 2 ^ 1 * (1 / 4) ∧ 2 ^ 1 * (1 / 4) ≤ (i : ℝ) + 1) ∧
      (j : ℝ) ≤ 2 ^ 1 * (1 / 4) ∧ 2 ^ 1 * (1 / 4) ≤ (j : ℝ) + 1 := by
  intro l r
  refine ⟨?_, ?_⟩
  · apply point_ext
    intro i
    rcases Nat.lt_or_ge i 2 with h | h
    · interval_cases i <;> simp only [C05_eval, l, r, LineSegment.new, coord_pt2_0,
        coord_pt2_1] <;> norm_num
    · have h' : ¬ i < Point.dim (PointN ℝ 2) := not_lt.2 h
      rw [coord_out _ h', coord_out _ h']
  · rintro ⟨i, j, h, ⟨hi, -⟩, hj, -⟩
    have hi0 : i = 0 := by
      by_contra hc
      have : (1 : ℝ) ≤ i := by exact_mod_cast Nat.one_le_iff_ne_zero.2 hc
      norm_num at hi; linarith
    have hj0 : j = 0 := by
      by_contra hc
      have : (1 : ℝ) ≤ j := by exact_mod_cast Nat.one_le_iff_ne_zero.2 hc
      norm_num at hj; linarith
    subst hi0 hj0
    rw [intersect] at h
    split_ifs at h with hT
    swap
    · simp at h
    simp only [List.mem_append, List.mem_map, Prod.mk.injEq] at h
    rcases h with ((h | ⟨p, _, _, h⟩) | ⟨p, _, h, _⟩) | ⟨p, _, h, _⟩
    · rw [intersect] at h
      split_ifs at h with hT'
      swap
      · simp at h
      obtain ⟨b, b', hb, hb', ho⟩ := hT'
      obtain ⟨c, hc, h1⟩ := C09_bounding_box l.halve.1
      obtain ⟨c', hc', h2⟩ := C09_bounding_box r.halve.1
      rw [hb] at hc
      rw [hb'] at hc'
      obtain rfl := Option.some.inj hc
      obtain rfl := Option.some.inj hc'
      obtain ⟨_, _, _, u, u0, u1, eu⟩ := h1 0
      obtain ⟨_, _, ⟨v, v0, v1, ev⟩, _⟩ := h2 0
      have := (ho 0).2
      rw [← eu, ← ev] at this
      simp only [LineSegment.halve, (C06_actual _ _ _).1, C05_eval, l, r, LineSegment.new] at this
      have e0 : ((0 : Fin (Point.dim (PointN ℝ 2))) : ℕ) = 0 := rfl
      simp only [e0, coord_pt2_0] at this
      linarith
    · simp at h
    · simp at h
    · simp at h

/-- Test: an arch and its mirror image cross at the start of either; the hypotheses of
`C120_complete_quadratics` are met. -/
example (n : ℕ) : ∃ i j, (i, j) ∈ intersect QuadraticBezier.halve QuadraticBezier.halve
    QuadraticBezier.boundingBox QuadraticBezier.boundingBox eps n
    (QuadraticBezier.new (pt2 0 0) (pt2 1 2) (pt2 2 0))
    (QuadraticBezier.new (pt2 0 1) (pt2 1 (-1)) (pt2 2 1)) := by
  have he := eps_pos
  -- the arch is at height `4 t (1 - t)`, its mirror image at one minus that
  obtain ⟨i, j, h, _⟩ := C120_complete_quadratics (m := eps)
    (QuadraticBezier.new (pt2 0 0) (pt2 1 2) (pt2 2 0))
    (QuadraticBezier.new (pt2 0 1) (pt2 1 (-1)) (pt2 2 1)) n (by linarith)
    (s := (1 - Real.sqrt (1 / 2)) / 2) (t := (1 - Real.sqrt (1 / 2)) / 2)
    (by have : Real.sqrt (1 / 2) ≤ 1 := by
          rw [Real.sqrt_le_left (by norm_num)]; norm_num
        linarith)
    (by linarith [Real.sqrt_nonneg (1 / 2 : ℝ)])
    (by have : Real.sqrt (1 / 2) ≤ 1 := by
          rw [Real.sqrt_le_left (by norm_num)]; norm_num
        linarith)
    (by linarith [Real.sqrt_nonneg (1 / 2 : ℝ)]) (by
      have hsq : Real.sqrt (1 / 2) ^ 2 = 1 / 2 := Real.sq_sqrt (by norm_num)
      apply point_ext
      intro i
      rcases Nat.lt_or_ge i 2 with h | h
      · interval_cases i <;> simp only [C10_eval, QuadraticBezier.new, coord_pt2_0,
          coord_pt2_1]
        nlinarith [hsq]
      · have h' : ¬ i < Point.dim (PointN ℝ 2) := not_lt.2 h
        rw [coord_out _ h', coord_out _ h'])
  exact ⟨i, j, h⟩

/-- Test: the hypothesis of the second half of `C120_decide_quadratics` is met, by an arch and the
same arch a hundred units to the right. -/
example : intersect QuadraticBezier.halve QuadraticBezier.halve
    QuadraticBezier.boundingBox QuadraticBezier.boundingBox 1 0
    (QuadraticBezier.new (pt2 0 0) (pt2 1 2) (pt2 2 0))
    (QuadraticBezier.new (pt2 100 0) (pt2 101 2) (pt2 102 0)) = [] := by
  refine (C120_decide_quadratics _ _ 0).2 fun s t s0 s1 t0 t1 => ⟨0, ?_⟩
  have e0 : ((0 : Fin (Point.dim (PointN ℝ 2))) : ℕ) = 0 := rfl
  have hleg : ∀ x : ℝ, (QuadraticBezier.new (pt2 x 0) (pt2 (x + 1) 2) (pt2 (x + 2) 0)).leg ≤ 3 := by
    intro x
    simp only [QuadraticBezier.leg, QuadraticBezier.new, pdist_pt2]
    refine max_le ?_ ?_ <;> rw [Real.sqrt_le_left (by norm_num)] <;> ring_nf <;> norm_num
  have h1 := hleg 0
  have h2 := hleg 100
  norm_num at h1 h2
  simp only [C10_eval, QuadraticBezier.new, e0, coord_pt2_0] at h1 h2 ⊢
  have : 98 ≤ |(1 - s) ^ 2 * 0 + 2 * s * (1 - s) * 1 + s ^ 2 * 2
      - ((1 - t) ^ 2 * 100 + 2 * t * (1 - t) * 101 + t ^ 2 * 102)| := by
    rw [abs_sub_comm]
    refine le_trans ?_ (le_abs_self _)
    nlinarith
  norm_num at this ⊢
  linarith

end Stroke
