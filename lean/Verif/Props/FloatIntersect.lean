import Verif.Props.FloatFlatten
import Verif.Props.Intersect

/-!
# Intersecting curves by subdivision in floating point (C130)

The program of C120 — discard a pair of curves whose boxes are more than a margin apart, otherwise
halve both and try the four pairs of halves — run in floating point.  With `bounding_box` it works
for quadratic curves.  For cubic curves `bounding_box` loses common points, whatever the depth; the
box of the control points, which the caller can compute, does not.
-/

set_option linter.unusedSectionVars false

namespace Stroke

open Fl

/-! ### The program -/

section Client
variable {S : Type} [Scalar S] {n : ℕ} {Q R : Type}

/-- The caller's test: `a.0 <= b.1 + m && b.0 <= a.1 + m` on every axis, for two boxes `a`, `b`. -/
def boxesTouch (m : S) : Option (Arr (S × S) n) → Option (Arr (S × S) n) → Bool
  | some a, some b => (List.finRange n).all fun i =>
      Scalar.le (a i).1 ((b i).2 + m) && Scalar.le (b i).1 ((a i).2 + m)
  | _, _ => false

/-- The pairs `(i, j)` of pieces of depth `k` that the intersector reports: piece `i` of the first
curve stands for the parameters `i/2^k` to `(i+1)/2^k`. -/
def intersectBy (split : Q → Q × Q) (split' : R → R × R) (touch : Q → R → Bool) :
    ℕ → Q → R → List (ℕ × ℕ)
  | 0, q, r => if touch q r then [(0, 0)] else []
  | k + 1, q, r =>
    if touch q r then
      intersectBy split split' touch k (split q).1 (split' r).1 ++
      (intersectBy split split' touch k (split q).1 (split' r).2).map
        (fun p => (p.1, p.2 + 2 ^ k)) ++
      (intersectBy split split' touch k (split q).2 (split' r).1).map
        (fun p => (p.1 + 2 ^ k, p.2)) ++
      (intersectBy split split' touch k (split q).2 (split' r).2).map
        (fun p => (p.1 + 2 ^ k, p.2 + 2 ^ k))
    else []

/-- The smaller of two numbers, `if a <= b { a } else { b }`. -/
def lesser (a b : S) : S := if Scalar.le a b then a else b

/-- The larger of two numbers, `if a <= b { b } else { a }`. -/
def greater (a b : S) : S := if Scalar.le a b then b else a

/-- The caller's box: on every axis the smallest and the largest coordinate of the control points. -/
def CubicBezier.hullBox (c : CubicBezier (PointN S n)) : Option (Arr (S × S) n) :=
  some fun i =>
    (lesser (lesser (c.start.coords i) (c.ctrl1.coords i))
      (lesser (c.ctrl2.coords i) (c.end_.coords i)),
     greater (greater (c.start.coords i) (c.ctrl1.coords i))
      (greater (c.ctrl2.coords i) (c.end_.coords i)))

end Client

/-! ### General facts -/

section General
variable {Q R ι : Type} {split : Q → Q × Q} {split' : R → R × R} {touch : Q → R → Bool}
  {ok : Q → Prop} {ok' : R → Prop} {ex : Q → ι → ℝ → ℝ} {ex' : R → ι → ℝ → ℝ} {E E' D : ℝ}

/-- No pair of close points is lost, if halving is exact up to `E`, `E'` and the test passes for all
curves with points closer than `D`. -/
theorem intersectBy_complete
    (hok : ∀ q, ok q → ok (split q).1 ∧ ok (split q).2)
    (hok' : ∀ q, ok' q → ok' (split' q).1 ∧ ok' (split' q).2)
    (he : ∀ q, ok q → ∀ i s, 0 ≤ s → s ≤ 1 → |ex (split q).1 i s - ex q i (s / 2)| ≤ E ∧
      |ex (split q).2 i s - ex q i ((1 + s) / 2)| ≤ E)
    (he' : ∀ q, ok' q → ∀ i s, 0 ≤ s → s ≤ 1 → |ex' (split' q).1 i s - ex' q i (s / 2)| ≤ E' ∧
      |ex' (split' q).2 i s - ex' q i ((1 + s) / 2)| ≤ E')
    (E0 : 0 ≤ E) (E0' : 0 ≤ E')
    (ht : ∀ q r s t, ok q → ok' r → 0 ≤ s → s ≤ 1 → 0 ≤ t → t ≤ 1 →
      (∀ i, |ex q i s - ex' r i t| ≤ D) → touch q r = true) (k : ℕ) :
    ∀ (q : Q) (r : R) (s t δ : ℝ), ok q → ok' r → 0 ≤ s → s ≤ 1 → 0 ≤ t → t ≤ 1 →
      (∀ i, |ex q i s - ex' r i t| ≤ δ) → δ + k * (E + E') ≤ D →
      ∃ i j, (i, j) ∈ intersectBy split split' touch k q r ∧
        ((i : ℝ) ≤ 2 ^ k * s ∧ 2 ^ k * s ≤ i + 1) ∧ (j : ℝ) ≤ 2 ^ k * t ∧ 2 ^ k * t ≤ j + 1 := by
  induction k with
  | zero =>
    intro q r s t δ hq hr s0 s1 t0 t1 e hD
    rw [Nat.cast_zero, zero_mul, add_zero] at hD
    refine ⟨0, 0, ?_, ?_⟩
    · rw [intersectBy, if_pos (ht q r s t hq hr s0 s1 t0 t1 fun i => (e i).trans hD)]
      simp
    · simp only [pow_zero, one_mul, Nat.cast_zero, zero_add]
      exact ⟨⟨s0, s1⟩, t0, t1⟩
  | succ k ih =>
    intro q r s t δ hq hr s0 s1 t0 t1 e hD
    have k0 : (0 : ℝ) ≤ k := Nat.cast_nonneg k
    have kE : 0 ≤ k * (E + E') := mul_nonneg k0 (add_nonneg E0 E0')
    push_cast at hD
    rw [intersectBy, if_pos (ht q r s t hq hr s0 s1 t0 t1 fun i => (e i).trans (by linarith))]
    have hp : (0 : ℝ) < 2 ^ k := by positivity
    have far : ∀ a b c d : ℝ, |a - b| ≤ E → |c - d| ≤ E' → |b - d| ≤ δ →
        |a - c| ≤ δ + (E + E') := by
      intro a b c d h1 h2 h3
      rw [abs_le] at *
      constructor <;> linarith [h1.1, h1.2, h2.1, h2.2, h3.1, h3.2]
    have two : ∀ x : ℝ, 2 * x / 2 = x := fun x => by ring
    have two' : ∀ x : ℝ, (1 + (2 * x - 1)) / 2 = x := fun x => by ring
    rcases le_total s (1 / 2) with hs | hs <;> rcases le_total t (1 / 2) with ht' | ht'
    · obtain ⟨i, j, hm, hi, hj⟩ := ih (split q).1 (split' r).1 (2 * s) (2 * t) (δ + (E + E'))
        (hok q hq).1 (hok' r hr).1 (by linarith) (by linarith) (by linarith) (by linarith)
        (fun i => far _ _ _ _ (he q hq i (2 * s) (by linarith) (by linarith)).1
          (he' r hr i (2 * t) (by linarith) (by linarith)).1 (by rw [two, two]; exact e i))
        (by linarith)
      refine ⟨i, j, by simp [hm], ?_⟩
      rw [pow_succ, mul_assoc, mul_assoc]
      exact ⟨hi, hj⟩
    · obtain ⟨i, j, hm, hi, hj⟩ := ih (split q).1 (split' r).2 (2 * s) (2 * t - 1) (δ + (E + E'))
        (hok q hq).1 (hok' r hr).2 (by linarith) (by linarith) (by linarith) (by linarith)
        (fun i => far _ _ _ _ (he q hq i (2 * s) (by linarith) (by linarith)).1
          (he' r hr i (2 * t - 1) (by linarith) (by linarith)).2 (by rw [two, two']; exact e i))
        (by linarith)
      refine ⟨i, j + 2 ^ k, ?_, ?_⟩
      · simp only [List.mem_append, List.mem_map]
        exact Or.inl (Or.inl (Or.inr ⟨_, hm, rfl⟩))
      · rw [pow_succ, mul_assoc, mul_assoc]
        push_cast
        exact ⟨hi, by linarith [hj.1], by linarith [hj.2]⟩
    · obtain ⟨i, j, hm, hi, hj⟩ := ih (split q).2 (split' r).1 (2 * s - 1) (2 * t) (δ + (E + E'))
        (hok q hq).2 (hok' r hr).1 (by linarith) (by linarith) (by linarith) (by linarith)
        (fun i => far _ _ _ _ (he q hq i (2 * s - 1) (by linarith) (by linarith)).2
          (he' r hr i (2 * t) (by linarith) (by linarith)).1 (by rw [two, two']; exact e i))
        (by linarith)
      refine ⟨i + 2 ^ k, j, ?_, ?_⟩
      · simp only [List.mem_append, List.mem_map]
        exact Or.inl (Or.inr ⟨_, hm, rfl⟩)
      · rw [pow_succ, mul_assoc, mul_assoc]
        push_cast
        exact ⟨⟨by linarith [hi.1], by linarith [hi.2]⟩, hj⟩
    · obtain ⟨i, j, hm, hi, hj⟩ := ih (split q).2 (split' r).2 (2 * s - 1) (2 * t - 1)
        (δ + (E + E'))
        (hok q hq).2 (hok' r hr).2 (by linarith) (by linarith) (by linarith) (by linarith)
        (fun i => far _ _ _ _ (he q hq i (2 * s - 1) (by linarith) (by linarith)).2
          (he' r hr i (2 * t - 1) (by linarith) (by linarith)).2
          (by rw [two', two']; exact e i))
        (by linarith)
      refine ⟨i + 2 ^ k, j + 2 ^ k, ?_, ?_⟩
      · simp only [List.mem_append, List.mem_map]
        exact Or.inr ⟨_, hm, rfl⟩
      · rw [pow_succ, mul_assoc, mul_assoc]
        push_cast
        exact ⟨⟨by linarith [hi.1], by linarith [hi.2]⟩, by linarith [hj.1], by linarith [hj.2]⟩

/-- Every reported pair is a pair of computed pieces that pass the test and are near the parts of
the exact curves they stand for. -/
theorem intersectBy_pieces {size : ℝ → Q → Prop} {size' : ℝ → R → Prop} {L L' : ℝ}
    (hok : ∀ q, ok q → ok (split q).1 ∧ ok (split q).2)
    (hok' : ∀ q, ok' q → ok' (split' q).1 ∧ ok' (split' q).2)
    (he : ∀ q, ok q → ∀ i s, 0 ≤ s → s ≤ 1 → |ex (split q).1 i s - ex q i (s / 2)| ≤ E ∧
      |ex (split q).2 i s - ex q i ((1 + s) / 2)| ≤ E)
    (he' : ∀ q, ok' q → ∀ i s, 0 ≤ s → s ≤ 1 → |ex' (split' q).1 i s - ex' q i (s / 2)| ≤ E' ∧
      |ex' (split' q).2 i s - ex' q i ((1 + s) / 2)| ≤ E')
    (hs : ∀ q D, ok q → size D q → size (D / 2 + L) (split q).1 ∧ size (D / 2 + L) (split q).2)
    (hs' : ∀ q D, ok' q → size' D q →
      size' (D / 2 + L') (split' q).1 ∧ size' (D / 2 + L') (split' q).2)
    (k : ℕ) : ∀ (q : Q) (r : R) (A B : ℝ), ok q → ok' r → size A q → size' B r →
      ∀ i j, (i, j) ∈ intersectBy split split' touch k q r →
      i < 2 ^ k ∧ j < 2 ^ k ∧ ∃ p p', ok p ∧ ok' p' ∧
        size (A / 2 ^ k + 2 * L * (1 - 1 / 2 ^ k)) p ∧
        size' (B / 2 ^ k + 2 * L' * (1 - 1 / 2 ^ k)) p' ∧
        (∀ a u, 0 ≤ u → u ≤ 1 → |ex p a u - ex q a ((i + u) / 2 ^ k)| ≤ k * E) ∧
        (∀ a u, 0 ≤ u → u ≤ 1 → |ex' p' a u - ex' r a ((j + u) / 2 ^ k)| ≤ k * E') ∧
        touch p p' = true := by
  induction k with
  | zero =>
    intro q r A B hq hr hA hB i j h
    rw [intersectBy] at h
    split_ifs at h with ht
    · simp only [List.mem_singleton, Prod.mk.injEq] at h
      obtain ⟨rfl, rfl⟩ := h
      have e : ∀ D L : ℝ, D / 2 ^ 0 + 2 * L * (1 - 1 / 2 ^ 0) = D := fun D L => by norm_num
      exact ⟨by simp, by simp, q, r, hq, hr, by rw [e]; exact hA, by rw [e]; exact hB, by simp,
        by simp, ht⟩
    · simp at h
  | succ k ih =>
    intro q r A B hq hr hA hB i j h
    rw [intersectBy] at h
    split_ifs at h with ht
    swap
    · simp at h
    have hp : (2 : ℝ) ^ k ≠ 0 := by positivity
    have hp0 : (0 : ℝ) < 2 ^ k := by positivity
    have hN : (2 : ℕ) ^ (k + 1) = 2 ^ k + 2 ^ k := by rw [pow_succ]; ring
    have es : ∀ D L : ℝ, (D / 2 + L) / 2 ^ k + 2 * L * (1 - 1 / 2 ^ k)
        = D / 2 ^ (k + 1) + 2 * L * (1 - 1 / 2 ^ (k + 1)) := by
      intro D L
      rw [pow_succ]; field_simp; ring
    have a1 : ∀ (c : ℕ) (u : ℝ), ((c : ℝ) + u) / 2 ^ k / 2 = (c + u) / 2 ^ (k + 1) := by
      intro c u
      rw [pow_succ]; field_simp
    have a2 : ∀ (c : ℕ) (u : ℝ), (1 + ((c : ℝ) + u) / 2 ^ k) / 2
        = (((c + 2 ^ k : ℕ) : ℝ) + u) / 2 ^ (k + 1) := by
      intro c u
      rw [pow_succ]; push_cast; field_simp; ring
    have inn : ∀ (c : ℕ) (u : ℝ), c < 2 ^ k → 0 ≤ u → u ≤ 1 →
        0 ≤ ((c : ℝ) + u) / 2 ^ k ∧ ((c : ℝ) + u) / 2 ^ k ≤ 1 := by
      intro c u hc u0 u1
      have : (c : ℝ) + 1 ≤ 2 ^ k := by exact_mod_cast hc
      exact ⟨by positivity, (div_le_one hp0).2 (by linarith)⟩
    have far : ∀ (a b c e : ℝ), |a - b| ≤ k * e → |b - c| ≤ e → |a - c| ≤ (k + 1 : ℕ) * e := by
      intro a b c e h1 h2
      have := abs_add_le (a - b) (b - c)
      rw [sub_add_sub_cancel] at this
      push_cast
      linarith
    obtain ⟨q1, q2⟩ := hok q hq
    obtain ⟨r1, r2⟩ := hok' r hr
    obtain ⟨A1, A2⟩ := hs q A hq hA
    obtain ⟨B1, B2⟩ := hs' r B hr hB
    simp only [List.mem_append, List.mem_map, Prod.mk.injEq] at h
    rcases h with ((h | ⟨⟨i', j'⟩, h, rfl, rfl⟩) | ⟨⟨i', j'⟩, h, rfl, rfl⟩) |
      ⟨⟨i', j'⟩, h, rfl, rfl⟩
    · obtain ⟨hi, hj, p, p', o, o', z, z', e, e', hT⟩ := ih _ _ _ _ q1 r1 A1 B1 _ _ h
      rw [es] at z z'
      refine ⟨by omega, by omega, p, p', o, o', z, z', fun a u u0 u1 => ?_, fun a u u0 u1 => ?_, hT⟩
      · obtain ⟨v0, v1⟩ := inn _ u hi u0 u1
        have := (he q hq a _ v0 v1).1
        rw [a1] at this
        exact far _ _ _ _ (e a u u0 u1) this
      · obtain ⟨v0, v1⟩ := inn _ u hj u0 u1
        have := (he' r hr a _ v0 v1).1
        rw [a1] at this
        exact far _ _ _ _ (e' a u u0 u1) this
    · obtain ⟨hi, hj, p, p', o, o', z, z', e, e', hT⟩ := ih _ _ _ _ q1 r2 A1 B2 _ _ h
      rw [es] at z z'
      refine ⟨by simp only; omega, by simp only; omega, p, p', o, o', z, z', fun a u u0 u1 => ?_,
        fun a u u0 u1 => ?_, hT⟩
      · obtain ⟨v0, v1⟩ := inn _ u hi u0 u1
        have := (he q hq a _ v0 v1).1
        rw [a1] at this
        exact far _ _ _ _ (e a u u0 u1) this
      · obtain ⟨v0, v1⟩ := inn _ u hj u0 u1
        have := (he' r hr a _ v0 v1).2
        rw [a2] at this
        exact far _ _ _ _ (e' a u u0 u1) this
    · obtain ⟨hi, hj, p, p', o, o', z, z', e, e', hT⟩ := ih _ _ _ _ q2 r1 A2 B1 _ _ h
      rw [es] at z z'
      refine ⟨by simp only; omega, by simp only; omega, p, p', o, o', z, z', fun a u u0 u1 => ?_,
        fun a u u0 u1 => ?_, hT⟩
      · obtain ⟨v0, v1⟩ := inn _ u hi u0 u1
        have := (he q hq a _ v0 v1).2
        rw [a2] at this
        exact far _ _ _ _ (e a u u0 u1) this
      · obtain ⟨v0, v1⟩ := inn _ u hj u0 u1
        have := (he' r hr a _ v0 v1).1
        rw [a1] at this
        exact far _ _ _ _ (e' a u u0 u1) this
    · obtain ⟨hi, hj, p, p', o, o', z, z', e, e', hT⟩ := ih _ _ _ _ q2 r2 A2 B2 _ _ h
      rw [es] at z z'
      refine ⟨by simp only; omega, by simp only; omega, p, p', o, o', z, z', fun a u u0 u1 => ?_,
        fun a u u0 u1 => ?_, hT⟩
      · obtain ⟨v0, v1⟩ := inn _ u hi u0 u1
        have := (he q hq a _ v0 v1).2
        rw [a2] at this
        exact far _ _ _ _ (e a u u0 u1) this
      · obtain ⟨v0, v1⟩ := inn _ u hj u0 u1
        have := (he' r hr a _ v0 v1).2
        rw [a2] at this
        exact far _ _ _ _ (e' a u u0 u1) this

end General

variable {F : FloatFormat} {n : ℕ}

/-- What the proofs use of a curve type, its halving and its boxes, in floating point. -/
structure Boxed {Q : Type} (split : Q → Q × Q) (box : Q → Option (Arr (Fl F × Fl F) n))
    (ok : Q → Prop) (size : ℝ → Q → Prop) (ex : Q → Fin n → ℝ → ℝ) (M E L c β γ : ℝ) : Prop where
  inv : ∀ q, ok q → ok (split q).1 ∧ ok (split q).2
  err : ∀ q, ok q → ∀ i s, 0 ≤ s → s ≤ 1 → |ex (split q).1 i s - ex q i (s / 2)| ≤ E ∧
    |ex (split q).2 i s - ex q i ((1 + s) / 2)| ≤ E
  shrink : ∀ q D, ok q → size D q → size (D / 2 + L) (split q).1 ∧ size (D / 2 + L) (split q).2
  contains : ∀ q, ok q → ∃ b, box q = some b ∧ ∀ i,
    ((b i).1.IsFinite ∧ (b i).2.IsFinite) ∧ |(b i).2.toReal| ≤ M + γ ∧
    ∀ t, 0 ≤ t → t ≤ 1 → (b i).1.toReal - β ≤ ex q i t ∧ ex q i t ≤ (b i).2.toReal + β
  tight : ∀ q D b, ok q → size D q → box q = some b → ∀ i t, 0 ≤ t → t ≤ 1 →
    ex q i t ≤ (b i).1.toReal + c * D + γ ∧ (b i).2.toReal - c * D - γ ≤ ex q i t
  E0 : 0 ≤ E
  L0 : 0 ≤ L
  c0 : 0 ≤ c
  γ0 : 0 ≤ γ

/-- A float comparison `a <= b + m` passes if the exact one does. -/
theorem le_add_float {a b m : Fl F} (ha : a.IsFinite) (hb : b.IsFinite) (hm : m.IsFinite)
    (h : a.toReal ≤ b.toReal + m.toReal) : Scalar.le a (b + m) = true := by
  obtain ⟨x, hx, rfl⟩ := isFinite_iff.1 ha
  obtain ⟨y, hy, rfl⟩ := isFinite_iff.1 hb
  obtain ⟨z, hz, rfl⟩ := isFinite_iff.1 hm
  simp only [toReal_fin] at h
  rw [fin_add]
  have h1 : x ≤ F.rnd (y + z) := by
    rw [← F.rnd_of_mem x hx.1]; exact F.rnd_mono h
  unfold FloatFormat.round
  split_ifs with hle
  · exact le_fin.2 h1
  · have hx2 := (abs_le.1 hx.2).1
    have hn : ¬ (y + z < 0) := by
      intro hneg
      apply hle
      have := F.rnd_nonpos hneg.le
      rw [abs_le]
      constructor <;> linarith [F.max_ge]
    rw [decide_eq_false hn]
    simp [Scalar.le, Fl.le, val?]

/-- A float comparison `a <= b + m` says the exact one up to rounding. -/
theorem of_le_add_float {a b m : Fl F} {N : ℝ} (ha : a.IsFinite) (hb : b.IsFinite)
    (hm : m.IsFinite) (hN : |b.toReal| + |m.toReal| ≤ N) (hmax : N ≤ F.max)
    (h : Scalar.le a (b + m) = true) :
    a.toReal ≤ b.toReal + m.toReal + (F.u * N + F.eta) := by
  obtain ⟨x, hx, rfl⟩ := isFinite_iff.1 ha
  obtain ⟨y, hy, rfl⟩ := isFinite_iff.1 hb
  obtain ⟨z, hz, rfl⟩ := isFinite_iff.1 hm
  simp only [toReal_fin] at hN ⊢
  have hs : |y + z| ≤ N := (abs_add_le _ _).trans hN
  rw [fin_add, F.round_of_le (hs.trans hmax), le_fin] at h
  have h1 := (abs_le.1 (F.rnd_err (y + z))).2
  have h2 := mul_le_mul_of_nonneg_left hs F.u_nonneg
  linarith

section Program
variable {Q R : Type} {split : Q → Q × Q} {split' : R → R × R}
  {box : Q → Option (Arr (Fl F × Fl F) n)} {box' : R → Option (Arr (Fl F × Fl F) n)}
  {ok : Q → Prop} {ok' : R → Prop} {size : ℝ → Q → Prop} {size' : ℝ → R → Prop}
  {ex : Q → Fin n → ℝ → ℝ} {ex' : R → Fin n → ℝ → ℝ}
  {M E L c β γ M' E' L' c' β' γ' : ℝ}

theorem Boxed.complete (hQ : Boxed split box ok size ex M E L c β γ)
    (hR : Boxed split' box' ok' size' ex' M' E' L' c' β' γ') (q : Q) (r : R) (hq : ok q)
    (hr : ok' r) (m : Fl F) (hmf : m.IsFinite) (k : ℕ) {δ : ℝ}
    (hm : δ + k * (E + E') + β + β' ≤ m.toReal)
    {s t : ℝ} (s0 : 0 ≤ s) (s1 : s ≤ 1) (t0 : 0 ≤ t) (t1 : t ≤ 1)
    (e : ∀ i, |ex q i s - ex' r i t| ≤ δ) :
    ∃ i j, (i, j) ∈ intersectBy split split' (fun q r => boxesTouch m (box q) (box' r)) k q r ∧
      ((i : ℝ) ≤ 2 ^ k * s ∧ 2 ^ k * s ≤ i + 1) ∧ (j : ℝ) ≤ 2 ^ k * t ∧ 2 ^ k * t ≤ j + 1 := by
  refine intersectBy_complete (D := m.toReal - β - β') hQ.inv hR.inv hQ.err hR.err hQ.E0 hR.E0 ?_ k
    q r s t δ hq hr s0 s1 t0 t1 e (by linarith)
  intro q r s t hq hr s0 s1 t0 t1 hD
  obtain ⟨b, hb, h⟩ := hQ.contains q hq
  obtain ⟨b', hb', h'⟩ := hR.contains r hr
  simp only [hb, hb', boxesTouch, List.all_eq_true, List.mem_finRange, forall_const,
    Bool.and_eq_true]
  intro i
  obtain ⟨⟨f1, f2⟩, -, g⟩ := h i
  obtain ⟨⟨f1', f2'⟩, -, g'⟩ := h' i
  have d := abs_le.1 (hD i)
  have g := g s s0 s1
  have g' := g' t t0 t1
  exact ⟨le_add_float f1 f2' hmf (by linarith [g.1, g'.2, d.2]),
    le_add_float f1' f2 hmf (by linarith [g.2, g'.1, d.1])⟩

theorem Boxed.sound (hQ : Boxed split box ok size ex M E L c β γ)
    (hR : Boxed split' box' ok' size' ex' M E' L' c' β' γ') (q : Q) (r : R) (hq : ok q)
    (hr : ok' r) (m : Fl F) (hmf : m.IsFinite) (hmM : |m.toReal| ≤ M)
    (hmax : 2 * M + γ + γ' ≤ F.max) (k : ℕ) {A B : ℝ} (hA : size A q)
    (hB : size' B r) {i j : ℕ}
    (h : (i, j) ∈ intersectBy split split' (fun q r => boxesTouch m (box q) (box' r)) k q r) :
    i < 2 ^ k ∧ j < 2 ^ k ∧ ∀ s t : ℝ, ((i : ℝ) ≤ 2 ^ k * s ∧ 2 ^ k * s ≤ i + 1) →
      ((j : ℝ) ≤ 2 ^ k * t ∧ 2 ^ k * t ≤ j + 1) → ∀ a,
      |ex q a s - ex' r a t| ≤ m.toReal + c * (A / 2 ^ k + 2 * L) + c' * (B / 2 ^ k + 2 * L')
        + γ + γ' + k * (E + E') + (F.u * (2 * M + γ + γ') + F.eta) := by
  obtain ⟨hi, hj, p, p', o, o', z, z', e, e', hT⟩ := intersectBy_pieces (L := L) (L' := L') hQ.inv
    hR.inv hQ.err hR.err hQ.shrink hR.shrink k q r A B hq hr hA hB i j h
  refine ⟨hi, hj, fun s t hs ht a => ?_⟩
  have hp : (0 : ℝ) < 2 ^ k := by positivity
  have p1 : (0 : ℝ) ≤ 1 / 2 ^ k := by positivity
  obtain ⟨b, hb, hc⟩ := hQ.contains p o
  obtain ⟨b', hb', hc'⟩ := hR.contains p' o'
  simp only [hb, hb', boxesTouch, List.all_eq_true, List.mem_finRange, forall_const,
    Bool.and_eq_true] at hT
  obtain ⟨T1, T2⟩ := hT a
  obtain ⟨⟨f1, f2⟩, N, -⟩ := hc a
  obtain ⟨⟨f1', f2'⟩, N', -⟩ := hc' a
  have T1 := of_le_add_float (N := 2 * M + γ + γ') f1 f2' hmf (by linarith [hQ.γ0]) hmax T1
  have T2 := of_le_add_float (N := 2 * M + γ + γ') f1' f2 hmf (by linarith [hR.γ0]) hmax T2
  have par : ∀ (c : ℕ) (x : ℝ), (c : ℝ) ≤ 2 ^ k * x → 2 ^ k * x ≤ c + 1 →
      0 ≤ 2 ^ k * x - c ∧ 2 ^ k * x - c ≤ 1 ∧ ((c : ℝ) + (2 ^ k * x - c)) / 2 ^ k = x := by
    intro c x h1 h2
    refine ⟨by linarith, by linarith, ?_⟩
    rw [add_sub_cancel, mul_div_cancel_left₀ _ hp.ne']
  obtain ⟨u0, u1, eu⟩ := par i s hs.1 hs.2
  obtain ⟨v0, v1, ev⟩ := par j t ht.1 ht.2
  have e1 := e a _ u0 u1
  have e2 := e' a _ v0 v1
  rw [eu] at e1
  rw [ev] at e2
  obtain ⟨w1, w2⟩ := hQ.tight p _ b o z hb a _ u0 u1
  obtain ⟨w1', w2'⟩ := hR.tight p' _ b' o' z' hb' a _ v0 v1
  have l1 : c * (A / 2 ^ k + 2 * L * (1 - 1 / 2 ^ k)) ≤ c * (A / 2 ^ k + 2 * L) := by
    refine mul_le_mul_of_nonneg_left ?_ hQ.c0
    have := mul_nonneg hQ.L0 p1
    linarith
  have l2 : c' * (B / 2 ^ k + 2 * L' * (1 - 1 / 2 ^ k)) ≤ c' * (B / 2 ^ k + 2 * L') := by
    refine mul_le_mul_of_nonneg_left ?_ hR.c0
    have := mul_nonneg hR.L0 p1
    linarith
  rw [abs_le] at e1 e2 ⊢
  rw [mul_add]
  constructor <;> linarith [e1.1, e1.2, e2.1, e2.2]

end Program

/-! ### Quadratic curves -/

theorem bern2_width {a b c D s t : ℝ} (h1 : |a - b| ≤ D) (h2 : |b - c| ≤ D) (s0 : 0 ≤ s)
    (s1 : s ≤ 1) (t0 : 0 ≤ t) (t1 : t ≤ 1) : bern2 s a b c ≤ bern2 t a b c + 2 * D := by
  rw [abs_le] at h1 h2
  have D0 : 0 ≤ D := by linarith [h1.1, h1.2]
  have up : bern2 s a b c ≤ b + D := by
    unfold bern2
    nlinarith [mul_nonneg s0 (sub_nonneg.2 s1), sq_nonneg s, sq_nonneg (1 - s)]
  have lo : b - D ≤ bern2 t a b c := by
    unfold bern2
    nlinarith [mul_nonneg t0 (sub_nonneg.2 t1), sq_nonneg t, sq_nonneg (1 - t)]
  linarith

theorem bern2_abs {a b c M t : ℝ} (h1 : |a| ≤ M) (h2 : |b| ≤ M) (h3 : |c| ≤ M) (t0 : 0 ≤ t)
    (t1 : t ≤ 1) : |bern2 t a b c| ≤ M := by
  rw [abs_le] at *
  unfold bern2
  constructor <;>
    nlinarith [mul_nonneg t0 (sub_nonneg.2 t1), sq_nonneg t, sq_nonneg (1 - t)]

theorem quadratic_boxed {M : ℝ} (hF : FlattenFormat F n M) (hmax : 9 * M + 2 ≤ F.max)
    (hη : 1024 * F.eta ≤ F.epsilon * F.u) :
    Boxed (QuadraticBezier.halveAt (fin (1 / 2) hF.half))
      (QuadraticBezier.boundingBox (P := PointN (Fl F) n)) (QuadraticBezier.Within M)
      QuadraticBezier.Legs QuadraticBezier.exact M (13 * F.u * M + 9 * F.eta)
      (19 * F.u * M + 13 * F.eta) 2 (14 * F.u * M + 9 * F.eta + F.epsilon)
      (13 * F.u * M + 9 * F.eta) := by
  have e0 := F.eta_nonneg
  have uM : 0 ≤ F.u * M := mul_nonneg F.u_nonneg hF.nonneg
  refine ⟨fun q hq => q.halve_within hF hq, fun q hq i s s0 s1 => q.halve_error hF hq i s s0 s1,
    fun q D hq hD => q.halve_legs hF hq hD, fun q hq => ?_, fun q D b hq hD hb i t t0 t1 => ?_,
    by linarith, by linarith, by norm_num, by linarith⟩
  · obtain ⟨b, hb, h⟩ := C84_quadratic q hF.u hη hq.1 hq.2.1 hq.2.2 hmax hF.nonneg
    refine ⟨b, hb, fun i => ?_⟩
    obtain ⟨f, g, -, x, ⟨x0, x1⟩, hx⟩ := h i
    refine ⟨f, ?_, g⟩
    have hB : |bern2 x (q.start.coords i).toReal (q.ctrl.coords i).toReal
        (q.end_.coords i).toReal| ≤ M := bern2_abs (hq.1 i).2 (hq.2.1 i).2 (hq.2.2 i).2 x0 x1
    have := abs_add_le ((b i).2.toReal - bern2 x (q.start.coords i).toReal (q.ctrl.coords i).toReal
        (q.end_.coords i).toReal) (bern2 x (q.start.coords i).toReal (q.ctrl.coords i).toReal
        (q.end_.coords i).toReal)
    rw [sub_add_cancel] at this
    unfold bern2 at this hB
    linarith
  · obtain ⟨b', hb', h⟩ := C84_quadratic q hF.u hη hq.1 hq.2.1 hq.2.2 hmax hF.nonneg
    rw [hb] at hb'
    obtain rfl := Option.some.inj hb'
    obtain ⟨-, -, ⟨x, ⟨x0, x1⟩, hx⟩, y, ⟨y0, y1⟩, hy⟩ := h i
    obtain ⟨d1, d2⟩ := hD i
    have w1 := bern2_width d1 d2 t0 t1 x0 x1
    have w2 := bern2_width d1 d2 y0 y1 t0 t1
    rw [abs_le] at hx hy
    unfold QuadraticBezier.exact
    unfold bern2 at w1 w2 ⊢
    constructor <;> linarith [hx.1, hx.2, hy.1, hy.2]

/-! ### Cubic curves with the box of the control points -/

theorem lesser_fin {a b : Fl F} (ha : a.IsFinite) (hb : b.IsFinite) :
    (lesser a b).IsFinite ∧ (lesser a b).toReal = min a.toReal b.toReal := by
  obtain ⟨x, hx, rfl⟩ := isFinite_iff.1 ha
  obtain ⟨y, hy, rfl⟩ := isFinite_iff.1 hb
  unfold lesser
  split_ifs with h
  · rw [le_fin] at h
    exact ⟨trivial, (min_eq_left h).symm⟩
  · rw [le_fin] at h
    exact ⟨trivial, (min_eq_right (not_le.1 h).le).symm⟩

theorem greater_fin {a b : Fl F} (ha : a.IsFinite) (hb : b.IsFinite) :
    (greater a b).IsFinite ∧ (greater a b).toReal = max a.toReal b.toReal := by
  obtain ⟨x, hx, rfl⟩ := isFinite_iff.1 ha
  obtain ⟨y, hy, rfl⟩ := isFinite_iff.1 hb
  unfold greater
  split_ifs with h
  · rw [le_fin] at h
    exact ⟨trivial, (max_eq_right h).symm⟩
  · rw [le_fin] at h
    exact ⟨trivial, (max_eq_left (not_le.1 h).le).symm⟩

theorem bern3_between {a b c d lo hi t : ℝ} (t0 : 0 ≤ t) (t1 : t ≤ 1) (ha : lo ≤ a ∧ a ≤ hi)
    (hb : lo ≤ b ∧ b ≤ hi) (hc : lo ≤ c ∧ c ≤ hi) (hd : lo ≤ d ∧ d ≤ hi) :
    lo ≤ bern3 t a b c d ∧ bern3 t a b c d ≤ hi := by
  have w0 : 0 ≤ (1 - t) ^ 3 := pow_nonneg (by linarith) 3
  have w1 : 0 ≤ 3 * t * (1 - t) ^ 2 := by positivity
  have w2 : 0 ≤ 3 * t ^ 2 * (1 - t) := mul_nonneg (by positivity) (by linarith)
  have w3 : 0 ≤ t ^ 3 := by positivity
  have sum : (1 - t) ^ 3 + 3 * t * (1 - t) ^ 2 + 3 * t ^ 2 * (1 - t) + t ^ 3 = 1 := by ring
  unfold bern3
  constructor
  · have := mul_le_mul_of_nonneg_left ha.1 w0
    have := mul_le_mul_of_nonneg_left hb.1 w1
    have := mul_le_mul_of_nonneg_left hc.1 w2
    have := mul_le_mul_of_nonneg_left hd.1 w3
    have : lo = (1 - t) ^ 3 * lo + 3 * t * (1 - t) ^ 2 * lo + 3 * t ^ 2 * (1 - t) * lo
      + t ^ 3 * lo := by linear_combination (-lo) * sum
    linarith
  · have := mul_le_mul_of_nonneg_left ha.2 w0
    have := mul_le_mul_of_nonneg_left hb.2 w1
    have := mul_le_mul_of_nonneg_left hc.2 w2
    have := mul_le_mul_of_nonneg_left hd.2 w3
    have : hi = (1 - t) ^ 3 * hi + 3 * t * (1 - t) ^ 2 * hi + 3 * t ^ 2 * (1 - t) * hi
      + t ^ 3 * hi := by linear_combination (-hi) * sum
    linarith

theorem cubic_boxed {M : ℝ} (hF : FlattenFormat F n M) :
    Boxed (CubicBezier.halveAt (fin (1 / 2) hF.half))
      (CubicBezier.hullBox (S := Fl F) (n := n)) (CubicBezier.Within M)
      CubicBezier.Legs CubicBezier.exact M (20 * F.u * M + 14 * F.eta)
      (33 * F.u * M + 23 * F.eta) 3 0 0 := by
  have e0 := F.eta_nonneg
  have uM : 0 ≤ F.u * M := mul_nonneg F.u_nonneg hF.nonneg
  have ends : ∀ c : CubicBezier (PointN (Fl F) n), c.Within M → ∀ i,
      ∃ lo hi : Fl F, lo.IsFinite ∧ hi.IsFinite ∧
        (lesser (lesser (c.start.coords i) (c.ctrl1.coords i))
          (lesser (c.ctrl2.coords i) (c.end_.coords i))) = lo ∧
        (greater (greater (c.start.coords i) (c.ctrl1.coords i))
          (greater (c.ctrl2.coords i) (c.end_.coords i))) = hi ∧
        lo.toReal = min (min (c.start.coords i).toReal (c.ctrl1.coords i).toReal)
          (min (c.ctrl2.coords i).toReal (c.end_.coords i).toReal) ∧
        hi.toReal = max (max (c.start.coords i).toReal (c.ctrl1.coords i).toReal)
          (max (c.ctrl2.coords i).toReal (c.end_.coords i).toReal) := by
    rintro c ⟨h1, h2, h3, h4⟩ i
    obtain ⟨f1, g1⟩ := lesser_fin (h1 i).1 (h2 i).1
    obtain ⟨f2, g2⟩ := lesser_fin (h3 i).1 (h4 i).1
    obtain ⟨f3, g3⟩ := lesser_fin f1 f2
    obtain ⟨k1, l1⟩ := greater_fin (h1 i).1 (h2 i).1
    obtain ⟨k2, l2⟩ := greater_fin (h3 i).1 (h4 i).1
    obtain ⟨k3, l3⟩ := greater_fin k1 k2
    exact ⟨_, _, f3, k3, rfl, rfl, by rw [g3, g1, g2], by rw [l3, l1, l2]⟩
  refine ⟨fun q hq => q.halve_within hF hq, fun q hq i s s0 s1 => q.halve_error hF hq i s s0 s1,
    fun q D hq hD => q.halve_legs hF hq hD, fun q hq => ?_, fun q D b hq hD hb i t t0 t1 => ?_,
    by linarith, by linarith, by norm_num, le_rfl⟩
  · refine ⟨_, rfl, fun i => ?_⟩
    obtain ⟨lo, hi, fl, fh, el, eh, vl, vh⟩ := ends q hq i
    simp only [el, eh]
    refine ⟨⟨fl, fh⟩, ?_, fun t t0 t1 => ?_⟩
    · rw [vh, add_zero]
      have h1 := abs_le.1 (hq.1 i).2
      have h2 := abs_le.1 (hq.2.1 i).2
      have h3 := abs_le.1 (hq.2.2.1 i).2
      have h4 := abs_le.1 (hq.2.2.2 i).2
      rw [abs_le]
      exact ⟨h1.1.trans ((le_max_left _ _).trans (le_max_left _ _)),
        max_le (max_le h1.2 h2.2) (max_le h3.2 h4.2)⟩
    · rw [sub_zero, add_zero, vl, vh]
      exact bern3_between t0 t1
        ⟨(min_le_left _ _).trans (min_le_left _ _), (le_max_left _ _).trans (le_max_left _ _)⟩
        ⟨(min_le_left _ _).trans (min_le_right _ _), (le_max_right _ _).trans (le_max_left _ _)⟩
        ⟨(min_le_right _ _).trans (min_le_left _ _), (le_max_left _ _).trans (le_max_right _ _)⟩
        ⟨(min_le_right _ _).trans (min_le_right _ _),
          (le_max_right _ _).trans (le_max_right _ _)⟩
  · obtain rfl := Option.some.inj hb
    obtain ⟨lo, hi, fl, fh, el, eh, vl, vh⟩ := ends q hq i
    simp only [el, eh]
    obtain ⟨d1, d2, d3⟩ := hD i
    rw [abs_le] at d1 d2 d3
    have D0 : 0 ≤ D := by linarith [d1.1, d1.2]
    rw [sub_zero, add_zero]
    set x := (q.start.coords i).toReal
    set y := (q.ctrl1.coords i).toReal
    set z := (q.ctrl2.coords i).toReal
    set w := (q.end_.coords i).toReal
    have up : x ≤ lo.toReal + 3 * D ∧ y ≤ lo.toReal + 3 * D ∧ z ≤ lo.toReal + 3 * D ∧
        w ≤ lo.toReal + 3 * D := by
      rw [vl]
      refine ⟨?_, ?_, ?_, ?_⟩ <;> rw [← sub_le_iff_le_add] <;>
        exact le_min (le_min (by linarith [d1.1, d2.1, d3.1, d1.2, d2.2, d3.2])
          (by linarith [d1.1, d2.1, d3.1, d1.2, d2.2, d3.2]))
          (le_min (by linarith [d1.1, d2.1, d3.1, d1.2, d2.2, d3.2])
          (by linarith [d1.1, d2.1, d3.1, d1.2, d2.2, d3.2]))
    have dn : hi.toReal ≤ x + 3 * D ∧ hi.toReal ≤ y + 3 * D ∧ hi.toReal ≤ z + 3 * D ∧
        hi.toReal ≤ w + 3 * D := by
      rw [vh]
      refine ⟨?_, ?_, ?_, ?_⟩ <;>
        exact max_le (max_le (by linarith [d1.1, d2.1, d3.1, d1.2, d2.2, d3.2])
          (by linarith [d1.1, d2.1, d3.1, d1.2, d2.2, d3.2]))
          (max_le (by linarith [d1.1, d2.1, d3.1, d1.2, d2.2, d3.2])
          (by linarith [d1.1, d2.1, d3.1, d1.2, d2.2, d3.2]))
    have := bern3_between (lo := hi.toReal - 3 * D) (hi := lo.toReal + 3 * D) t0 t1
      ⟨by linarith [dn.1], up.1⟩ ⟨by linarith [dn.2.1], up.2.1⟩
      ⟨by linarith [dn.2.2.1], up.2.2.1⟩ ⟨by linarith [dn.2.2.2], up.2.2.2⟩
    exact ⟨this.2, this.1⟩

/-! ### The properties -/

section Properties
variable {M : ℝ} (hF : FlattenFormat F n M)

/-- **C130**, two quadratic curves and `bounding_box`: if the margin covers the rounding errors of
the boxes and of `k` splits, no common point of the exact curves is lost, and no pair of points that
agree up to `δ` on every axis either: some reported pair of pieces covers the two parameters. -/
theorem C130_complete_quadratics (hmax : 9 * M + 2 ≤ F.max) (hη : 1024 * F.eta ≤ F.epsilon * F.u)
    (q r : QuadraticBezier (PointN (Fl F) n)) (hq : q.Within M) (hr : r.Within M) (m : Fl F)
    (hmf : m.IsFinite) (k : ℕ) {δ : ℝ}
    (hm : δ + (28 + 26 * k) * (F.u * M) + (18 + 18 * k) * F.eta + 2 * F.epsilon ≤ m.toReal)
    {s t : ℝ} (s0 : 0 ≤ s) (s1 : s ≤ 1) (t0 : 0 ≤ t) (t1 : t ≤ 1)
    (e : ∀ a : Fin n, |(q.real.eval s).coords a - (r.real.eval t).coords a| ≤ δ) :
    ∃ i j, (i, j) ∈ intersectBy (QuadraticBezier.halveAt (fin (1 / 2) hF.half))
        (QuadraticBezier.halveAt (fin (1 / 2) hF.half))
        (fun q r => boxesTouch m q.boundingBox r.boundingBox) k q r ∧
      ((i : ℝ) ≤ 2 ^ k * s ∧ 2 ^ k * s ≤ i + 1) ∧ (j : ℝ) ≤ 2 ^ k * t ∧ 2 ^ k * t ≤ j + 1 :=
  (quadratic_boxed hF hmax hη).complete (quadratic_boxed hF hmax hη) q r hq hr m hmf k (δ := δ)
    (le_trans (le_of_eq (by ring)) hm) s0 s1 t0 t1 fun a => by
      have := e a
      rwa [quadratic_real_eval, quadratic_real_eval] at this

/-- **C130**, two quadratic curves and `bounding_box`: on the parameters of a reported pair the exact
curves agree on every axis up to the margin, a bound that halves with every level, and rounding. -/
theorem C130_sound_quadratics (hmax : 9 * M + 2 ≤ F.max) (hη : 1024 * F.eta ≤ F.epsilon * F.u)
    (q r : QuadraticBezier (PointN (Fl F) n)) (hq : q.Within M) (hr : r.Within M) (m : Fl F)
    (hmf : m.IsFinite) (hmM : |m.toReal| ≤ M) (k : ℕ) {A B : ℝ} (hA : q.Legs A) (hB : r.Legs B)
    {i j : ℕ}
    (h : (i, j) ∈ intersectBy (QuadraticBezier.halveAt (fin (1 / 2) hF.half))
        (QuadraticBezier.halveAt (fin (1 / 2) hF.half))
        (fun q r => boxesTouch m q.boundingBox r.boundingBox) k q r) :
    i < 2 ^ k ∧ j < 2 ^ k ∧ ∀ s t : ℝ, ((i : ℝ) ≤ 2 ^ k * s ∧ 2 ^ k * s ≤ i + 1) →
      ((j : ℝ) ≤ 2 ^ k * t ∧ 2 ^ k * t ≤ j + 1) → ∀ a : Fin n,
      |(q.real.eval s).coords a - (r.real.eval t).coords a| ≤ m.toReal + (2 * A + 2 * B) / 2 ^ k
        + (182 + 26 * k) * (F.u * M) + (125 + 18 * k) * F.eta := by
  have e0 := F.eta_nonneg
  have u0 := F.u_nonneg
  have uM : 0 ≤ F.u * M := mul_nonneg F.u_nonneg hF.nonneg
  have uuM : F.u * (F.u * M) ≤ 1 / 1024 * (F.u * M) := mul_le_mul_of_nonneg_right hF.u uM
  have ue : F.u * F.eta ≤ 1 / 1024 * F.eta := mul_le_mul_of_nonneg_right hF.u e0
  have uM' : F.u * M ≤ 1 / 1024 * M := mul_le_mul_of_nonneg_right hF.u hF.nonneg
  have hn := hF.nonneg
  have he := hF.eta
  obtain ⟨hi, hj, hc⟩ := (quadratic_boxed hF hmax hη).sound (quadratic_boxed hF hmax hη) q r hq hr m
    hmf hmM (by linarith) k hA hB h
  refine ⟨hi, hj, fun s t hs ht a => ?_⟩
  have := hc s t hs ht a
  rw [quadratic_real_eval, quadratic_real_eval]
  refine this.trans ?_
  have hk : (k : ℝ) * (13 * F.u * M + 9 * F.eta + (13 * F.u * M + 9 * F.eta))
      = 26 * k * (F.u * M) + 18 * k * F.eta := by ring
  have hd : 2 * (A / 2 ^ k) + 2 * (B / 2 ^ k) = (2 * A + 2 * B) / 2 ^ k := by ring
  rw [hk, ← hd]
  nlinarith

/-- **C130**, a quadratic curve with `bounding_box` and a cubic curve with the box of its control
points: no common point is lost. -/
theorem C130_complete_mixed (hmax : 9 * M + 2 ≤ F.max) (hη : 1024 * F.eta ≤ F.epsilon * F.u)
    (q : QuadraticBezier (PointN (Fl F) n)) (r : CubicBezier (PointN (Fl F) n)) (hq : q.Within M)
    (hr : r.Within M) (m : Fl F) (hmf : m.IsFinite) (k : ℕ) {δ : ℝ}
    (hm : δ + (14 + 33 * k) * (F.u * M) + (9 + 23 * k) * F.eta + F.epsilon ≤ m.toReal)
    {s t : ℝ} (s0 : 0 ≤ s) (s1 : s ≤ 1) (t0 : 0 ≤ t) (t1 : t ≤ 1)
    (e : ∀ a : Fin n, |(q.real.eval s).coords a - (r.real.eval t).coords a| ≤ δ) :
    ∃ i j, (i, j) ∈ intersectBy (QuadraticBezier.halveAt (fin (1 / 2) hF.half))
        (CubicBezier.halveAt (fin (1 / 2) hF.half))
        (fun q r => boxesTouch m q.boundingBox r.hullBox) k q r ∧
      ((i : ℝ) ≤ 2 ^ k * s ∧ 2 ^ k * s ≤ i + 1) ∧ (j : ℝ) ≤ 2 ^ k * t ∧ 2 ^ k * t ≤ j + 1 :=
  (quadratic_boxed hF hmax hη).complete (cubic_boxed hF) q r hq hr m hmf k (δ := δ)
    (le_trans (le_of_eq (by ring)) hm) s0 s1 t0 t1 fun a => by
      have := e a
      rwa [quadratic_real_eval, cubic_real_eval] at this

/-- **C130**, a quadratic curve with `bounding_box` and a cubic curve with the box of its control
points: on the parameters of a reported pair the curves are close. -/
theorem C130_sound_mixed (hmax : 9 * M + 2 ≤ F.max) (hη : 1024 * F.eta ≤ F.epsilon * F.u)
    (q : QuadraticBezier (PointN (Fl F) n)) (r : CubicBezier (PointN (Fl F) n)) (hq : q.Within M)
    (hr : r.Within M) (m : Fl F) (hmf : m.IsFinite) (hmM : |m.toReal| ≤ M) (k : ℕ) {A B : ℝ}
    (hA : q.Legs A) (hB : r.Legs B) {i j : ℕ}
    (h : (i, j) ∈ intersectBy (QuadraticBezier.halveAt (fin (1 / 2) hF.half))
        (CubicBezier.halveAt (fin (1 / 2) hF.half))
        (fun q r => boxesTouch m q.boundingBox r.hullBox) k q r) :
    i < 2 ^ k ∧ j < 2 ^ k ∧ ∀ s t : ℝ, ((i : ℝ) ≤ 2 ^ k * s ∧ 2 ^ k * s ≤ i + 1) →
      ((j : ℝ) ≤ 2 ^ k * t ∧ 2 ^ k * t ≤ j + 1) → ∀ a : Fin n,
      |(q.real.eval s).coords a - (r.real.eval t).coords a| ≤ m.toReal + (2 * A + 3 * B) / 2 ^ k
        + (290 + 33 * k) * (F.u * M) + (201 + 23 * k) * F.eta := by
  have e0 := F.eta_nonneg
  have u0 := F.u_nonneg
  have uM : 0 ≤ F.u * M := mul_nonneg F.u_nonneg hF.nonneg
  have uuM : F.u * (F.u * M) ≤ 1 / 1024 * (F.u * M) := mul_le_mul_of_nonneg_right hF.u uM
  have ue : F.u * F.eta ≤ 1 / 1024 * F.eta := mul_le_mul_of_nonneg_right hF.u e0
  have uM' : F.u * M ≤ 1 / 1024 * M := mul_le_mul_of_nonneg_right hF.u hF.nonneg
  have hn := hF.nonneg
  have he := hF.eta
  obtain ⟨hi, hj, hc⟩ := (quadratic_boxed hF hmax hη).sound (cubic_boxed hF) q r hq hr m
    hmf hmM (by linarith) k hA hB h
  refine ⟨hi, hj, fun s t hs ht a => ?_⟩
  have := hc s t hs ht a
  rw [quadratic_real_eval, cubic_real_eval]
  refine this.trans ?_
  have hk : (k : ℝ) * (13 * F.u * M + 9 * F.eta + (20 * F.u * M + 14 * F.eta))
      = 33 * k * (F.u * M) + 23 * k * F.eta := by ring
  have hd : 2 * (A / 2 ^ k) + 3 * (B / 2 ^ k) = (2 * A + 3 * B) / 2 ^ k := by ring
  rw [hk, ← hd]
  nlinarith

/-- **C130**, two cubic curves with the boxes of their control points: no common point is lost. -/
theorem C130_complete_cubics (q r : CubicBezier (PointN (Fl F) n)) (hq : q.Within M)
    (hr : r.Within M) (m : Fl F) (hmf : m.IsFinite) (k : ℕ) {δ : ℝ}
    (hm : δ + k * (40 * (F.u * M) + 28 * F.eta) ≤ m.toReal)
    {s t : ℝ} (s0 : 0 ≤ s) (s1 : s ≤ 1) (t0 : 0 ≤ t) (t1 : t ≤ 1)
    (e : ∀ a : Fin n, |(q.real.eval s).coords a - (r.real.eval t).coords a| ≤ δ) :
    ∃ i j, (i, j) ∈ intersectBy (CubicBezier.halveAt (fin (1 / 2) hF.half))
        (CubicBezier.halveAt (fin (1 / 2) hF.half))
        (fun q r => boxesTouch m q.hullBox r.hullBox) k q r ∧
      ((i : ℝ) ≤ 2 ^ k * s ∧ 2 ^ k * s ≤ i + 1) ∧ (j : ℝ) ≤ 2 ^ k * t ∧ 2 ^ k * t ≤ j + 1 :=
  (cubic_boxed hF).complete (cubic_boxed hF) q r hq hr m hmf k (δ := δ)
    (le_trans (le_of_eq (by ring)) hm) s0 s1 t0 t1 fun a => by
      have := e a
      rwa [cubic_real_eval, cubic_real_eval] at this

/-- **C130**, two cubic curves with the boxes of their control points: on the parameters of a
reported pair the curves are close. -/
theorem C130_sound_cubics (q r : CubicBezier (PointN (Fl F) n)) (hq : q.Within M)
    (hr : r.Within M) (m : Fl F) (hmf : m.IsFinite) (hmM : |m.toReal| ≤ M) (k : ℕ) {A B : ℝ}
    (hA : q.Legs A) (hB : r.Legs B) {i j : ℕ}
    (h : (i, j) ∈ intersectBy (CubicBezier.halveAt (fin (1 / 2) hF.half))
        (CubicBezier.halveAt (fin (1 / 2) hF.half))
        (fun q r => boxesTouch m q.hullBox r.hullBox) k q r) :
    i < 2 ^ k ∧ j < 2 ^ k ∧ ∀ s t : ℝ, ((i : ℝ) ≤ 2 ^ k * s ∧ 2 ^ k * s ≤ i + 1) →
      ((j : ℝ) ≤ 2 ^ k * t ∧ 2 ^ k * t ≤ j + 1) → ∀ a : Fin n,
      |(q.real.eval s).coords a - (r.real.eval t).coords a| ≤ m.toReal + (3 * A + 3 * B) / 2 ^ k
        + (398 + 40 * k) * (F.u * M) + (277 + 28 * k) * F.eta := by
  have hn := hF.nonneg
  obtain ⟨hi, hj, hc⟩ := (cubic_boxed hF).sound (cubic_boxed hF) q r hq hr m
    hmf hmM (by linarith [hF.max]) k hA hB h
  refine ⟨hi, hj, fun s t hs ht a => ?_⟩
  have := hc s t hs ht a
  rw [cubic_real_eval, cubic_real_eval]
  refine this.trans (le_of_eq ?_)
  ring

end Properties

section Binary64
variable (cosI acosI : ℝ → ℝ) (powI : ℝ → ℝ → ℝ)

/-- A cubic curve in one dimension that stays at -1/512. -/
noncomputable def constantCubic : CubicBezier (PointN (Fl (binary64 cosI acosI powI)) 1) :=
  let p : PointN (Fl (binary64 cosI acosI powI)) 1 :=
    ⟨fun _ => fin (-1 / 512) (dyadic_ok _ _ _ (-1) (-9) (by norm_num) (by norm_num) (by norm_num)
      (by norm_num [abs_le]))⟩
  ⟨p, p, p, p⟩

/-- **C130** is false of cubic curves with `bounding_box`: in binary64 there are two cubic curves
with coordinates at most 3 in magnitude which have a common point, but with every margin up to 1/1024
the program reports nothing, to whatever depth and wherever it splits. -/
theorem C130_cubics_false : ∃ q r : CubicBezier (PointN (Fl (binary64 cosI acosI powI)) 1),
    q.Within 3 ∧ r.Within 3 ∧
    (∃ s t : ℝ, (0 ≤ s ∧ s ≤ 1) ∧ (0 ≤ t ∧ t ≤ 1) ∧ q.real.eval s = r.real.eval t) ∧
    ∀ (h m : Fl (binary64 cosI acosI powI)) (k : ℕ), m.IsFinite → |m.toReal| ≤ 1 / 1024 →
      intersectBy (CubicBezier.halveAt h) (CubicBezier.halveAt h)
        (fun q r => boxesTouch m q.boundingBox r.boundingBox) k q r = [] := by
  obtain ⟨hb, box, hbox, hpos⟩ := nearlyQuadratic_box cosI acosI powI
  have hu : (binary64 cosI acosI powI).u = 2 ^ (-53 : ℤ) := rfl
  have he : (binary64 cosI acosI powI).eta ≤ 1 / 10 ^ 60 := binary64_eta cosI acosI powI
  have e0 := (binary64 cosI acosI powI).eta_nonneg
  have hmax : (10 : ℝ) ^ 60 ≤ (binary64 cosI acosI powI).max := binary64_max cosI acosI powI
  have hr : (constantCubic cosI acosI powI).Within 3 := by
    have : BoundedBy 3 (constantCubic cosI acosI powI).start := fun i => ⟨trivial, by
      show |(-1 / 512 : ℝ)| ≤ 3; norm_num [abs_le]⟩
    exact ⟨this, this, this, this⟩
  have hcst : ∀ t : ℝ, ((constantCubic cosI acosI powI).real.eval t).coords 0 = -1 / 512 := by
    intro t
    rw [cubic_real_eval]
    show (1 - t) ^ 3 * (-1 / 512) + 3 * t * (1 - t) ^ 2 * (-1 / 512)
      + 3 * t ^ 2 * (1 - t) * (-1 / 512) + t ^ 3 * (-1 / 512 : ℝ) = _
    ring
  refine ⟨nearlyQuadratic cosI acosI powI, constantCubic cosI acosI powI, hb, hr, ?_, ?_⟩
  · have hc : ContinuousOn (fun t : ℝ => ((nearlyQuadratic cosI acosI powI).real.eval t).coords 0)
        (Set.Icc 0 (1 / 32)) := by
      simp only [cubic_real_eval]
      fun_prop
    have hv := intermediate_value_Icc' (by norm_num : (0 : ℝ) ≤ 1 / 32) hc
    have hm : (-1 / 512 : ℝ) ∈ Set.Icc
        (((nearlyQuadratic cosI acosI powI).real.eval (1 / 32 : ℝ)).coords 0)
        (((nearlyQuadratic cosI acosI powI).real.eval (0 : ℝ)).coords 0) := by
      rw [cubic_real_eval, cubic_real_eval]
      constructor
      · show (1 - 1 / 32 : ℝ) ^ 3 * 0 + 3 * (1 / 32) * (1 - 1 / 32) ^ 2 * (-1 / 16)
          + 3 * (1 / 32) ^ 2 * (1 - 1 / 32) * (7 / 8) + (1 / 32) ^ 3 * (45 / 16 + 2 ^ (-50 : ℤ)) ≤ _
        norm_num
      · show _ ≤ (1 - 0 : ℝ) ^ 3 * 0 + 3 * 0 * (1 - 0) ^ 2 * (-1 / 16)
          + 3 * 0 ^ 2 * (1 - 0) * (7 / 8) + 0 ^ 3 * (45 / 16 + 2 ^ (-50 : ℤ))
        norm_num
    obtain ⟨s, ⟨s0, s1⟩, hs⟩ := hv hm
    refine ⟨s, 0, ⟨s0, s1.trans (by norm_num)⟩, by norm_num, ?_⟩
    have : ∀ p p' : PointN ℝ 1, p.coords 0 = p'.coords 0 → p = p' := by
      rintro ⟨p⟩ ⟨p'⟩ h
      congr 1
      funext i
      rw [Fin.fin_one_eq_zero i]
      exact h
    exact this _ _ (hs.trans (hcst 0).symm)
  · intro h m k hmf hm
    obtain ⟨box', hbox', hB⟩ := C84_cubic_partial (constantCubic cosI acosI powI) (M := 3)
      (by rw [hu]; norm_num) (he.trans (by norm_num)) hr.1 hr.2.1 hr.2.2.1 hr.2.2.2
      (le_trans (by norm_num) hmax) (by norm_num)
    obtain ⟨⟨f1, f2⟩, -, -, -, x, -, hx⟩ := hB 0
    have hc := hcst x
    rw [cubic_real_eval] at hc
    simp only [hc] at hx
    rw [hu] at hx
    obtain ⟨box2, hbox2, hB2⟩ := C84_cubic_partial (nearlyQuadratic cosI acosI powI) (M := 3)
      (by rw [hu]; norm_num) (he.trans (by norm_num)) hb.1 hb.2.1 hb.2.2.1 hb.2.2.2
      (le_trans (by norm_num) hmax) (by norm_num)
    rw [hbox] at hbox2
    obtain rfl := Option.some.inj hbox2
    obtain ⟨⟨g1, -⟩, -⟩ := hB2 0
    have hno : boxesTouch m (nearlyQuadratic cosI acosI powI).boundingBox
        (constantCubic cosI acosI powI).boundingBox = false := by
      rw [hbox, hbox']
      by_contra hT
      rw [Bool.not_eq_false] at hT
      simp only [boxesTouch, List.all_eq_true, List.mem_finRange, forall_const,
        Bool.and_eq_true] at hT
      have hx' := abs_le.1 hx
      have hm' := abs_le.1 hm
      norm_num at hx' he
      have hN : |(box' 0).2.toReal| + |m.toReal| ≤ 1 := by
        have : |(box' 0).2.toReal| ≤ 1 / 2 := by rw [abs_le]; constructor <;> linarith [hx'.1, hx'.2]
        linarith
      have := of_le_add_float g1 f2 hmf hN (le_trans (by norm_num) hmax) (hT 0).1
      rw [hu] at this
      norm_num at this
      linarith [hx'.2, hm'.2]
    cases k with
    | zero => rw [intersectBy, hno]; rfl
    | succ k => rw [intersectBy, hno]; rfl

theorem binary64_half : (1 / 2 : ℝ) ∈ (binary64 cosI acosI powI).grid ∧
    |(1 / 2 : ℝ)| ≤ (binary64 cosI acosI powI).max :=
  dyadic_ok cosI acosI powI 1 (-1) (by norm_num) (by norm_num) (by norm_num) (by norm_num [abs_le])

theorem binary64_flatten {M : ℝ} (M1 : 1 ≤ M) (M20 : M ≤ 10 ^ 20) {n : ℕ} (hn : n ≤ 10 ^ 6) :
    FlattenFormat (binary64 cosI acosI powI) n M := by
  have hu : (binary64 cosI acosI powI).u = 2 ^ (-53 : ℤ) := rfl
  have he := binary64_eta cosI acosI powI
  refine ⟨(C108_ieee cosI acosI powI).1, by rw [hu]; norm_num, he.trans (by norm_num), ?_,
    binary64_half cosI acosI powI, by linarith, ?_⟩
  · rw [hu]
    have : (n : ℝ) ≤ 1000000 := by
      have := hn.trans (by norm_num : (10 : ℕ) ^ 6 ≤ 1000000)
      exact_mod_cast this
    push_cast
    norm_num
    linarith
  · refine le_trans ?_ (binary64_max cosI acosI powI)
    norm_num at M20 ⊢
    linarith

theorem binary64_eta_epsilon : 1024 * (binary64 cosI acosI powI).eta
    ≤ (binary64 cosI acosI powI).epsilon * (binary64 cosI acosI powI).u := by
  have hu : (binary64 cosI acosI powI).u = 2 ^ (-53 : ℤ) := rfl
  have hε : (binary64 cosI acosI powI).epsilon = 2 ^ (-52 : ℤ) := rfl
  have he := binary64_eta cosI acosI powI
  rw [hu, hε]
  norm_num at he ⊢
  linarith

/-- **C130** in numbers, two quadratic curves with `bounding_box` in binary64: coordinates between -M and M, 1 ≤ M ≤ 10²⁰, depth at
most 50, margin between 10⁻¹² M and M.  An empty report means that the exact curves do not meet.
Curves that stay apart by more than the margin, the bound that halves with every level, and
10⁻¹² M give an empty report. -/
theorem C130_binary64_quadratics {M : ℝ} (M1 : 1 ≤ M) (M20 : M ≤ 10 ^ 20) (hn : n ≤ 10 ^ 6)
    (q r : QuadraticBezier (PointN (Fl (binary64 cosI acosI powI)) n)) (hq : q.Within M)
    (hr : r.Within M) (m : Fl (binary64 cosI acosI powI)) (hmf : m.IsFinite)
    (m0 : 1 / 10 ^ 12 * M ≤ m.toReal) (m1 : m.toReal ≤ M) (k : ℕ) (hk : k ≤ 50) {A B : ℝ}
    (hA : q.Legs A) (hB : r.Legs B) :
    let half : Fl (binary64 cosI acosI powI) := fin (1 / 2) (binary64_half cosI acosI powI)
    let report := intersectBy (QuadraticBezier.halveAt half) (QuadraticBezier.halveAt half)
      (fun q r => boxesTouch m q.boundingBox r.boundingBox) k q r
    (report = [] → ∀ s t : ℝ, 0 ≤ s → s ≤ 1 → 0 ≤ t → t ≤ 1 → q.real.eval s ≠ r.real.eval t) ∧
    ((∀ s t : ℝ, 0 ≤ s → s ≤ 1 → 0 ≤ t → t ≤ 1 → ∃ a : Fin n,
        m.toReal + (2 * A + 2 * B) / 2 ^ k + 1 / 10 ^ 12 * M
          < |(q.real.eval s).coords a - (r.real.eval t).coords a|) → report = []) := by
  intro half report
  have hF := binary64_flatten cosI acosI powI M1 M20 hn
  have hη := binary64_eta_epsilon cosI acosI powI
  have hmax : 9 * M + 2 ≤ (binary64 cosI acosI powI).max := by
    refine le_trans ?_ (binary64_max cosI acosI powI)
    norm_num at M20 ⊢
    linarith
  have hu : (binary64 cosI acosI powI).u = 2 ^ (-53 : ℤ) := rfl
  have hε : (binary64 cosI acosI powI).epsilon = 2 ^ (-52 : ℤ) := rfl
  have he : (binary64 cosI acosI powI).eta ≤ 1 / 10 ^ 60 := binary64_eta cosI acosI powI
  have e0 := (binary64 cosI acosI powI).eta_nonneg
  have k50 : (k : ℝ) ≤ 50 := by exact_mod_cast hk
  have k0 : (0 : ℝ) ≤ k := Nat.cast_nonneg k
  have kM : k * M ≤ 50 * M := mul_le_mul_of_nonneg_right k50 (by linarith)
  have ke : k * (binary64 cosI acosI powI).eta ≤ 50 * (1 / 10 ^ 60) :=
    mul_le_mul k50 he e0 (by norm_num)
  constructor
  · intro hnil s t s0 s1 t0 t1 e
    obtain ⟨i, j, hij, -⟩ := C130_complete_quadratics hF hmax hη q r hq hr m hmf k (δ := 0)
      (by
        rw [hu, hε]
        norm_num at m0 he ke ⊢
        linarith) s0 s1 t0 t1 (fun a => by rw [e, sub_self, abs_zero])
    change (i, j) ∈ report at hij
    rw [hnil] at hij
    simp at hij
  · intro hfar
    rw [List.eq_nil_iff_forall_not_mem]
    rintro ⟨i, j⟩ hij
    have mM : |m.toReal| ≤ M := by
      rw [abs_le]
      constructor
      · norm_num at m0; linarith
      · exact m1
    obtain ⟨hi, hj, hc⟩ := C130_sound_quadratics hF hmax hη q r hq hr m hmf mM k hA hB hij
    obtain ⟨a0, a1, ha⟩ := grid_point hi
    obtain ⟨b0, b1, hb⟩ := grid_point hj
    obtain ⟨a, h⟩ := hfar ((i : ℝ) / 2 ^ k) ((j : ℝ) / 2 ^ k) a0 a1 b0 b1
    have := hc _ _ ha hb a
    rw [hu] at this
    norm_num at this h he ke
    linarith

/-- **C130** in numbers, two cubic curves with the boxes of their control points in binary64: coordinates between -M and M, 1 ≤ M ≤ 10²⁰, depth at
most 50, margin between 10⁻¹² M and M.  An empty report means that the exact curves do not meet.
Curves that stay apart by more than the margin, the bound that halves with every level, and
10⁻¹² M give an empty report. -/
theorem C130_binary64_cubics {M : ℝ} (M1 : 1 ≤ M) (M20 : M ≤ 10 ^ 20) (hn : n ≤ 10 ^ 6)
    (q r : CubicBezier (PointN (Fl (binary64 cosI acosI powI)) n)) (hq : q.Within M)
    (hr : r.Within M) (m : Fl (binary64 cosI acosI powI)) (hmf : m.IsFinite)
    (m0 : 1 / 10 ^ 12 * M ≤ m.toReal) (m1 : m.toReal ≤ M) (k : ℕ) (hk : k ≤ 50) {A B : ℝ}
    (hA : q.Legs A) (hB : r.Legs B) :
    let half : Fl (binary64 cosI acosI powI) := fin (1 / 2) (binary64_half cosI acosI powI)
    let report := intersectBy (CubicBezier.halveAt half) (CubicBezier.halveAt half)
      (fun q r => boxesTouch m q.hullBox r.hullBox) k q r
    (report = [] → ∀ s t : ℝ, 0 ≤ s → s ≤ 1 → 0 ≤ t → t ≤ 1 → q.real.eval s ≠ r.real.eval t) ∧
    ((∀ s t : ℝ, 0 ≤ s → s ≤ 1 → 0 ≤ t → t ≤ 1 → ∃ a : Fin n,
        m.toReal + (3 * A + 3 * B) / 2 ^ k + 1 / 10 ^ 12 * M
          < |(q.real.eval s).coords a - (r.real.eval t).coords a|) → report = []) := by
  intro half report
  have hF := binary64_flatten cosI acosI powI M1 M20 hn
  have hη := binary64_eta_epsilon cosI acosI powI
  have hmax : 9 * M + 2 ≤ (binary64 cosI acosI powI).max := by
    refine le_trans ?_ (binary64_max cosI acosI powI)
    norm_num at M20 ⊢
    linarith
  have hu : (binary64 cosI acosI powI).u = 2 ^ (-53 : ℤ) := rfl
  have hε : (binary64 cosI acosI powI).epsilon = 2 ^ (-52 : ℤ) := rfl
  have he : (binary64 cosI acosI powI).eta ≤ 1 / 10 ^ 60 := binary64_eta cosI acosI powI
  have e0 := (binary64 cosI acosI powI).eta_nonneg
  have k50 : (k : ℝ) ≤ 50 := by exact_mod_cast hk
  have k0 : (0 : ℝ) ≤ k := Nat.cast_nonneg k
  have kM : k * M ≤ 50 * M := mul_le_mul_of_nonneg_right k50 (by linarith)
  have ke : k * (binary64 cosI acosI powI).eta ≤ 50 * (1 / 10 ^ 60) :=
    mul_le_mul k50 he e0 (by norm_num)
  constructor
  · intro hnil s t s0 s1 t0 t1 e
    obtain ⟨i, j, hij, -⟩ := C130_complete_cubics hF q r hq hr m hmf k (δ := 0)
      (by
        rw [hu]
        norm_num at m0 he ke ⊢
        linarith) s0 s1 t0 t1 (fun a => by rw [e, sub_self, abs_zero])
    change (i, j) ∈ report at hij
    rw [hnil] at hij
    simp at hij
  · intro hfar
    rw [List.eq_nil_iff_forall_not_mem]
    rintro ⟨i, j⟩ hij
    have mM : |m.toReal| ≤ M := by
      rw [abs_le]
      constructor
      · norm_num at m0; linarith
      · exact m1
    obtain ⟨hi, hj, hc⟩ := C130_sound_cubics hF q r hq hr m hmf mM k hA hB hij
    obtain ⟨a0, a1, ha⟩ := grid_point hi
    obtain ⟨b0, b1, hb⟩ := grid_point hj
    obtain ⟨a, h⟩ := hfar ((i : ℝ) / 2 ^ k) ((j : ℝ) / 2 ^ k) a0 a1 b0 b1
    have := hc _ _ ha hb a
    rw [hu] at this
    norm_num at this h he ke
    linarith

/-- The hypotheses hold: two crossing arches with coordinates up to 10, margin 2⁻³⁰, depth 40. -/
example : ∃ (q r : QuadraticBezier (PointN (Fl (binary64 cosI acosI powI)) 2))
    (m : Fl (binary64 cosI acosI powI)), q.Within 10 ∧ r.Within 10 ∧ q.Legs 2 ∧ r.Legs 2 ∧
    m.IsFinite ∧ 1 / 10 ^ 12 * 10 ≤ m.toReal ∧ m.toReal ≤ 10 ∧
    (∃ s t : ℝ, (0 ≤ s ∧ s ≤ 1) ∧ (0 ≤ t ∧ t ≤ 1) ∧ q.real.eval s = r.real.eval t) ∧
    FlattenFormat (binary64 cosI acosI powI) 2 10 := by
  have hx := dyadic_ok cosI acosI powI 1 (-30) (by norm_num) (by norm_num)
    (x := 2 ^ (-30 : ℤ)) (by norm_num) (by norm_num [abs_le])
  let p : ℤ → ℤ → PointN (Fl (binary64 cosI acosI powI)) 2 := fun x y => ⟨![lit x, lit y]⟩
  have bd : ∀ x y : ℤ, |x| ≤ 10 → |y| ≤ 10 → BoundedBy 10 (p x y) := by
    intro x y hx hy i
    fin_cases i
    · show (lit x : Fl _).IsFinite ∧ |(lit x : Fl _).toReal| ≤ 10
      rw [lit_int x (hx.trans (by norm_num))]
      exact ⟨trivial, by rw [toReal_fin]; exact_mod_cast hx⟩
    · show (lit y : Fl _).IsFinite ∧ |(lit y : Fl _).toReal| ≤ 10
      rw [lit_int y (hy.trans (by norm_num))]
      exact ⟨trivial, by rw [toReal_fin]; exact_mod_cast hy⟩
  have v : ∀ x : ℤ, |x| ≤ 10 → (lit x : Fl (binary64 cosI acosI powI)).toReal = x := by
    intro x hx
    rw [lit_int x (hx.trans (by norm_num)), toReal_fin]
  have v0 : (lit 0 : Fl (binary64 cosI acosI powI)).toReal = 0 := by
    exact_mod_cast v 0 (by norm_num)
  have v1 : (lit 1 : Fl (binary64 cosI acosI powI)).toReal = 1 := by
    exact_mod_cast v 1 (by norm_num)
  have v2 : (lit 2 : Fl (binary64 cosI acosI powI)).toReal = 2 := by
    exact_mod_cast v 2 (by norm_num)
  have v3 : (lit (-1) : Fl (binary64 cosI acosI powI)).toReal = -1 := by
    exact_mod_cast v (-1) (by norm_num)
  refine ⟨⟨p 0 0, p 1 2, p 2 0⟩, ⟨p 0 1, p 1 (-1), p 2 1⟩, fin _ hx,
    ⟨bd _ _ (by norm_num) (by norm_num), bd _ _ (by norm_num) (by norm_num),
      bd _ _ (by norm_num) (by norm_num)⟩,
    ⟨bd _ _ (by norm_num) (by norm_num), bd _ _ (by norm_num) (by norm_num),
      bd _ _ (by norm_num) (by norm_num)⟩, ?_, ?_, trivial, ?_, ?_, ?_,
    binary64_flatten cosI acosI powI (by norm_num) (by norm_num) (by norm_num)⟩
  · intro i
    fin_cases i
    · show |(lit 0 : Fl _).toReal - (lit 1 : Fl _).toReal| ≤ 2 ∧
        |(lit 1 : Fl _).toReal - (lit 2 : Fl _).toReal| ≤ 2
      rw [v0, v1, v2]
      norm_num
    · show |(lit 0 : Fl _).toReal - (lit 2 : Fl _).toReal| ≤ 2 ∧
        |(lit 2 : Fl _).toReal - (lit 0 : Fl _).toReal| ≤ 2
      rw [v0, v2]
      norm_num
  · intro i
    fin_cases i
    · show |(lit 0 : Fl _).toReal - (lit 1 : Fl _).toReal| ≤ 2 ∧
        |(lit 1 : Fl _).toReal - (lit 2 : Fl _).toReal| ≤ 2
      rw [v0, v1, v2]
      norm_num
    · show |(lit 1 : Fl _).toReal - (lit (-1) : Fl _).toReal| ≤ 2 ∧
        |(lit (-1) : Fl _).toReal - (lit 1 : Fl _).toReal| ≤ 2
      rw [v1, v3]
      norm_num
  · show _ ≤ (2 : ℝ) ^ (-30 : ℤ)
    norm_num
  · show (2 : ℝ) ^ (-30 : ℤ) ≤ _
    norm_num
  · -- both curves have x = 2t; y = 4t(1-t) and y = 1 - 4t(1-t) agree where 8t(1-t) = 1
    have hs : √(2 : ℝ) ^ 2 = 2 := Real.sq_sqrt (by norm_num)
    have h0 : 0 ≤ √(2 : ℝ) := Real.sqrt_nonneg 2
    have h2 : √(2 : ℝ) ≤ 2 := by nlinarith
    refine ⟨(2 - √2) / 4, (2 - √2) / 4, ⟨by linarith, by linarith⟩, ⟨by linarith, by linarith⟩, ?_⟩
    have : ∀ p p' : PointN ℝ 2, p.coords 0 = p'.coords 0 → p.coords 1 = p'.coords 1 → p = p' := by
      rintro ⟨p⟩ ⟨p'⟩ h h'
      congr 1
      funext i
      fin_cases i
      · exact h
      · exact h'
    apply this
    · rw [quadratic_real_eval, quadratic_real_eval]
      rfl
    · rw [quadratic_real_eval, quadratic_real_eval]
      show (1 - (2 - √2) / 4) ^ 2 * (lit 0 : Fl _).toReal
          + 2 * ((2 - √2) / 4) * (1 - (2 - √2) / 4) * (lit 2 : Fl _).toReal
          + ((2 - √2) / 4) ^ 2 * (lit 0 : Fl _).toReal
        = (1 - (2 - √2) / 4) ^ 2 * (lit 1 : Fl _).toReal
          + 2 * ((2 - √2) / 4) * (1 - (2 - √2) / 4) * (lit (-1) : Fl _).toReal
          + ((2 - √2) / 4) ^ 2 * (lit 1 : Fl _).toReal
      rw [v0, v1, v2, v3]
      nlinarith

end Binary64

end Stroke
