import Verif.Lemmas.Sampling
import Verif.Lemmas.Fill
import Verif.Spec.Curves
import Mathlib.Algebra.Polynomial.AlgebraMap
import Mathlib.Data.Nat.Choose.Sum
import Mathlib.Analysis.Calculus.Deriv.Mul
import Mathlib.Analysis.Calculus.Deriv.Add
import Mathlib.Tactic.LinearCombination

/-!
# The de Casteljau loops, for every number of control points
-/

namespace Stroke

section Generic
variable {S P : Type} [Scalar S] [Point S P]

/-- The de Casteljau triangle: entry `j` after `m` levels. -/
def cas (x : ℕ → P) (t : S) : ℕ → ℕ → P
  | 0, j => x j
  | m + 1, j => cas x t m j * (-t + lit 1) + cas x t m (j + 1) * t

/-- A control polygon extended to all indices. -/
def extend {N : ℕ} (p : Arr P N) (k : ℕ) : P := if h : k < N then p ⟨k, h⟩ else Point.default

omit [Scalar S] in
theorem extend_lt {N : ℕ} (p : Arr P N) {k : ℕ} (h : k < N) : extend p k = p ⟨k, h⟩ := by
  simp [extend, h]

/-- One level: entries below `n` are replaced, the others kept. -/
theorem casteljauLevel_eq {N : ℕ} (t : S) (n : ℕ) (p : Arr P N) (hn : n + 1 ≤ N ∨ n = 0) :
    ∃ p', casteljauLevel t n p = some p' ∧
      (∀ k : Fin N, n ≤ k.val → p' k = p k) ∧
      (∀ (k : Fin N) (h : k.val + 1 < N), k.val < n →
        p' k = p k * (-t + lit 1) + p ⟨k.val + 1, h⟩ * t) := by
  unfold casteljauLevel
  obtain ⟨p', hp', inv⟩ := forRange_inv (m := Option)
    (fun i (b : Arr P N) => (∀ k : Fin N, i ≤ k.val → b k = p k) ∧
      (∀ (k : Fin N) (h : k.val + 1 < N), k.val < i →
        b k = p k * (-t + lit 1) + p ⟨k.val + 1, h⟩ * t))
    (lo := 0) (hi := n) (s := p)
    (body := fun j p => do
      let a ← p.get? j
      let b ← p.get? (j + 1)
      p.set? j (a * (-t + lit 1) + b * t))
    (Nat.zero_le n) ⟨fun _ _ => rfl, fun _ _ h => absurd h (Nat.not_lt_zero _)⟩ (by
      intro i b _ hi inv
      have hi1 : i + 1 < N := by omega
      refine ⟨_, by
        rw [Arr.get?_lt _ (show i < N by omega), Arr.get?_lt _ hi1]
        simp only [Option.bind_eq_bind, Option.bind_some]
        rw [Arr.set?_lt _ (show i < N by omega)]
        rfl, ?_, ?_⟩
      · intro k hk
        rw [if_neg (by omega)]
        exact inv.1 k (by omega)
      · intro k hk1 hk
        by_cases hki : k.val = i
        · subst hki
          simp only [if_true]
          rw [inv.1 ⟨k.val, by omega⟩ le_rfl, inv.1 ⟨k.val + 1, hk1⟩ (Nat.le_succ _)]
        · rw [if_neg hki]
          exact inv.2 k hk1 (by omega))
  exact ⟨p', hp', inv.1, inv.2⟩

/-- `Bezier::eval` returns the tip of the de Casteljau triangle. -/
theorem bezier_eval_cas {N : ℕ} (b : Bezier P N) (hN : 1 ≤ N) (t : S) :
    b.eval t = some (cas (extend b.control_points) t (N - 1) 0) := by
  rw [bezier_eval_eq]
  obtain ⟨p, hp, inv⟩ := forRange_inv (m := Option)
    (fun i (p : Arr P N) => i ≤ N → ∀ k : Fin N, k.val + (i - 1) < N →
      p k = cas (extend b.control_points) t (i - 1) k.val)
    (lo := 1) (hi := N) (s := b.control_points)
    (body := fun i p => do casteljauLevel t (← usub N i) p)
    hN (by
      intro _ k _
      show _ = extend b.control_points k.val
      rw [extend_lt _ k.isLt]) (by
      intro i p hi1 hi inv
      rw [usub_le hi.le]
      obtain ⟨p', hp', h1, h2⟩ := casteljauLevel_eq t (N - i) p (Or.inl (by omega))
      refine ⟨p', hp', ?_⟩
      intro hle k hk
      have hk1 : k.val + 1 < N := by omega
      obtain ⟨i, rfl⟩ : ∃ i', i = i' + 1 := ⟨i - 1, by omega⟩
      simp only [Nat.add_sub_cancel] at *
      rw [h2 k hk1 (by omega)]
      have a := inv hi.le k (by omega)
      have c := inv hi.le ⟨k.val + 1, hk1⟩ (by show k.val + 1 + i < N; omega)
      rw [a, c]
      rfl)
  rw [forRange_succ hN, hp]
  have hz : usub N N = some 0 := by rw [usub_le le_rfl, Nat.sub_self]
  obtain ⟨p', hp', h1, _⟩ := casteljauLevel_eq t 0 p (Or.inr rfl)
  simp only [Option.pure_def, Option.bind_eq_bind, Option.bind_some, hz, hp']
  rw [Arr.get?_lt _ (by omega), h1 _ (Nat.zero_le _), inv le_rfl ⟨0, by omega⟩ (by
    show 0 + (N - 1) < N; omega)]

theorem bezier_eval_zero (b : Bezier P 0) (t : S) : b.eval t = none := by
  unfold Bezier.eval
  rw [forRange_empty (by omega)]
  rfl

/-- `Bezier::split` returns the two edges of the de Casteljau triangle. -/
theorem bezier_split_cas {N : ℕ} (b : Bezier P N) (t : S) :
    b.split t = some (⟨fun k => cas (extend b.control_points) t k.val 0⟩,
      ⟨fun k => cas (extend b.control_points) t (N - 1 - k.val) k.val⟩) := by
  rw [bezier_split_eq]
  obtain ⟨⟨l, r, p⟩, hp, inv⟩ := forRange_inv (m := Option)
    (fun i (s : Arr P N × Arr P N × Arr P N) =>
      (∀ k : Fin N, k.val + 1 < i → s.1 k = cas (extend b.control_points) t k.val 0) ∧
      (∀ k : Fin N, N < k.val + i → s.2.1 k = cas (extend b.control_points) t (N - 1 - k.val) k.val) ∧
      (∀ k : Fin N, k.val + (i - 1) < N →
        s.2.2 k = cas (extend b.control_points) t (i - 1) k.val))
    (lo := 1) (hi := N + 1) (s := (b.control_points, b.control_points, b.control_points))
    (body := fun i (left, right, casteljau_points) => do
      let left ← left.set? (← usub i 1) (← casteljau_points.get? 0)
      let k ← usub N i
      let right ← right.set? k (← casteljau_points.get? k)
      let casteljau_points ← casteljauLevel t k casteljau_points
      pure (left, right, casteljau_points))
    (by omega) (by
      refine ⟨fun k hk => by omega, fun k hk => absurd k.isLt (by omega), ?_⟩
      intro k _
      show _ = extend b.control_points k.val
      rw [extend_lt _ k.isLt]) (by
      rintro i ⟨l, r, p⟩ hi1 hi ⟨il, ir, ip⟩
      dsimp only at il ir ip ⊢
      have hi' : i ≤ N := by omega
      obtain ⟨p', hp', h1, h2⟩ := casteljauLevel_eq t (N - i) p (Or.inl (by omega))
      have e1 : usub i 1 = some (i - 1) := usub_le hi1
      have e2 : usub N i = some (N - i) := usub_le hi'
      refine ⟨_, by
        rw [e1, e2, Arr.get?_lt _ (show 0 < N by omega)]
        simp only [Option.bind_eq_bind, Option.bind_some]
        rw [Arr.get?_lt _ (show N - i < N by omega), Arr.set?_lt _ (show i - 1 < N by omega)]
        simp only [Option.bind_some]
        rw [Arr.set?_lt _ (show N - i < N by omega)]
        simp only [Option.bind_some]
        rw [hp']
        rfl, ?_, ?_, ?_⟩
      · intro k hk
        dsimp only
        by_cases hki : k.val = i - 1
        · rw [if_pos hki, ip ⟨0, by omega⟩ (by show 0 + (i - 1) < N; omega), hki]
        · rw [if_neg hki]; exact il k (by omega)
      · intro k hk
        dsimp only
        by_cases hki : k.val = N - i
        · rw [if_pos hki, ip ⟨N - i, by omega⟩ (by show N - i + (i - 1) < N; omega)]
          have : N - 1 - k.val = i - 1 := by omega
          rw [this, hki]
        · rw [if_neg hki]; exact ir k (by omega)
      · intro k hk
        dsimp only
        have hk1 : k.val + 1 < N := by omega
        obtain ⟨i, rfl⟩ : ∃ i', i = i' + 1 := ⟨i - 1, by omega⟩
        simp only [Nat.add_sub_cancel] at *
        rw [h2 k hk1 (by omega), ip k (by omega),
          ip ⟨k.val + 1, hk1⟩ (by show k.val + 1 + i < N; omega)]
        rfl)
  rw [hp]
  simp only [Option.pure_def, Option.bind_eq_bind, Option.bind_some]
  congr 3
  · funext k; exact inv.1 k (by have := k.isLt; omega)
  · funext k; exact inv.2.1 k (by omega)

/-- `Bezier::derivative` for at least two control points. -/
theorem bezier_derivative_eq {N : ℕ} (b : Bezier P N) (hN : 2 ≤ N) :
    Bezier.derivative b = some ⟨fun k : Fin (N - 1) =>
      (b.control_points ⟨k.val + 1, by omega⟩ - b.control_points ⟨k.val, by omega⟩)
        * (Scalar.ofUsize (N - 1) : S)⟩ := by
  unfold Bezier.derivative
  simp only []
  rw [forBreak_fill (n := N - 1) (m := N) _ _ (fun k : Fin (N - 1) =>
      (b.control_points ⟨k.val + 1, by omega⟩ - b.control_points ⟨k.val, by omega⟩)
        * (Scalar.ofUsize (N - 1) : S)) (by omega) (by omega)]
  · rfl
  · intro i hi s
    rw [Arr.get?_lt _ (show i + 1 < N by omega), Arr.get?_lt _ (show i < N by omega), usub_le hN]
    simp only [Option.bind_eq_bind, Option.bind_some]
    rw [Arr.set?_lt _ hi]
    simp only [Option.bind_some, Option.pure_def]
    have : N - 1 - 1 = N - 2 := by omega
    rw [this]

theorem bezier_derivative_one (b : Bezier P 1) : Bezier.derivative b = none := by
  unfold Bezier.derivative
  show (forBreak _ (0 :: []) _ >>= _) = _
  unfold forBreak
  rw [Arr.get?_ge _ (show 1 ≤ 0 + 1 by omega)]
  rfl

end Generic

/-! ### Exact values -/

/-- The binomial sum `Σ_k C(m,k) t^k (1-t)^(m-k) x_k`. -/
noncomputable def bsum (m : ℕ) (x : ℕ → ℝ) (t : ℝ) : ℝ :=
  ∑ k ∈ Finset.range (m + 1), bernstein m k t * x k

theorem bsum_zero (x : ℕ → ℝ) (t : ℝ) : bsum 0 x t = x 0 := by
  simp [bsum, bernstein]

/-- The shift operator on sequences. -/
def shiftE : Module.End ℝ (ℕ → ℝ) where
  toFun x := fun k => x (k + 1)
  map_add' _ _ := rfl
  map_smul' _ _ := rfl

theorem shiftE_pow (k : ℕ) (x : ℕ → ℝ) (j : ℕ) : (shiftE ^ k) x j = x (j + k) := by
  induction k generalizing j with
  | zero => rfl
  | succ k ih =>
    rw [pow_succ']
    show (shiftE ^ k) x (j + 1) = _
    rw [ih]
    congr 1; omega

open Polynomial in
/-- The operator `(1 - t) + t E`. -/
noncomputable def lerpPoly (t : ℝ) : ℝ[X] := C (1 - t) + C t * X

open Polynomial in
theorem aeval_lerpPoly_pow (m : ℕ) (x : ℕ → ℝ) (t : ℝ) (j : ℕ) :
    (aeval shiftE (lerpPoly t ^ m)) x j = bsum m (fun k => x (j + k)) t := by
  have h : lerpPoly t ^ m = ∑ k ∈ Finset.range (m + 1), C (bernstein m k t) * X ^ k := by
    unfold lerpPoly
    rw [add_comm, add_pow]
    apply Finset.sum_congr rfl
    intro k _
    rw [mul_pow]
    simp only [bernstein, map_mul, map_pow, map_natCast]
    ring
  rw [h, map_sum]
  simp only [map_mul, map_pow, aeval_X, aeval_C, LinearMap.sum_apply, Finset.sum_apply]
  unfold bsum
  apply Finset.sum_congr rfl
  intro k _
  show bernstein m k t * (shiftE ^ k) x j = _
  rw [shiftE_pow]

open Polynomial in
theorem bsum_succ (m : ℕ) (x : ℕ → ℝ) (t : ℝ) :
    bsum (m + 1) x t = (1 - t) * bsum m x t + t * bsum m (fun k => x (k + 1)) t := by
  have h := aeval_lerpPoly_pow (m + 1) x t 0
  rw [pow_succ] at h
  simp only [Nat.zero_add] at h
  rw [← h, mul_comm, map_mul]
  have h0 := aeval_lerpPoly_pow m x t 0
  have h1 := aeval_lerpPoly_pow m x t 1
  simp only [Nat.zero_add] at h0
  have e : (fun k => x (1 + k)) = fun k => x (k + 1) := by funext k; rw [add_comm]
  rw [e] at h1
  rw [← h0, ← h1]
  show ((aeval shiftE (lerpPoly t)) ((aeval shiftE (lerpPoly t ^ m)) x)) 0 = _
  unfold lerpPoly
  simp only [map_add, map_mul, aeval_C, aeval_X]
  rfl

theorem bsum_add (m : ℕ) (x y : ℕ → ℝ) (t : ℝ) :
    bsum m (fun k => x k + y k) t = bsum m x t + bsum m y t := by
  unfold bsum; rw [← Finset.sum_add_distrib]; simp only [mul_add]

theorem bsum_sub (m : ℕ) (x y : ℕ → ℝ) (t : ℝ) :
    bsum m (fun k => x k - y k) t = bsum m x t - bsum m y t := by
  unfold bsum; rw [← Finset.sum_sub_distrib]; simp only [mul_sub]

theorem bsum_mul_const (m : ℕ) (x : ℕ → ℝ) (c t : ℝ) :
    bsum m (fun k => x k * c) t = bsum m x t * c := by
  unfold bsum; rw [Finset.sum_mul]; simp only [mul_assoc]

theorem bsum_congr {m : ℕ} {x y : ℕ → ℝ} (h : ∀ k ≤ m, x k = y k) (t : ℝ) :
    bsum m x t = bsum m y t := by
  unfold bsum
  apply Finset.sum_congr rfl
  intro k hk
  rw [h k (by simpa [Nat.lt_succ_iff] using hk)]

open Polynomial in
/-- The left edge of the triangle is the control polygon of the left piece. -/
theorem bsum_left (n : ℕ) (x : ℕ → ℝ) (t s : ℝ) :
    bsum n (fun k => bsum k x t) s = bsum n x (t * s) := by
  have h : ∑ k ∈ Finset.range (n + 1), C (bernstein n k s) * lerpPoly t ^ k
      = lerpPoly (t * s) ^ n := by
    have e : lerpPoly (t * s) = C s * lerpPoly t + C (1 - s) := by
      unfold lerpPoly
      simp only [map_sub, map_mul, map_one]; ring
    rw [e, add_pow]
    apply Finset.sum_congr rfl
    intro k _
    rw [mul_pow]
    simp only [bernstein, map_mul, map_pow, map_natCast]
    ring
  have h2 := congrArg (fun p => (aeval shiftE p) x 0) h
  simp only [aeval_lerpPoly_pow, Nat.zero_add] at h2
  rw [← h2, map_sum]
  simp only [map_mul, aeval_C, LinearMap.sum_apply, Finset.sum_apply]
  unfold bsum
  apply Finset.sum_congr rfl
  intro k _
  show _ = bernstein n k s * (aeval shiftE (lerpPoly t ^ k)) x 0
  rw [aeval_lerpPoly_pow]
  simp only [Nat.zero_add]
  rfl

open Polynomial in
/-- The right edge of the triangle is the control polygon of the right piece. -/
theorem bsum_right (n : ℕ) (x : ℕ → ℝ) (t s : ℝ) :
    bsum n (fun k => bsum (n - k) (fun j => x (k + j)) t) s = bsum n x (t + (1 - t) * s) := by
  have h : ∑ k ∈ Finset.range (n + 1), C (bernstein n k s) * (X ^ k * lerpPoly t ^ (n - k))
      = lerpPoly (t + (1 - t) * s) ^ n := by
    have e : lerpPoly (t + (1 - t) * s) = C s * X + C (1 - s) * lerpPoly t := by
      unfold lerpPoly
      simp only [map_sub, map_mul, map_one, map_add]; ring
    rw [e, add_pow]
    apply Finset.sum_congr rfl
    intro k _
    rw [mul_pow, mul_pow]
    simp only [bernstein, map_mul, map_pow, map_natCast]
    ring
  have h2 := congrArg (fun p => (aeval shiftE p) x 0) h
  simp only [aeval_lerpPoly_pow, Nat.zero_add] at h2
  rw [← h2, map_sum]
  simp only [map_mul, aeval_C, LinearMap.sum_apply, Finset.sum_apply]
  unfold bsum
  apply Finset.sum_congr rfl
  intro k _
  show _ = bernstein n k s * ((aeval shiftE (X ^ k)) ((aeval shiftE (lerpPoly t ^ (n - k))) x)) 0
  rw [map_pow, aeval_X, shiftE_pow, aeval_lerpPoly_pow]
  simp only [Nat.zero_add]
  rfl

theorem bernstein_nonneg {n k : ℕ} {t : ℝ} (h0 : 0 ≤ t) (h1 : t ≤ 1) : 0 ≤ bernstein n k t := by
  have : 0 ≤ 1 - t := by linarith
  unfold bernstein; positivity

theorem bernstein_sum (n : ℕ) (t : ℝ) : ∑ k ∈ Finset.range (n + 1), bernstein n k t = 1 := by
  have h := add_pow t (1 - t) n
  rw [show t + (1 - t) = 1 by ring, one_pow] at h
  rw [h]
  apply Finset.sum_congr rfl
  intro k _
  unfold bernstein; ring

theorem bernstein_symm {n k : ℕ} (h : k ≤ n) (t : ℝ) : bernstein n k (1 - t) = bernstein n (n - k) t := by
  unfold bernstein
  rw [Nat.choose_symm h, Nat.sub_sub_self h]
  ring

/-- Derivative of the binomial sum. -/
theorem hasDerivAt_bsum (m : ℕ) (x : ℕ → ℝ) (t : ℝ) :
    HasDerivAt (bsum (m + 1) x) ((m + 1 : ℝ) * bsum m (fun k => x (k + 1) - x k) t) t := by
  induction m generalizing x with
  | zero =>
    have : bsum 1 x = fun t => (1 - t) * x 0 + t * x 1 := by
      funext t; rw [bsum_succ, bsum_zero, bsum_zero]
    rw [this, bsum_zero]
    have h := (((hasDerivAt_const t (1 : ℝ)).sub (hasDerivAt_id t)).mul_const (x 0)).add
      ((hasDerivAt_id t).mul_const (x 1))
    exact h.congr_deriv (by push_cast; ring)
  | succ m ih =>
    have : bsum (m + 1 + 1) x = fun t => (1 - t) * bsum (m + 1) x t
        + t * bsum (m + 1) (fun k => x (k + 1)) t := by
      funext t; rw [bsum_succ]
    rw [this]
    have h := (((hasDerivAt_const t (1 : ℝ)).sub (hasDerivAt_id t)).mul (ih x)).add
      ((hasDerivAt_id t).mul (ih (fun k => x (k + 1))))
    refine h.congr_deriv ?_
    rw [bsum_succ m (fun k => x (k + 1) - x k)]
    simp only [id, Pi.sub_apply, bsum_sub]
    rw [bsum_succ m x, bsum_succ m (fun k => x (k + 1))]
    push_cast
    ring

section
variable {P : Type} [Point ℝ P] [LawfulPoint P]

theorem coord_cas (x : ℕ → P) (t : ℝ) (m j i : ℕ) :
    coord (cas x t m j) i = bsum m (fun k => coord (x (j + k)) i) t := by
  induction m generalizing j with
  | zero => rw [bsum_zero]; rfl
  | succ m ih =>
    rw [bsum_succ]
    show coord (cas x t m j * (-t + lit 1) + cas x t m (j + 1) * t) i = _
    rw [coord_add, coord_mul, coord_mul, ih, ih]
    have : (fun k => coord (x (j + (k + 1))) i) = fun k => coord (x (j + 1 + k)) i := by
      funext k; congr 2; omega
    rw [this]
    simp; ring

omit [LawfulPoint P] in
theorem bezierCoord_eq_bsum {N : ℕ} (hN : 1 ≤ N) (ps : Fin N → P) (t : ℝ) (i : ℕ) :
    bezierCoord ps t i = bsum (N - 1) (fun k => coord (extend ps k) i) t := by
  unfold bezierCoord bsum
  rw [show N - 1 + 1 = N by omega,
    ← Fin.sum_univ_eq_sum_range (fun k => bernstein (N - 1) k t * coord (extend ps k) i)]
  apply Finset.sum_congr rfl
  intro k _
  rw [extend_lt _ k.isLt]

end

end Stroke
