import Verif.Lemmas.DeBoor

/-!
# The Cox–de Boor basis and de Boor's algorithm
-/

namespace Stroke

/-- The triangle of `db`, for numbers. -/
noncomputable def dbr (a : ℕ → ℕ → ℝ) (x : ℕ → ℝ) : ℕ → ℕ → ℝ
  | 0, j => x j
  | r + 1, j =>
    if r + 1 ≤ j then dbr a x r (j - 1) * (1 - a (r + 1) j) + dbr a x r j * a (r + 1) j
    else dbr a x r j

theorem coord_db {P : Type} [Point ℝ P] [LawfulPoint P] (a : ℕ → ℕ → ℝ) (x : ℕ → P) (c r j : ℕ) :
    coord (db a x r j) c = dbr a (fun j => coord (x j) c) r j := by
  induction r generalizing j with
  | zero => rfl
  | succ r ih =>
    simp only [db, dbr]
    split_ifs
    · simp [ih]
    · exact ih j

theorem dbr_const (a : ℕ → ℕ → ℝ) (v : ℝ) (r j : ℕ) : dbr a (fun _ => v) r j = v := by
  induction r generalizing j with
  | zero => rfl
  | succ r ih =>
    simp only [dbr, ih]
    split_ifs
    · ring
    · rfl

/-- The weight of starting value `m` in entry `j` after round `r`. -/
noncomputable def dbw (a : ℕ → ℕ → ℝ) (r j m : ℕ) : ℝ := dbr a (fun i => if i = m then 1 else 0) r j

theorem dbr_eq_sum (a : ℕ → ℕ → ℝ) (x : ℕ → ℝ) (n r j : ℕ) (hj : j < n) :
    dbr a x r j = ∑ m ∈ Finset.range n, dbw a r j m * x m := by
  induction r generalizing j with
  | zero => simp [dbr, dbw, hj]
  | succ r ih =>
    simp only [dbr, dbw]
    split_ifs
    · rw [ih (j - 1) (by omega), ih j hj, Finset.sum_mul, Finset.sum_mul, ← Finset.sum_add_distrib]
      apply Finset.sum_congr rfl
      intro m _
      simp only [dbw]
      ring
    · exact ih j hj

theorem dbw_nonneg {a : ℕ → ℕ → ℝ} {n : ℕ}
    (ha : ∀ r j, 1 ≤ r → r ≤ j → j < n → 0 ≤ a r j ∧ a r j ≤ 1) (r j m : ℕ) (hj : j < n) :
    0 ≤ dbw a r j m := by
  induction r generalizing j with
  | zero => simp only [dbw, dbr]; split_ifs <;> norm_num
  | succ r ih =>
    simp only [dbw, dbr]
    split_ifs with h
    · obtain ⟨h1, h2⟩ := ha (r + 1) j (by omega) h hj
      have h3 := ih (j - 1) (by omega)
      have h4 := ih j hj
      simp only [dbw] at h3 h4
      have : 0 ≤ 1 - a (r + 1) j := by linarith
      positivity
    · exact ih j hj

theorem dbw_sum (a : ℕ → ℕ → ℝ) (n r j : ℕ) (hj : j < n) :
    ∑ m ∈ Finset.range n, dbw a r j m = 1 := by
  have := dbr_eq_sum a (fun _ => 1) n r j hj
  rw [dbr_const] at this
  simpa using this.symm

theorem dbr_congr {a a' : ℕ → ℕ → ℝ} {x x' : ℕ → ℝ} {n : ℕ}
    (ha : ∀ r j, 1 ≤ r → r ≤ j → j < n → a r j = a' r j) (hx : ∀ j < n, x j = x' j) (r j : ℕ)
    (hj : j < n) : dbr a x r j = dbr a' x' r j := by
  induction r generalizing j with
  | zero => exact hx j hj
  | succ r ih =>
    simp only [dbr]
    split_ifs with h
    · rw [ih (j - 1) (by omega), ih j hj, ha (r + 1) j (by omega) h hj]
    · exact ih j hj

section Basis

variable {u : ℕ → ℝ} {K k : ℕ} {t : ℝ}

theorem coxDeBoor_eq_zero (hm : ∀ i j, i ≤ j → j < K → u i ≤ u j) (hk : k + 1 < K)
    (h1 : u k ≤ t) (h2 : t < u (k + 1)) (p i : ℕ) (hi : i + p + 1 < K) (h : k < i ∨ i + p < k) :
    coxDeBoor u p i t = 0 := by
  induction p generalizing i with
  | zero =>
    simp only [coxDeBoor]
    rw [if_neg]
    rintro ⟨h3, h4⟩
    rcases h with h | h
    · have := hm (k + 1) i (by omega) (by omega)
      linarith
    · have := hm (i + 1) k (by omega) (by omega)
      linarith
  | succ p ih =>
    simp only [coxDeBoor]
    rw [ih i (by omega) (by omega), ih (i + 1) (by omega) (by omega)]
    simp

/-- The support of a basis function. -/
theorem coxDeBoor_support (hm : ∀ i j, i ≤ j → j < K → u i ≤ u j) (p i : ℕ) (hi : i + p + 1 < K)
    (hs : ¬ (u i ≤ t ∧ t < u (i + p + 1))) : coxDeBoor u p i t = 0 := by
  induction p generalizing i with
  | zero => simp only [coxDeBoor]; rw [if_neg hs]
  | succ q ihq =>
    simp only [coxDeBoor]
    rw [ihq i (by omega), ihq (i + 1) (by omega)]
    · simp
    · rintro ⟨h3, h4⟩
      exact hs ⟨(hm _ _ (Nat.le_succ i) (by omega)).trans h3, by
        rwa [show i + 1 + q + 1 = i + (q + 1) + 1 by omega] at h4⟩
    · rintro ⟨h3, h4⟩
      exact hs ⟨h3, h4.trans_le (hm _ _ (by omega) hi)⟩

theorem coxDeBoor_nonneg (hm : ∀ i j, i ≤ j → j < K → u i ≤ u j) (p i : ℕ) (hi : i + p + 1 < K) :
    0 ≤ coxDeBoor u p i t := by
  induction p generalizing i with
  | zero => simp only [coxDeBoor]; split_ifs <;> norm_num
  | succ p ih =>
    have n1 := ih i (by omega)
    have n2 := ih (i + 1) (by omega)
    simp only [coxDeBoor]
    apply add_nonneg
    · split_ifs
      · exact le_rfl
      · by_cases h : u i ≤ t ∧ t < u (i + p + 1)
        · have := hm i (i + p + 1) (by omega) (by omega)
          exact mul_nonneg (div_nonneg (by linarith [h.1]) (by linarith)) n1
        · rw [coxDeBoor_support hm p i (by omega) h, mul_zero]
    · split_ifs
      · exact le_rfl
      · by_cases h : u (i + 1) ≤ t ∧ t < u (i + 1 + p + 1)
        · have := hm (i + 1) (i + p + 2) (by omega) (by omega)
          have h4 := h.2
          rw [show i + 1 + p + 1 = i + p + 2 by omega] at h4
          exact mul_nonneg (div_nonneg (by linarith) (by linarith)) n2
        · rw [coxDeBoor_support hm p (i + 1) (by omega) h, mul_zero]

/-- One round of de Boor's algorithm lowers the degree of the basis by one. -/
theorem coxDeBoor_step (hm : ∀ i j, i ≤ j → j < K → u i ≤ u j) {p a : ℕ} (ha : a + p + 1 = k)
    (hk : k + p + 2 < K) (h1 : u k ≤ t) (h2 : t < u (k + 1)) (y : ℕ → ℝ) :
    ∑ m ∈ Finset.range (p + 2), y (a + m) * coxDeBoor u (p + 1) (a + m) t
      = ∑ m ∈ Finset.range (p + 1),
        (y (a + m) * (1 - (t - u (a + m + 1)) / (u (a + m + 1 + p + 1) - u (a + m + 1)))
          + y (a + m + 1) * ((t - u (a + m + 1)) / (u (a + m + 1 + p + 1) - u (a + m + 1))))
        * coxDeBoor u p (a + m + 1) t := by
  have hz1 : coxDeBoor u p a t = 0 :=
    coxDeBoor_eq_zero hm (by omega) h1 h2 p a (by omega) (by omega)
  have hz2 : coxDeBoor u p (k + 1) t = 0 :=
    coxDeBoor_eq_zero hm (by omega) h1 h2 p (k + 1) (by omega) (by omega)
  have hden : ∀ i, i ≤ k → k < i + p + 1 → i + p + 1 < K → u i < u (i + p + 1) := by
    intro i h3 h4 h5
    have := hm i k h3 (by omega)
    have := hm (k + 1) (i + p + 1) (by omega) h5
    linarith
  set A : ℕ → ℝ := fun i => (if u (i + p + 1) = u i then 0
      else (t - u i) / (u (i + p + 1) - u i) * coxDeBoor u p i t) with hA
  set B : ℕ → ℝ := fun i => (if u (i + p + 2) = u (i + 1) then 0
      else (u (i + p + 2) - t) / (u (i + p + 2) - u (i + 1)) * coxDeBoor u p (i + 1) t) with hB
  have hAB : ∀ i, coxDeBoor u (p + 1) i t = A i + B i := fun i => rfl
  have hA0 : A a = 0 := by simp only [hA, hz1]; simp
  have hBk : B k = 0 := by simp only [hB, hz2]; simp
  simp only [hAB, mul_add, Finset.sum_add_distrib]
  rw [Finset.sum_range_succ' (fun m => y (a + m) * A (a + m)),
    Finset.sum_range_succ (fun m => y (a + m) * B (a + m))]
  rw [show a + 0 = a from rfl, hA0, show a + (p + 1) = k by omega, hBk, mul_zero, mul_zero, add_zero, add_zero,
    ← Finset.sum_add_distrib]
  apply Finset.sum_congr rfl
  intro m hmr
  have hmr := Finset.mem_range.1 hmr
  have hlt := hden (a + m + 1) (by omega) (by omega) (by omega)
  have e1 : A (a + (m + 1)) = (t - u (a + m + 1)) / (u (a + m + 1 + p + 1) - u (a + m + 1))
      * coxDeBoor u p (a + m + 1) t := by
    simp only [hA]
    rw [if_neg (by rw [← Nat.add_assoc]; exact hlt.ne')]
    rfl
  have e2 : B (a + m) = (u (a + m + 1 + p + 1) - t) / (u (a + m + 1 + p + 1) - u (a + m + 1))
      * coxDeBoor u p (a + m + 1) t := by
    simp only [hB]
    rw [show a + m + p + 2 = a + m + 1 + p + 1 by omega, if_neg hlt.ne']
  rw [e1, e2]
  have hne : u (a + m + 1 + p + 1) - u (a + m + 1) ≠ 0 := by linarith [sub_pos.2 hlt]
  rw [show a + (m + 1) = a + m + 1 by omega]
  field_simp
  ring

/-- de Boor's algorithm with the exact factors computes the combination of the basis
functions. -/
theorem deBoor_correct (hm : ∀ i j, i ≤ j → j < K → u i ≤ u j) {D : ℕ} (hDk : D ≤ k)
    (hk : k + D + 1 < K) (h1 : u k ≤ t) (h2 : t < u (k + 1)) (x : ℕ → ℝ) :
    dbr (fun r j => (t - u (j + k - D)) / (u (j + k - D + D + 1 - r) - u (j + k - D))) x D D
      = ∑ m ∈ Finset.range (D + 1), x m * coxDeBoor u D (k - D + m) t := by
  set a : ℕ → ℕ → ℝ :=
    fun r j => (t - u (j + k - D)) / (u (j + k - D + D + 1 - r) - u (j + k - D)) with ha
  have key : ∀ r ≤ D, ∑ m ∈ Finset.range (D - r + 1),
      dbr a x r (r + m) * coxDeBoor u (D - r) (k - D + r + m) t
      = ∑ m ∈ Finset.range (D + 1), x m * coxDeBoor u D (k - D + m) t := by
    intro r
    induction r with
    | zero => intro _; simp [dbr]
    | succ r ih =>
      intro hr
      rw [← ih (by omega)]
      obtain ⟨p, hp⟩ : ∃ p, D - r = p + 1 := ⟨D - r - 1, by omega⟩
      have hp' : D - (r + 1) = p := by omega
      rw [hp, hp']
      have := coxDeBoor_step hm (p := p) (a := k - D + r) (by omega) (by omega) h1 h2
        (fun i => dbr a x r (i + D - k))
      have e : ∀ m, k - D + r + m + D - k = r + m := by intro m; omega
      have e' : ∀ m, k - D + r + m + 1 + D - k = r + m + 1 := by intro m; omega
      simp only [e, e'] at this
      rw [this]
      apply Finset.sum_congr rfl
      intro m hmr
      have hmr := Finset.mem_range.1 hmr
      rw [show r + 1 + m = r + m + 1 by omega, show k - D + (r + 1) + m = k - D + r + m + 1 by omega]
      congr 1
      simp only [dbr]
      rw [if_pos (by omega), Nat.add_sub_cancel]
      simp only [ha]
      rw [show r + m + 1 + k - D = k - D + r + m + 1 by omega,
        show k - D + r + m + 1 + D + 1 - (r + 1) = k - D + r + m + 1 + p + 1 by omega]
  have := key D le_rfl
  rw [← this, Nat.sub_self]
  simp only [Nat.zero_add, Finset.sum_range_one, Nat.add_zero, coxDeBoor]
  rw [show k - D + D = k by omega, if_pos ⟨h1, h2⟩, mul_one]

/-- The basis functions of the span sum to 1. -/
theorem coxDeBoor_sum (hm : ∀ i j, i ≤ j → j < K → u i ≤ u j) {D : ℕ} (hDk : D ≤ k)
    (hk : k + D + 1 < K) (h1 : u k ≤ t) (h2 : t < u (k + 1)) :
    ∑ m ∈ Finset.range (D + 1), coxDeBoor u D (k - D + m) t = 1 := by
  have := deBoor_correct hm hDk hk h1 h2 (fun _ => 1)
  rw [dbr_const] at this
  simpa using this.symm

/-- A sum over all control points only sees the ones of the span. -/
theorem coxDeBoor_sum_span (hm : ∀ i j, i ≤ j → j < K → u i ≤ u j) {D C : ℕ} (hDk : D ≤ k)
    (hkC : k < C) (hK : K = C + D + 1) (h1 : u k ≤ t) (h2 : t < u (k + 1)) (y : ℕ → ℝ) :
    ∑ i ∈ Finset.range C, coxDeBoor u D i t * y i
      = ∑ m ∈ Finset.range (D + 1), y (k - D + m) * coxDeBoor u D (k - D + m) t := by
  rw [← Finset.sum_subset (s₁ := Finset.image (fun m => k - D + m) (Finset.range (D + 1)))]
  · rw [Finset.sum_image (by intro a _ b _ h; simpa using h)]
    exact Finset.sum_congr rfl fun _ _ => mul_comm _ _
  · intro i hi
    simp only [Finset.mem_image, Finset.mem_range] at hi ⊢
    obtain ⟨m, hm', rfl⟩ := hi
    omega
  · intro i hi hni
    rw [coxDeBoor_eq_zero hm (k := k) (by omega) h1 h2 D i (by have := Finset.mem_range.1 hi; omega),
      zero_mul]
    by_contra hcon
    push Not at hcon
    apply hni
    simp only [Finset.mem_image, Finset.mem_range]
    exact ⟨i - (k - D), by omega, by omega⟩

end Basis

end Stroke
