import Verif.Props.BSplineInsert
import Mathlib.Data.List.Sort

/-!
# Variation diminishing for B-splines (C147)
-/

set_option linter.unusedSectionVars false

namespace Stroke

/-! ### Counting sign changes from the left -/

/-- Sign changes of the list after a previous sign `s` (0: no previous sign). -/
noncomputable def changesFrom (s : SignType) : List ℝ → ℕ
  | [] => 0
  | x :: l => if x = 0 then changesFrom s l
      else (if s ≠ 0 ∧ SignType.sign x ≠ s then 1 else 0) + changesFrom (SignType.sign x) l

theorem changesFrom_eq_aux : ∀ (l : List ℝ) (x : ℝ), x ≠ 0 →
    changesFrom (SignType.sign x) l = oppositeNeighbours (x :: l.filter (fun x => decide (x ≠ 0))) := by
  intro l
  induction l with
  | nil => intro x _; simp [changesFrom, oppositeNeighbours]
  | cons y l ih =>
    intro x hx
    by_cases hy : y = 0
    · rw [changesFrom, if_pos hy, ih x hx, List.filter_cons_of_neg (by simp [hy])]
    · rw [changesFrom, if_neg hy, ih y hy, List.filter_cons_of_pos (by simp [hy]), oppositeNeighbours]
      congr 1
      have := sign_ne_iff hx hy
      by_cases c : x * y < 0
      · rw [if_pos c, if_pos ⟨by simpa using hx, fun e => this.2 c e.symm⟩]
      · rw [if_neg c, if_neg fun e => c (this.1 fun e' => e.2 e'.symm)]

theorem changesFrom_eq (l : List ℝ) : changesFrom 0 l = signChanges l := by
  unfold signChanges
  induction l with
  | nil => simp [changesFrom, oppositeNeighbours]
  | cons x l ih =>
    by_cases hx : x = 0
    · rw [changesFrom, if_pos hx, ih, List.filter_cons_of_neg (by simp [hx])]
    · rw [changesFrom, if_neg hx, changesFrom_eq_aux l x hx, List.filter_cons_of_pos (by simp [hx])]
      simp

theorem changesFrom_le (l : List ℝ) : ∀ s r : SignType, r ≠ 0 →
    changesFrom s l ≤ (if s ≠ 0 ∧ r ≠ s then 1 else 0) + changesFrom r l := by
  induction l with
  | nil => intro s r _; simp [changesFrom]
  | cons x l ih =>
    intro s r hr
    by_cases hx : x = 0
    · rw [changesFrom, if_pos hx, changesFrom, if_pos hx]
      exact ih s r hr
    · rw [changesFrom, if_neg hx, changesFrom, if_neg hx, ← Nat.add_assoc]
      refine Nat.add_le_add_right ?_ _
      generalize SignType.sign x = q
      revert s r q
      decide

theorem changesFrom_cons (s : SignType) (x : ℝ) (l : List ℝ) :
    changesFrom s l ≤ changesFrom s (x :: l) := by
  rw [changesFrom]
  by_cases hx : x = 0
  · rw [if_pos hx]
  · rw [if_neg hx]
    exact changesFrom_le l s (SignType.sign x) (by simpa using hx)

theorem changesFrom_sublist {l l' : List ℝ} (h : l.Sublist l') : ∀ s,
    changesFrom s l ≤ changesFrom s l' := by
  induction h with
  | slnil => intro s; exact le_rfl
  | cons x _ ih => intro s; exact (ih s).trans (changesFrom_cons s x _)
  | cons_cons x _ ih =>
    intro s
    rw [changesFrom, changesFrom]
    split_ifs
    · exact ih s
    · exact Nat.add_le_add_left (ih _) _
    · exact Nat.add_le_add_left (ih _) _

/-- Each value replaced by a blend with the one before, the last value added at the end. -/
noncomputable def blends : ℝ → List (ℝ × ℝ) → List ℝ
  | y, [] => [y]
  | y, (α, y') :: l => (α * y' + (1 - α) * y) :: blends y' l

theorem changesFrom_blends (l : List (ℝ × ℝ)) (hl : ∀ p ∈ l, 0 ≤ p.1 ∧ p.1 ≤ 1) : ∀ (s : SignType) (y : ℝ),
    changesFrom s (blends y l) ≤ changesFrom s (y :: l.map Prod.snd) := by
  induction l with
  | nil => intro s y; exact le_rfl
  | cons p l ih =>
    intro s y
    obtain ⟨α, y'⟩ := p
    have ih := ih fun p hp => hl p (List.mem_cons_of_mem _ hp)
    obtain ⟨a0, a1⟩ := hl (α, y') List.mem_cons_self
    simp only at a0 a1
    rw [List.map_cons]
    show changesFrom s ((α * y' + (1 - α) * y) :: blends y' l) ≤ changesFrom s (y :: y' :: l.map Prod.snd)
    have hsign : α * y' + (1 - α) * y = 0 ∨
        (y ≠ 0 ∧ SignType.sign (α * y' + (1 - α) * y) = SignType.sign y) ∨
        (y' ≠ 0 ∧ SignType.sign (α * y' + (1 - α) * y) = SignType.sign y') := by
      rcases lt_trichotomy (α * y' + (1 - α) * y) 0 with h | h | h
      · right
        by_cases hy : y < 0
        · exact .inl ⟨hy.ne, by rw [sign_neg h, sign_neg hy]⟩
        · have hy' : y' < 0 := by
            by_contra hcon
            have := mul_nonneg a0 (not_lt.1 hcon)
            have := mul_nonneg (sub_nonneg.2 a1) (not_lt.1 hy)
            linarith
          exact .inr ⟨hy'.ne, by rw [sign_neg h, sign_neg hy']⟩
      · exact .inl h
      · right
        by_cases hy : 0 < y
        · exact .inl ⟨hy.ne', by rw [sign_pos h, sign_pos hy]⟩
        · have hy' : 0 < y' := by
            by_contra hcon
            have := mul_nonpos_of_nonneg_of_nonpos a0 (not_lt.1 hcon)
            have := mul_nonpos_of_nonneg_of_nonpos (sub_nonneg.2 a1) (not_lt.1 hy)
            linarith
          exact .inr ⟨hy'.ne', by rw [sign_pos h, sign_pos hy']⟩
    rcases hsign with h | ⟨hy, h⟩ | ⟨hy, h⟩
    · rw [changesFrom, if_pos h]
      exact (ih s y').trans (changesFrom_cons _ _ _)
    · have hz : α * y' + (1 - α) * y ≠ 0 := fun e => by
        rw [e, sign_zero] at h
        exact hy (sign_eq_zero_iff.1 h.symm)
      rw [changesFrom, if_neg hz, changesFrom, if_neg hy, h]
      exact Nat.add_le_add_left (ih _ y') _
    · have hz : α * y' + (1 - α) * y ≠ 0 := fun e => by
        rw [e, sign_zero] at h
        exact hy (sign_eq_zero_iff.1 h.symm)
      refine le_trans ?_ (changesFrom_cons s y (y' :: l.map Prod.snd))
      rw [changesFrom, if_neg hz, changesFrom, if_neg hy, h]
      refine Nat.add_le_add_left ((ih _ y').trans (le_of_eq ?_)) _
      rw [changesFrom, if_neg hy]
      simp

/-- Inserting a knot does not add sign changes. -/
theorem changes_insert {u : ℕ → ℝ} {K k C D : ℕ} {ξ : ℝ} (hm : ∀ i j, i ≤ j → j < K → u i ≤ u j)
    (hK : K = C + D + 1) (hDk : D ≤ k) (hkC : k < C) (h1 : u k ≤ ξ) (h2 : ξ < u (k + 1)) (y : ℕ → ℝ) :
    changesFrom 0 ((List.range (C + 1)).map (insertValue u k ξ D y))
      ≤ changesFrom 0 ((List.range C).map y) := by
  have list : ∀ n m, insertWeight u k ξ D (m + n + 1) = 0 →
      blends (y m) ((List.range' (m + 1) n).map fun i => (insertWeight u k ξ D i, y i))
        = (List.range' (m + 1) (n + 1)).map (insertValue u k ξ D y) := by
    intro n
    induction n with
    | zero =>
      intro m h
      simp only [List.range'_zero, List.map_nil, blends, List.range'_succ, List.map_cons]
      rw [insertValue, show m + 1 = m + 0 + 1 by omega, h]
      simp
    | succ n ih =>
      intro m h
      rw [List.range'_succ, List.map_cons, blends, ih (m + 1) (by rw [← h]; congr 1; omega),
        List.range'_succ (s := m + 1) (n := n + 1), List.map_cons]
      congr 1
  obtain ⟨c, rfl⟩ : ∃ c, C = c + 1 := ⟨C - 1, by omega⟩
  have w0 : insertValue u k ξ D y 0 = y 0 := by
    rw [insertValue, insertWeight_one (by omega)]
    ring
  have e1 : (List.range (c + 1 + 1)).map (insertValue u k ξ D y)
      = y 0 :: blends (y 0) ((List.range' 1 c).map fun i => (insertWeight u k ξ D i, y i)) := by
    rw [list c 0 (insertWeight_zero (by omega)), List.range_eq_range', List.range'_succ, List.map_cons, w0]
  have e2 : (List.range (c + 1)).map y
      = y 0 :: ((List.range' 1 c).map fun i => (insertWeight u k ξ D i, y i)).map Prod.snd := by
    rw [List.range_eq_range', List.range'_succ, List.map_cons, List.map_map]
    rfl
  have key := fun s => changesFrom_blends
    ((List.range' 1 c).map fun i => (insertWeight u k ξ D i, y i)) (fun p hp => by
      obtain ⟨i, hi, rfl⟩ := List.mem_map.1 hp
      have hi := List.mem_range'_1.1 hi
      simp only
      unfold insertWeight
      split_ifs with a b
      · exact ⟨zero_le_one, le_rfl⟩
      · exact ⟨le_rfl, zero_le_one⟩
      · have b1 := hm i k (by omega) (by omega)
        have b2 := hm (k + 1) (i + D) (by omega) (by omega)
        exact ⟨div_nonneg (by linarith) (by linarith), div_le_one_of_le₀ (by linarith) (by linarith)⟩) s (y 0)
  rw [e1, e2]
  by_cases hy : y 0 = 0
  · rw [changesFrom, if_pos hy]
    exact key 0
  · rw [changesFrom, if_neg hy]
    have := key (SignType.sign (y 0))
    rw [changesFrom, if_neg hy] at this
    rw [changesFrom, if_neg hy]
    simpa using this

/-! ### Refining until the parameters are `D`-fold knots -/

/-- How often `x` occurs among the first `K` knots. -/
noncomputable def occurrences (u : ℕ → ℝ) (K : ℕ) (x : ℝ) : ℕ :=
  ((Finset.range K).filter fun i => u i = x).card

theorem occurrences_insert {u : ℕ → ℝ} {K k : ℕ} (hk : k + 1 < K) (ξ x : ℝ) :
    occurrences u K x + (if x = ξ then 1 else 0) ≤ occurrences (insertKnot u k ξ) (K + 1) x := by
  classical
  unfold occurrences
  set f : ℕ → ℕ := fun j => if j ≤ k then j else j + 1 with hf
  have inj : Function.Injective f := by
    intro i j hij
    simp only [hf] at hij
    split_ifs at hij <;> omega
  have uf : ∀ j, insertKnot u k ξ (f j) = u j := by
    intro j
    simp only [hf]
    split_ifs with h
    · exact insertKnot_le h
    · exact insertKnot_gt (by omega)
  have sub : ((Finset.range K).filter fun i => u i = x).image f
      ⊆ ((Finset.range (K + 1)).filter fun i => insertKnot u k ξ i = x).erase (k + 1) := by
    intro j hj
    obtain ⟨i, hi, rfl⟩ := Finset.mem_image.1 hj
    obtain ⟨hi1, hi2⟩ := Finset.mem_filter.1 hi
    have hi1 := Finset.mem_range.1 hi1
    refine Finset.mem_erase.2 ⟨?_, Finset.mem_filter.2 ⟨Finset.mem_range.2 ?_, by rw [uf, hi2]⟩⟩
    · simp only [hf]; split_ifs <;> omega
    · simp only [hf]; split_ifs <;> omega
  have card := Finset.card_le_card sub
  rw [Finset.card_image_of_injective _ inj] at card
  split_ifs with hx
  · have mem : k + 1 ∈ (Finset.range (K + 1)).filter fun i => insertKnot u k ξ i = x :=
      Finset.mem_filter.2 ⟨Finset.mem_range.2 (by omega), by rw [insertKnot_new, hx]⟩
    have := Finset.card_erase_add_one mem
    omega
  · exact card.trans (Finset.card_le_card (Finset.erase_subset _ _))

/-- `(C', u', y')` describes the same scalar spline as `(C, u, y)`, with more knots and no more sign
changes. -/
def Refined (D C : ℕ) (u y : ℕ → ℝ) (C' : ℕ) (u' y' : ℕ → ℝ) : Prop :=
  D < C' ∧ (∀ i j, i ≤ j → j < C' + D + 1 → u' i ≤ u' j) ∧ u' D = u D ∧ u' C' = u C ∧
  y' (C' - 1) = y (C - 1) ∧
  (∀ t, ∑ i ∈ Finset.range C', coxDeBoor u' D i t * y' i
    = ∑ i ∈ Finset.range C, coxDeBoor u D i t * y i) ∧
  changesFrom 0 ((List.range C').map y') ≤ changesFrom 0 ((List.range C).map y) ∧
  ∀ x, occurrences u (C + D + 1) x ≤ occurrences u' (C' + D + 1) x

section Refine
variable {D C : ℕ} {u y : ℕ → ℝ}

theorem Refined.refl (hDC : D < C) (hm : ∀ i j, i ≤ j → j < C + D + 1 → u i ≤ u j) :
    Refined D C u y C u y :=
  ⟨hDC, hm, rfl, rfl, rfl, fun _ => rfl, le_rfl, fun _ => le_rfl⟩

theorem Refined.trans {C' C'' : ℕ} {u' y' u'' y'' : ℕ → ℝ} (h : Refined D C u y C' u' y')
    (h' : Refined D C' u' y' C'' u'' y'') : Refined D C u y C'' u'' y'' := by
  obtain ⟨a1, a2, a3, a4, a5, a6, a7, a8⟩ := h
  obtain ⟨b1, b2, b3, b4, b5, b6, b7, b8⟩ := h'
  exact ⟨b1, b2, b3.trans a3, b4.trans a4, b5.trans a5, fun t => (b6 t).trans (a6 t), b7.trans a7,
    fun x => (a8 x).trans (b8 x)⟩

theorem refined_insert (hDC : D < C) (hm : ∀ i j, i ≤ j → j < C + D + 1 → u i ≤ u j) {x : ℝ}
    (h1 : u D ≤ x) (h2 : x < u C) : ∃ u' y', Refined D C u y (C + 1) u' y' ∧
      occurrences u (C + D + 1) x + 1 ≤ occurrences u' (C + 1 + D + 1) x := by
  obtain ⟨k, hDk, hkC, k1, k2⟩ := exists_basis_span hDC h1 h2
  have occ := fun z => occurrences_insert (u := u) (K := C + D + 1) (k := k) (by omega) x z
  have eK : C + 1 + D + 1 = C + D + 1 + 1 := by omega
  refine ⟨insertKnot u k x, insertValue u k x D y, ⟨by omega, ?_, insertKnot_le hDk, insertKnot_gt hkC, ?_,
    fun t => (sum_insert hm rfl hDk hkC k1 k2 y t).symm, changes_insert hm rfl hDk hkC k1 k2 y, ?_⟩, ?_⟩
  · rw [eK]
    exact insertKnot_mono hm (by omega) k1 k2.le
  · rw [Nat.add_sub_cancel, insertValue, insertWeight_zero hkC]
    ring
  · intro z
    rw [eK]
    exact (Nat.le_add_right _ _).trans (occ z)
  · rw [eK]
    have := occ x
    rwa [if_pos rfl] at this

theorem refined_many (hDC : D < C) (hm : ∀ i j, i ≤ j → j < C + D + 1 → u i ≤ u j) {x : ℝ}
    (h1 : u D ≤ x) (h2 : x < u C) (n : ℕ) : ∃ C' u' y', Refined D C u y C' u' y' ∧
      n ≤ occurrences u' (C' + D + 1) x := by
  induction n with
  | zero => exact ⟨C, u, y, Refined.refl hDC hm, Nat.zero_le _⟩
  | succ n ih =>
    obtain ⟨C', u', y', hr, hn⟩ := ih
    obtain ⟨u'', y'', hr', hn'⟩ := refined_insert (y := y') hr.1 hr.2.1 (hr.2.2.1.trans_le h1)
      (h2.trans_eq hr.2.2.2.1.symm)
    exact ⟨C' + 1, u'', y'', hr.trans hr', by omega⟩

theorem refined_list (hDC : D < C) (hm : ∀ i j, i ≤ j → j < C + D + 1 → u i ≤ u j) (n : ℕ) (τ : List ℝ)
    (hτ : ∀ x ∈ τ, u D ≤ x ∧ x < u C) : ∃ C' u' y', Refined D C u y C' u' y' ∧
      ∀ x ∈ τ, n ≤ occurrences u' (C' + D + 1) x := by
  induction τ with
  | nil => exact ⟨C, u, y, Refined.refl hDC hm, by simp⟩
  | cons x τ ih =>
    obtain ⟨C', u', y', hr, hn⟩ := ih fun z hz => hτ z (List.mem_cons_of_mem _ hz)
    obtain ⟨hx1, hx2⟩ := hτ x List.mem_cons_self
    obtain ⟨C'', u'', y'', hr', hn'⟩ := refined_many (y := y') hr.1 hr.2.1 (hr.2.2.1.trans_le hx1)
      (hx2.trans_eq hr.2.2.2.1.symm) n
    refine ⟨C'', u'', y'', hr.trans hr', fun z hz => ?_⟩
    rcases List.mem_cons.1 hz with rfl | hz
    · exact hn'
    · exact (hn z hz).trans (hr'.2.2.2.2.2.2.2 z)

/-- At a `D`-fold knot the spline is a control value. -/
theorem spline_at_fold (hm : ∀ i j, i ≤ j → j < C + D + 1 → u i ≤ u j) {k : ℕ} (hDk : D ≤ k)
    (hkC : k < C) {t : ℝ} (k1 : u k ≤ t) (k2 : t < u (k + 1)) (hocc : D ≤ occurrences u (C + D + 1) t) :
    (D = 0 ∨ u (k + 1 - D) = t) ∧ ∑ i ∈ Finset.range C, coxDeBoor u D i t * y i = y (k - D) := by
  have hu : D = 0 ∨ u (k + 1 - D) = t := by
    rcases Nat.eq_zero_or_pos D with h | h
    · exact .inl h
    right
    by_contra hne
    have lt : u (k + 1 - D) < t := lt_of_le_of_ne ((hm _ k (by omega) (by omega)).trans k1) hne
    have sub : ((Finset.range (C + D + 1)).filter fun i => u i = t) ⊆ Finset.Ico (k + 2 - D) (k + 1) := by
      intro i hi
      obtain ⟨i1, i2⟩ := Finset.mem_filter.1 hi
      have i1 := Finset.mem_range.1 i1
      refine Finset.mem_Ico.2 ⟨?_, ?_⟩
      · by_contra hcon
        have := hm i (k + 1 - D) (by omega) (by omega)
        linarith
      · by_contra hcon
        have := hm (k + 1) i (by omega) i1
        linarith
    have card := Finset.card_le_card sub
    rw [Nat.card_Ico] at card
    unfold occurrences at hocc
    omega
  refine ⟨hu, ?_⟩
  have zero : ∀ q i, k + 1 - D ≤ i → k < i + q → i + q + 1 < C + D + 1 → coxDeBoor u q i t = 0 := by
    intro q
    induction q with
    | zero =>
      intro i h1 h2 h3
      exact coxDeBoor_eq_zero hm (by omega) k1 k2 0 i h3 (.inl h2)
    | succ q ih =>
      intro i h1 h2 h3
      by_cases hik : k < i
      · exact coxDeBoor_eq_zero hm (by omega) k1 k2 (q + 1) i h3 (.inl hik)
      · rcases hu with h | h
        · omega
        · have e : u i = t := le_antisymm ((hm i k (by omega) (by omega)).trans k1)
            (h ▸ hm (k + 1 - D) i h1 (by omega))
          rw [coxDeBoor_succ, e, sub_self, zero_mul, zero_mul, zero_add, ih (i + 1) (by omega) (by omega)
            (by omega), mul_zero]
  have single : ∀ z : ℕ → ℝ, ∑ i ∈ Finset.range C, coxDeBoor u D i t * z i
      = coxDeBoor u D (k - D) t * z (k - D) := by
    intro z
    refine Finset.sum_eq_single _ (fun i hi hne => ?_) fun h => ?_
    · have hi := Finset.mem_range.1 hi
      rcases Nat.lt_or_ge i (k - D) with h | h
      · rw [coxDeBoor_eq_zero hm (by omega) k1 k2 D i (by omega) (.inr (by omega)), zero_mul]
      · rw [zero D i (by omega) (by omega) (by omega), zero_mul]
    · exact absurd (Finset.mem_range.2 (by omega)) h
  have one := single fun _ => 1
  simp only [mul_one] at one
  rw [basis_sum_one hm rfl (by omega) ((hm D k hDk (by omega)).trans k1)
    (k2.trans_le (hm (k + 1) C hkC (by omega)))] at one
  rw [single, ← one, one_mul]

/-- The values of a scalar spline, with the last control value at the end of the domain. -/
noncomputable def splineValue (D C : ℕ) (u y : ℕ → ℝ) (t : ℝ) : ℝ :=
  if t < u C then ∑ i ∈ Finset.range C, coxDeBoor u D i t * y i else y (C - 1)

/-- The scalar form: sampling a spline gives no more sign changes than its control values have. -/
theorem changes_spline (hD : 1 ≤ D) (hDC : D < C) (hm : ∀ i j, i ≤ j → j < C + D + 1 → u i ≤ u j)
    (τ : List ℝ) (hs : τ.Pairwise (· < ·)) (hτ : ∀ x ∈ τ, u D ≤ x ∧ x ≤ u C) :
    changesFrom 0 (τ.map (splineValue D C u y)) ≤ changesFrom 0 ((List.range C).map y) := by
  classical
  obtain ⟨C', u', y', ⟨a1, a2, a3, a4, a5, a6, a7, a8⟩, hocc⟩ := refined_list (y := y) hDC hm D
    (τ.filter fun x => decide (x < u C)) (fun x hx => by
      obtain ⟨x1, x2⟩ := List.mem_filter.1 hx
      exact ⟨(hτ x x1).1, by simpa using x2⟩)
  have idx : ∀ x ∈ τ, ∃ k, k < C' ∧ splineValue D C u y x = y' k ∧
      ((x < u C ∧ k + D < C' ∧ u' (k + 1) = x ∧ u' (k + D) = x) ∨ x = u C ∧ k = C' - 1) := by
    intro x hx
    obtain ⟨x1, x2⟩ := hτ x hx
    rcases eq_or_lt_of_le x2 with e | l
    · exact ⟨C' - 1, by omega, by rw [splineValue, if_neg (by rw [e]; exact lt_irrefl _), a5], .inr ⟨e, rfl⟩⟩
    · obtain ⟨k, hDk, hkC, k1, k2⟩ := exists_basis_span a1 (a3.trans_le x1) (l.trans_eq a4.symm)
      obtain ⟨f1, f2⟩ := spline_at_fold (y := y') a2 hDk hkC k1 k2
        (hocc x (List.mem_filter.2 ⟨hx, by simpa using l⟩))
      have f1 : u' (k + 1 - D) = x := f1.resolve_left (by omega)
      refine ⟨k - D, by omega, by rw [splineValue, if_pos l, ← a6, f2], .inl ⟨l, by omega, ?_, ?_⟩⟩
      · rw [← f1]; congr 1; omega
      · rw [Nat.sub_add_cancel hDk]
        exact le_antisymm k1 (by rw [← f1]; exact a2 _ _ (by omega) (by omega))
  choose! g g1 g2 g3 using idx
  have gs : (τ.map g).Pairwise (· < ·) := by
    rw [List.pairwise_map]
    refine hs.imp_of_mem fun {p q} hp hq hpq => ?_
    rcases g3 q hq with ⟨q1, q2, q3, q4⟩ | ⟨q1, q2⟩
    · rcases g3 p hp with ⟨p1, p2, p3, p4⟩ | ⟨p1, p2⟩
      · by_contra hcon
        have := a2 (g q + 1) (g p + D) (by omega) (by omega)
        linarith
      · linarith
    · rcases g3 p hp with ⟨p1, p2, p3, p4⟩ | ⟨p1, p2⟩
      · omega
      · linarith
  have gsub : (τ.map g).Sublist (List.range C') := by
    refine List.sublist_of_subperm_of_pairwise (r := (· ≤ ·)) (List.subperm_of_subset
      (gs.imp fun h => ne_of_lt h) fun i hi => ?_) (gs.imp le_of_lt) ?_
    · obtain ⟨x, hx, rfl⟩ := List.mem_map.1 hi
      exact List.mem_range.2 (g1 x hx)
    · exact List.pairwise_lt_range.imp le_of_lt
  have e : τ.map (splineValue D C u y) = (τ.map g).map y' := by
    rw [List.map_map]
    exact List.map_congr_left fun x hx => g2 x hx
  rw [e]
  exact (changesFrom_sublist (gsub.map y') 0).trans a7

end Refine

/-! ### C147 -/

section Splines
variable {P : Type} [Point ℝ P] [LawfulPoint P] {K C D : ℕ} {knots : Arr ℝ K} {ps : Arr P C}
  {b : BSpline ℝ P K C D}

theorem side_spline (v : ValidSpline C D knots) {t : ℝ} (h1 : knotAt knots D ≤ t)
    (h2 : t < knotAt knots C) {q : P} (hq : ∀ c, coord q c = splineCoord D knots ps t c) (a : ℕ → ℝ) (x : ℝ) :
    side a x q = splineValue D C (knotAt knots) (fun i => side a x (extend ps i)) t := by
  obtain ⟨v1, v2, v3⟩ := id v
  have hm := fun i j (hij : i ≤ j) (hj : j < K) => mono_knotAt v3 hij hj
  have one := basis_sum_one hm v2 v1 h1 h2
  rw [← Fin.sum_univ_eq_sum_range (fun i => coxDeBoor (knotAt knots) D i t) C] at one
  rw [side_combination one hq, splineValue, if_pos h2,
    ← Fin.sum_univ_eq_sum_range (fun i => coxDeBoor (knotAt knots) D i t * side a x (extend ps i)) C]
  exact Finset.sum_congr rfl fun i _ => by rw [extend_lt ps i.isLt]

theorem list_sides (a : ℕ → ℝ) (x : ℝ) : (List.ofFn ps).map (side a x)
    = (List.range C).map fun i => side a x (extend ps i) := by
  apply List.ext_getElem
  · simp
  · intro n h1 h2
    have hn : n < C := by simpa using h1
    simp [extend_lt ps hn]

/-- If the points are those of the spline, sampling gives no more sign changes than the control
points have. -/
theorem changes_points (v : ValidSpline C D knots) (hD : 1 ≤ D) (a : ℕ → ℝ) (x : ℝ) (τ : List ℝ)
    (hs : τ.Pairwise (· < ·)) (hτ : ∀ t ∈ τ, knotAt knots D ≤ t ∧ t ≤ knotAt knots C) (f : ℝ → P)
    (hf : ∀ t ∈ τ, side a x (f t)
      = splineValue D C (knotAt knots) (fun i => side a x (extend ps i)) t) :
    signChanges (τ.map fun t => side a x (f t)) ≤ signChanges ((List.ofFn ps).map (side a x)) := by
  obtain ⟨v1, v2, v3⟩ := id v
  have hm : ∀ i j, i ≤ j → j < C + D + 1 → knotAt knots i ≤ knotAt knots j :=
    fun i j hij hj => mono_knotAt v3 hij (by omega)
  rw [← changesFrom_eq, ← changesFrom_eq, list_sides, List.map_congr_left hf]
  exact changes_spline hD v1 hm τ hs hτ

/-- **C147** for the repaired program: a B-spline crosses a hyperplane at most as often as its control
polygon: however it is sampled, in order, the samples change sides no more often than the control
points. -/
theorem C147_repaired (h : BSpline.new knots ps = .ok b) (hD : 1 ≤ D) (a : ℕ → ℝ) (x : ℝ) (τ : List ℝ)
    (hs : τ.Pairwise (· < ·)) (hτ : ∀ t ∈ τ, knotAt knots D ≤ t ∧ t ≤ knotAt knots C) (f : ℝ → P)
    (hf : ∀ t ∈ τ, b.evalFixed t = .ok (f t)) :
    signChanges (τ.map fun t => side a x (f t)) ≤ signChanges ((List.ofFn ps).map (side a x)) := by
  have v := ((new_ok_iff _ _ _).1 h).1
  have v1 := v.1
  refine changes_points v hD a x τ hs hτ f fun t ht => ?_
  obtain ⟨t1, t2⟩ := hτ t ht
  rcases eq_or_lt_of_le t2 with e | l
  · have he := hf t ht
    rw [e, C121_bspline_end h, Outcome.ok.injEq] at he
    rw [splineValue, if_neg (by rw [e]; exact lt_irrefl _), e, ← he, extend_lt ps (by omega : C - 1 < C)]
  · obtain ⟨q, hq, hc⟩ := C121_bspline h t1 l
    rw [hf t ht, Outcome.ok.injEq] at hq
    rw [hq]
    exact side_spline v t1 l hc a x

/-- **C147** with the calls of this version: the points of the detour of C136. -/
theorem C147_detour (v : ValidSpline C D knots) (hc : FrontClamped D knots ∨ BackClamped D knots)
    (ps : Arr P C) (hD : 1 ≤ D) (a : ℕ → ℝ) (x : ℝ) (τ : List ℝ) (hs : τ.Pairwise (· < ·))
    (heps : ∀ t ∈ τ, ∀ i : Fin K, knots i < t → eps ≤ t - knots i) (f : ℝ → P)
    (hf : ∀ t ∈ τ, ∃ (k : ℕ) (hkC : k < C) (b : BSpline ℝ P K C D) (p : P), D ≤ k ∧
      knotAt knots k ≤ t ∧ t < knotAt knots (k + 1) ∧
      BSpline.new knots (fun i => ps i - ps ⟨k, hkC⟩) = .ok b ∧ b.eval t = .ok p ∧ f t = p + ps ⟨k, hkC⟩) :
    signChanges (τ.map fun t => side a x (f t)) ≤ signChanges ((List.ofFn ps).map (side a x)) := by
  obtain ⟨v1, v2, v3⟩ := id v
  have hm := fun i j (hij : i ≤ j) (hj : j < K) => mono_knotAt v3 hij hj
  have dom : ∀ t ∈ τ, knotAt knots D ≤ t ∧ t < knotAt knots C := by
    intro t ht
    obtain ⟨k, hkC, b, p, hDk, k1, k2, -⟩ := hf t ht
    exact ⟨(hm D k hDk (by omega)).trans k1, k2.trans_le (hm (k + 1) C hkC (by omega))⟩
  refine changes_points v hD a x τ hs (fun t ht => ⟨(dom t ht).1, (dom t ht).2.le⟩) f fun t ht => ?_
  obtain ⟨k, hkC, b, p, hDk, k1, k2, hb, hp, hfp⟩ := hf t ht
  obtain ⟨b', p', hb', hp', hc'⟩ := C136_bspline v hc ps hDk hkC k1 k2 (heps t ht)
  rw [hb, Outcome.ok.injEq] at hb'
  rw [← hb', hp, Outcome.ok.injEq] at hp'
  rw [← hp'] at hc'
  rw [hfp]
  exact side_spline v (dom t ht).1 (dom t ht).2 hc' a x

theorem coxDeBoor_shiftBy (u : ℕ → ℝ) (n d i : ℕ) (t : ℝ) :
    coxDeBoor (fun j => u (n + j)) d i t = coxDeBoor u d (n + i) t := by
  induction d generalizing i with
  | zero => simp only [coxDeBoor, Nat.add_assoc]
  | succ d ih =>
    rw [coxDeBoor_succ, coxDeBoor_succ, ih, ih]
    simp only [Nat.add_assoc]

/-- **C147**, the part that holds of `eval` itself: between two knots, with the origin in place of the
last control point of the span. -/
theorem C147_partial (h : BSpline.new knots ps = .ok b) (hc : FrontClamped D knots ∨ BackClamped D knots)
    (hD : 1 ≤ D) (a : ℕ → ℝ) (x : ℝ) {k : ℕ} (hDk : D ≤ k) (hkC : k < C) (τ : List ℝ)
    (hs : τ.Pairwise (· < ·)) (hτ : ∀ t ∈ τ, knotAt knots k ≤ t ∧ t < knotAt knots (k + 1))
    (heps : ∀ t ∈ τ, ∀ i : Fin K, knots i < t → eps ≤ t - knots i) (f : ℝ → P)
    (hf : ∀ t ∈ τ, b.eval t = .ok (f t)) :
    signChanges (τ.map fun t => side a x (f t)) ≤ signChanges
      ((List.ofFn (fun j : Fin D => ps ⟨k - D + j.val, by omega⟩) ++ [Point.default]).map (side a x)) := by
  have v := ((new_ok_iff _ _ _).1 h).1
  obtain ⟨v1, v2, v3⟩ := id v
  have hm := fun i j (hij : i ≤ j) (hj : j < K) => mono_knotAt v3 hij hj
  set y : ℕ → ℝ := fun j => side a x (if j = D then Point.default else extend ps (k - D + j)) with hy
  have hlist : (List.ofFn (fun j : Fin D => ps ⟨k - D + j.val, by omega⟩) ++ [Point.default]).map (side a x)
      = (List.range (D + 1)).map y := by
    apply List.ext_getElem
    · simp
    · intro n n1 n2
      have hn : n < D + 1 := by simpa using n2
      rcases Nat.lt_or_ge n D with l | l
      · simp [hy, l, l.ne, extend_lt ps (show k - D + n < C by omega)]
      · obtain rfl : n = D := by omega
        simp [hy]
  have hval : ∀ t ∈ τ, side a x (f t) = splineValue D (D + 1) (fun j => knotAt knots (k - D + j)) y t := by
    intro t ht
    obtain ⟨t1, t2⟩ := hτ t ht
    obtain ⟨q, hq, hqc⟩ := C48_partial h hc hDk hkC t1 t2 (heps t ht)
    rw [hf t ht, Outcome.ok.injEq] at hq
    have sum1 : ∑ m : Fin (D + 1), coxDeBoor (knotAt knots) D (k - D + m.val) t = 1 := by
      rw [Fin.sum_univ_eq_sum_range (fun m => coxDeBoor (knotAt knots) D (k - D + m) t) (D + 1)]
      exact coxDeBoor_sum hm hDk (by omega) t1 t2
    have hco : ∀ c, coord (f t) c = ∑ m : Fin (D + 1), coxDeBoor (knotAt knots) D (k - D + m.val) t
        * coord (if m.val = D then (Point.default : P) else extend ps (k - D + m.val)) c := by
      intro c
      rw [hq, hqc, splineCoord_extend, coxDeBoor_sum_span hm hDk hkC v2 t1 t2,
        Fin.sum_univ_eq_sum_range (fun m => coxDeBoor (knotAt knots) D (k - D + m) t
          * coord (if m = D then (Point.default : P) else extend ps (k - D + m)) c) (D + 1),
        Finset.sum_range_succ, Finset.sum_range_succ, if_pos rfl, coord_default, mul_zero, add_zero,
        show k - D + D = k by omega, extend_lt ps hkC]
      rw [mul_comm (coord _ c), add_sub_cancel_right]
      refine Finset.sum_congr rfl fun m hm => ?_
      have hm := Finset.mem_range.1 hm
      rw [if_neg (by omega), mul_comm]
    rw [side_combination sum1 hco a x, splineValue, if_pos (by
      rw [show k - D + (D + 1) = k + 1 by omega]; exact t2),
      ← Fin.sum_univ_eq_sum_range (fun i => coxDeBoor (fun j => knotAt knots (k - D + j)) D i t * y i) (D + 1)]
    exact Finset.sum_congr rfl fun m _ => by rw [coxDeBoor_shiftBy]
  rw [hlist, ← changesFrom_eq, ← changesFrom_eq, List.map_congr_left hval]
  refine changes_spline hD (by omega) (fun i j hij hj => hm _ _ (by omega) (by omega)) τ hs fun t ht => ?_
  obtain ⟨t1, t2⟩ := hτ t ht
  exact ⟨by rw [Nat.sub_add_cancel hDk]; exact t1, by
    rw [show k - D + (D + 1) = k + 1 by omega]; exact t2.le⟩

/-- **C147** is false of the code: the spline from 1 to 2 passes 3/4 twice. -/
theorem C147_false : ∃ b : BSpline ℝ (PointN ℝ 1) 4 2 1,
    BSpline.new ![0, 0, 1, 1] ![p1 1, p1 2] = .ok b ∧ b.eval (0 : ℝ) = .ok (p1 1) ∧
    b.eval (1 / 2 : ℝ) = .ok (p1 (1 / 2)) ∧ b.eval (1 : ℝ) = .ok (p1 2) ∧
    signChanges ([p1 1, p1 (1 / 2), p1 2].map (side (fun _ => 1) (3 / 4))) = 2 ∧
    signChanges ([p1 1, p1 2].map (side (fun _ => 1) (3 / 4))) = 0 := by
  obtain ⟨b, hb, he⟩ := eval_0011 1 2
  have hside : ∀ z : ℝ, side (fun _ => 1) (3 / 4) (p1 z) = z - 3 / 4 := by
    intro z
    have : Point.dim (PointN ℝ 1) = 1 := rfl
    simp [side, this]
  have hend : b.eval (1 : ℝ) = .ok (p1 2) := by
    have := eval_end hb
    simpa [knotAt, extend] using this
  refine ⟨b, hb, eval_0011_start hb, he, hend, ?_, ?_⟩
  · simp only [List.map_cons, List.map_nil, hside]
    norm_num [signChanges, oppositeNeighbours, List.filter]
  · simp only [List.map_cons, List.map_nil, hside]
    norm_num [signChanges, oppositeNeighbours, List.filter]

end Splines

/-- `C147_repaired`: the zigzag 0, 3, 1, 4 is passed at height 2 at most three times. -/
example (f : ℝ → PointN ℝ 1) (b : BSpline ℝ (PointN ℝ 1) 7 4 2)
    (hb : BSpline.new ![0, 0, 0, 1, 2, 2, 2] ![p1 0, p1 3, p1 1, p1 4] = .ok b)
    (hf : ∀ t, 0 ≤ t → t ≤ 2 → b.evalFixed t = .ok (f t)) :
    signChanges ([0, 1 / 2, 1, 3 / 2, 2].map fun t => side (fun _ => 1) 2 (f t)) ≤ 3 := by
  refine (C147_repaired hb (by norm_num) (fun _ => 1) 2 [0, 1 / 2, 1, 3 / 2, 2] ?_ ?_ f ?_).trans ?_
  · norm_num
  · intro t ht
    simp only [List.mem_cons, List.not_mem_nil, or_false] at ht
    rcases ht with rfl | rfl | rfl | rfl | rfl <;> simp [knotAt] <;> norm_num
  · intro t ht
    simp only [List.mem_cons, List.not_mem_nil, or_false] at ht
    rcases ht with rfl | rfl | rfl | rfl | rfl <;> exact hf _ (by norm_num) (by norm_num)
  · have hside : ∀ z : ℝ, side (fun _ => 1) 2 (p1 z) = z - 2 := by
      intro z
      have : Point.dim (PointN ℝ 1) = 1 := rfl
      simp [side, this]
    simp only [List.ofFn_succ, List.ofFn_zero, List.map_cons, List.map_nil]
    simp [hside]
    norm_num [signChanges, oppositeNeighbours, List.filter]

/-- `C147_partial`: the first span of the same spline. -/
example (f : ℝ → PointN ℝ 1) (b : BSpline ℝ (PointN ℝ 1) 7 4 2)
    (hb : BSpline.new ![0, 0, 0, 1, 2, 2, 2] ![p1 (-1), p1 3, p1 1, p1 4] = .ok b)
    (hf : ∀ t, 0 ≤ t → t < 1 → b.eval t = .ok (f t)) :
    signChanges ([1 / 4, 1 / 2, 3 / 4].map fun t => side (fun _ => 1) 2 (f t)) ≤ 2 := by
  have ev := eps_le_quarter
  refine (C147_partial (k := 2) hb (.inl front_0001222) (by norm_num) (fun _ => 1) 2 le_rfl (by norm_num)
    [1 / 4, 1 / 2, 3 / 4] ?_ ?_ ?_ f ?_).trans ?_
  · norm_num
  · intro t ht
    simp only [List.mem_cons, List.not_mem_nil, or_false] at ht
    rcases ht with rfl | rfl | rfl <;> simp [knotAt] <;> norm_num
  · intro t ht i
    simp only [List.mem_cons, List.not_mem_nil, or_false] at ht
    rcases ht with rfl | rfl | rfl <;> fin_cases i <;> simp <;> first | (intro; linarith) | linarith
  · intro t ht
    simp only [List.mem_cons, List.not_mem_nil, or_false] at ht
    rcases ht with rfl | rfl | rfl <;> exact hf _ (by norm_num) (by norm_num)
  · have hside : ∀ z : ℝ, side (fun _ => 1) 2 (p1 z) = z - 2 := by
      intro z
      have : Point.dim (PointN ℝ 1) = 1 := rfl
      simp [side, this]
    have hdef : side (fun _ => 1) 2 (Point.default : PointN ℝ 1) = -2 := by simp [side]
    simp only [List.ofFn_succ, List.ofFn_zero, List.map_cons, List.map_nil, List.cons_append,
      List.nil_append]
    simp [hside, hdef]
    norm_num [signChanges, oppositeNeighbours, List.filter]

/-- `C147_detour`: one sample on each side of the knot at 1. -/
example (ps : Arr (PointN ℝ 1) 4) : ∃ (f : ℝ → PointN ℝ 1) (b b' : BSpline ℝ (PointN ℝ 1) 7 4 2)
    (p q : PointN ℝ 1), BSpline.new ![0, 0, 0, 1, 2, 2, 2] (fun i => ps i - ps 2) = .ok b ∧
      b.eval (1 / 2 : ℝ) = .ok p ∧ f (1 / 2) = p + ps 2 ∧
      BSpline.new ![0, 0, 0, 1, 2, 2, 2] (fun i => ps i - ps 3) = .ok b' ∧
      b'.eval (3 / 2 : ℝ) = .ok q ∧ f (3 / 2) = q + ps 3 ∧
      signChanges ([1 / 2, 3 / 2].map fun t => side (fun _ => 1) 2 (f t))
        ≤ signChanges ((List.ofFn ps).map (side (fun _ => 1) 2)) := by
  have ev := eps_le_quarter
  have heps : ∀ t ∈ [(1 / 2 : ℝ), 3 / 2], ∀ i : Fin 7, (![0, 0, 0, 1, 2, 2, 2] : Fin 7 → ℝ) i < t →
      eps ≤ t - (![0, 0, 0, 1, 2, 2, 2] : Fin 7 → ℝ) i := by
    intro t ht i
    simp only [List.mem_cons, List.not_mem_nil, or_false] at ht
    rcases ht with rfl | rfl <;> fin_cases i <;> simp <;> first | (intro; linarith) | linarith
  have s1 : knotAt (![0, 0, 0, 1, 2, 2, 2] : Fin 7 → ℝ) 2 ≤ 1 / 2 := by simp [knotAt]
  have s2 : 1 / 2 < knotAt (![0, 0, 0, 1, 2, 2, 2] : Fin 7 → ℝ) (2 + 1) := by simp [knotAt]; norm_num
  have t1 : knotAt (![0, 0, 0, 1, 2, 2, 2] : Fin 7 → ℝ) 3 ≤ 3 / 2 := by simp [knotAt]; norm_num
  have t2 : 3 / 2 < knotAt (![0, 0, 0, 1, 2, 2, 2] : Fin 7 → ℝ) (3 + 1) := by simp [knotAt]; norm_num
  obtain ⟨b, p, hb, hp, -⟩ := C136_bspline valid_0001222 (.inl front_0001222) ps le_rfl (by norm_num) s1 s2
    (heps _ (by simp))
  obtain ⟨b', q, hb', hq, -⟩ := C136_bspline valid_0001222 (.inl front_0001222) ps (by norm_num)
    (by norm_num) t1 t2 (heps _ (by simp))
  refine ⟨fun t => if t < 1 then p + ps 2 else q + ps 3, b, b', p, q, hb, hp, if_pos (by norm_num), hb', hq,
    if_neg (by norm_num), ?_⟩
  refine C147_detour valid_0001222 (.inl front_0001222) ps (by norm_num) (fun _ => 1) 2 [1 / 2, 3 / 2]
    (by norm_num) heps _ fun t ht => ?_
  simp only [List.mem_cons, List.not_mem_nil, or_false] at ht
  rcases ht with rfl | rfl
  · exact ⟨2, by norm_num, b, p, le_rfl, s1, s2, hb, hp, if_pos (by norm_num)⟩
  · exact ⟨3, by norm_num, b', q, by norm_num, t1, t2, hb', hq, if_neg (by norm_num)⟩

end Stroke
