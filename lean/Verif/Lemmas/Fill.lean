import Verif.Lemmas.Loops
import Verif.Lemmas.Exact

/-!
# Loops that fill an array, and the dot product loop
-/

namespace Stroke

/-- A loop writing `v i` into slot `i` for every `i` computes `v`. -/
theorem forRange_fill {α : Type} {n : ℕ} (init : Arr α n) (body : ℕ → Arr α n → Option (Arr α n))
    (v : Fin n → α) (hb : ∀ (i : ℕ) (h : i < n) (b : Arr α n), body i b = b.set? i (v ⟨i, h⟩)) :
    forRange 0 n init body = some v := by
  obtain ⟨s, hs, inv⟩ := forRange_inv (m := Option)
    (fun i (b : Arr α n) => ∀ k : Fin n, k.val < i → b k = v k) (s := init) (body := body)
    (Nat.zero_le n) (by simp) (by
      intro i b _ hi inv
      refine ⟨_, by rw [hb i hi, Arr.set?_lt _ hi]; rfl, ?_⟩
      intro k hk
      by_cases hki : k.val = i
      · simp only [hki, if_true]; congr 1; exact Fin.ext hki.symm
      · simp only [hki, if_false]; exact inv k (by omega))
  rw [hs]
  show some s = some v
  congr 1
  funext k
  exact inv k k.isLt

/-- The same with an explicit `break` after the last slot. -/
theorem forBreak_fill {α : Type} {n m : ℕ} (body : ℕ → Arr α n → Option (Bool × Arr α n))
    (init : Arr α n) (v : Fin n → α) (hn : 1 ≤ n) (hm : n ≤ m)
    (hb : ∀ (i : ℕ) (h : i < n) (s : Arr α n),
      body i s = some (i == n - 1, fun k => if k.val = i then v ⟨i, h⟩ else s k)) :
    forBreak body (List.range m) init = some v := by
  have key : ∀ (r i : ℕ), i < n → n ≤ i + r → ∀ s : Arr α n,
      (∀ k : Fin n, k.val < i → s k = v k) → forBreak body (List.range' i r) s = some v := by
    intro r
    induction r with
    | zero => intro i h1 h2; omega
    | succ r ih =>
      intro i h1 h2 s hs
      rw [List.range'_succ]
      unfold forBreak
      rw [hb i h1]
      simp only [Option.bind_eq_bind, Option.bind_some, Option.pure_def]
      have hnew : ∀ k : Fin n, k.val < i + 1 → (if k.val = i then v ⟨i, h1⟩ else s k) = v k := by
        intro k hk
        by_cases hki : k.val = i
        · subst hki; rw [if_pos rfl]
        · rw [if_neg hki]; exact hs k (by omega)
      by_cases hlast : i = n - 1
      · rw [if_pos (by simpa using hlast)]
        congr 1
        funext k
        exact hnew k (by have := k.isLt; omega)
      · rw [if_neg (by simpa using hlast)]
        exact ih (i + 1) (by omega) (by omega) _ hnew
  rw [List.range_eq_range']
  exact key m 0 (by omega) (by omega) init (by simp)

section
variable {P : Type} [Point ℝ P] [LawfulPoint P]

theorem dotLoop_eq (v1 v2 : P) :
    LineSegment.dotLoop v1 v2
      = some (∑ i ∈ Finset.range (Point.dim P), coord v1 i * coord v2 i) := by
  unfold LineSegment.dotLoop
  obtain ⟨s, hs, inv⟩ := forRange_inv (m := Option)
    (fun i (b : ℝ) => b = ∑ j ∈ Finset.range i, coord v1 j * coord v2 j) (s := (lit 0 : ℝ))
    (hi := (Point.iter v1).length)
    (body := fun i dot => do
      let a ← Point.axis v1 i
      let b ← Point.axis v2 i
      pure (dot + a * b))
    (Nat.zero_le _) (by simp) (by
      intro i b _ hi inv
      rw [iter_length] at hi
      refine ⟨_, by rw [axis_eq v1 hi, axis_eq v2 hi]; rfl, ?_⟩
      rw [Finset.sum_range_succ, inv])
  rw [hs, inv, iter_length]; rfl

omit [LawfulPoint P] in
theorem inner_toE (v1 v2 : P) :
    inner ℝ (toE v1) (toE v2) = ∑ i ∈ Finset.range (Point.dim P), coord v1 i * coord v2 i := by
  rw [PiLp.inner_apply, ← Fin.sum_univ_eq_sum_range (fun i => coord v1 i * coord v2 i)]
  simp [mul_comm]

end

end Stroke
