import Verif.Lemmas.Exact
import Mathlib.Data.List.Sort

/-!
# Sorting, fixed-capacity vectors and filters over the exact instance
-/

namespace Stroke

theorem partialCmp_real (a b : ℝ) : partialCmp a b
    = some (if a < b then .lt else if a = b then .eq else .gt) := by
  unfold partialCmp
  simp only [lt_real, eq_real, decide_eq_true_eq]
  rcases lt_trichotomy a b with h | h | h
  · simp [h]
  · simp [h]
  · simp [h, not_lt.2 h.le, h.ne']

theorem insertSorted_real (x : ℝ) (l : List ℝ) : insertSorted x l = some (l.orderedInsert (· ≤ ·) x) := by
  induction l with
  | nil => rfl
  | cons y ys ih =>
    unfold insertSorted
    rw [partialCmp_real]
    rcases lt_trichotomy x y with h | h | h
    · simp [h, h.le]
    · simp [h]
    · simp [not_lt.2 h.le, h.ne', ih, not_le.2 h]

theorem sortUnwrap_real (l : List ℝ) : sortUnwrap l = some (l.insertionSort (· ≤ ·)) := by
  induction l with
  | nil => rfl
  | cons x xs ih =>
    unfold sortUnwrap
    rw [ih]
    exact insertSorted_real _ _

/-- First and last element of the sorted list: minimum and maximum of the list. -/
theorem sort_ends (l : List ℝ) (hl : l ≠ []) :
    ∃ lo hi, (sortUnwrap l >>= fun s => s.head? >>= fun a => s.getLast? >>= fun b => pure (a, b))
        = some (lo, hi) ∧ lo ∈ l ∧ hi ∈ l ∧ ∀ x ∈ l, lo ≤ x ∧ x ≤ hi := by
  rw [sortUnwrap_real]
  set s := l.insertionSort (· ≤ ·) with hs
  have hp : s.Perm l := List.perm_insertionSort _ _
  have hsort : s.Pairwise (· ≤ ·) := List.pairwise_insertionSort _ _
  have hne : s ≠ [] := fun h => hl (by simpa [h] using hp)
  refine ⟨s.head hne, s.getLast hne, ?_, hp.mem_iff.1 (List.head_mem hne),
    hp.mem_iff.1 (List.getLast_mem hne), ?_⟩
  · simp [List.head?_eq_some_head hne, List.getLast?_eq_some_getLast hne]
  · intro x hx
    have hx' := hp.mem_iff.2 hx
    constructor
    · obtain ⟨a, t, hc⟩ := List.exists_cons_of_ne_nil hne
      have ha : s.head hne = a := by simp [hc]
      rw [ha]
      rw [hc] at hx' hsort
      rcases List.mem_cons.1 hx' with h | h
      · exact h.ge
      · exact (List.pairwise_cons.1 hsort).1 x h
    · obtain ⟨t, b, hc⟩ : ∃ t b, s = t ++ [b] :=
        ⟨s.dropLast, s.getLast hne, (List.dropLast_append_getLast hne).symm⟩
      have hb : s.getLast hne = b := by simp [hc]
      rw [hb]
      rw [hc] at hx' hsort
      rcases List.mem_append.1 hx' with h | h
      · exact (List.pairwise_append.1 hsort).2.2 x h b (by simp)
      · simp at h; exact h.le

theorem avPush_some {α : Type} {cap : ℕ} {l : List α} (x : α) (h : l.length < cap) :
    avPush cap l x = some (l ++ [x]) := by simp [avPush, h]

theorem avExtend_some {α : Type} {cap : ℕ} {l xs : List α} (h : l.length + xs.length ≤ cap) :
    avExtend cap l xs = some (l ++ xs) := by
  unfold avExtend
  induction xs generalizing l with
  | nil => simp
  | cons x xs ih =>
    simp only [List.length_cons] at h
    simp only [List.foldlM_cons]
    rw [avPush_some x (by omega)]
    simp only [Option.bind_eq_bind, Option.bind_some]
    rw [ih (by simp; omega)]
    simp

theorem mapM_some {α β : Type} (f : α → Option β) (g : α → β) (l : List α)
    (h : ∀ x ∈ l, f x = some (g x)) : l.mapM f = some (l.map g) := by
  induction l with
  | nil => rfl
  | cons x xs ih =>
    simp only [List.mapM_cons, h x (by simp), ih (fun y hy => h y (by simp [hy]))]
    rfl

end Stroke
