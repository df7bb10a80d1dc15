import Verif.Model.BSpline
import Verif.Model.Bezier
import Mathlib.Tactic.Linarith

/-!
# Reasoning about the loops of the model
-/

set_option linter.unusedSectionVars false

namespace Stroke

instance : LawfulMonad Outcome := LawfulMonad.mk'
  (id_map := by intro α x; cases x <;> rfl)
  (pure_bind := by intros; rfl)
  (bind_assoc := by intro α β γ x f g; cases x <;> rfl)

@[simp] theorem Outcome.pure_eq {α : Type} (a : α) : (pure a : Outcome α) = .ok a := rfl
@[simp] theorem Outcome.ok_bind {α β : Type} (a : α) (f : α → Outcome β) :
    (Outcome.ok a >>= f) = f a := rfl
@[simp] theorem Outcome.err_bind {α β : Type} (e : BSplineError) (f : α → Outcome β) :
    ((Outcome.err e : Outcome α) >>= f) = .err e := rfl
@[simp] theorem Outcome.panic_bind {α β : Type} (f : α → Outcome β) :
    ((Outcome.panic : Outcome α) >>= f) = .panic := rfl
@[simp] theorem Outcome.ofOption_some {α : Type} (a : α) : Outcome.ofOption (some a) = .ok a := rfl
@[simp] theorem Outcome.ofOption_none {α : Type} :
    (Outcome.ofOption none : Outcome α) = .panic := rfl

section
variable {m : Type → Type} [Monad m] [LawfulMonad m] {σ : Type}

theorem forRange_empty {lo hi : ℕ} (h : hi ≤ lo) (s : σ) (body : ℕ → σ → m σ) :
    forRange lo hi s body = pure s := by
  unfold forRange
  rw [Nat.sub_eq_zero_of_le h]; simp

theorem forRange_succ {lo hi : ℕ} (h : lo ≤ hi) (s : σ) (body : ℕ → σ → m σ) :
    forRange lo (hi + 1) s body = forRange lo hi s body >>= body hi := by
  unfold forRange
  have : hi + 1 - lo = (hi - lo) + 1 := by omega
  rw [this, List.range'_concat, List.foldlM_append]
  simp only [List.foldlM_cons, List.foldlM_nil, bind_pure]
  congr 1
  funext s
  congr 1
  omega

theorem forRange_first {lo hi : ℕ} (h : lo < hi) (s : σ) (body : ℕ → σ → m σ) :
    forRange lo hi s body = body lo s >>= fun s' => forRange (lo + 1) hi s' body := by
  unfold forRange
  have : hi - lo = (hi - (lo + 1)) + 1 := by omega
  rw [this, List.range'_succ]
  simp

/-- Loop invariant rule for `for i in lo..hi` loops that do not fail. -/
theorem forRange_inv (I : ℕ → σ → Prop) {lo hi : ℕ} {s : σ} {body : ℕ → σ → m σ}
    (hle : lo ≤ hi) (h0 : I lo s)
    (hstep : ∀ i s, lo ≤ i → i < hi → I i s → ∃ s', body i s = pure s' ∧ I (i + 1) s') :
    ∃ s', forRange lo hi s body = pure s' ∧ I hi s' := by
  induction hi with
  | zero =>
    have : lo = 0 := by omega
    subst this
    exact ⟨s, forRange_empty le_rfl _ _, h0⟩
  | succ hi ih =>
    rcases Nat.eq_or_lt_of_le hle with h | h
    · subst h
      exact ⟨s, forRange_empty le_rfl _ _, h0⟩
    · have hle' : lo ≤ hi := by omega
      obtain ⟨s1, e1, i1⟩ := ih hle' (fun i s h1 h2 => hstep i s h1 (by omega))
      obtain ⟨s2, e2, i2⟩ := hstep hi s1 hle' (by omega) i1
      refine ⟨s2, ?_, i2⟩
      rw [forRange_succ hle', e1, pure_bind, e2]

theorem forRangeRev_empty {lo hi : ℕ} (h : hi ≤ lo) (s : σ) (body : ℕ → σ → m σ) :
    forRangeRev lo hi s body = pure s := by
  unfold forRangeRev
  rw [Nat.sub_eq_zero_of_le h]; simp

theorem forRangeRev_first {lo hi : ℕ} (h : lo ≤ hi) (s : σ) (body : ℕ → σ → m σ) :
    forRangeRev lo (hi + 1) s body = body hi s >>= fun s' => forRangeRev lo hi s' body := by
  unfold forRangeRev
  have : hi + 1 - lo = (hi - lo) + 1 := by omega
  rw [this, List.range'_concat, List.reverse_append]
  simp only [List.reverse_cons, List.reverse_nil, List.nil_append, List.cons_append,
    List.foldlM_cons]
  congr 2
  omega

/-- Loop invariant rule for `for i in (lo..hi).rev()`; `I i s` holds before the
iteration for index `i - 1`. -/
theorem forRangeRev_inv (I : ℕ → σ → Prop) {lo hi : ℕ} {s : σ} {body : ℕ → σ → m σ}
    (hle : lo ≤ hi) (h0 : I hi s)
    (hstep : ∀ i s, lo ≤ i → i < hi → I (i + 1) s → ∃ s', body i s = pure s' ∧ I i s') :
    ∃ s', forRangeRev lo hi s body = pure s' ∧ I lo s' := by
  induction hi generalizing s with
  | zero =>
    have : lo = 0 := by omega
    subst this
    exact ⟨s, forRangeRev_empty le_rfl _ _, h0⟩
  | succ hi ih =>
    rcases Nat.eq_or_lt_of_le hle with h | h
    · subst h
      exact ⟨s, forRangeRev_empty le_rfl _ _, h0⟩
    · have hle' : lo ≤ hi := by omega
      obtain ⟨s1, e1, i1⟩ := hstep hi s hle' (by omega) h0
      obtain ⟨s2, e2, i2⟩ := ih hle' i1 (fun i s h1 h2 => hstep i s h1 (by omega))
      refine ⟨s2, ?_, i2⟩
      rw [forRangeRev_first hle', e1, pure_bind, e2]

end

section Arrays
variable {α : Type} {n : ℕ}

theorem Arr.get?_lt (a : Arr α n) {i : ℕ} (h : i < n) : a.get? i = some (a ⟨i, h⟩) := by
  simp [Arr.get?, h]

theorem Arr.get?_ge (a : Arr α n) {i : ℕ} (h : n ≤ i) : a.get? i = none := by
  simp [Arr.get?, Nat.not_lt.2 h]

theorem Arr.get?_isSome (a : Arr α n) (i : ℕ) : (a.get? i).isSome = true ↔ i < n := by
  unfold Arr.get?; split <;> simp_all

theorem Arr.set?_lt (a : Arr α n) {i : ℕ} (h : i < n) (v : α) :
    a.set? i v = some (fun k => if k.val = i then v else a k) := by
  simp [Arr.set?, h]

theorem Arr.set?_ge (a : Arr α n) {i : ℕ} (h : n ≤ i) (v : α) : a.set? i v = none := by
  simp [Arr.set?, Nat.not_lt.2 h]

theorem usub_le {a b : ℕ} (h : b ≤ a) : usub a b = some (a - b) := by simp [usub, h]
theorem usub_lt {a b : ℕ} (h : a < b) : usub a b = none := by simp [usub, Nat.not_le.2 h]

end Arrays

end Stroke
