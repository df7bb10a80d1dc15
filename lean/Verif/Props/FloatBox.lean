import Verif.Props.FloatEndpoints
import Verif.Lemmas.Fill
import Verif.Lemmas.Loops

/-!
# Floating point: bounding boxes (C63, C64)
-/

namespace Stroke

variable {F : FloatFormat} {n : ℕ}

open Fl

/-! ### Sorting floats -/

theorem Fl.le_refl {x : Fl F} (hx : x ≠ nan) : Scalar.le x x = true := by
  cases x with
  | nan => exact absurd rfl hx
  | inf s =>
    cases s
    · show decide ((⊤ : EReal) ≤ ⊤) = true
      simp
    · show decide ((⊥ : EReal) ≤ ⊥) = true
      simp
  | fin r hr => exact le_fin.2 le_rfl

theorem le_val {x y : Fl F} :
    Scalar.le x y = true ↔ ∃ a b, x.val? = some a ∧ y.val? = some b ∧ a ≤ b := by
  show Fl.le x y = true ↔ _
  unfold Fl.le
  cases hx : x.val? <;> cases hy : y.val? <;> simp

theorem lt_val {x y : Fl F} :
    Scalar.lt x y = true ↔ ∃ a b, x.val? = some a ∧ y.val? = some b ∧ a < b := by
  show Fl.lt x y = true ↔ _
  unfold Fl.lt
  cases hx : x.val? <;> cases hy : y.val? <;> simp

theorem Fl.le_trans {x y z : Fl F} (h1 : Scalar.le x y = true) (h2 : Scalar.le y z = true) :
    Scalar.le x z = true := by
  rw [le_val] at *
  obtain ⟨a, b, ha, hb, hab⟩ := h1
  obtain ⟨b', c, hb', hc, hbc⟩ := h2
  rw [hb, Option.some.injEq] at hb'
  subst hb'
  exact ⟨a, c, ha, hc, hab.trans hbc⟩

theorem Fl.le_of_lt {x y : Fl F} (h : Scalar.lt x y = true) : Scalar.le x y = true := by
  rw [lt_val] at h
  obtain ⟨a, b, ha, hb, hab⟩ := h
  exact le_val.2 ⟨a, b, ha, hb, hab.le⟩

theorem ne_nan_of_le {x y : Fl F} (h : Scalar.le x y = true) : x ≠ nan ∧ y ≠ nan := by
  constructor <;> rintro rfl <;> simp at h

/-- Two values that are not NaN are ordered. -/
theorem Fl.lt_or_le {x y : Fl F} (hx : x ≠ nan) (hy : y ≠ nan) :
    Scalar.lt x y = true ∨ Scalar.le y x = true := by
  have hv : ∀ z : Fl F, z ≠ nan → ∃ a, z.val? = some a := by
    intro z hz
    cases z with
    | nan => exact absurd rfl hz
    | inf s => cases s <;> exact ⟨_, rfl⟩
    | fin r hr => exact ⟨_, rfl⟩
  obtain ⟨a, ha⟩ := hv x hx
  obtain ⟨b, hb⟩ := hv y hy
  rcases lt_or_ge a b with h | h
  · exact Or.inl (lt_val.2 ⟨a, b, ha, hb, h⟩)
  · exact Or.inr (le_val.2 ⟨b, a, hb, ha, h⟩)

theorem partialCmp_nan_left (y : Fl F) : partialCmp nan y = none := by
  simp [partialCmp]

theorem partialCmp_nan_right (x : Fl F) : partialCmp x nan = none := by
  simp [partialCmp]

/-- What one insertion does when it does not panic. -/
theorem insertSorted_some {x : Fl F} {l l' : List (Fl F)} (h : insertSorted x l = some l')
    (hs : l.Pairwise fun a b => Scalar.le a b = true) :
    l'.length = l.length + 1 ∧ (∀ y, y ∈ l' ↔ y = x ∨ y ∈ l) ∧
    (l ≠ [] → x ≠ nan ∧ ∃ y ∈ l, y ≠ nan) ∧
    (l'.Pairwise fun a b => Scalar.le a b = true) := by
  induction l generalizing l' with
  | nil =>
    simp only [insertSorted, Option.some.injEq] at h
    subst h
    simp
  | cons y ys ih =>
    have hxn : x ≠ nan := by
      rintro rfl
      simp [insertSorted, partialCmp_nan_left] at h
    have hyn : y ≠ nan := by
      rintro rfl
      simp [insertSorted, partialCmp_nan_right] at h
    rw [List.pairwise_cons] at hs
    have front : Scalar.le x y = true → some (x :: y :: ys) = some l' →
        l'.length = (y :: ys).length + 1 ∧ (∀ z, z ∈ l' ↔ z = x ∨ z ∈ y :: ys) ∧
        (y :: ys ≠ [] → x ≠ nan ∧ ∃ z ∈ y :: ys, z ≠ nan) ∧
        (l'.Pairwise fun a b => Scalar.le a b = true) := by
      intro hle he
      simp only [Option.some.injEq] at he
      subst he
      refine ⟨by simp, by simp, fun _ => ⟨hxn, y, by simp, hyn⟩, ?_⟩
      rw [List.pairwise_cons, List.pairwise_cons]
      refine ⟨?_, hs⟩
      intro z hz
      rcases List.mem_cons.1 hz with rfl | hz
      · exact hle
      · exact Fl.le_trans hle (hs.1 z hz)
    unfold insertSorted at h
    unfold partialCmp at h
    by_cases c1 : Scalar.lt x y = true
    · simp only [c1, if_true] at h
      exact front (Fl.le_of_lt c1) h
    · simp only [c1, Bool.false_eq_true, if_false] at h
      by_cases c2 : Scalar.eq x y = true
      · simp only [c2, if_true] at h
        refine front ?_ h
        rw [eq_iff] at c2
        rw [← c2.1]
        exact Fl.le_refl hxn
      · simp only [c2, Bool.false_eq_true, if_false] at h
        by_cases c3 : Scalar.lt y x = true
        · simp only [c3, if_true, Option.map_eq_some_iff] at h
          obtain ⟨m, hm, rfl⟩ := h
          obtain ⟨i1, i2, _, i4⟩ := ih hm hs.2
          refine ⟨by simp [i1], ?_, fun _ => ⟨hxn, y, by simp, hyn⟩, ?_⟩
          · intro z
            rw [List.mem_cons, i2, List.mem_cons]
            tauto
          · rw [List.pairwise_cons]
            refine ⟨?_, i4⟩
            intro z hz
            rcases (i2 z).1 hz with rfl | hz
            · exact Fl.le_of_lt c3
            · exact hs.1 z hz
        · simp [c3] at h

theorem sortUnwrap_some {l l' : List (Fl F)} (h : sortUnwrap l = some l') :
    l'.length = l.length ∧ (∀ y, y ∈ l' ↔ y ∈ l) ∧
    (2 ≤ l.length → ∀ x ∈ l, x ≠ nan) ∧ (l'.Pairwise fun a b => Scalar.le a b = true) := by
  induction l generalizing l' with
  | nil =>
    simp only [sortUnwrap, Option.some.injEq] at h
    subst h
    simp
  | cons x xs ih =>
    simp only [sortUnwrap, Option.bind_eq_some_iff] at h
    obtain ⟨m, hm, hi⟩ := h
    obtain ⟨i1, i2, i3, i4⟩ := ih hm
    obtain ⟨j1, j2, j3, j4⟩ := insertSorted_some hi i4
    refine ⟨by simp [j1, i1], ?_, ?_, j4⟩
    · intro y
      rw [j2, i2, List.mem_cons]
    · intro hlen z hz
      have hlen' : 1 ≤ xs.length := by simpa using hlen
      have hm0 : m ≠ [] := by
        intro hm0
        rw [hm0] at i1
        simp at i1
        omega
      obtain ⟨hx, y, hy, hyn⟩ := j3 hm0
      rcases List.mem_cons.1 hz with rfl | hz
      · exact hx
      · by_cases h2 : 2 ≤ xs.length
        · exact i3 h2 z hz
        · have : xs.length = 1 := by omega
          obtain ⟨w, rfl⟩ := List.length_eq_one_iff.1 this
          have hy' := (i2 y).1 hy
          rw [List.mem_singleton] at hz hy'
          rw [hz, ← hy']
          exact hyn

/-- No NaN among the values: sorting succeeds. -/
theorem sortUnwrap_total {l : List (Fl F)} (h : ∀ x ∈ l, x ≠ nan) :
    ∃ l', sortUnwrap l = some l' := by
  induction l with
  | nil => exact ⟨[], rfl⟩
  | cons x xs ih =>
    obtain ⟨m, hm⟩ := ih fun y hy => h y (by simp [hy])
    have hmn : ∀ y ∈ m, y ≠ nan := fun y hy => h y (by
      have := (sortUnwrap_some hm).2.1 y
      simp [this.1 hy])
    have ins : ∀ m : List (Fl F), (∀ y ∈ m, y ≠ nan) → ∃ l', insertSorted x m = some l' := by
      intro m
      induction m with
      | nil => intro _; exact ⟨_, rfl⟩
      | cons y ys ih =>
        intro hy
        obtain ⟨l, hl⟩ := ih fun z hz => hy z (by simp [hz])
        have hx := h x (by simp)
        have hyn := hy y (by simp)
        unfold insertSorted partialCmp
        by_cases c1 : Scalar.lt x y = true
        · simp [c1]
        · by_cases c2 : Scalar.eq x y = true
          · simp [c1, c2]
          · have c3 : Scalar.lt y x = true := by
              rcases Fl.lt_or_le hyn hx with c | c
              · exact c
              · exfalso
                obtain ⟨a, b, ha, hb, hab⟩ := le_val.1 c
                rcases hab.lt_or_eq with hlt | heq
                · exact c1 (lt_val.2 ⟨a, b, ha, hb, hlt⟩)
                · apply c2
                  show Fl.beq x y = true
                  unfold Fl.beq
                  rw [ha, hb]
                  simp [heq]
            simp [c1, c2, c3, hl]
    obtain ⟨l', hl'⟩ := ins m hmn
    exact ⟨l', by rw [sortUnwrap, hm]; exact hl'⟩

/-- The first and last element of a sorted list bound all others. -/
theorem sorted_ends {l : List (Fl F)} (hs : l.Pairwise fun a b => Scalar.le a b = true)
    (hn : ∀ x ∈ l, x ≠ nan) {lo hi : Fl F} (h1 : l.head? = some lo) (h2 : l.getLast? = some hi) :
    lo ∈ l ∧ hi ∈ l ∧ ∀ x ∈ l, Scalar.le lo x = true ∧ Scalar.le x hi = true := by
  have m1 : lo ∈ l := List.mem_of_mem_head? h1
  have m2 : hi ∈ l := List.mem_of_mem_getLast? h2
  refine ⟨m1, m2, fun x hx => ⟨?_, ?_⟩⟩
  · cases l with
    | nil => simp at hx
    | cons a l =>
      simp only [List.head?_cons, Option.some.injEq] at h1
      subst h1
      rcases List.mem_cons.1 hx with rfl | hx
      · exact Fl.le_refl (hn _ m1)
      · exact (List.pairwise_cons.1 hs).1 x hx
  · obtain ⟨l', rfl⟩ : ∃ l', l = l' ++ [hi] := by
      rw [List.getLast?_eq_some_iff] at h2
      exact h2
    rw [List.pairwise_append] at hs
    rcases List.mem_append.1 hx with hx | hx
    · exact hs.2.2 x hx hi (by simp)
    · rw [List.mem_singleton] at hx
      subst hx
      exact Fl.le_refl (hn _ m2)

/-! ### The boxes -/

/-- `v` is a number in the closed interval from `lo` to `hi`. -/
def InBox (v : Fl F) (b : Fl F × Fl F) : Prop :=
  Scalar.le b.1 v = true ∧ Scalar.le v b.2 = true

theorem avPush_eq {α : Type} {cap : ℕ} {l l' : List α} {x : α} (h : avPush cap l x = some l') :
    l' = l ++ [x] := by
  unfold avPush at h
  split_ifs at h
  simpa using h.symm

theorem axis_pointN {p : PointN (Fl F) n} {i : ℕ} (h : i < n) :
    Point.axis p i = some (p.coords ⟨i, h⟩) := by
  show PointN.axis p i = _
  unfold PointN.axis
  rw [if_pos h.le]
  exact Arr.get?_lt _ h

/-- The tail common to both `bounding_box` loops. -/
theorem tail_some {cap : ℕ} {l : List (Fl F)} {s e : Fl F} {b : Fl F × Fl F}
    (h : (do
      let l ← avPush cap l s
      let l ← avPush cap l e
      let l ← sortUnwrap l
      let lo ← l.head?
      let hi ← l.getLast?
      pure (lo, hi)) = some b) : InBox s b ∧ InBox e b := by
  simp only [Option.bind_eq_bind, Option.bind_eq_some_iff, Option.pure_def,
    Option.some.injEq] at h
  obtain ⟨l1, h1, l2, h2, l3, h3, lo, h4, hi, h5, rfl⟩ := h
  rw [avPush_eq h1] at h2
  rw [avPush_eq h2] at h3
  obtain ⟨s1, s2, s3, s4⟩ := sortUnwrap_some h3
  have s3 := s3 (by simp)
  obtain ⟨_, _, hall⟩ := sorted_ends s4 (fun x hx => s3 x ((s2 x).1 hx)) h4 h5
  exact ⟨hall s ((s2 s).2 (by simp)), hall e ((s2 e).2 (by simp))⟩

/-- A loop that writes `body i` into slot `i` returns only if every `body i` does. -/
theorem forRange_fill_inv {α : Type} {n : ℕ} (init : Arr α n) (body : ℕ → Option α)
    {v : Arr α n} (h : forRange 0 n init (fun i b => do b.set? i (← body i)) = some v) (i : Fin n) :
    body i = some (v i) := by
  have key : ∀ (m : ℕ), m ≤ n → ∀ w : Arr α n,
      forRange 0 m init (fun i b => do b.set? i (← body i)) = some w →
      ∀ i : Fin n, (i : ℕ) < m → body i = some (w i) := by
    intro m
    induction m with
    | zero => intro _ _ _ i hi; omega
    | succ m ih =>
      intro hm w hw i hi
      rw [forRange_succ (Nat.zero_le m)] at hw
      simp only [Option.bind_eq_bind, Option.bind_eq_some_iff] at hw
      obtain ⟨w', hw', x, hx, hset⟩ := hw
      rw [Arr.set?_lt _ (by omega)] at hset
      simp only [Option.some.injEq] at hset
      subst hset
      by_cases him : (i : ℕ) = m
      · simp only [him, if_true]
        rw [← hx]
      · simp only [him, if_false]
        exact ih (by omega) w' hw' i (by omega)
  exact key n le_rfl v h i i.isLt

/-- **C64** `QuadraticBezier`: whatever the coordinates and the rounding, if `bounding_box`
returns, both end points are inside the box on every axis; in particular none of their
coordinates is NaN. -/
theorem C64_quadratic {q : QuadraticBezier (PointN (Fl F) n)} {box : Arr (Fl F × Fl F) n}
    (h : q.boundingBox = some box) (i : Fin n) :
    InBox (q.start.coords i) (box i) ∧ InBox (q.end_.coords i) (box i) := by
  unfold QuadraticBezier.boundingBox at h
  simp only [] at h
  have hl : (Point.iter (q.derivative.start * (lit (-1) : Fl F) + q.derivative.end_)).length
      = n := by
    show (PointN.iter _).length = n
    simp [PointN.iter, Arr.toList]
  rw [hl] at h
  have hi := forRange_fill_inv (n := n) _ _ h i
  unfold QuadraticBezier.axisBounds at hi
  rw [axis_pointN i.isLt, axis_pointN i.isLt, axis_pointN i.isLt, axis_pointN i.isLt] at hi
  simp only [Option.bind_eq_bind, Option.bind_some, Option.bind_eq_some_iff] at hi
  obtain ⟨r, hr, l, hl, m, hm, rest⟩ := hi
  refine tail_some (cap := 3) (l := m) ?_
  simp only [Option.bind_eq_bind, Option.bind_eq_some_iff]
  exact rest

/-- **C64** `CubicBezier`. -/
theorem C64_cubic {c : CubicBezier (PointN (Fl F) n)} {box : Arr (Fl F × Fl F) n}
    (h : c.boundingBox = some box) (i : Fin n) :
    InBox (c.start.coords i) (box i) ∧ InBox (c.end_.coords i) (box i) := by
  unfold CubicBezier.boundingBox at h
  simp only [] at h
  have hl : (Point.iter (c.derivative.start + c.derivative.ctrl * (lit (-2) : Fl F)
      + c.derivative.end_)).length = n := by
    show (PointN.iter _).length = n
    simp [PointN.iter, Arr.toList]
  rw [hl] at h
  have hi := forRange_fill_inv (n := n) _ _ h i
  unfold CubicBezier.axisBounds at hi
  rw [axis_pointN i.isLt, axis_pointN i.isLt, axis_pointN i.isLt, axis_pointN i.isLt,
    axis_pointN i.isLt] at hi
  simp only [Option.bind_eq_bind, Option.bind_some, Option.bind_eq_some_iff] at hi
  obtain ⟨r, hr, l, hl, m, hm, rest⟩ := hi
  refine tail_some (cap := 4) (l := m) ?_
  simp only [Option.bind_eq_bind, Option.bind_eq_some_iff]
  exact rest

/-- **C63**: a NaN coordinate in the start or end point of a quadratic makes `bounding_box`
panic. -/
theorem C63_box_quadratic_partial (q : QuadraticBezier (PointN (Fl F) n)) (i : Fin n)
    (h : q.start.coords i = nan ∨ q.end_.coords i = nan) : q.boundingBox = none := by
  cases hb : q.boundingBox with
  | none => rfl
  | some box =>
    obtain ⟨h1, h2⟩ := C64_quadratic hb i
    rcases h with h | h
    · exact absurd h (ne_nan_of_le h1.1).2
    · exact absurd h (ne_nan_of_le h2.1).2

/-- **C63**: a NaN coordinate in the start or end point of a cubic makes `bounding_box` panic. -/
theorem C63_box_cubic_partial (c : CubicBezier (PointN (Fl F) n)) (i : Fin n)
    (h : c.start.coords i = nan ∨ c.end_.coords i = nan) : c.boundingBox = none := by
  cases hb : c.boundingBox with
  | none => rfl
  | some box =>
    obtain ⟨h1, h2⟩ := C64_cubic hb i
    rcases h with h | h
    · exact absurd h (ne_nan_of_le h1.1).2
    · exact absurd h (ne_nan_of_le h2.1).2

theorem nan_add (x : Fl F) : nan + x = nan := rfl
theorem add_nan (x : Fl F) : x + nan = nan := by cases x <;> rfl
theorem sub_nan (x : Fl F) : x - nan = nan := by cases x <;> rfl
theorem nan_sub (x : Fl F) : nan - x = nan := rfl
theorem nan_mul (x : Fl F) : nan * x = nan := rfl
theorem mul_nan (x : Fl F) : x * nan = nan := by cases x <;> rfl
theorem div_nan (x : Fl F) : x / nan = nan := by cases x <;> rfl
theorem nan_div (x : Fl F) : nan / x = nan := rfl

/-- The smaller and the larger of two numbers. -/
noncomputable def minmax (s e : Fl F) : Fl F × Fl F := if Scalar.lt e s then (e, s) else (s, e)

/-- Sorting two numbers. -/
theorem sort_two {s e : Fl F} (hs : s ≠ nan) (he : e ≠ nan) :
    (do
      let l ← sortUnwrap [s, e]
      let lo ← l.head?
      let hi ← l.getLast?
      pure (lo, hi)) = some (minmax s e) := by
  unfold minmax
  simp only [sortUnwrap, insertSorted, partialCmp, Option.bind_eq_bind, Option.bind_some]
  by_cases c1 : Scalar.lt s e = true
  · have c3 : ¬ Scalar.lt e s = true := by
      intro c3
      obtain ⟨a, b, ha, hb, hab⟩ := lt_val.1 c1
      obtain ⟨b', a', hb', ha', hba⟩ := lt_val.1 c3
      rw [ha, Option.some.injEq] at ha'
      rw [hb, Option.some.injEq] at hb'
      subst ha' hb'
      exact lt_asymm hab hba
    simp [c1, c3]
  · by_cases c2 : Scalar.eq s e = true
    · have c3 : ¬ Scalar.lt e s = true := by
        rw [eq_iff] at c2
        rw [← c2.1] at c1 ⊢
        exact c1
      simp [c1, c2, c3]
    · have c3 : Scalar.lt e s = true := by
        rcases Fl.lt_or_le he hs with c | c
        · exact c
        · exfalso
          obtain ⟨a, b, ha, hb, hab⟩ := le_val.1 c
          rcases hab.lt_or_eq with hlt | heq
          · exact c1 (lt_val.2 ⟨a, b, ha, hb, hlt⟩)
          · apply c2
            show Fl.beq s e = true
            unfold Fl.beq
            rw [ha, hb]
            simp [heq]
      simp [c1, c2, c3]

/-- **C63** is false for the other control points: a quadratic whose middle control point is NaN
on every axis gets a box, the one of its end points, without a panic, although the curve is NaN
at every parameter in (0, 1). -/
theorem C63_false_quadratic (q : QuadraticBezier (PointN (Fl F) n))
    (hs : ∀ i, q.start.coords i ≠ nan) (hc : ∀ i, q.ctrl.coords i = nan)
    (he : ∀ i, q.end_.coords i ≠ nan) :
    q.boundingBox = some (fun i => minmax (q.start.coords i) (q.end_.coords i)) ∧
    ∀ t i, (q.eval t).coords i = nan := by
  constructor
  · unfold QuadraticBezier.boundingBox
    simp only []
    have hl : (Point.iter (q.derivative.start * (lit (-1) : Fl F) + q.derivative.end_)).length
        = n := by
      show (PointN.iter _).length = n
      simp [PointN.iter, Arr.toList]
    rw [hl]
    refine forRange_fill (n := n) _ _ _ fun i hi b => ?_
    unfold QuadraticBezier.axisBounds LineSegment.root
    rw [axis_pointN hi, axis_pointN hi, axis_pointN hi, axis_pointN hi]
    have ha : (q.derivative.start * (lit (-1) : Fl F) + q.derivative.end_).coords ⟨i, hi⟩ = nan := by
      simp only [QuadraticBezier.derivative, coords_add, coords_mul, coords_sub, hc, nan_sub,
        nan_mul, nan_add]
    rw [ha]
    simp only [Option.bind_eq_bind, Option.bind_some]
    have c1 : Scalar.lt (Scalar.abs (nan : Fl F)) Scalar.epsilon = false := rfl
    rw [c1]
    simp only [Bool.false_eq_true, if_false, div_nan]
    rw [show avPush 1 [] (nan : Fl F) = some [nan] from rfl]
    simp only [Option.bind_some]
    rw [show avExtend 3 [] [(nan : Fl F)] = some [nan] from rfl]
    simp only [Option.bind_some]
    rw [show (List.filter (fun root => Scalar.lt (lit 0) root && Scalar.lt root (lit 1))
      [(nan : Fl F)]) = [] from by simp]
    rw [show (List.mapM (fun t => Point.axis (q.evalCasteljau t) i) ([] : List (Fl F)))
      = some [] from rfl]
    simp only [Option.bind_some]
    rw [show avPush 3 [] (q.start.coords ⟨i, hi⟩) = some [q.start.coords ⟨i, hi⟩] from rfl]
    simp only [Option.bind_some]
    rw [show avPush 3 [q.start.coords ⟨i, hi⟩] (q.end_.coords ⟨i, hi⟩)
      = some [q.start.coords ⟨i, hi⟩, q.end_.coords ⟨i, hi⟩] from rfl]
    simp only [Option.bind_some]
    have := sort_two (hs ⟨i, hi⟩) (he ⟨i, hi⟩)
    simp only [Option.bind_eq_bind] at this
    rw [this]
    rfl
  · intro t i
    simp only [QuadraticBezier.eval, coords_add, coords_mul, hc, nan_mul, nan_add, add_nan]

/-- A curve as in `C63_false_quadratic` exists. -/
example : ∃ q : QuadraticBezier (PointN (Fl F) 2), (∀ i, q.start.coords i ≠ nan) ∧
    (∀ i, q.ctrl.coords i = nan) ∧ ∀ i, q.end_.coords i ≠ nan :=
  ⟨⟨PointN.new fun _ => inf false, PointN.new fun _ => nan, PointN.new fun _ => inf true⟩,
    fun _ => by simp [PointN.new], fun _ => rfl, fun _ => by simp [PointN.new]⟩

/-- **C63** is false for line segments: `LineSegment::bounding_box` never panics; with a NaN
start coordinate the box has a NaN bound. -/
theorem C63_false_line (l : LineSegment (PointN (Fl F) n)) :
    ∃ box, l.boundingBox = some box ∧
      ∀ i, l.start.coords i = nan → box i = (l.end_.coords i, nan) := by
  refine ⟨fun i => if Scalar.lt (l.start.coords i) (l.end_.coords i)
    then (l.start.coords i, l.end_.coords i) else (l.end_.coords i, l.start.coords i), ?_, ?_⟩
  · unfold LineSegment.boundingBox
    rw [show (Point.iter l.start).length = n from by
      show (PointN.iter _).length = n
      simp [PointN.iter, Arr.toList]]
    refine forRange_fill (n := n) _ _ _ fun i hi b => ?_
    rw [axis_pointN hi, axis_pointN hi]
    simp only [Option.bind_eq_bind, Option.bind_some]
    split_ifs <;> rfl
  · intro i hi
    simp [hi]

/-- **C64** `LineSegment`: without NaN the box is exact, whatever the rounding. -/
theorem C64_line (l : LineSegment (PointN (Fl F) n))
    (hs : ∀ i, l.start.coords i ≠ nan) (he : ∀ i, l.end_.coords i ≠ nan) :
    ∃ box, l.boundingBox = some box ∧ ∀ i,
      InBox (l.start.coords i) (box i) ∧ InBox (l.end_.coords i) (box i) ∧
      (box i = (l.start.coords i, l.end_.coords i) ∨
        box i = (l.end_.coords i, l.start.coords i)) := by
  refine ⟨fun i => if Scalar.lt (l.start.coords i) (l.end_.coords i)
    then (l.start.coords i, l.end_.coords i) else (l.end_.coords i, l.start.coords i), ?_, ?_⟩
  · unfold LineSegment.boundingBox
    rw [show (Point.iter l.start).length = n from by
      show (PointN.iter _).length = n
      simp [PointN.iter, Arr.toList]]
    refine forRange_fill (n := n) _ _ _ fun i hi b => ?_
    rw [axis_pointN hi, axis_pointN hi]
    simp only [Option.bind_eq_bind, Option.bind_some]
    split_ifs <;> rfl
  · intro i
    have r1 := Fl.le_refl (hs i)
    have r2 := Fl.le_refl (he i)
    by_cases c : Scalar.lt (l.start.coords i) (l.end_.coords i) = true
    · have := Fl.le_of_lt c
      simp only [c, if_true]
      exact ⟨⟨r1, this⟩, ⟨this, r2⟩, Or.inl trivial⟩
    · have := (Fl.lt_or_le (hs i) (he i)).resolve_left c
      simp only [c, Bool.false_eq_true, if_false]
      exact ⟨⟨this, r1⟩, ⟨r2, this⟩, Or.inr trivial⟩

/-! ### The boxes exist -/

/-- `x` is finite and of magnitude at most `B`. -/
def Bounded (B : ℝ) (x : Fl F) : Prop := x.IsFinite ∧ |x.toReal| ≤ B

/-- The format has room for `k` doublings of the bound `B`. -/
def Room (F : FloatFormat) (B : ℝ) (k : ℕ) : Prop :=
  ∀ j ≤ k, 2 ^ j * B ∈ F.grid ∧ 2 ^ j * B ≤ F.max

theorem Bounded.mono {B B' : ℝ} {x : Fl F} (h : Bounded B x) (hB : B ≤ B') : Bounded B' x :=
  ⟨h.1, h.2.trans hB⟩

theorem bounded_round {x B : ℝ} (hB : B ∈ F.grid ∧ B ≤ F.max) (h : |x| ≤ B) :
    Bounded B (F.round x) := by
  rw [F.round_of_le (h.trans hB.2)]
  exact ⟨trivial, F.abs_rnd_le hB.1 h⟩

/-- A float strictly between 0 and 1. -/
theorem inside_unit {t : Fl F} (h : (Scalar.lt (lit 0) t && Scalar.lt t (lit 1)) = true) :
    ∃ r hr, t = fin r hr ∧ 0 < r ∧ r < 1 := by
  rw [Bool.and_eq_true, lit_zero, lit_one] at h
  cases t with
  | nan => simp at h
  | inf s =>
    exfalso
    cases s
    · have := h.2
      change decide ((⊤ : EReal) < ((1 : ℝ) : EReal)) = true at this
      simp at this
    · have := h.1
      change decide (((0 : ℝ) : EReal) < (⊥ : EReal)) = true at this
      simp at this
  | fin r hr => exact ⟨r, hr, rfl, lt_fin.1 h.1, lt_fin.1 h.2⟩

theorem lerp_bounded {a b : Fl F} {r B : ℝ} {hr : r ∈ F.grid ∧ |r| ≤ F.max} (h0 : 0 < r)
    (h1 : r < 1) (hB : Room F B 2) (hB0 : 0 ≤ B) (ha : Bounded B a) (hb : Bounded B b) :
    Bounded (2 ^ 2 * B) (a + (b - a) * fin r hr) := by
  obtain ⟨fa, ba⟩ := ha
  obtain ⟨fb, bb⟩ := hb
  obtain ⟨x, hx, rfl⟩ := isFinite_iff.1 fa
  obtain ⟨y, hy, rfl⟩ := isFinite_iff.1 fb
  rw [toReal_fin] at ba bb
  rw [fin_sub]
  have d1 : |y - x| ≤ 2 ^ 1 * B := by
    rw [abs_le] at *
    constructor <;> linarith
  obtain ⟨f2, b2⟩ := bounded_round (hB 1 (by norm_num)) d1
  obtain ⟨z, hz, ez⟩ := isFinite_iff.1 f2
  rw [ez] at b2 ⊢
  rw [toReal_fin] at b2
  rw [fin_mul]
  have d2 : |z * r| ≤ 2 ^ 1 * B := by
    rw [abs_mul, abs_of_pos h0]
    calc |z| * r ≤ |z| * 1 := by gcongr
      _ ≤ _ := by rw [mul_one]; exact b2
  obtain ⟨f3, b3⟩ := bounded_round (hB 1 (by norm_num)) d2
  obtain ⟨w, hw, ew⟩ := isFinite_iff.1 f3
  rw [ew] at b3 ⊢
  rw [toReal_fin] at b3
  rw [fin_add]
  refine bounded_round (hB 2 (by norm_num)) ?_
  rw [abs_le] at *
  constructor <;> linarith

theorem Room.shift {B : ℝ} {k : ℕ} (h : Room F B (k + 2)) : Room F (2 ^ 2 * B) k := by
  intro j hj
  have := h (j + 2) (by omega)
  rwa [pow_add, mul_assoc] at this

theorem Room.le {B : ℝ} {k k' : ℕ} (h : Room F B k) (hk : k' ≤ k) : Room F B k' :=
  fun j hj => h j (hj.trans hk)

theorem ne_nan_of_finite {x : Fl F} (h : x.IsFinite) : x ≠ nan := by
  rintro rfl
  exact h

/-- The tail common to both loops succeeds when nothing is NaN. -/
theorem tail_total {cap : ℕ} {l : List (Fl F)} {s e : Fl F} (hl : l.length + 2 ≤ cap)
    (hs : s ≠ nan) (he : e ≠ nan) (hn : ∀ x ∈ l, x ≠ nan) :
    ∃ b, (do
      let l ← avPush cap l s
      let l ← avPush cap l e
      let l ← sortUnwrap l
      let lo ← l.head?
      let hi ← l.getLast?
      pure (lo, hi)) = some b := by
  unfold avPush
  rw [if_pos (by omega)]
  simp only [Option.bind_eq_bind, Option.bind_some]
  rw [if_pos (by simp; omega)]
  simp only [Option.bind_some]
  obtain ⟨l', hl'⟩ := sortUnwrap_total (l := l ++ [s] ++ [e]) (by
    intro x hx
    simp only [List.append_assoc, List.mem_append, List.mem_cons, List.not_mem_nil, or_false] at hx
    rcases hx with hx | rfl | rfl
    · exact hn x hx
    · exact hs
    · exact he)
  have hlen := (sortUnwrap_some hl').1
  rw [hl']
  cases l' with
  | nil => simp at hlen
  | cons a l' =>
    simp only [Option.bind_some, List.head?_cons]
    rw [List.getLast?_eq_some_getLast (by simp)]
    exact ⟨_, rfl⟩

theorem filter_mapM {p : Fl F → Bool} {g : Fl F → Option (Fl F)} (l : List (Fl F))
    (h : ∀ x ∈ l, p x = true → ∃ y, g x = some y ∧ y ≠ nan) :
    ∃ m, (l.filter p).mapM g = some m ∧ m.length ≤ l.length ∧ ∀ y ∈ m, y ≠ nan := by
  induction l with
  | nil => exact ⟨[], rfl, by simp, by simp⟩
  | cons x l ih =>
    obtain ⟨m, hm, hlen, hn⟩ := ih fun y hy => h y (by simp [hy])
    by_cases hp : p x = true
    · obtain ⟨y, hy, hyn⟩ := h x (by simp) hp
      rw [List.filter_cons_of_pos hp, List.mapM_cons, hy, hm]
      refine ⟨y :: m, rfl, by simp [hlen], ?_⟩
      intro z hz
      rcases List.mem_cons.1 hz with rfl | hz
      · exact hyn
      · exact hn z hz
    · rw [List.filter_cons_of_neg hp]
      exact ⟨m, hm, by simp; omega, hn⟩

theorem avExtend_le {α : Type} {cap : ℕ} (xs l : List α) (h : l.length + xs.length ≤ cap) :
    avExtend cap l xs = some (l ++ xs) := by
  unfold avExtend
  induction xs generalizing l with
  | nil => simp
  | cons x xs ih =>
    simp only [List.length_cons] at h
    rw [List.foldlM_cons]
    unfold avPush
    rw [if_pos (by omega)]
    simp only [Option.bind_eq_bind, Option.bind_some]
    have := ih (l ++ [x]) (by simp; omega)
    unfold avPush at this
    rw [this]
    simp

/-- **C64** `QuadraticBezier`: with finite coordinates not close to overflow, `bounding_box`
does not panic, whatever the rounding. -/
theorem C64_quadratic_total (q : QuadraticBezier (PointN (Fl F) n)) {B : ℝ} (hB0 : 0 ≤ B)
    (hB : Room F B 4) (hs : ∀ i, Bounded B (q.start.coords i))
    (hc : ∀ i, Bounded B (q.ctrl.coords i)) (he : ∀ i, Bounded B (q.end_.coords i)) :
    ∃ box, q.boundingBox = some box := by
  have key : ∀ i : Fin n, ∃ v, q.axisBounds q.derivative
      (q.derivative.start * (lit (-1) : Fl F) + q.derivative.end_) q.derivative.start i
      = some v := by
    intro i
    unfold QuadraticBezier.axisBounds
    rw [axis_pointN i.isLt, axis_pointN i.isLt, axis_pointN i.isLt, axis_pointN i.isLt]
    have hroot : ∀ a b : Fl F, ∃ l, q.derivative.root a b = some l ∧ l.length ≤ 1 := by
      intro a b
      unfold LineSegment.root
      split_ifs
      · exact ⟨[], rfl, by simp⟩
      · exact ⟨_, rfl, by simp⟩
    simp only [Option.bind_eq_bind, Option.bind_some]
    obtain ⟨l, hl, hlen⟩ := hroot ((q.derivative.start * (lit (-1) : Fl F)
      + q.derivative.end_).coords ⟨i, i.isLt⟩) (q.derivative.start.coords ⟨i, i.isLt⟩)
    rw [hl]
    simp only [Option.bind_some]
    rw [avExtend_le _ _ (by simp; omega)]
    simp only [Option.bind_some, List.nil_append]
    obtain ⟨m, hm, hmlen, hmn⟩ := filter_mapM
      (p := fun root => Scalar.lt (lit 0) root && Scalar.lt root (lit 1))
      (g := fun t => Point.axis (q.evalCasteljau t) i) l (by
        intro t _ ht
        obtain ⟨r, hr, rfl, h0, h1⟩ := inside_unit ht
        refine ⟨_, axis_pointN i.isLt, ?_⟩
        have l1 := lerp_bounded (hr := hr) h0 h1 (hB.le (by norm_num)) hB0 (hs i) (hc i)
        have l2 := lerp_bounded (hr := hr) h0 h1 (hB.le (by norm_num)) hB0 (hc i) (he i)
        have l3 := lerp_bounded (hr := hr) h0 h1 hB.shift (by linarith) l1 l2
        exact ne_nan_of_finite l3.1)
    rw [hm]
    simp only [Option.bind_some]
    have := tail_total (cap := 3) (l := m) (by omega) (ne_nan_of_finite (hs i).1)
      (ne_nan_of_finite (he i).1) hmn
    simp only [Option.bind_eq_bind] at this
    exact this
  choose v hv using key
  refine ⟨v, ?_⟩
  unfold QuadraticBezier.boundingBox
  simp only []
  rw [show (Point.iter (q.derivative.start * (lit (-1) : Fl F) + q.derivative.end_)).length = n by
    show (PointN.iter _).length = n
    simp [PointN.iter, Arr.toList]]
  refine forRange_fill (n := n) _ _ _ fun i hi b => ?_
  rw [hv ⟨i, hi⟩]
  rfl

theorem realRoots_length {S P : Type} [Scalar S] [Point S P] (q : QuadraticBezier P) (a b c : S) :
    ∃ l, q.realRoots a b c = some l ∧ l.length ≤ 2 := by
  unfold QuadraticBezier.realRoots
  simp only [avPush]
  split_ifs <;> first | exact ⟨_, rfl, by simp⟩ | simp_all

/-- **C64** `CubicBezier`: with finite coordinates not close to overflow, `bounding_box` does
not panic, whatever the rounding. -/
theorem C64_cubic_total (c : CubicBezier (PointN (Fl F) n)) {B : ℝ} (hB0 : 0 ≤ B)
    (hB : Room F B 6) (hs : ∀ i, Bounded B (c.start.coords i))
    (hc1 : ∀ i, Bounded B (c.ctrl1.coords i)) (hc2 : ∀ i, Bounded B (c.ctrl2.coords i))
    (he : ∀ i, Bounded B (c.end_.coords i)) :
    ∃ box, c.boundingBox = some box := by
  have key : ∀ i : Fin n, ∃ v, c.axisBounds c.derivative
      (c.derivative.start + c.derivative.ctrl * (lit (-2) : Fl F) + c.derivative.end_)
      (c.derivative.start * (lit (-2) : Fl F) + c.derivative.ctrl * (lit 2 : Fl F))
      c.derivative.start i = some v := by
    intro i
    unfold CubicBezier.axisBounds
    rw [axis_pointN i.isLt, axis_pointN i.isLt, axis_pointN i.isLt, axis_pointN i.isLt,
      axis_pointN i.isLt]
    simp only [Option.bind_eq_bind, Option.bind_some]
    obtain ⟨l, hl, hlen⟩ := realRoots_length c.derivative
      ((c.derivative.start + c.derivative.ctrl * (lit (-2) : Fl F)
        + c.derivative.end_).coords ⟨i, i.isLt⟩)
      ((c.derivative.start * (lit (-2) : Fl F)
        + c.derivative.ctrl * (lit 2 : Fl F)).coords ⟨i, i.isLt⟩)
      (c.derivative.start.coords ⟨i, i.isLt⟩)
    rw [hl]
    simp only [Option.bind_some]
    rw [avExtend_le _ _ (by simp; omega)]
    simp only [Option.bind_some, List.nil_append]
    obtain ⟨m, hm, hmlen, hmn⟩ := filter_mapM
      (p := fun root => Scalar.lt (lit 0) root && Scalar.lt root (lit 1))
      (g := fun t => Point.axis (c.evalCasteljau t) i) l (by
        intro t _ ht
        obtain ⟨r, hr, rfl, h0, h1⟩ := inside_unit ht
        refine ⟨_, axis_pointN i.isLt, ?_⟩
        have l1 := lerp_bounded (hr := hr) h0 h1 (hB.le (by norm_num)) hB0 (hs i) (hc1 i)
        have l2 := lerp_bounded (hr := hr) h0 h1 (hB.le (by norm_num)) hB0 (hc1 i) (hc2 i)
        have l3 := lerp_bounded (hr := hr) h0 h1 (hB.le (by norm_num)) hB0 (hc2 i) (he i)
        have hB4 := hB.shift
        have l4 := lerp_bounded (hr := hr) h0 h1 (hB4.le (by norm_num)) (by linarith) l1 l2
        have l5 := lerp_bounded (hr := hr) h0 h1 (hB4.le (by norm_num)) (by linarith) l2 l3
        have l6 := lerp_bounded (hr := hr) h0 h1 hB4.shift (by linarith) l4 l5
        exact ne_nan_of_finite l6.1)
    rw [hm]
    simp only [Option.bind_some]
    have := tail_total (cap := 4) (l := m) (by omega) (ne_nan_of_finite (hs i).1)
      (ne_nan_of_finite (he i).1) hmn
    simp only [Option.bind_eq_bind] at this
    exact this
  choose v hv using key
  refine ⟨v, ?_⟩
  unfold CubicBezier.boundingBox
  simp only []
  rw [show (Point.iter (c.derivative.start + c.derivative.ctrl * (lit (-2) : Fl F)
      + c.derivative.end_)).length = n by
    show (PointN.iter _).length = n
    simp [PointN.iter, Arr.toList]]
  refine forRange_fill (n := n) _ _ _ fun i hi b => ?_
  rw [hv ⟨i, hi⟩]
  rfl

/-- The hypotheses hold in every format for integer coordinates up to 16. -/
example : Room F 16 6 ∧ Bounded 16 (lit ((-7 : ℤ) : ℚ) : Fl F) := by
  constructor
  · intro j hj
    have h : (2 : ℤ) ^ j * 16 ≤ 1024 := by
      calc (2 : ℤ) ^ j * 16 ≤ 2 ^ 6 * 16 := by gcongr; norm_num
        _ = 1024 := by norm_num
    have := F.int_ok (2 ^ j * 16) (by rw [abs_of_pos (by positivity)]; exact h)
    push_cast at this
    exact ⟨this.1, (le_abs_self _).trans this.2⟩
  · rw [lit_int _ (by norm_num)]
    refine ⟨trivial, ?_⟩
    rw [toReal_fin]
    norm_num

end Stroke
