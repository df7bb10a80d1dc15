import Verif.Props.Quadratic
import Verif.Props.Cubic

set_option linter.unusedSectionVars false

/-!
# Recursive subdivision (C66)

The programs of this file are what a user of the crate writes to flatten a curve: split at 1/2,
recursively, either to a fixed depth or until `is_linear(tol)` or `is_a_point(tol)` holds.
-/

namespace Stroke

/-! ### The user's programs -/

section Client
variable {Q : Type}

/-- Split `n` times, recursively. -/
def pieces (split : Q → Q × Q) : ℕ → Q → List Q
  | 0, q => [q]
  | n + 1, q => pieces split n (split q).1 ++ pieces split n (split q).2

/-- Split until `stop` holds, at most `n` times. -/
def adaptive (split : Q → Q × Q) (stop : Q → Bool) : ℕ → Q → List Q
  | 0, q => [q]
  | n + 1, q =>
    if stop q then [q]
    else adaptive split stop n (split q).1 ++ adaptive split stop n (split q).2

/-- `|q| q.split(0.5)`. -/
noncomputable def QuadraticBezier.halve {P : Type} [Point ℝ P] (q : QuadraticBezier P) :
    QuadraticBezier P × QuadraticBezier P := q.split (1 / 2 : ℝ)

/-- `|q| q.is_linear(tol) || q.is_a_point(tol)`. -/
noncomputable def QuadraticBezier.flat {P : Type} [Point ℝ P] (tol : ℝ) (q : QuadraticBezier P) :
    Bool := (q.isLinear tol == some true) || q.isAPoint tol

/-- `|c| c.split(0.5)`. -/
noncomputable def CubicBezier.halve {P : Type} [Point ℝ P] (c : CubicBezier P) :
    CubicBezier P × CubicBezier P := c.split (1 / 2 : ℝ)

/-- `|c| c.is_linear(tol) || c.is_a_point(tol)`. -/
noncomputable def CubicBezier.flat {P : Type} [Point ℝ P] (tol : ℝ) (c : CubicBezier P) :
    Bool := (c.isLinear tol == some true) || c.isAPoint tol

end Client

/-! ### General facts about them -/

section General
variable {Q X : Type} {split : Q → Q × Q} {eval : Q → ℝ → X}

theorem pieces_length (n : ℕ) (q : Q) : (pieces split n q).length = 2 ^ n := by
  induction n generalizing q with
  | zero => rfl
  | succ n ih => rw [pieces, List.length_append, ih, ih, pow_succ]; ring

theorem pieces_eval (h1 : ∀ q s, eval (split q).1 s = eval q (s / 2))
    (h2 : ∀ q s, eval (split q).2 s = eval q ((1 + s) / 2)) (n : ℕ) :
    ∀ (q : Q) (k : ℕ) (hk : k < (pieces split n q).length) (s : ℝ),
      eval ((pieces split n q)[k]) s = eval q ((k + s) / 2 ^ n) := by
  induction n with
  | zero =>
    intro q k hk s
    have : k = 0 := by rw [pieces_length] at hk; omega
    subst this
    simp [pieces]
  | succ n ih =>
    intro q k hk s
    have hlen := pieces_length (split := split) n (split q).1
    by_cases hlt : k < 2 ^ n
    · have : (pieces split (n + 1) q)[k] = (pieces split n (split q).1)[k]'(by omega) := by
        simp only [pieces]
        rw [List.getElem_append_left]
      rw [this, ih, h1]
      congr 1
      rw [pow_succ]; field_simp
    · have hk' : k - 2 ^ n < (pieces split n (split q).2).length := by
        rw [pieces_length] at hk ⊢
        rw [pow_succ] at hk
        omega
      have : (pieces split (n + 1) q)[k] = (pieces split n (split q).2)[k - 2 ^ n] := by
        simp only [pieces]
        rw [List.getElem_append_right (by omega)]
        simp only [hlen]
      rw [this, ih, h2]
      congr 1
      rw [Nat.cast_sub (by omega), pow_succ]
      push_cast
      field_simp
      ring

theorem pieces_size {size : Q → ℝ}
    (hs : ∀ q, size (split q).1 ≤ size q / 2 ∧ size (split q).2 ≤ size q / 2) (n : ℕ) :
    ∀ (q : Q), ∀ p ∈ pieces split n q, size p ≤ size q / 2 ^ n := by
  induction n with
  | zero => intro q p hp; simp [pieces] at hp; simp [hp]
  | succ n ih =>
    intro q p hp
    rw [pieces, List.mem_append] at hp
    rcases hp with hp | hp
    · refine (ih _ p hp).trans ?_
      rw [pow_succ, mul_comm, ← div_div]
      exact div_le_div_of_nonneg_right (hs q).1 (by positivity)
    · refine (ih _ p hp).trans ?_
      rw [pow_succ, mul_comm, ← div_div]
      exact div_le_div_of_nonneg_right (hs q).2 (by positivity)

/-- If all pieces of depth `n` are accepted, the adaptive program ends with accepted pieces. -/
theorem adaptive_stops {stop : Q → Bool} (n : ℕ) : ∀ q : Q,
    (∀ p ∈ pieces split n q, stop p = true) → ∀ p ∈ adaptive split stop n q, stop p = true := by
  induction n with
  | zero => intro q h p hp; exact h p hp
  | succ n ih =>
    intro q h p hp
    rw [adaptive] at hp
    split_ifs at hp with hs
    · simp only [List.mem_singleton] at hp
      rw [hp]; exact hs
    · rw [List.mem_append] at hp
      rcases hp with hp | hp
      · exact ih _ (fun p hp => h p (by rw [pieces, List.mem_append]; exact Or.inl hp)) p hp
      · exact ih _ (fun p hp => h p (by rw [pieces, List.mem_append]; exact Or.inr hp)) p hp

/-- Every point of the curve is a point of one of the pieces. -/
theorem adaptive_covers {stop : Q → Bool} (h1 : ∀ q s, eval (split q).1 s = eval q (s / 2))
    (h2 : ∀ q s, eval (split q).2 s = eval q ((1 + s) / 2)) (n : ℕ) : ∀ (q : Q) (t : ℝ),
    0 ≤ t → t ≤ 1 → ∃ p ∈ adaptive split stop n q, ∃ s, 0 ≤ s ∧ s ≤ 1 ∧ eval q t = eval p s := by
  induction n with
  | zero => intro q t h0 h1; exact ⟨q, by simp [adaptive], t, h0, h1, rfl⟩
  | succ n ih =>
    intro q t h0 ht
    rw [adaptive]
    split_ifs with hs
    · exact ⟨q, by simp, t, h0, ht, rfl⟩
    · rcases le_total t (1 / 2) with hle | hle
      · obtain ⟨p, hp, s, hs0, hs1, e⟩ := ih (split q).1 (2 * t) (by linarith) (by linarith)
        refine ⟨p, List.mem_append.2 (Or.inl hp), s, hs0, hs1, ?_⟩
        rw [← e, h1]; congr 1; ring
      · obtain ⟨p, hp, s, hs0, hs1, e⟩ := ih (split q).2 (2 * t - 1) (by linarith) (by linarith)
        refine ⟨p, List.mem_append.2 (Or.inr hp), s, hs0, hs1, ?_⟩
        rw [← e, h2]; congr 1; ring

/-- Every piece is a part of the curve. -/
theorem adaptive_part {stop : Q → Bool} (h1 : ∀ q s, eval (split q).1 s = eval q (s / 2))
    (h2 : ∀ q s, eval (split q).2 s = eval q ((1 + s) / 2)) (n : ℕ) : ∀ q : Q,
    ∀ p ∈ adaptive split stop n q, ∃ a b : ℝ, 0 ≤ a ∧ a < b ∧ b ≤ 1 ∧
      ∀ s, eval p s = eval q (a + (b - a) * s) := by
  induction n with
  | zero =>
    intro q p hp
    simp only [adaptive, List.mem_singleton] at hp
    subst hp
    exact ⟨0, 1, le_rfl, one_pos, le_rfl, fun s => by congr 1; ring⟩
  | succ n ih =>
    intro q p hp
    rw [adaptive] at hp
    split_ifs at hp with hs
    · simp only [List.mem_singleton] at hp
      subst hp
      exact ⟨0, 1, le_rfl, one_pos, le_rfl, fun s => by congr 1; ring⟩
    · rw [List.mem_append] at hp
      rcases hp with hp | hp
      · obtain ⟨a, b, ha, hab, hb, e⟩ := ih _ p hp
        refine ⟨a / 2, b / 2, by linarith, by linarith, by linarith, fun s => ?_⟩
        rw [e, h1]; congr 1; ring
      · obtain ⟨a, b, ha, hab, hb, e⟩ := ih _ p hp
        refine ⟨(1 + a) / 2, (1 + b) / 2, by linarith, by linarith, by linarith, fun s => ?_⟩
        rw [e, h2]; congr 1; ring

/-- The pieces, in order, lead from the start to the end of the curve without gaps. -/
theorem adaptive_chain {stop : Q → Bool} {start end_ : Q → X}
    (h1 : ∀ q, start (split q).1 = start q) (h2 : ∀ q, end_ (split q).2 = end_ q)
    (h3 : ∀ q, end_ (split q).1 = start (split q).2) (n : ℕ) : ∀ q : Q,
    (adaptive split stop n q).IsChain (fun a b => end_ a = start b) ∧
      (adaptive split stop n q).head?.map start = some (start q) ∧
      (adaptive split stop n q).getLast?.map end_ = some (end_ q) := by
  induction n with
  | zero => intro q; simp [adaptive]
  | succ n ih =>
    intro q
    rw [adaptive]
    split_ifs with hs
    · simp
    · obtain ⟨a1, a2, a3⟩ := ih (split q).1
      obtain ⟨b1, b2, b3⟩ := ih (split q).2
      refine ⟨?_, ?_, ?_⟩
      · rw [List.isChain_append]
        refine ⟨a1, b1, fun x hx y hy => ?_⟩
        have hx : _ = some x := hx
        have hy : _ = some y := hy
        rw [hx] at a3
        rw [hy] at b2
        simp only [Option.map_some, Option.some.injEq] at a3 b2
        rw [a3, b2, h3]
      · rw [List.head?_append]
        cases hh : (adaptive split stop n (split q).1).head? with
        | none => rw [hh] at a2; simp at a2
        | some x => rw [hh] at a2; simpa [h1] using a2
      · rw [List.getLast?_append]
        cases hh : (adaptive split stop n (split q).2).getLast? with
        | none => rw [hh] at b3; simp at b3
        | some x => rw [hh] at b3; simpa [h2] using b3

end General

variable {P : Type} [Point ℝ P] [LawfulPoint P]

/-! ### Quadratic curves -/

/-- The longest leg of the control polygon. -/
noncomputable def QuadraticBezier.leg (q : QuadraticBezier P) : ℝ :=
  max (pdist q.start q.ctrl) (pdist q.ctrl q.end_)

theorem QuadraticBezier.halve_eval (q : QuadraticBezier P) (s : ℝ) :
    q.halve.1.eval s = q.eval (s / 2) ∧ q.halve.2.eval s = q.eval ((1 + s) / 2) := by
  obtain ⟨h1, h2⟩ := C11_split q (1 / 2) s
  unfold QuadraticBezier.halve
  rw [h1, h2]
  constructor <;> congr 1 <;> ring

theorem norm_half {E : Type*} [NormedAddCommGroup E] [NormedSpace ℝ E] {u : E} {M : ℝ}
    (h : ‖u‖ ≤ M) : ‖(1 / 2 : ℝ) • u‖ ≤ M / 2 := by
  rw [norm_smul]; norm_num; linarith

theorem norm_quarter {E : Type*} [NormedAddCommGroup E] [NormedSpace ℝ E] {u v : E} {M : ℝ}
    (h : ‖u‖ ≤ M) (h' : ‖v‖ ≤ M) : ‖(1 / 4 : ℝ) • (u + v)‖ ≤ M / 2 := by
  rw [norm_smul]
  have := norm_add_le u v
  norm_num
  linarith

theorem pdist_le_of {a b : P} {u : EuclideanSpace ℝ (Fin (Point.dim P))} {M : ℝ}
    (h : ‖u‖ ≤ M) (e : toE a - toE b = u) : pdist a b ≤ M := by
  rw [pdist_eq_norm, e]; exact h

theorem QuadraticBezier.halve_leg (q : QuadraticBezier P) :
    q.halve.1.leg ≤ q.leg / 2 ∧ q.halve.2.leg ≤ q.leg / 2 := by
  have h1 : ‖toE q.start - toE q.ctrl‖ ≤ q.leg := by
    rw [← pdist_eq_norm]; exact le_max_left _ _
  have h2 : ‖toE q.ctrl - toE q.end_‖ ≤ q.leg := by
    rw [← pdist_eq_norm]; exact le_max_right _ _
  constructor
  · refine max_le ?_ ?_
    · refine pdist_le_of (norm_half h1) ?_
      simp only [halve, split, toE_add, toE_mul, toE_sub]; module
    · refine pdist_le_of (norm_quarter h1 h2) ?_
      simp only [halve, split, toE_add, toE_mul, toE_sub]; module
  · refine max_le ?_ ?_
    · refine pdist_le_of (norm_quarter h1 h2) ?_
      simp only [halve, split, toE_add, toE_mul, toE_sub]; module
    · refine pdist_le_of (norm_half h2) ?_
      simp only [halve, split, toE_add, toE_mul, toE_sub]; module

theorem QuadraticBezier.isAPoint_of_leg (q : QuadraticBezier P) {tol : ℝ} (h : 2 * q.leg ≤ tol) :
    q.isAPoint tol = true := by
  have h1 : pdist q.start q.ctrl ≤ q.leg := le_max_left _ _
  have h2 : pdist q.ctrl q.end_ ≤ q.leg := le_max_right _ _
  have h3 := pdist_triangle q.start q.ctrl q.end_
  have p1 := pdist_nonneg q.start q.ctrl
  have p2 := pdist_nonneg q.start q.end_
  unfold QuadraticBezier.isAPoint
  rw [squaredLength_sub, squaredLength_sub]
  simp only [le_real, Bool.and_eq_true, decide_eq_true_eq]
  constructor <;> nlinarith

/-- **C66**, quadratic curves: `n` rounds of halving give `2^n` pieces; piece `k` is the curve
between `k/2^n` and `(k+1)/2^n`. -/
theorem C66_tiles_quadratic (q : QuadraticBezier P) (n : ℕ) :
    (pieces QuadraticBezier.halve n q).length = 2 ^ n ∧
    ∀ (k : ℕ) (hk : k < (pieces QuadraticBezier.halve n q).length) (s : ℝ),
      ((pieces QuadraticBezier.halve n q)[k]).eval s = q.eval ((k + s) / 2 ^ n) :=
  ⟨pieces_length n q, pieces_eval (eval := fun q s => q.eval s) (fun q s => (q.halve_eval s).1)
    (fun q s => (q.halve_eval s).2) n q⟩

/-- **C66**, quadratic curves: the depth after which every piece passes `is_a_point(tol)`: the
legs of the control polygon halve in every round. -/
theorem C66_small_quadratic (q : QuadraticBezier P) (n : ℕ) (tol : ℝ)
    (hn : 2 * max (pdist q.start q.ctrl) (pdist q.ctrl q.end_) ≤ tol * 2 ^ n) :
    ∀ p ∈ pieces QuadraticBezier.halve n q, p.isAPoint tol = true := by
  intro p hp
  apply p.isAPoint_of_leg
  have := pieces_size (size := QuadraticBezier.leg) (fun q => q.halve_leg) n q p hp
  have hpos : (0 : ℝ) < 2 ^ n := by positivity
  rw [le_div_iff₀ hpos] at this
  have e : 2 * q.leg ≤ tol * 2 ^ n := hn
  nlinarith

/-- **C66**, quadratic curves: flattening with `split(0.5)` until `is_linear(tol)` or
`is_a_point(tol)` stops, at the latest at a depth `n` with `2 * leg ≤ tol * 2^n`; the baselines
of the resulting pieces form a connected polyline from start to end, their ends lie on the curve,
and every point of the curve is within `tol` of the baseline of some piece. -/
theorem C66_flatten_quadratic (q : QuadraticBezier P) (tol : ℝ) (n : ℕ) (htol : 0 ≤ tol)
    (hn : 2 * max (pdist q.start q.ctrl) (pdist q.ctrl q.end_) ≤ tol * 2 ^ n) :
    let leaves := adaptive QuadraticBezier.halve (QuadraticBezier.flat tol) n q
    (∀ p ∈ leaves, p.isLinear tol = some true ∨ p.isAPoint tol = true) ∧
    leaves.IsChain (fun a b => a.baseline.end_ = b.baseline.start) ∧
    leaves.head?.map (fun p => p.baseline.start) = some q.start ∧
    leaves.getLast?.map (fun p => p.baseline.end_) = some q.end_ ∧
    (∀ p ∈ leaves, ∃ a b : ℝ, 0 ≤ a ∧ a < b ∧ b ≤ 1 ∧ p.baseline.start = q.eval a ∧
      p.baseline.end_ = q.eval b) ∧
    ∀ t, 0 ≤ t → t ≤ 1 → ∃ p ∈ leaves,
      NearSegment p.baseline.start p.baseline.end_ (q.eval t) tol := by
  intro leaves
  have hstop : ∀ p ∈ leaves, p.isLinear tol = some true ∨ p.isAPoint tol = true := by
    intro p hp
    have := adaptive_stops (stop := QuadraticBezier.flat tol) n q (fun p hp => by
      rw [QuadraticBezier.flat, C66_small_quadratic q n tol hn p hp, Bool.or_true]) p hp
    simpa [QuadraticBezier.flat] using this
  obtain ⟨c1, c2, c3⟩ := adaptive_chain (stop := QuadraticBezier.flat tol)
    (split := QuadraticBezier.halve (P := P))
    (start := fun p => p.baseline.start) (end_ := fun p => p.baseline.end_)
    (fun _ => rfl) (fun _ => rfl) (fun _ => rfl) n q
  refine ⟨hstop, c1, c2, c3, fun p hp => ?_, fun t h0 h1 => ?_⟩
  · obtain ⟨a, b, ha, hab, hb, e⟩ := adaptive_part (eval := fun q s => q.eval s)
      (stop := QuadraticBezier.flat tol) (fun q s => (q.halve_eval s).1)
      (fun q s => (q.halve_eval s).2) n q p hp
    refine ⟨a, b, ha, hab, hb, ?_, ?_⟩
    · have := e 0
      simp only [mul_zero, add_zero] at this
      rw [← this, (C10_endpoints p).1]; rfl
    · have := e 1
      simp only [mul_one, add_sub_cancel] at this
      rw [← this, (C10_endpoints p).2]; rfl
  · obtain ⟨p, hp, s, hs0, hs1, e⟩ := adaptive_covers (eval := fun q s => q.eval s)
      (stop := QuadraticBezier.flat tol) (fun q s => (q.halve_eval s).1)
      (fun q s => (q.halve_eval s).2) n q t h0 h1
    refine ⟨p, hp, ?_⟩
    replace e : _ = p.eval s := e
    rw [e]
    rcases hstop p hp with hl | hl
    · exact C17_is_linear_sound p tol hl s hs0 hs1
    · have := C19_is_a_point p tol hl s hs0 hs1
      rw [abs_of_nonneg htol] at this
      refine ⟨pdist p.start (p.eval s), ?_, by rw [pdist_comm]; exact this⟩
      rw [segmentDistances_eq]
      exact ⟨0, le_rfl, zero_le_one, by rw [pdist_eq_norm]; simp [QuadraticBezier.baseline]⟩

/-! ### Cubic curves -/

/-- The longest leg of the control polygon. -/
noncomputable def CubicBezier.leg (c : CubicBezier P) : ℝ :=
  max (pdist c.start c.ctrl1) (max (pdist c.ctrl1 c.ctrl2) (pdist c.ctrl2 c.end_))

theorem CubicBezier.halve_eval (c : CubicBezier P) (s : ℝ) :
    c.halve.1.eval s = c.eval (s / 2) ∧ c.halve.2.eval s = c.eval ((1 + s) / 2) := by
  obtain ⟨h1, h2⟩ := C21_split c (1 / 2) s
  unfold CubicBezier.halve
  rw [h1, h2]
  constructor <;> congr 1 <;> ring

theorem norm_eighth {E : Type*} [NormedAddCommGroup E] [NormedSpace ℝ E] {u v w : E} {M : ℝ}
    (h : ‖u‖ ≤ M) (h' : ‖v‖ ≤ M) (h'' : ‖w‖ ≤ M) :
    ‖(1 / 8 : ℝ) • (u + (2 : ℝ) • v + w)‖ ≤ M / 2 := by
  rw [norm_smul]
  have h1 := norm_add_le (u + (2 : ℝ) • v) w
  have h2 := norm_add_le u ((2 : ℝ) • v)
  have h3 : ‖(2 : ℝ) • v‖ = 2 * ‖v‖ := by rw [norm_smul]; norm_num
  norm_num
  linarith

theorem CubicBezier.halve_leg (c : CubicBezier P) :
    c.halve.1.leg ≤ c.leg / 2 ∧ c.halve.2.leg ≤ c.leg / 2 := by
  have h1 : ‖toE c.start - toE c.ctrl1‖ ≤ c.leg := by
    rw [← pdist_eq_norm]; exact le_max_left _ _
  have h2 : ‖toE c.ctrl1 - toE c.ctrl2‖ ≤ c.leg := by
    rw [← pdist_eq_norm]; exact (le_max_left _ _).trans (le_max_right _ _)
  have h3 : ‖toE c.ctrl2 - toE c.end_‖ ≤ c.leg := by
    rw [← pdist_eq_norm]; exact (le_max_right _ _).trans (le_max_right _ _)
  constructor
  · refine max_le ?_ (max_le ?_ ?_)
    · refine pdist_le_of (norm_half h1) ?_
      simp only [halve, split, toE_add, toE_mul, toE_sub]; module
    · refine pdist_le_of (norm_quarter h1 h2) ?_
      simp only [halve, split, toE_add, toE_mul, toE_sub]; module
    · refine pdist_le_of (norm_eighth h1 h2 h3) ?_
      simp only [halve, split, toE_add, toE_mul, toE_sub]; module
  · refine max_le ?_ (max_le ?_ ?_)
    · refine pdist_le_of (norm_eighth h1 h2 h3) ?_
      simp only [halve, split, toE_add, toE_mul, toE_sub]; module
    · refine pdist_le_of (norm_quarter h2 h3) ?_
      simp only [halve, split, toE_add, toE_mul, toE_sub]; module
    · refine pdist_le_of (norm_half h3) ?_
      simp only [halve, split, toE_add, toE_mul, toE_sub]; module

theorem CubicBezier.isAPoint_of_leg (c : CubicBezier P) {tol : ℝ} (h : 3 * c.leg ≤ tol) :
    c.isAPoint tol = true := by
  have h1 : pdist c.start c.ctrl1 ≤ c.leg := le_max_left _ _
  have h2 : pdist c.ctrl1 c.ctrl2 ≤ c.leg := (le_max_left _ _).trans (le_max_right _ _)
  have h3 : pdist c.ctrl2 c.end_ ≤ c.leg := (le_max_right _ _).trans (le_max_right _ _)
  have t1 := pdist_triangle c.start c.ctrl1 c.end_
  have t2 := pdist_triangle c.ctrl1 c.ctrl2 c.end_
  have p1 := pdist_nonneg c.start c.ctrl1
  have p2 := pdist_nonneg c.start c.end_
  have p3 := pdist_nonneg c.ctrl2 c.end_
  unfold CubicBezier.isAPoint
  rw [squaredLength_sub, squaredLength_sub, squaredLength_sub]
  simp only [le_real, Bool.and_eq_true, decide_eq_true_eq]
  refine ⟨⟨?_, ?_⟩, ?_⟩
  · nlinarith
  · nlinarith
  · rw [pdist_comm c.end_]; nlinarith

/-- **C66**, cubic curves: `n` rounds of halving give `2^n` pieces; piece `k` is the curve
between `k/2^n` and `(k+1)/2^n`. -/
theorem C66_tiles_cubic (c : CubicBezier P) (n : ℕ) :
    (pieces CubicBezier.halve n c).length = 2 ^ n ∧
    ∀ (k : ℕ) (hk : k < (pieces CubicBezier.halve n c).length) (s : ℝ),
      ((pieces CubicBezier.halve n c)[k]).eval s = c.eval ((k + s) / 2 ^ n) :=
  ⟨pieces_length n c, pieces_eval (eval := fun c s => c.eval s) (fun c s => (c.halve_eval s).1)
    (fun c s => (c.halve_eval s).2) n c⟩

/-- **C66**, cubic curves: the depth after which every piece passes `is_a_point(tol)`. -/
theorem C66_small_cubic (c : CubicBezier P) (n : ℕ) (tol : ℝ)
    (hn : 3 * max (pdist c.start c.ctrl1) (max (pdist c.ctrl1 c.ctrl2) (pdist c.ctrl2 c.end_))
      ≤ tol * 2 ^ n) :
    ∀ p ∈ pieces CubicBezier.halve n c, p.isAPoint tol = true := by
  intro p hp
  apply p.isAPoint_of_leg
  have := pieces_size (size := CubicBezier.leg) (fun c => c.halve_leg) n c p hp
  have hpos : (0 : ℝ) < 2 ^ n := by positivity
  rw [le_div_iff₀ hpos] at this
  have e : 3 * c.leg ≤ tol * 2 ^ n := hn
  nlinarith

/-- **C66**, cubic curves: flattening with `split(0.5)` until `is_linear(tol)` or
`is_a_point(tol)` stops, at the latest at a depth `n` with `3 * leg ≤ tol * 2^n`; the baselines
of the resulting pieces form a connected polyline from start to end, their ends lie on the curve,
and every point of the curve is within `√2 * tol` of the baseline of some piece. -/
theorem C66_flatten_cubic (c : CubicBezier P) (tol : ℝ) (n : ℕ) (htol : 0 ≤ tol)
    (hn : 3 * max (pdist c.start c.ctrl1) (max (pdist c.ctrl1 c.ctrl2) (pdist c.ctrl2 c.end_))
      ≤ tol * 2 ^ n) :
    let leaves := adaptive CubicBezier.halve (CubicBezier.flat tol) n c
    (∀ p ∈ leaves, p.isLinear tol = some true ∨ p.isAPoint tol = true) ∧
    leaves.IsChain (fun a b => a.baseline.end_ = b.baseline.start) ∧
    leaves.head?.map (fun p => p.baseline.start) = some c.start ∧
    leaves.getLast?.map (fun p => p.baseline.end_) = some c.end_ ∧
    (∀ p ∈ leaves, ∃ a b : ℝ, 0 ≤ a ∧ a < b ∧ b ≤ 1 ∧ p.baseline.start = c.eval a ∧
      p.baseline.end_ = c.eval b) ∧
    ∀ t, 0 ≤ t → t ≤ 1 → ∃ p ∈ leaves,
      NearSegment p.baseline.start p.baseline.end_ (c.eval t) (Real.sqrt 2 * tol) := by
  intro leaves
  have hstop : ∀ p ∈ leaves, p.isLinear tol = some true ∨ p.isAPoint tol = true := by
    intro p hp
    have := adaptive_stops (stop := CubicBezier.flat tol) n c (fun p hp => by
      rw [CubicBezier.flat, C66_small_cubic c n tol hn p hp, Bool.or_true]) p hp
    simpa [CubicBezier.flat] using this
  obtain ⟨c1, c2, c3⟩ := adaptive_chain (stop := CubicBezier.flat tol)
    (split := CubicBezier.halve (P := P))
    (start := fun p => p.baseline.start) (end_ := fun p => p.baseline.end_)
    (fun _ => rfl) (fun _ => rfl) (fun _ => rfl) n c
  refine ⟨hstop, c1, c2, c3, fun p hp => ?_, fun t h0 h1 => ?_⟩
  · obtain ⟨a, b, ha, hab, hb, e⟩ := adaptive_part (eval := fun c s => c.eval s)
      (stop := CubicBezier.flat tol) (fun c s => (c.halve_eval s).1)
      (fun c s => (c.halve_eval s).2) n c p hp
    refine ⟨a, b, ha, hab, hb, ?_, ?_⟩
    · have := e 0
      simp only [mul_zero, add_zero] at this
      rw [← this, (C20_endpoints p).1]; rfl
    · have := e 1
      simp only [mul_one, add_sub_cancel] at this
      rw [← this, (C20_endpoints p).2]; rfl
  · obtain ⟨p, hp, s, hs0, hs1, e⟩ := adaptive_covers (eval := fun c s => c.eval s)
      (stop := CubicBezier.flat tol) (fun c s => (c.halve_eval s).1)
      (fun c s => (c.halve_eval s).2) n c t h0 h1
    refine ⟨p, hp, ?_⟩
    replace e : _ = p.eval s := e
    rw [e]
    have hs2 : 1 ≤ Real.sqrt 2 := by
      rw [Real.one_le_sqrt]; norm_num
    rcases hstop p hp with hl | hl
    · obtain ⟨d, hd, hle⟩ := C28_is_linear_sound p tol hl s hs0 hs1
      exact ⟨d, hd, hle.trans (by nlinarith)⟩
    · have := C29_is_a_point_sharp p tol hl s hs0 hs1
      rw [abs_of_nonneg htol] at this
      refine ⟨pdist p.start (p.eval s), ?_, by rw [pdist_comm]; exact this⟩
      rw [segmentDistances_eq]
      exact ⟨0, le_rfl, zero_le_one, by rw [pdist_eq_norm]; simp [CubicBezier.baseline]⟩

/-- A depth as required by the theorems above exists for every curve and every `tol > 0`. -/
theorem C66_depth_exists (M tol : ℝ) (htol : 0 < tol) : ∃ n : ℕ, M ≤ tol * 2 ^ n := by
  obtain ⟨n, hn⟩ := pow_unbounded_of_one_lt (M / tol) (one_lt_two : (1 : ℝ) < 2)
  refine ⟨n, ?_⟩
  rw [div_lt_iff₀ htol] at hn
  linarith

/-- **C66** needs `is_a_point`: with `is_linear(tol)` as the only test the recursion does not stop
for a curve whose control points coincide, whatever the tolerance and the depth. -/
theorem C66_needs_is_a_point (p : P) (tol : ℝ) (n : ℕ) :
    (∀ q ∈ pieces QuadraticBezier.halve n (QuadraticBezier.new p p p),
      q.isLinear tol = some false) ∧
    (∀ c ∈ pieces CubicBezier.halve n (CubicBezier.new p p p p),
      c.isLinear tol = some false) := by
  have hq : (QuadraticBezier.new p p p).halve
      = (QuadraticBezier.new p p p, QuadraticBezier.new p p p) := by
    simp only [QuadraticBezier.halve, QuadraticBezier.split, QuadraticBezier.new, Prod.mk.injEq,
      QuadraticBezier.mk.injEq, true_and, and_true]
    refine ⟨⟨?_, ?_⟩, ?_, ?_⟩ <;> apply point_ext <;> intro i <;> simp
  have hc : (CubicBezier.new p p p p).halve
      = (CubicBezier.new p p p p, CubicBezier.new p p p p) := by
    simp only [CubicBezier.halve, CubicBezier.split, CubicBezier.new, Prod.mk.injEq,
      CubicBezier.mk.injEq, true_and, and_true]
    refine ⟨⟨?_, ?_, ?_⟩, ?_, ?_, ?_⟩ <;> apply point_ext <;> intro i <;> simp
  have hpq : ∀ q ∈ pieces QuadraticBezier.halve n (QuadraticBezier.new p p p),
      q = QuadraticBezier.new p p p := by
    induction n with
    | zero => simp [pieces]
    | succ n ih =>
      intro q hq'
      rw [pieces, hq] at hq'
      rcases List.mem_append.1 hq' with h | h <;> exact ih q h
  have hpc : ∀ q ∈ pieces CubicBezier.halve n (CubicBezier.new p p p p),
      q = CubicBezier.new p p p p := by
    clear hpq
    induction n with
    | zero => simp [pieces]
    | succ n ih =>
      intro q hq'
      rw [pieces, hc] at hq'
      rcases List.mem_append.1 hq' with h | h <;> exact ih q h
  have hz : pdist p p ^ 2 < eps := by
    rw [pdist_eq_zero.2 rfl]
    simpa using eps_pos
  refine ⟨fun q h => ?_, fun c h => ?_⟩
  · rw [hpq q h, QuadraticBezier.isLinear, squaredLength_sub]
    simp only [QuadraticBezier.new, lt_real, epsilon_real, hz, decide_true, if_true]
    rfl
  · rw [hpc c h, CubicBezier.isLinear, squaredLength_sub]
    simp only [CubicBezier.new, lt_real, epsilon_real, hz, decide_true, if_true]
    rfl

/-- The hypotheses of the flattening theorems: a parabola of leg length 5, tolerance 0.1, depth 7
(`2 * 5 ≤ 0.1 * 128`), and a cubic with legs up to 5, tolerance 0.1, depth 8. -/
example : 2 * max (pdist (pt2 0 0) (pt2 3 4)) (pdist (pt2 3 4) (pt2 6 0)) ≤ (1 / 10 : ℝ) * 2 ^ 7 ∧
    3 * max (pdist (pt2 0 0) (pt2 3 4)) (max (pdist (pt2 3 4) (pt2 3 4))
      (pdist (pt2 3 4) (pt2 6 0))) ≤ (1 / 10 : ℝ) * 2 ^ 8 := by
  have e1 : pdist (pt2 0 0) (pt2 3 4) = 5 := by
    rw [pdist_pt2, show ((0 : ℝ) - 3) ^ 2 + (0 - 4) ^ 2 = 5 ^ 2 by norm_num,
      Real.sqrt_sq (by norm_num)]
  have e2 : pdist (pt2 3 4) (pt2 6 0) = 5 := by
    rw [pdist_pt2, show ((3 : ℝ) - 6) ^ 2 + (4 - 0) ^ 2 = 5 ^ 2 by norm_num,
      Real.sqrt_sq (by norm_num)]
  have e3 : pdist (pt2 3 4) (pt2 3 4) = 0 := by
    rw [pdist_pt2]; norm_num
  rw [e1, e2, e3]
  norm_num

end Stroke
