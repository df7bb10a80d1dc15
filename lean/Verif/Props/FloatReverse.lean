import Verif.Props.AnyMaps
import Verif.Props.FloatEndpoints
import Verif.Props.FloatMonotone
import Verif.Props.FloatBoxContains
import Verif.Lemmas.Casteljau

/-!
# Running a curve backwards in floating point (C114)

Over the reals the curve with reversed control points is the original run backwards (C38).  In
floating point the generic `Bezier` keeps this exactly, bit for bit, wherever `1 - t` is exact: its
evaluation uses `a * (1 - t) + b * t`, which is symmetric.  The specialised types, whose sums and
interpolations are one-sided, do not.
-/

set_option linter.unusedSectionVars false

namespace Stroke

section
variable {S : Type} [Scalar S] {P : Type} [Point S P] {N : ℕ}

/-- The triangle of the reversed polygon is the mirrored triangle. -/
theorem cas_rev (hadd : ∀ p q : P, p + q = q + p) (x y : ℕ → P) (t t' : S)
    (ht : -t + lit 1 = t') (ht' : -t' + lit 1 = t) (n : ℕ) (h : ∀ k, k ≤ n → y k = x (n - k)) :
    ∀ m j, m + j ≤ n → cas y t m j = cas x t' m (n - m - j)
  | 0, j, hj => by rw [cas, cas, h j (by omega)]; rfl
  | m + 1, j, hj => by
    rw [cas, cas, cas_rev hadd x y t t' ht ht' n h m j (by omega),
      cas_rev hadd x y t t' ht ht' n h m (j + 1) (by omega), ht, ht', hadd]
    rw [show n - m - (j + 1) = n - (m + 1) - j by omega,
      show n - (m + 1) - j + 1 = n - m - j by omega]

theorem extend_rev (b : Bezier P N) (k : ℕ) (hN : 1 ≤ N) (hk : k ≤ N - 1) :
    extend (Bezier.new fun k => b.control_points k.rev).control_points k
      = extend b.control_points (N - 1 - k) := by
  rw [extend_lt _ (show k < N by omega), extend_lt _ (show N - 1 - k < N by omega)]
  show b.control_points (Fin.rev ⟨k, _⟩) = _
  congr 1
  apply Fin.ext
  rw [Fin.val_rev]
  simp only []
  omega

/-- **C114**, any arithmetic in which the addition of points is commutative: if `t' = 1 - t` and
`t = 1 - t'` as computed, then the generic Bézier curve with reversed control points evaluates at
`t` to exactly what the original evaluates to at `t'`. -/
theorem C114_eval (hadd : ∀ p q : P, p + q = q + p) (b : Bezier P N) (t t' : S)
    (ht : -t + lit 1 = t') (ht' : -t' + lit 1 = t) :
    (Bezier.new fun k => b.control_points k.rev).eval t = b.eval t' := by
  rcases Nat.eq_zero_or_pos N with rfl | hN
  · rw [bezier_eval_zero, bezier_eval_zero]
  rw [bezier_eval_cas _ hN, bezier_eval_cas _ hN]
  congr 1
  have := cas_rev hadd (extend b.control_points)
    (extend (Bezier.new fun k => b.control_points k.rev).control_points) t t' ht ht' (N - 1)
    (fun k hk => extend_rev b k hN hk) (N - 1) 0 (by omega)
  rw [this]
  congr 1
  omega

/-- **C114**: splitting the reversed curve at `t` gives the parts of the original at `t'`, reversed
and swapped. -/
theorem C114_split (hadd : ∀ p q : P, p + q = q + p) (b : Bezier P N) (t t' : S)
    (ht : -t + lit 1 = t') (ht' : -t' + lit 1 = t) :
    ∃ l r, b.split t' = some (l, r) ∧
      (Bezier.new fun k => b.control_points k.rev).split t
        = some (Bezier.new fun k => r.control_points k.rev,
            Bezier.new fun k => l.control_points k.rev) := by
  refine ⟨_, _, bezier_split_cas b t', ?_⟩
  rw [bezier_split_cas]
  rcases Nat.eq_zero_or_pos N with rfl | hN
  · congr 2
    · congr 1; funext k; exact k.elim0
    · congr 1; funext k; exact k.elim0
  have key := cas_rev hadd (extend b.control_points)
    (extend (Bezier.new fun k => b.control_points k.rev).control_points) t t' ht ht' (N - 1)
    (fun k hk => extend_rev b k hN hk)
  congr 2
  · show Bezier.mk _ = Bezier.mk _
    congr 1
    funext k
    have := k.isLt
    rw [key k.val 0 (by omega)]
    simp only [Fin.val_rev]
    congr 1 <;> omega
  · show Bezier.mk _ = Bezier.mk _
    congr 1
    funext k
    have := k.isLt
    rw [key (N - 1 - k.val) k.val (by omega)]
    simp only [Fin.val_rev]
    congr 1 <;> omega

end

namespace Fl
variable {F : FloatFormat} {n N : ℕ}

theorem add_comm' (x y : Fl F) : x + y = y + x := by
  show add x y = add y x
  cases x with
  | nan => cases y <;> rfl
  | inf s => cases y with
    | nan => rfl
    | inf s' => cases s <;> cases s' <;> rfl
    | fin b hb => rfl
  | fin a ha => cases y with
    | nan => rfl
    | inf s' => rfl
    | fin b hb => show F.round (a + b) = F.round (b + a); rw [add_comm]

theorem pointN_add_comm (p q : PointN (Fl F) n) : p + q = q + p :=
  pointN_ext fun i => add_comm' (p.coords i) (q.coords i)

/-- A number of a binary format between 1/2 and 1 has its complement to 1 in the format. -/
theorem ieee_compl {p : ℕ} {emin : ℤ} {x : ℝ} (he : emin ≤ 1 - p) (hx : x ∈ ieeeGrid p emin)
    (h1 : 1 / 2 ≤ x) (h2 : x ≤ 1) : 1 - x ∈ ieeeGrid p emin := by
  obtain ⟨m, e, hm, hemin, rfl⟩ := hx
  have pe : (0 : ℝ) < 2 ^ e := by positivity
  have m0 : 0 < m := by
    by_contra h
    have : (m : ℝ) ≤ 0 := by exact_mod_cast not_lt.1 h
    nlinarith
  have m1 : (1 : ℝ) ≤ m := by exact_mod_cast m0
  have e0 : e ≤ 0 := by
    by_contra h
    have : (2 : ℝ) ^ (1 : ℤ) ≤ 2 ^ e := zpow_le_zpow_right₀ (by norm_num) (by omega)
    norm_num at this
    nlinarith
  obtain ⟨k, rfl⟩ : ∃ k : ℕ, e = -(k : ℤ) := ⟨e.natAbs, by omega⟩
  have hk : (2 : ℝ) ^ (-(k : ℤ)) * 2 ^ k = 1 := by
    rw [zpow_neg, zpow_natCast]
    exact inv_mul_cancel₀ (by positivity)
  have pk : (0 : ℝ) < 2 ^ k := by positivity
  have lo : (2 : ℝ) ^ k ≤ 2 * m := by
    have := mul_le_mul_of_nonneg_right h1 pk.le
    rw [mul_assoc, hk] at this
    linarith
  have hi : (m : ℝ) ≤ 2 ^ k := by
    have := mul_le_mul_of_nonneg_right h2 pk.le
    rw [mul_assoc, hk] at this
    linarith
  have lo' : (2 : ℤ) ^ k ≤ 2 * m := by exact_mod_cast lo
  have hi' : m ≤ (2 : ℤ) ^ k := by exact_mod_cast hi
  refine ⟨2 ^ k - m, _, ?_, hemin, ?_⟩
  · rw [abs_of_nonneg (by omega)]
    have := (abs_le.1 hm).2
    omega
  · push_cast
    rw [sub_mul, mul_comm ((2 : ℝ) ^ k), hk]

/-- In a binary format, `1 - t` and then `1 - (1 - t)` are computed exactly for `t` from 1/2
to 1. -/
theorem ieee_compl_exact {p : ℕ} {emin : ℤ} {emax : ℕ} (hp : 11 ≤ p) (he : emin ≤ 1 - p)
    (cosI acosI : ℝ → ℝ) (powI : ℝ → ℝ → ℝ)
    (t : ℝ) (ht : t ∈ (ieee p emin emax hp he cosI acosI powI).grid ∧
      |t| ≤ (ieee p emin emax hp he cosI acosI powI).max) (h1 : 1 / 2 ≤ t) (h2 : t ≤ 1) :
    ∃ h, -(fin t ht : Fl (ieee p emin emax hp he cosI acosI powI)) + lit 1 = fin (1 - t) h ∧
      -(fin (1 - t) h : Fl (ieee p emin emax hp he cosI acosI powI)) + lit 1 = fin t ht := by
  have ok : (1 - t) ∈ (ieee p emin emax hp he cosI acosI powI).grid ∧
      |1 - t| ≤ (ieee p emin emax hp he cosI acosI powI).max := by
    refine ⟨ieee_compl he ht.1 h1 h2, ?_⟩
    rw [abs_of_nonneg (by linarith)]
    have := (ieee p emin emax hp he cosI acosI powI).one_ok.2
    rw [abs_one] at this
    linarith
  refine ⟨ok, ?_, ?_⟩
  · rw [lit_one, fin_neg, fin_add]
    exact round_eq (by ring) _
  · rw [lit_one, fin_neg, fin_add]
    exact round_eq (by ring) _

/-- **C114** in every binary floating point format, for every `t` from 1/2 to 1, all control points
(infinities and NaN included) and every degree: the reversed curve at `t` is the original at `1 - t`
and the reversed curve at `1 - t` is the original at `t`, bit for bit; the parts of a split are the
reversed parts. -/
theorem C114_float {p : ℕ} {emin : ℤ} {emax : ℕ} (hp : 11 ≤ p) (he : emin ≤ 1 - p)
    (cosI acosI : ℝ → ℝ) (powI : ℝ → ℝ → ℝ)
    (b : Bezier (PointN (Fl (ieee p emin emax hp he cosI acosI powI)) n) N)
    (t : Fl (ieee p emin emax hp he cosI acosI powI)) (ht : t.IsFinite)
    (h1 : 1 / 2 ≤ t.toReal) (h2 : t.toReal ≤ 1) :
    let rev : Bezier _ N → Bezier _ N := fun c => Bezier.new fun k => c.control_points k.rev
    (lit 1 - t).IsFinite ∧ (lit 1 - t).toReal = 1 - t.toReal ∧
    (rev b).eval t = b.eval (lit 1 - t) ∧ (rev b).eval (lit 1 - t) = b.eval t ∧
    ∃ l r, b.split (lit 1 - t) = some (l, r) ∧ (rev b).split t = some (rev r, rev l) := by
  intro rev
  obtain ⟨x, hx, rfl⟩ := isFinite_iff.1 ht
  rw [toReal_fin] at h1 h2
  obtain ⟨h, e1, e2⟩ := ieee_compl_exact hp he cosI acosI powI x hx h1 h2
  have es : (lit 1 : Fl (ieee p emin emax hp he cosI acosI powI)) - fin x hx = fin (1 - x) h := by
    show lit 1 + -(fin x hx : Fl (ieee p emin emax hp he cosI acosI powI)) = _
    rw [add_comm', e1]
  rw [es]
  refine ⟨isFinite_iff.2 ⟨_, _, rfl⟩, rfl, C114_eval pointN_add_comm b _ _ e1 e2,
    C114_eval pointN_add_comm b _ _ e2 e1, C114_split pointN_add_comm b _ _ e1 e2⟩

/-- **C114** for halving: the midpoint of a generic Bézier curve and its two halves do not depend on
the direction in which the control points are listed. -/
theorem C114_half {p : ℕ} {emin : ℤ} {emax : ℕ} (hp : 11 ≤ p) (he : emin ≤ 1 - p)
    (cosI acosI : ℝ → ℝ) (powI : ℝ → ℝ → ℝ)
    (b : Bezier (PointN (Fl (ieee p emin emax hp he cosI acosI powI)) n) N) :
    let half : Fl (ieee p emin emax hp he cosI acosI powI) := lit (1 / 2)
    let rev : Bezier _ N → Bezier _ N := fun c => Bezier.new fun k => c.control_points k.rev
    (rev b).eval half = b.eval half ∧
    ∃ l r, b.split half = some (l, r) ∧ (rev b).split half = some (rev r, rev l) := by
  intro half rev
  have ok : (1 / 2 : ℝ) ∈ (ieee p emin emax hp he cosI acosI powI).grid ∧
      |(1 / 2 : ℝ)| ≤ (ieee p emin emax hp he cosI acosI powI).max := by
    refine ⟨⟨1, -1, ?_, ?_, by norm_num⟩, ?_⟩
    · rw [abs_one]; exact one_le_pow₀ (by norm_num)
    · omega
    · have := (ieee p emin emax hp he cosI acosI powI).one_ok.2
      rw [abs_one] at this
      rw [abs_of_pos (by norm_num)]
      linarith
  have eh : half = fin (1 / 2) ok := by
    show (ieee p emin emax hp he cosI acosI powI).round _ = _
    exact round_eq (by push_cast; norm_num) _
  obtain ⟨h, e1, e2⟩ := ieee_compl_exact hp he cosI acosI powI _ ok le_rfl (by norm_num)
  have e3 : (fin (1 - 1 / 2) h : Fl (ieee p emin emax hp he cosI acosI powI)) = half := by
    rw [eh]; exact fin_congr (by norm_num)
  rw [e3] at e1 e2
  rw [← eh] at e1 e2
  exact ⟨C114_eval pointN_add_comm b _ _ e1 e2, C114_split pointN_add_comm b _ _ e1 e2⟩

/-- **C114** for derivatives, in every format whose rounding does not favour a sign: the derivative
of the reversed curve has exactly the negated control points, in reversed order. -/
theorem C114_derivative (hF : F.Symmetric) (b : Bezier (PointN (Fl F) n) N) (hN : 2 ≤ N) :
    ∃ d d', b.derivative = some d ∧
      (Bezier.new fun k => b.control_points k.rev).derivative = some d' ∧
      ∀ k i, (d'.control_points k).coords i = -(d.control_points k.rev).coords i := by
  refine ⟨_, _, bezier_derivative_eq b hN, bezier_derivative_eq _ hN, fun k i => ?_⟩
  have := k.isLt
  have key : ∀ (x y s : Fl F), (x - y) * s = -((y - x) * s) := fun x y s => by
    rw [neg_mul' hF]
    show (x + -y) * s = -(y + -x) * s
    rw [neg_add_neg hF, neg_neg', add_comm']
  have e1 : (Fin.rev (⟨k.val + 1, by omega⟩ : Fin N)) = ⟨(Fin.rev k).val, by omega⟩ :=
    Fin.ext (by simp only [Fin.val_rev]; omega)
  have e2 : (Fin.rev (⟨k.val, by omega⟩ : Fin N)) = ⟨(Fin.rev k).val + 1, by
      simp only [Fin.val_rev]; omega⟩ :=
    Fin.ext (by simp only [Fin.val_rev]; omega)
  show ((b.control_points (Fin.rev ⟨k.val + 1, _⟩)).coords i
    - (b.control_points (Fin.rev ⟨k.val, _⟩)).coords i) * _ = _
  rw [e1, e2]
  exact key _ _ _

/-! ### Where it fails -/

section
variable (cosI acosI : ℝ → ℝ) (powI : ℝ → ℝ → ℝ)

/-- **C114** is false of the specialised curves: in binary64, already the point at `t = 1/2` depends
on the direction. -/
theorem C114_specialised_false :
    let F := binary64 cosI acosI powI
    let half : Fl F := lit (1 / 2)
    ∃ a b c d e f g : PointN (Fl F) 1,
      (LineSegment.new a b).eval half ≠ (LineSegment.new b a).eval half ∧
      (QuadraticBezier.new a b b).evalCasteljau half
        ≠ (QuadraticBezier.new b b a).evalCasteljau half ∧
      (QuadraticBezier.new c d e).eval half ≠ (QuadraticBezier.new e d c).eval half ∧
      (CubicBezier.new f g d e).eval half ≠ (CubicBezier.new e d g f).eval half := by
  intro F half
  have ok := dyadic_ok cosI acosI powI
  have sym : F.Symmetric := (C96_ieee cosI acosI powI).1
  have k0 := ok 0 0 (by norm_num) (by norm_num) (x := 0) (by norm_num) (by norm_num)
  have k1 := ok 1 0 (by norm_num) (by norm_num) (x := 1) (by norm_num) (by norm_num)
  have k2 := ok 2 0 (by norm_num) (by norm_num) (x := 2) (by norm_num) (by norm_num)
  have k3 := ok 3 0 (by norm_num) (by norm_num) (x := 3) (by norm_num) (by norm_num)
  have k4 := ok 4 0 (by norm_num) (by norm_num) (x := 4) (by norm_num) (by norm_num)
  have k8 := ok 8 0 (by norm_num) (by norm_num) (x := 8) (by norm_num) (by norm_num)
  have km1 := ok (-1) 0 (by norm_num) (by norm_num) (x := -1) (by norm_num) (by norm_num)
  have km2 := ok (-2) 0 (by norm_num) (by norm_num) (x := -2) (by norm_num) (by norm_num)
  have kh := ok 1 (-1) (by norm_num) (by norm_num) (x := 1 / 2) (by norm_num)
    (by norm_num [abs_le])
  have kmh := ok (-1) (-1) (by norm_num) (by norm_num) (x := -1 / 2) (by norm_num)
    (by norm_num [abs_le])
  have kq := ok 1 (-2) (by norm_num) (by norm_num) (x := 1 / 4) (by norm_num)
    (by norm_num [abs_le])
  have ke := ok 1 (-3) (by norm_num) (by norm_num) (x := 1 / 8) (by norm_num)
    (by norm_num [abs_le])
  have k38 := ok 3 (-3) (by norm_num) (by norm_num) (x := 3 / 8) (by norm_num)
    (by norm_num [abs_le])
  have ku := ok 1 (-52) (by norm_num) (by norm_num) (x := 2 ^ (-52 : ℤ)) (by norm_num)
    (by norm_num [abs_le])
  have k2u := ok 2 (-52) (by norm_num) (by norm_num) (x := 2 * 2 ^ (-52 : ℤ)) (by norm_num)
    (by norm_num [abs_le])
  have kuh := ok 1 (-53) (by norm_num) (by norm_num) (x := 2 ^ (-52 : ℤ) / 2) (by norm_num)
    (by norm_num [abs_le])
  have kuq := ok 1 (-54) (by norm_num) (by norm_num) (x := 2 ^ (-52 : ℤ) / 4) (by norm_num)
    (by norm_num [abs_le])
  have ku3 := ok 3 (-55) (by norm_num) (by norm_num) (x := 2 ^ (-52 : ℤ) * 3 / 8) (by norm_num)
    (by norm_num [abs_le])
  have ku5 := ok 5 (-55) (by norm_num) (by norm_num) (x := 2 ^ (-52 : ℤ) * 5 / 8) (by norm_num)
    (by norm_num [abs_le])
  have k1u := ok (2 ^ 52 + 1) (-52) (by norm_num) (by norm_num) (x := 1 + 2 ^ (-52 : ℤ))
    (by norm_num) (by norm_num [abs_le])
  have km1u := ok (-(2 ^ 52 + 1)) (-52) (by norm_num) (by norm_num) (x := -1 - 2 ^ (-52 : ℤ))
    (by norm_num) (by norm_num [abs_le])
  have km1uh := ok (-(2 ^ 52 + 1)) (-53) (by norm_num) (by norm_num)
    (x := (-1 - 2 ^ (-52 : ℤ)) / 2) (by norm_num) (by norm_num [abs_le])
  have kr := ok (-(2 ^ 52 - 1)) (-53) (by norm_num) (by norm_num)
    (x := (-1 + 2 ^ (-52 : ℤ)) / 2) (by norm_num) (by norm_num [abs_le])
  -- the roundings that are not exact
  have r2 : F.round (2 + 2 ^ (-52 : ℤ)) = fin 2 k2 :=
    round_binade cosI acosI powI 1 (2 ^ 52) (by norm_num) (by norm_num) (by norm_num)
      (Or.inr ⟨by norm_num, by decide⟩) (by norm_num) k2
  have rm2 : F.round (-1 - (1 + 2 ^ (-52 : ℤ))) = fin (-2) km2 := by
    rw [show (-1 - (1 + 2 ^ (-52 : ℤ)) : ℝ) = -(2 + 2 ^ (-52 : ℤ)) by ring, round_neg sym, r2,
      fin_neg]
  have r2' : F.round (1 + 2 ^ (-52 : ℤ) - -1) = fin 2 k2 := by
    rw [show (1 + 2 ^ (-52 : ℤ) - -1 : ℝ) = 2 + 2 ^ (-52 : ℤ) by ring, r2]
  have rh : F.round (1 + 2 ^ (-52 : ℤ) / 2) = fin 1 k1 :=
    round_binade cosI acosI powI 0 (2 ^ 52) (by norm_num) (by norm_num) (by norm_num)
      (Or.inr ⟨by norm_num, by decide⟩) (by norm_num) k1
  have r3 : F.round (1 + 2 ^ (-52 : ℤ) * 3 / 8) = fin 1 k1 :=
    round_binade cosI acosI powI 0 (2 ^ 52) (by norm_num) (by norm_num) (by norm_num)
      (Or.inl (by norm_num)) (by norm_num) k1
  have rq : F.round (1 + 2 ^ (-52 : ℤ) / 4) = fin 1 k1 :=
    round_binade cosI acosI powI 0 (2 ^ 52) (by norm_num) (by norm_num) (by norm_num)
      (Or.inl (by norm_num)) (by norm_num) k1
  have r5 : F.round (2 ^ (-52 : ℤ) * 5 / 8 + 1) = fin (1 + 2 ^ (-52 : ℤ)) k1u :=
    round_binade cosI acosI powI 0 (2 ^ 52 + 1) (by norm_num) (by norm_num) (by norm_num)
      (Or.inl (by norm_num [abs_lt])) (by norm_num) k1u
  have l1 : (lit 1 : Fl F) = fin 1 k1 := round_eq (by norm_num) _
  have l2 : (lit 2 : Fl F) = fin 2 k2 := round_eq (by norm_num) _
  have l3 : (lit 3 : Fl F) = fin 3 k3 := round_eq (by norm_num) _
  have lh : half = fin (1 / 2) kh := round_eq (by push_cast; norm_num) _
  have ne : ∀ {p q : PointN (Fl F) 1} {a b : ℝ} {ha hb}, p.coords 0 = fin a ha →
      q.coords 0 = fin b hb → a ≠ b → p ≠ q := by
    rintro p q a b ha hb e1 e2 h rfl
    rw [e1] at e2
    exact h (by injection e2)
  have cm : ∀ {a b c : ℝ} {ha hb} (hc), a * b = c → (fin a ha : Fl F) * fin b hb = fin c hc :=
    fun hc e => round_eq e hc
  have ca : ∀ {a b c : ℝ} {ha hb} (hc), a + b = c → (fin a ha : Fl F) + fin b hb = fin c hc :=
    fun hc e => round_eq e hc
  have cs : ∀ {a b c : ℝ} {ha hb} (hc), a - b = c → (fin a ha : Fl F) - fin b hb = fin c hc :=
    fun hc e => by rw [fin_sub]; exact round_eq e hc
  have omh : -(fin (1 / 2) kh : Fl F) + fin 1 k1 = fin (1 / 2) kh := by
    rw [fin_neg]; exact ca _ (by norm_num)
  have hh : (fin (1 / 2) kh : Fl F) * fin (1 / 2) kh = fin (1 / 4) kq := cm _ (by norm_num)
  have hhh : (fin (1 / 4) kq : Fl F) * fin (1 / 2) kh = fin (1 / 8) ke := cm _ (by norm_num)
  refine ⟨⟨fun _ => fin _ k1u⟩, ⟨fun _ => fin _ km1⟩, ⟨fun _ => fin _ k4⟩, ⟨fun _ => fin _ ku⟩,
    ⟨fun _ => fin _ k2u⟩, ⟨fun _ => fin _ k8⟩, ⟨fun _ => fin _ k0⟩, ?_, ?_, ?_, ?_⟩
  · refine ne (a := 2 ^ (-52 : ℤ)) (b := 0) (ha := ku) (hb := k0) ?_ ?_ (by norm_num)
    · show fin _ k1u + (fin _ km1 - fin _ k1u) * half = _
      rw [lh, fin_sub, rm2, cm km1 (by norm_num)]
      exact ca _ (by ring)
    · show fin _ km1 + (fin _ k1u - fin _ km1) * half = _
      rw [lh, fin_sub, r2', cm k1 (by norm_num)]
      exact ca _ (by ring)
  · have e1 : (fin _ k1u : Fl F) + (fin _ km1 - fin _ k1u) * half = fin _ ku := by
      rw [lh, fin_sub, rm2, cm km1 (by norm_num)]
      exact ca _ (by ring)
    have e2 : (fin _ km1 : Fl F) + (fin _ k1u - fin _ km1) * half = fin _ k0 := by
      rw [lh, fin_sub, r2', cm k1 (by norm_num)]
      exact ca _ (by ring)
    have e3 : (fin _ km1 : Fl F) + (fin _ km1 - fin _ km1) * half = fin _ km1 := by
      rw [lh, cs k0 (by norm_num), cm k0 (by norm_num)]
      exact ca _ (by ring)
    refine ne (a := (-1 + 2 ^ (-52 : ℤ)) / 2) (b := -1 / 2) (ha := kr) (hb := kmh) ?_ ?_
      (by norm_num)
    · show (fin _ k1u + (fin _ km1 - fin _ k1u) * half)
        + ((fin _ km1 + (fin _ km1 - fin _ km1) * half)
          - (fin _ k1u + (fin _ km1 - fin _ k1u) * half)) * half = _
      rw [e1, e3, lh, cs km1u (by ring), cm km1uh (by ring)]
      exact ca _ (by ring)
    · show (fin _ km1 + (fin _ km1 - fin _ km1) * half)
        + ((fin _ km1 + (fin _ k1u - fin _ km1) * half)
          - (fin _ km1 + (fin _ km1 - fin _ km1) * half)) * half = _
      rw [e2, e3, lh, cs k1 (by ring), cm kh (by ring)]
      exact ca _ (by ring)
  · refine ne (a := 1) (b := 1 + 2 ^ (-52 : ℤ)) (ha := k1) (hb := k1u) ?_ ?_ (by norm_num)
    · show fin _ k4 * ((-half + lit 1) * (-half + lit 1))
        + fin _ ku * lit 2 * (-half + lit 1) * half + fin _ k2u * (half * half) = _
      rw [lh, l1, l2, omh, hh, cm k1 (by norm_num), cm k2u (by ring), cm ku (by ring),
        cm kuh (by ring), fin_add, rh, cm kuh (by ring), fin_add, rh]
    · show fin _ k2u * ((-half + lit 1) * (-half + lit 1))
        + fin _ ku * lit 2 * (-half + lit 1) * half + fin _ k4 * (half * half) = _
      rw [lh, l1, l2, omh, hh, cm kuh (by ring), cm k2u (by ring), cm ku (by ring),
        cm kuh (by ring), ca ku (by ring), cm k1 (by norm_num)]
      exact ca _ (by ring)
  · refine ne (a := 1) (b := 1 + 2 ^ (-52 : ℤ)) (ha := k1) (hb := k1u) ?_ ?_ (by norm_num)
    · show fin _ k8 * ((-half + lit 1) * (-half + lit 1) * (-half + lit 1))
        + fin _ k0 * (half * (-half + lit 1) * (-half + lit 1) * lit 3)
        + fin _ ku * (half * half * (-half + lit 1) * lit 3)
        + fin _ k2u * (half * half * half) = _
      rw [lh, l1, l3, omh, hh, hhh, cm k1 (by norm_num), cm k38 (by norm_num),
        cm k0 (by norm_num), ca k1 (by norm_num), cm ku3 (by ring), fin_add, r3,
        cm kuq (by ring), fin_add, rq]
    · show fin _ k2u * ((-half + lit 1) * (-half + lit 1) * (-half + lit 1))
        + fin _ ku * (half * (-half + lit 1) * (-half + lit 1) * lit 3)
        + fin _ k0 * (half * half * (-half + lit 1) * lit 3)
        + fin _ k8 * (half * half * half) = _
      rw [lh, l1, l3, omh, hh, hhh, cm kuq (by ring), cm k38 (by norm_num), cm ku3 (by ring),
        ca ku5 (by ring), cm k0 (by norm_num), ca ku5 (by ring), cm k1 (by norm_num), fin_add, r5]

/-- **C114** needs `1 - t` to be exact: at `t = 2⁻⁶⁰` the line from 1 to 0, reversed, evaluates to
`2⁻⁶⁰`, and the line itself evaluates at the computed `1 - t` to 0. -/
theorem C114_small_false :
    let F := binary64 cosI acosI powI
    let t : Fl F := fin _ (tiny_ok cosI acosI powI)
    let b : Bezier (PointN (Fl F) 1) 2 := Bezier.new ![⟨fun _ => lit 1⟩, ⟨fun _ => lit 0⟩]
    (Bezier.new fun k => b.control_points k.rev).eval t = some ⟨fun _ => t⟩ ∧
    b.eval (lit 1 - t) = some ⟨fun _ => lit 0⟩ := by
  intro F t b
  have e1 : -t + lit 1 = lit 1 := by
    rw [show (lit 1 : Fl F) = fin 1 F.one_ok from lit_one]
    show -fin _ (tiny_ok cosI acosI powI) + fin 1 F.one_ok = _
    rw [fin_neg, fin_add, show (-2 ^ (-60 : ℤ) + 1 : ℝ) = -(2 ^ (-60 : ℤ) - 1) by ring,
      round_neg (C96_ieee cosI acosI powI).1]
    have h1 : F.rnd ((2 : ℝ) ^ (-60 : ℤ) - 1) = -1 := rnd_tiny
    have h2 : |F.rnd ((2 : ℝ) ^ (-60 : ℤ) - 1)| ≤ F.max := by
      rw [h1, abs_neg, abs_one]
      linarith [F.max_ge]
    rw [F.round_of_rnd_le h2, fin_neg]
    exact fin_congr (by rw [h1, neg_neg])
  have e2 : lit 1 - t = lit 1 := by
    show lit 1 + -t = _
    rw [add_comm', e1]
  have e3 : -(lit 1 : Fl F) + lit 1 = lit 0 := by
    rw [lit_one, lit_zero, fin_neg, fin_add]
    exact round_eq (by norm_num) _
  have f1 : (lit 1 : Fl F).IsFinite := by rw [lit_one]; exact isFinite_iff.2 ⟨_, _, rfl⟩
  have f0 : (lit 0 : Fl F).IsFinite := by rw [lit_zero]; exact isFinite_iff.2 ⟨_, _, rfl⟩
  have ft : t.IsFinite := isFinite_iff.2 ⟨_, _, rfl⟩
  constructor
  · rw [bezier_eval_cas _ (by norm_num)]
    congr 1
    apply pointN_ext
    intro i
    show lit 0 * (-t + lit 1) + lit 1 * t = t
    rw [e1, mul_litOne f0, litOne_mul ft, litZero_add ft]
  · rw [e2, bezier_eval_cas _ (by norm_num)]
    congr 1
    apply pointN_ext
    intro i
    show lit 1 * (-lit 1 + lit 1) + lit 0 * lit 1 = (lit 0 : Fl F)
    rw [e3, litOne_mul f0, mul_litOne f0, add_litZero f0]

/-- A curve and a parameter that meet the hypotheses of `C114_float`. -/
example (b : Bezier (PointN (Fl (binary64 cosI acosI powI)) 2) 5) :
    (Bezier.new fun k => b.control_points k.rev).eval
        (fin (3 / 4) (dyadic_ok cosI acosI powI 3 (-2) (by norm_num) (by norm_num) (by norm_num)
          (by norm_num [abs_le])))
      = b.eval (lit 1 - fin (3 / 4) (dyadic_ok cosI acosI powI 3 (-2) (by norm_num) (by norm_num)
          (by norm_num) (by norm_num [abs_le]))) :=
  (C114_float (p := 53) (emin := -1074) (emax := 971) (by norm_num) (by norm_num) cosI acosI powI b
    (fin (3 / 4) (dyadic_ok cosI acosI powI 3 (-2) (by norm_num) (by norm_num) (by norm_num)
      (by norm_num [abs_le]))) (isFinite_iff.2 ⟨_, _, rfl⟩)
    (show (1 / 2 : ℝ) ≤ 3 / 4 by norm_num) (show (3 / 4 : ℝ) ≤ 1 by norm_num)).2.2.1

end

end Fl
end Stroke
