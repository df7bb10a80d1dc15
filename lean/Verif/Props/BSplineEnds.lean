import Verif.Props.BSpline

/-!
# The start of a clamped B-spline, whatever its degree and the multiplicity of its first knot (C49)

`C49_start_partial` asks for degree at least 1 and a first knot of multiplicity `D + 1`. Here the
value at the start of the domain is determined in every case.
-/

namespace Stroke

variable {K C D : ℕ} {P : Type} [Point ℝ P]

/-- **C49**, the start in every case. `k` is the last index at which the knot vector still has the
first knot's value `lo`. For degree at least 1 `eval(lo)` is control point `k - D`, which is the first
one exactly for multiplicity `D + 1`. For degree 0 it is the origin. If no knot below `knots[C]` is
larger than `lo`, it is the last control point. -/
theorem C49_start_exact [LawfulPoint P] {knots : Arr ℝ K} {ps : Arr P C} {b : BSpline ℝ P K C D}
    (h : BSpline.new knots ps = .ok b) (hf : FrontClamped D knots) (hb : BackClamped D knots)
    {lo hi : ℝ} (hd : b.knotDomain = some (lo, hi)) :
    (∀ k (hk : k < C), D ≤ k → knotAt knots k = lo → lo < knotAt knots (k + 1) →
      (1 ≤ D → b.eval lo = .ok (ps ⟨k - D, by omega⟩)) ∧
      (D = 0 → b.eval lo = .ok Point.default)) ∧
    (lo = hi → ∃ hC : C - 1 < C, b.eval lo = .ok (ps ⟨C - 1, hC⟩)) ∧
    (lo < hi → ∃ k, k < C ∧ D ≤ k ∧ knotAt knots k = lo ∧ lo < knotAt knots (k + 1)) := by
  have v := ((new_ok_iff _ _ _).1 h).1
  have v1 := v.1
  have v2 := v.2.1
  have hend := C49_end h hf hb hd
  rw [C45_partial h ⟨fun _ => hb, fun _ => hf⟩] at hd
  simp only [Option.some.injEq, Prod.mk.injEq] at hd
  obtain ⟨rfl, rfl⟩ := hd
  refine ⟨fun k hk hDk h1 h2 => ?_, fun e => by rw [e]; exact hend, fun hlt => ?_⟩
  · have hev := eval_in_span h (Or.inl hf) hDk hk h1.le h2
    constructor
    · intro hD
      rw [hev]
      congr 1
      apply point_ext
      intro c
      rw [coord_deBoorValue, dbr_zero (n := D + 1) _ _ D D le_rfl (Nat.lt_succ_self D)]
      · rw [Nat.sub_self, if_pos (by omega), show 0 + k - D = k - D by omega,
          extend_lt _ (by omega)]
      · intro r j hr1 hr hj
        unfold alphaVal
        rw [if_pos]
        have h3 := (frontClamped_iff v).1 hf
        have h4 := mono_knotAt v.2.2 (Nat.zero_le (j + k - D)) (show j + k - D < K by omega)
        linarith
    · rintro rfl
      rw [hev]
      congr 1
  · classical
    have hex : ∃ m, D < m ∧ knotAt knots D < knotAt knots m := ⟨C, v1, hlt⟩
    obtain ⟨hm1, hm2⟩ := Nat.find_spec hex
    have hmC : Nat.find hex ≤ C := Nat.find_min' hex ⟨v1, hlt⟩
    refine ⟨Nat.find hex - 1, by omega, by omega, ?_, ?_⟩
    · apply le_antisymm
      · by_contra hc
        by_cases e : Nat.find hex - 1 = D
        · rw [e] at hc; exact hc le_rfl
        · exact Nat.find_min hex (show Nat.find hex - 1 < Nat.find hex by omega)
            ⟨by omega, not_le.1 hc⟩
      · exact mono_knotAt v.2.2 (by omega) (by omega)
    · rw [Nat.sub_add_cancel (by omega)]
      exact hm2

/-- **C49** is false of the code for a first knot of multiplicity above `D + 1`: degree 1, knots
0 0 0 1 1, control points 5, 7 and 9; `eval(0)` is 7. -/
theorem C49_false_multiplicity : ∃ b : BSpline ℝ (PointN ℝ 1) 5 3 1,
    BSpline.new ![0, 0, 0, 1, 1] ![p1 5, p1 7, p1 9] = .ok b ∧ b.knotDomain = some (0, 1) ∧
    b.eval (0 : ℝ) = .ok (p1 7) := by
  have v : ValidSpline 3 1 (![0, 0, 0, 1, 1] : Fin 5 → ℝ) := by
    refine ⟨by norm_num, by norm_num, ?_⟩
    intro i j hij
    fin_cases i <;> fin_cases j <;> simp_all
  obtain ⟨b, hb⟩ := (C43_accepts (D := 1) _ ![p1 5, p1 7, p1 9]).2 v
  have k1 : knotAt (![0, 0, 0, 1, 1] : Fin 5 → ℝ) 1 = 0 := by
    rw [knotAt_lt _ (show 1 < 5 by norm_num)]; simp
  have k2 : knotAt (![0, 0, 0, 1, 1] : Fin 5 → ℝ) 2 = 0 := by
    rw [knotAt_lt _ (show 2 < 5 by norm_num)]; simp
  have k3 : knotAt (![0, 0, 0, 1, 1] : Fin 5 → ℝ) 3 = 1 := by
    rw [knotAt_lt _ (show 3 < 5 by norm_num)]; simp
  have k0 : knotAt (![0, 0, 0, 1, 1] : Fin 5 → ℝ) 0 = 0 := by
    rw [knotAt_lt _ (show 0 < 5 by norm_num)]; simp
  have k4 : knotAt (![0, 0, 0, 1, 1] : Fin 5 → ℝ) 4 = 1 := by
    rw [knotAt_lt _ (show 4 < 5 by norm_num)]; simp
  have hf : FrontClamped 1 (![0, 0, 0, 1, 1] : Fin 5 → ℝ) :=
    (frontClamped_iff v).2 (by rw [k0, k1, sub_self]; exact eps_pos)
  have hg : BackClamped 1 (![0, 0, 0, 1, 1] : Fin 5 → ℝ) :=
    (backClamped_iff v).2 (by norm_num [k4, k3]; exact eps_pos)
  have hd : b.knotDomain = some (0, 1) := by
    rw [C45_partial hb ⟨fun _ => hg, fun _ => hf⟩, k1, k3]
  refine ⟨b, hb, hd, ?_⟩
  rw [((C49_start_exact hb hf hg hd).1 2 (by norm_num) (by norm_num) k2
    (by rw [k3]; norm_num)).1 le_rfl]
  rfl

end Stroke
