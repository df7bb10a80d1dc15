import Verif.Props.LengthBounds
import Verif.Props.MovedPoints
import Verif.Props.FloatSplit
import Verif.Props.FloatBSplineLength
import Verif.Props.FloatLine

/-!
# Bounds on the arc length from splitting, in floating point (C137)

The program of Verif/Props/LengthBounds.lean with all its operations rounded: a curve with
floating-point control points is cut by `split` at floating-point parameters, and the chords and
the control polygons of the pieces are measured and added up in floating point.
-/

set_option linter.unusedSectionVars false

namespace Stroke

open Fl

variable {F : FloatFormat} {n N : ℕ}

/-! ### The user's program -/

/-- The lists of pieces that a user of the crate can get from a curve by calls of `split(t)` with
floats `t` in `[0, 1]`: the curve itself, or such a list with one of the pieces replaced by its two
parts. -/
inductive FloatCutInto {Q : Type} (split : Q → Fl F → Option (Q × Q)) (q : Q) : List Q → Prop
  | whole : FloatCutInto split q [q]
  | cut {xs ys : List Q} {p l r : Q} {t : Fl F} : FloatCutInto split q (xs ++ p :: ys) →
      t.IsFinite → 0 ≤ t.toReal → t.toReal ≤ 1 → split p t = some (l, r) →
      FloatCutInto split q (xs ++ l :: r :: ys)

/-- `let mut s = 0.0; for (p, q) in ds { s = s + (p - q).squared_length().sqrt(); }` -/
noncomputable def sumDistances (ds : List (PointN (Fl F) n × PointN (Fl F) n)) : Fl F :=
  ds.foldl (fun s d => s + Scalar.sqrt (Point.squaredLength (d.1 - d.2))) (lit 0)

/-- The first and the last control points of the pieces. -/
def Bezier.chords (hN : 1 ≤ N) (ps : List (Bezier (PointN (Fl F) n) N)) :
    List (PointN (Fl F) n × PointN (Fl F) n) :=
  ps.map fun p => (p.control_points ⟨0, hN⟩, p.control_points ⟨N - 1, by omega⟩)

/-- The consecutive control points of the pieces. -/
def Bezier.edges (ps : List (Bezier (PointN (Fl F) n) N)) :
    List (PointN (Fl F) n × PointN (Fl F) n) :=
  ps.flatMap fun p => List.ofFn fun k : Fin (N - 1) =>
    (p.control_points ⟨k, by omega⟩, p.control_points ⟨k + 1, by omega⟩)

/-! ### Cutting -/

theorem FloatCutInto.ne_nil {Q : Type} {split : Q → Fl F → Option (Q × Q)} {q : Q} {ps : List Q}
    (h : FloatCutInto split q ps) : 1 ≤ ps.length := by
  cases h <;> simp
  omega

/-- Sizes and a total that is kept up to an error by every cut. -/
theorem FloatCutInto.total {Q : Type} {split : Q → Fl F → Option (Q × Q)} {size : ℝ → Q → Prop}
    {arc : Q → ℝ} {B E G : ℝ} (hE : 0 ≤ E)
    (hmono : ∀ {A A' q}, A ≤ A' → size A q → size A' q)
    (hstep : ∀ (A : ℝ) (q : Q) (t : Fl F) (l r : Q), A ≤ B → size A q → t.IsFinite → 0 ≤ t.toReal →
      t.toReal ≤ 1 → split q t = some (l, r) →
      size (A + E) l ∧ size (A + E) r ∧ |arc l + arc r - arc q| ≤ G)
    {q : Q} {ps : List Q} (h : FloatCutInto split q ps) {M : ℝ} (hq : size M q)
    (hM : M + (ps.length - 1 : ℝ) * E ≤ B) :
    (∀ p ∈ ps, size (M + (ps.length - 1 : ℝ) * E) p) ∧
      |(ps.map arc).sum - arc q| ≤ (ps.length - 1 : ℝ) * G := by
  induction h with
  | whole => simpa using hq
  | @cut xs ys p l r t _ tf t0 t1 hs ih =>
    have e : ((xs ++ l :: r :: ys).length - 1 : ℝ) = ((xs ++ p :: ys).length - 1 : ℝ) + 1 := by
      simp only [List.length_append, List.length_cons]
      push_cast
      ring
    rw [e] at hM ⊢
    obtain ⟨h1, h2⟩ := ih (by linarith)
    obtain ⟨a1, a2, a3⟩ := hstep _ p t l r (by linarith) (h1 p (by simp)) tf t0 t1 hs
    have e' : M + (((xs ++ p :: ys).length - 1 : ℝ) + 1) * E
        = M + ((xs ++ p :: ys).length - 1 : ℝ) * E + E := by ring
    rw [e']
    constructor
    · intro x hx
      simp only [List.mem_append, List.mem_cons] at hx
      rcases hx with hx | rfl | rfl | hx
      · exact hmono (by linarith) (h1 x (by simp [hx]))
      · exact a1
      · exact a2
      · exact hmono (by linarith) (h1 x (by simp [hx]))
    · have e2 : ((xs ++ l :: r :: ys).map arc).sum
          = ((xs ++ p :: ys).map arc).sum + (arc l + arc r - arc p) := by
        simp only [List.map_append, List.map_cons, List.sum_append, List.sum_cons]
        ring
      rw [e2]
      have := abs_add_le (((xs ++ p :: ys).map arc).sum - arc q) (arc l + arc r - arc p)
      rw [show ((xs ++ p :: ys).map arc).sum - arc q + (arc l + arc r - arc p)
        = ((xs ++ p :: ys).map arc).sum + (arc l + arc r - arc p) - arc q by ring] at this
      linarith

/-! ### Adding up distances -/

/-- The sum of the distances, exactly. -/
noncomputable def realDistances (ds : List (PointN (Fl F) n × PointN (Fl F) n)) : ℝ :=
  (ds.map fun d => pdist d.1.real d.2.real).sum

theorem realDistances_nonneg (ds : List (PointN (Fl F) n × PointN (Fl F) n)) :
    0 ≤ realDistances ds := by
  refine List.sum_nonneg fun x hx => ?_
  obtain ⟨d, -, rfl⟩ := List.mem_map.1 hx
  exact pdist_nonneg _ _

theorem sumDistances_error (hu : F.u ≤ 1 / 1024) (he : F.eta ≤ 1 / 1024) {B : ℝ} (hB : 0 ≤ B)
    (hB1 : 5 / 2 * B + 1 ≤ F.max)
    (hmax : (1 + F.u) ^ (n + 1) * (n * (5 / 2 * B + 1) ^ 2) + 2 * n * (1 + F.u) ^ n * F.eta
      ≤ F.max) (ds : List (PointN (Fl F) n × PointN (Fl F) n)) :
    (∀ d ∈ ds, BoundedBy B d.1 ∧ BoundedBy B d.2) →
    (1 + F.u) ^ (n + 3 + ds.length) * realDistances ds
      + (1 + F.u) ^ ds.length * (ds.length * (distTiny F n + F.eta)) ≤ F.max →
    (sumDistances ds).IsFinite ∧ 0 ≤ (sumDistances ds).toReal ∧
      |(sumDistances ds).toReal - realDistances ds|
        ≤ ((1 + F.u) ^ (n + 3 + ds.length) - 1) * realDistances ds
          + (1 + F.u) ^ ds.length * (ds.length * (distTiny F n + F.eta)) := by
  have u0 := F.u_nonneg
  have e0 := F.eta_nonneg
  have hT := distTiny_nonneg F n
  induction ds using List.reverseRecOn with
  | nil =>
    intro _ _
    have : sumDistances ([] : List (PointN (Fl F) n × PointN (Fl F) n)) = lit 0 := rfl
    rw [this, lit_zero]
    refine ⟨trivial, le_rfl, ?_⟩
    simp [realDistances]
  | append_singleton ds d ih =>
    intro hb hle
    have es : realDistances (ds ++ [d]) = realDistances ds + pdist d.1.real d.2.real := by
      simp [realDistances]
    have A0 := realDistances_nonneg ds
    have P0 := pdist_nonneg d.1.real d.2.real
    have el : (ds ++ [d]).length = ds.length + 1 := by simp
    have gh : (1 + F.u) ^ (n + 3) ≤ (1 + F.u) ^ (n + 3 + ds.length) :=
      pow_le_pow_right₀ (by linarith) (by omega)
    have W1 := one_le_g (F := F) ds.length
    rw [es, el] at hle ⊢
    push_cast at hle ⊢
    have hle' : (1 + F.u) ^ (n + 3 + ds.length) * (realDistances ds + pdist d.1.real d.2.real)
        + (1 + F.u) ^ ds.length * ((ds.length + 1) * (distTiny F n + F.eta)) ≤ F.max := by
      refine le_trans (add_le_add ?_ ?_) hle
      · exact mul_le_mul_of_nonneg_right (pow_le_pow_right₀ (by linarith) (by omega))
          (by linarith)
      · exact mul_le_mul_of_nonneg_right (pow_le_pow_right₀ (by linarith) (by omega))
          (by positivity)
    obtain ⟨sf, s0, hs⟩ := ih (fun x hx => hb x (by simp [hx])) (by
      refine le_trans (add_le_add ?_ ?_) hle'
      · exact mul_le_mul_of_nonneg_left (by linarith) (by positivity)
      · refine mul_le_mul_of_nonneg_left ?_ (by positivity)
        exact mul_le_mul_of_nonneg_right (by linarith) (by linarith))
    have hsq := sq_finite_of_bounded hu he (hb d (by simp)).1 (hb d (by simp)).2 hB hB1 hmax
    obtain ⟨_, df, d0, hd⟩ := C88_point_distance _ _ hsq
    have ef : sumDistances (ds ++ [d])
        = sumDistances ds + Scalar.sqrt (Point.squaredLength (d.1 - d.2)) := by
      simp [sumDistances]
    rw [ef]
    obtain ⟨sv, hsv, e1⟩ := isFinite_iff.1 sf
    obtain ⟨dv, hdv, e2⟩ := isFinite_iff.1 df
    rw [e2, toReal_fin] at d0 hd
    rw [e1, toReal_fin] at s0 hs
    obtain ⟨herr, hle2⟩ := sum_rel_step (y := F.rnd (sv + dv)) u0 e0 hT P0 gh rfl W1 hs hd (by
      have := F.rnd_err (sv + dv)
      rwa [abs_of_nonneg (show 0 ≤ sv + dv by linarith)] at this)
    have hsd : |sv + dv| ≤ F.max := by
      rw [abs_of_nonneg (by linarith)]
      linarith
    rw [e1, e2, fin_add, F.round_of_le hsd]
    refine ⟨trivial, F.rnd_nonneg (by linarith), ?_⟩
    rw [toReal_fin, show n + 3 + (ds.length + 1) = n + 3 + ds.length + 1 by ring, pow_succ,
      pow_succ _ ds.length]
    exact herr

/-- A-priori size of the sum. -/
theorem realDistances_le {B : ℝ} (hB : 0 ≤ B) (ds : List (PointN (Fl F) n × PointN (Fl F) n))
    (hb : ∀ d ∈ ds, BoundedBy B d.1 ∧ BoundedBy B d.2) :
    realDistances ds ≤ ds.length * (2 * n * B) := by
  induction ds with
  | nil => simp [realDistances]
  | cons d ds ih =>
    have h1 := ih fun x hx => hb x (by simp [hx])
    have h2 := pdist_le_of_bounded hB (hb d (by simp)).1 (hb d (by simp)).2
    have e : realDistances (d :: ds) = pdist d.1.real d.2.real + realDistances ds := by
      simp [realDistances]
    rw [e, List.length_cons]
    push_cast
    linarith

/-- The relative and the absolute part of the error of a sum of `m` distances. -/
noncomputable def sumRel (F : FloatFormat) (n m : ℕ) : ℝ := (1 + F.u) ^ (n + 3 + m) - 1

/-- See `sumRel`. -/
noncomputable def sumTiny (F : FloatFormat) (n m : ℕ) : ℝ :=
  (1 + F.u) ^ m * (m * (distTiny F n + F.eta))

theorem sumRel_nonneg (F : FloatFormat) (n m : ℕ) : 0 ≤ sumRel F n m := by
  have := one_le_g (F := F) (n + 3 + m)
  unfold sumRel
  linarith

theorem sumTiny_nonneg (F : FloatFormat) (n m : ℕ) : 0 ≤ sumTiny F n m := by
  have u0 := F.u_nonneg
  have e0 := F.eta_nonneg
  have hT := distTiny_nonneg F n
  unfold sumTiny
  positivity

theorem sumRel_mono {n m m' : ℕ} (h : m ≤ m') : sumRel F n m ≤ sumRel F n m' := by
  have u0 := F.u_nonneg
  exact sub_le_sub_right (pow_le_pow_right₀ (by linarith) (by omega)) 1

theorem sumTiny_mono {n m m' : ℕ} (h : m ≤ m') : sumTiny F n m ≤ sumTiny F n m' := by
  have u0 := F.u_nonneg
  have e0 := F.eta_nonneg
  have hT := distTiny_nonneg F n
  have hm : (m : ℝ) ≤ m' := by exact_mod_cast h
  unfold sumTiny
  refine mul_le_mul (pow_le_pow_right₀ (by linarith) h)
    (mul_le_mul_of_nonneg_right hm (by linarith)) (by positivity) (by positivity)

/-- The computed sum of at most `m` distances between points with coordinates up to `B`. -/
theorem sumDistances_near (hu : F.u ≤ 1 / 1024) (he : F.eta ≤ 1 / 1024) {B : ℝ} (hB : 0 ≤ B)
    {m : ℕ} (hmax : (1 + F.u) ^ (n + 1) * (n * (5 / 2 * B + 1) ^ 2) + 2 * n * (1 + F.u) ^ n * F.eta
      ≤ F.max) (hB1 : 5 / 2 * B + 1 ≤ F.max)
    (hsum : (1 + sumRel F n m) * (m * (2 * n * B)) + sumTiny F n m ≤ F.max)
    (ds : List (PointN (Fl F) n × PointN (Fl F) n)) (hm : ds.length ≤ m)
    (hb : ∀ d ∈ ds, BoundedBy B d.1 ∧ BoundedBy B d.2) :
    (sumDistances ds).IsFinite ∧ 0 ≤ (sumDistances ds).toReal ∧
      |(sumDistances ds).toReal - realDistances ds|
        ≤ sumRel F n m * realDistances ds + sumTiny F n m := by
  have u0 := F.u_nonneg
  have hm' : (ds.length : ℝ) ≤ m := by exact_mod_cast hm
  have r0 := realDistances_nonneg ds
  have r1 := realDistances_le hB ds hb
  have q0 : 0 ≤ 2 * n * B := by positivity
  have r2 : realDistances ds ≤ m * (2 * n * B) := r1.trans (mul_le_mul_of_nonneg_right hm' q0)
  have s0 := sumRel_nonneg F n m
  have t1 := sumRel_mono (F := F) (n := n) hm
  have t2 := sumTiny_mono (F := F) (n := n) hm
  have t3 := mul_le_mul_of_nonneg_right t1 r0
  obtain ⟨h1, h2, h3⟩ := sumDistances_error hu he hB hB1 hmax ds hb (by
    change _ + sumTiny F n ds.length ≤ _
    have e : (1 + F.u) ^ (n + 3 + ds.length) = 1 + sumRel F n ds.length := by
      unfold sumRel; ring
    rw [e]
    have := mul_le_mul (show 1 + sumRel F n ds.length ≤ 1 + sumRel F n m by linarith) r2 r0
      (by linarith)
    linarith)
  exact ⟨h1, h2, h3.trans (add_le_add t3 t2)⟩

/-! ### One cut -/

/-- The control points of the halves differ from those of the halves of the exact curve by the
error bound of `eval` (C62). -/
theorem bezier_split_near (hN : 1 ≤ N) (b : Bezier (PointN (Fl F) n) N) {t M : ℝ}
    (ht : t ∈ F.grid ∧ |t| ≤ F.max) (t0 : 0 ≤ t) (t1 : t ≤ 1)
    (hb : ∀ k, BoundedBy M (b.control_points k)) (hM0 : 0 ≤ M)
    (hmax : casBound F M (N - 1) ≤ F.max) :
    ∃ l r l' r', b.split (fin t ht) = some (l, r) ∧ b.real.split t = some (l', r') ∧
      (∀ k, BoundedBy (casBound F M (N - 1)) (l.control_points k) ∧
        BoundedBy (casBound F M (N - 1)) (r.control_points k)) ∧
      ∀ k, pdist (l.real.control_points k) (l'.control_points k)
          ≤ Real.sqrt n * (casBound F M (N - 1) - M) ∧
        pdist (r.real.control_points k) (r'.control_points k)
          ≤ Real.sqrt n * (casBound F M (N - 1) - M) := by
  obtain ⟨l, r, hs, hbd, -⟩ := bezier_split_bounded hN b ht t0 t1 hb hM0 hmax
  refine ⟨l, r, _, _, hs, bezier_split_cas b.real t, hbd, ?_⟩
  have fin1 : ∀ i k, ((extend b.control_points k).coords i).IsFinite := by
    intro i k
    unfold extend
    split_ifs with hk
    · exact (hb _ i).1
    · exact isFinite_zero
  have bnd1 : ∀ i k, |((extend b.control_points k).coords i).toReal| ≤ M := by
    intro i k
    unfold extend
    split_ifs with hk
    · exact (hb _ i).2
    · show |(lit 0 : Fl F).toReal| ≤ M
      rw [lit_zero, toReal_fin, abs_zero]
      exact hM0
  have E0 : 0 ≤ casBound F M (N - 1) - M := by
    have := casBound_mono (F := F) hM0 (Nat.zero_le (N - 1))
    have h0 : casBound F M 0 = M := by simp [casBound]
    linarith
  have main : ∀ m j, m ≤ N - 1 →
      pdist (cas (extend b.control_points) (fin t ht) m j).real
        (cas (extend b.real.control_points) t m j) ≤ Real.sqrt n * (casBound F M (N - 1) - M) := by
    intro m j hm
    refine near_point E0 fun i => ?_
    have hmono := casBound_mono (F := F) hM0 hm
    obtain ⟨v, hv, ev, dv⟩ := cas_error _ ht t0 t1 i (fin1 i) (bnd1 i) m (hmono.trans hmax) j
    have ec : (cas (extend b.real.control_points) t m j).coords i
        = bsum m (fun k => ((extend b.control_points (j + k)).coords i).toReal) t := by
      rw [← coord_pn n (cas (extend b.real.control_points) t m j).coords i]
      refine (coord_cas _ _ _ _ _).trans ?_
      congr 1
      funext k
      unfold extend
      split_ifs with hk
      · exact coord_pn n (b.control_points ⟨j + k, hk⟩).real.coords i
      · refine (coord_pn n _ i).trans ?_
        show (lit 0 : ℝ) = (lit 0 : Fl F).toReal
        rw [lit_zero, toReal_fin, lit_real, Rat.cast_zero]
    rw [ec, ev, toReal_fin]
    exact dv.trans (by linarith)
  rw [bezier_split_cas] at hs
  obtain ⟨rfl, rfl⟩ := Prod.mk.inj (Option.some.inj hs)
  exact fun k => ⟨main k 0 (by omega), main (N - 1 - k) k (by omega)⟩

/-- The arc length of the curve, as in C122. -/
noncomputable abbrev Bezier.arc {P : Type} [Point ℝ P] (b : Bezier P N) : ℝ :=
  arcLength (Point.dim P) (fun t i => deriv (fun u => bezierCoord b.controlPoints u i) t)

/-- A cut and moving the control points of the two parts by up to `δ`. -/
theorem arc_near_split (hN : 1 ≤ N) {b l r l' r' : Bezier (PointN ℝ n) N} {t δ : ℝ} (t0 : 0 ≤ t)
    (t1 : t ≤ 1) (hs : b.split t = some (l', r'))
    (hl : ∀ k, pdist (l.control_points k) (l'.control_points k) ≤ δ)
    (hr : ∀ k, pdist (r.control_points k) (r'.control_points k) ≤ δ) :
    |l.arc + r.arc - b.arc| ≤ 4 * ((N - 1 : ℕ) : ℝ) * δ := by
  have h1 := C133_arc_length l l' hN δ hl
  have h2 := C133_arc_length r r' hN δ hr
  have h3 := bezier_arc_add b l' r' hN t t0 t1 hs
  change |l.arc - l'.arc| ≤ _ at h1
  change |r.arc - r'.arc| ≤ _ at h2
  change l'.arc + r'.arc = b.arc at h3
  rw [← h3, show l.arc + r.arc - (l'.arc + r'.arc) = (l.arc - l'.arc) + (r.arc - r'.arc) by ring]
  refine (abs_add_le _ _).trans ?_
  linarith

/-! ### The bounds -/

theorem list_sum_le {Q : Type} {f g : Q → ℝ} (ps : List Q) (h : ∀ p ∈ ps, f p ≤ g p) :
    (ps.map f).sum ≤ (ps.map g).sum := List.sum_le_sum h

theorem realDistances_chords (hN : 1 ≤ N) (ps : List (Bezier (PointN (Fl F) n) N)) :
    realDistances (Bezier.chords hN ps) = (ps.map fun p =>
      pdist (p.real.control_points ⟨0, hN⟩) (p.real.control_points ⟨N - 1, by omega⟩)).sum := by
  unfold realDistances Bezier.chords
  rw [List.map_map]
  rfl

theorem realDistances_edges (ps : List (Bezier (PointN (Fl F) n) N)) :
    realDistances (Bezier.edges ps)
      = (ps.map fun p => controlPolygonLength p.real.control_points).sum := by
  induction ps with
  | nil => simp [realDistances, Bezier.edges]
  | cons p ps ih =>
    have e : realDistances (Bezier.edges (p :: ps))
        = controlPolygonLength p.real.control_points + realDistances (Bezier.edges ps) := by
      unfold realDistances Bezier.edges
      rw [List.flatMap_cons, List.map_append, List.sum_append]
      congr 1
      rw [List.map_ofFn, List.sum_ofFn, controlPolygonLength, ← Fin.sum_univ_eq_sum_range (fun k =>
        if h : k + 1 < N then pdist (p.real.control_points ⟨k, by omega⟩)
          (p.real.control_points ⟨k + 1, h⟩) else 0)]
      refine Finset.sum_congr rfl fun k _ => ?_
      rw [dif_pos (show (k : ℕ) + 1 < N by omega)]
      rfl
    rw [e, ih, List.map_cons, List.sum_cons]

theorem length_edges (ps : List (Bezier (PointN (Fl F) n) N)) :
    (Bezier.edges ps).length = ps.length * (N - 1) := by
  unfold Bezier.edges
  rw [List.length_flatMap]
  simp

/-- From exact bounds on the arc length to bounds by computed sums. -/
theorem computed_bounds {A δ L U lo hi ρ T : ℝ} (hL : L ≤ A + δ) (hU : A - δ ≤ U) (hρ : 0 ≤ ρ)
    (hρ1 : ρ ≤ 1) (hlo : |lo - L| ≤ ρ * L + T) (hhi : |hi - U| ≤ ρ * U + T) :
    lo ≤ (1 + ρ) * (A + δ) + T ∧ (1 - ρ) * (A - δ) ≤ hi + T := by
  rw [abs_le] at hlo hhi
  have h1 := mul_le_mul_of_nonneg_left hL (show 0 ≤ 1 + ρ by linarith)
  have h2 := mul_le_mul_of_nonneg_left hU (show 0 ≤ 1 - ρ by linarith)
  constructor <;> linarith

/-- The sums of the distances, exact and computed. -/
theorem bezier_cut_sums (hN : 1 ≤ N) (b : Bezier (PointN (Fl F) n) N) {M E : ℝ} (hM : 0 ≤ M)
    (hb : ∀ k, BoundedBy M (b.control_points k)) (hu : F.u ≤ 1 / 1024) (he : F.eta ≤ 1 / 1024)
    (hE : E = ((1 + F.u) ^ 2 * (1 + F.u + F.eta)) ^ (N - 1)
      * (M + 1 + (N - 1 : ℕ) * (3 * (1 + F.u) * F.eta)) - (M + 1))
    (hmax : M + 1 + E ≤ F.max) (ps : List (Bezier (PointN (Fl F) n) N))
    (h : FloatCutInto (fun q t => q.split t) b ps) (hlen : (ps.length - 1 : ℝ) * E ≤ 1)
    {m : ℕ} (hm : ps.length * N ≤ m)
    (hsq : (1 + F.u) ^ (n + 1) * (n * (5 / 2 * (M + 1) + 1) ^ 2) + 2 * n * (1 + F.u) ^ n * F.eta
      ≤ F.max) (hB1 : 5 / 2 * (M + 1) + 1 ≤ F.max)
    (hsum : (1 + sumRel F n m) * (m * (2 * n * (M + 1))) + sumTiny F n m ≤ F.max) :
    let A := arcLength n (fun t i => deriv (fun u => bezierCoord b.real.controlPoints u i) t)
    let δ := (ps.length - 1 : ℝ) * (4 * ((N - 1 : ℕ) : ℝ) * (Real.sqrt n * E))
    let lo := sumDistances (Bezier.chords hN ps)
    let hi := sumDistances (Bezier.edges ps)
    (∀ p ∈ ps, ∀ k, BoundedBy (M + 1) (p.control_points k)) ∧ lo.IsFinite ∧ hi.IsFinite ∧
    realDistances (Bezier.chords hN ps) ≤ A + δ ∧ A - δ ≤ realDistances (Bezier.edges ps) ∧
    |lo.toReal - realDistances (Bezier.chords hN ps)|
      ≤ sumRel F n m * realDistances (Bezier.chords hN ps) + sumTiny F n m ∧
    |hi.toReal - realDistances (Bezier.edges ps)|
      ≤ sumRel F n m * realDistances (Bezier.edges ps) + sumTiny F n m := by
  intro A δ lo hi
  have e : E = casBound F (M + 1) (N - 1) - (M + 1) := hE
  have E0 : 0 ≤ E := by
    have := casBound_mono (F := F) (show 0 ≤ M + 1 by linarith) (Nat.zero_le (N - 1))
    have h0 : casBound F (M + 1) 0 = M + 1 := by simp [casBound]
    linarith
  obtain ⟨hbd, harc⟩ := h.total (size := fun A q => 0 ≤ A ∧ ∀ k, BoundedBy A (q.control_points k))
    (arc := fun q => q.real.arc) (B := M + 1) (E := E)
    (G := 4 * ((N - 1 : ℕ) : ℝ) * (Real.sqrt n * E)) E0
    (fun hA hq => ⟨hq.1.trans hA, fun k i => ⟨(hq.2 k i).1, (hq.2 k i).2.trans hA⟩⟩)
    (by
      rintro A q t l r hA ⟨A0, hq⟩ tf t0 t1 hs
      obtain ⟨τ, hτ, rfl⟩ := isFinite_iff.1 tf
      rw [toReal_fin] at t0 t1
      have hEA := casBound_sub_mono (F := F) (N - 1) hA
      rw [← e] at hEA
      obtain ⟨l1, r1, l', r', h1, h2, h3, h4⟩ := bezier_split_near hN q hτ t0 t1 hq A0
        (by linarith)
      rw [h1, Option.some.injEq, Prod.mk.injEq] at hs
      obtain ⟨rfl, rfl⟩ := hs
      have w := mul_le_mul_of_nonneg_left hEA (Real.sqrt_nonneg n)
      exact ⟨⟨by linarith, fun k i => ⟨((h3 k).1 i).1, ((h3 k).1 i).2.trans (by linarith)⟩⟩,
        ⟨by linarith, fun k i => ⟨((h3 k).2 i).1, ((h3 k).2 i).2.trans (by linarith)⟩⟩,
        arc_near_split hN t0 t1 h2 (fun k => (h4 k).1.trans w) (fun k => (h4 k).2.trans w)⟩)
    (M := M) ⟨hM, hb⟩ (by linarith)
  have hbd' : ∀ p ∈ ps, ∀ k, BoundedBy (M + 1) (p.control_points k) := fun p hp k i =>
    ⟨((hbd p hp).2 k i).1, ((hbd p hp).2 k i).2.trans (by linarith)⟩
  have hm1 : (Bezier.chords hN ps).length ≤ m := by
    unfold Bezier.chords
    rw [List.length_map]
    exact le_trans (Nat.le_mul_of_pos_right _ hN) hm
  have hm2 : (Bezier.edges ps).length ≤ m := by
    rw [length_edges]
    exact le_trans (Nat.mul_le_mul_left _ (Nat.sub_le _ _)) hm
  obtain ⟨c1, -, c2⟩ := sumDistances_near hu he (by linarith) hsq hB1 hsum _ hm1 (by
    intro d hd
    obtain ⟨p, hp, rfl⟩ := List.mem_map.1 hd
    exact ⟨hbd' p hp _, hbd' p hp _⟩)
  obtain ⟨d1, -, d2⟩ := sumDistances_near hu he (by linarith) hsq hB1 hsum _ hm2 (by
    intro d hd
    obtain ⟨p, hp, hd⟩ := List.mem_flatMap.1 hd
    obtain ⟨k, rfl⟩ := (List.mem_ofFn' _ _).1 hd
    exact ⟨hbd' p hp _, hbd' p hp _⟩)
  refine ⟨hbd', c1, d1, ?_, ?_, c2, d2⟩
  · rw [realDistances_chords]
    have := list_sum_le ps fun p _ => bezier_chord_le_arc p.real hN
    have h2 := (abs_le.1 harc).2
    change _ - A ≤ δ at h2
    linarith
  · rw [realDistances_edges]
    have := list_sum_le ps fun p _ => C71_arc_length p.real hN
    have h2 := (abs_le.1 harc).1
    change -δ ≤ _ - A at h2
    linarith

/-- **C137**: a curve is cut by `split` at floats in `[0, 1]`, in any order; then all control points
of the pieces are finite, and up to rounding errors the computed sum of the chords is at most the
arc length of the curve and the computed sum of the control polygons at least the arc length. `E` is
the error of one `split` (C86), `m` bounds the number of distances that are added up. -/
theorem C137_bounds (hN : 1 ≤ N) (b : Bezier (PointN (Fl F) n) N) {M E : ℝ} (hM : 0 ≤ M)
    (hb : ∀ k, BoundedBy M (b.control_points k)) (hu : F.u ≤ 1 / 1024) (he : F.eta ≤ 1 / 1024)
    (hE : E = ((1 + F.u) ^ 2 * (1 + F.u + F.eta)) ^ (N - 1)
      * (M + 1 + (N - 1 : ℕ) * (3 * (1 + F.u) * F.eta)) - (M + 1))
    (hmax : M + 1 + E ≤ F.max) (ps : List (Bezier (PointN (Fl F) n) N))
    (h : FloatCutInto (fun q t => q.split t) b ps) (hlen : (ps.length - 1 : ℝ) * E ≤ 1)
    {m : ℕ} (hm : ps.length * N ≤ m) (hρ : sumRel F n m ≤ 1)
    (hsq : (1 + F.u) ^ (n + 1) * (n * (5 / 2 * (M + 1) + 1) ^ 2) + 2 * n * (1 + F.u) ^ n * F.eta
      ≤ F.max) (hB1 : 5 / 2 * (M + 1) + 1 ≤ F.max)
    (hsum : (1 + sumRel F n m) * (m * (2 * n * (M + 1))) + sumTiny F n m ≤ F.max) :
    let A := arcLength n (fun t i => deriv (fun u => bezierCoord b.real.controlPoints u i) t)
    let δ := (ps.length - 1 : ℝ) * (4 * ((N - 1 : ℕ) : ℝ) * (Real.sqrt n * E))
    let lo := sumDistances (Bezier.chords hN ps)
    let hi := sumDistances (Bezier.edges ps)
    (∀ p ∈ ps, ∀ k, BoundedBy (M + 1) (p.control_points k)) ∧ lo.IsFinite ∧ hi.IsFinite ∧
    lo.toReal ≤ (1 + sumRel F n m) * (A + δ) + sumTiny F n m ∧
    (1 - sumRel F n m) * (A - δ) ≤ hi.toReal + sumTiny F n m := by
  obtain ⟨h1, h2, h3, h4, h5, h6, h7⟩ := bezier_cut_sums hN b hM hb hu he hE hmax ps h hlen hm hsq hB1 hsum
  exact ⟨h1, h2, h3, computed_bounds h4 h5 (sumRel_nonneg F n m) hρ h6 h7⟩

/-! ### Quadratic and cubic curves -/

/-- The first and the last control points of the pieces. -/
def QuadraticBezier.chords (ps : List (QuadraticBezier (PointN (Fl F) n))) :
    List (PointN (Fl F) n × PointN (Fl F) n) := ps.map fun p => (p.start, p.end_)

/-- The consecutive control points of the pieces. -/
def QuadraticBezier.edges (ps : List (QuadraticBezier (PointN (Fl F) n))) :
    List (PointN (Fl F) n × PointN (Fl F) n) := ps.flatMap fun p => [(p.start, p.ctrl), (p.ctrl, p.end_)]

/-- The first and the last control points of the pieces. -/
def CubicBezier.chords (ps : List (CubicBezier (PointN (Fl F) n))) :
    List (PointN (Fl F) n × PointN (Fl F) n) := ps.map fun p => (p.start, p.end_)

/-- The consecutive control points of the pieces. -/
def CubicBezier.edges (ps : List (CubicBezier (PointN (Fl F) n))) :
    List (PointN (Fl F) n × PointN (Fl F) n) :=
  ps.flatMap fun p => [(p.start, p.ctrl1), (p.ctrl1, p.ctrl2), (p.ctrl2, p.end_)]

theorem quadratic_chords_eq (ps : List (QuadraticBezier (PointN (Fl F) n))) :
    realDistances (QuadraticBezier.chords ps) = (ps.map fun p =>
      pdist (p.real.generic.control_points ⟨0, by norm_num⟩)
        (p.real.generic.control_points ⟨3 - 1, by norm_num⟩)).sum := by
  unfold realDistances QuadraticBezier.chords
  rw [List.map_map]
  rfl

theorem quadratic_edges_eq (ps : List (QuadraticBezier (PointN (Fl F) n))) :
    realDistances (QuadraticBezier.edges ps) = (ps.map fun p =>
      controlPolygonLength p.real.generic.control_points).sum := by
  induction ps with
  | nil => simp [realDistances, QuadraticBezier.edges]
  | cons p ps ih =>
    rw [List.map_cons, List.sum_cons, ← ih, QuadraticBezier.generic_polygon]
    simp [realDistances, QuadraticBezier.edges, QuadraticBezier.real, add_assoc]

theorem cubic_chords_eq (ps : List (CubicBezier (PointN (Fl F) n))) :
    realDistances (CubicBezier.chords ps) = (ps.map fun p =>
      pdist (p.real.generic.control_points ⟨0, by norm_num⟩)
        (p.real.generic.control_points ⟨4 - 1, by norm_num⟩)).sum := by
  unfold realDistances CubicBezier.chords
  rw [List.map_map]
  rfl

theorem cubic_edges_eq (ps : List (CubicBezier (PointN (Fl F) n))) :
    realDistances (CubicBezier.edges ps) = (ps.map fun p =>
      controlPolygonLength p.real.generic.control_points).sum := by
  induction ps with
  | nil => simp [realDistances, CubicBezier.edges]
  | cons p ps ih =>
    rw [List.map_cons, List.sum_cons, ← ih, CubicBezier.generic_polygon]
    simp [realDistances, CubicBezier.edges, CubicBezier.real, add_assoc]

theorem quadratic_split_near (q : QuadraticBezier (PointN (Fl F) n)) {t M : ℝ}
    (ht : t ∈ F.grid ∧ |t| ≤ F.max) (t0 : 0 ≤ t) (t1 : t ≤ 1) (hu : F.u ≤ 1 / 1024)
    (he : F.eta ≤ 1 / 1024) (hM : 0 ≤ M) (hs : BoundedBy M q.start) (hc : BoundedBy M q.ctrl)
    (hd : BoundedBy M q.end_) (hmax : 3 * M + 2 ≤ F.max) (k : Fin 3) :
    pdist ((q.split (fin t ht)).1.real.generic.control_points k)
      ((q.real.split t).1.generic.control_points k)
        ≤ Real.sqrt n * (13 * F.u * M + 9 * F.eta) ∧
    pdist ((q.split (fin t ht)).2.real.generic.control_points k)
      ((q.real.split t).2.generic.control_points k)
        ≤ Real.sqrt n * (13 * F.u * M + 9 * F.eta) := by
  have e0 := F.eta_nonneg
  have uM := mul_nonneg F.u_nonneg hM
  have E0 : 0 ≤ 13 * F.u * M + 9 * F.eta := by linarith
  have hab := C67_line_eval ⟨q.start, q.ctrl⟩ ht t0 t1 hu he hs hc (by linarith)
  have hbc := C67_line_eval ⟨q.ctrl, q.end_⟩ ht t0 t1 hu he hc hd (by linarith)
  have habc := C67_quadratic_casteljau q ht t0 t1 hu he hs hc hd hmax
  have k0 : ∀ p : PointN (Fl F) n, pdist p.real p.real ≤ Real.sqrt n * (13 * F.u * M + 9 * F.eta) :=
    fun p => near_point E0 fun j => by
      show |(p.coords j).toReal - (p.coords j).toReal| ≤ _
      rw [sub_self, abs_zero]; exact E0
  have k1 : pdist (q.split (fin t ht)).1.ctrl.real (q.real.split t).1.ctrl
      ≤ Real.sqrt n * (13 * F.u * M + 9 * F.eta) := near_point E0 fun j => by
    have := (hab j).2
    have e : (q.real.split t).1.ctrl.coords j
        = (1 - t) * (q.start.coords j).toReal + t * (q.ctrl.coords j).toReal := by
      simp only [QuadraticBezier.split, QuadraticBezier.real, PointN.real, coords_add, coords_sub,
        coords_mul]
      ring
    rw [e]
    exact this.trans (by linarith)
  have k2 : pdist (q.split (fin t ht)).2.ctrl.real (q.real.split t).2.ctrl
      ≤ Real.sqrt n * (13 * F.u * M + 9 * F.eta) := near_point E0 fun j => by
    have := (hbc j).2
    have e : (q.real.split t).2.ctrl.coords j
        = (1 - t) * (q.ctrl.coords j).toReal + t * (q.end_.coords j).toReal := by
      simp only [QuadraticBezier.split, QuadraticBezier.real, PointN.real, coords_add, coords_sub,
        coords_mul]
      ring
    rw [e]
    exact this.trans (by linarith)
  have k3 : pdist (q.split (fin t ht)).1.end_.real (q.real.split t).1.end_
      ≤ Real.sqrt n * (13 * F.u * M + 9 * F.eta) := near_point E0 fun j => by
    have := (habc j).2
    have e : (q.real.split t).1.end_.coords j
        = (1 - t) ^ 2 * (q.start.coords j).toReal
        + 2 * t * (1 - t) * (q.ctrl.coords j).toReal + t ^ 2 * (q.end_.coords j).toReal := by
      simp only [QuadraticBezier.split, QuadraticBezier.real, PointN.real, coords_add, coords_sub,
        coords_mul]
      ring
    rw [e]
    exact this
  fin_cases k
  · exact ⟨k0 q.start, k3⟩
  · exact ⟨k1, k2⟩
  · exact ⟨k3, k0 q.end_⟩

theorem cubic_split_near (c : CubicBezier (PointN (Fl F) n)) {t M : ℝ}
    (ht : t ∈ F.grid ∧ |t| ≤ F.max) (t0 : 0 ≤ t) (t1 : t ≤ 1) (hu : F.u ≤ 1 / 1024)
    (he : F.eta ≤ 1 / 1024) (hM : 0 ≤ M) (ha : BoundedBy M c.start) (hb : BoundedBy M c.ctrl1)
    (hc : BoundedBy M c.ctrl2) (hd : BoundedBy M c.end_) (hmax : 3 * M + 2 ≤ F.max) (k : Fin 4) :
    pdist ((c.split (fin t ht)).1.real.generic.control_points k)
      ((c.real.split t).1.generic.control_points k)
        ≤ Real.sqrt n * (20 * F.u * M + 14 * F.eta) ∧
    pdist ((c.split (fin t ht)).2.real.generic.control_points k)
      ((c.real.split t).2.generic.control_points k)
        ≤ Real.sqrt n * (20 * F.u * M + 14 * F.eta) := by
  have e0 := F.eta_nonneg
  have uM := mul_nonneg F.u_nonneg hM
  have E0 : 0 ≤ 20 * F.u * M + 14 * F.eta := by linarith
  have w : Real.sqrt n * (13 * F.u * M + 9 * F.eta) ≤ Real.sqrt n * (20 * F.u * M + 14 * F.eta) :=
    mul_le_mul_of_nonneg_left (by linarith) (Real.sqrt_nonneg n)
  have hab := quadratic_split_near ⟨c.start, c.ctrl1, c.ctrl2⟩ ht t0 t1 hu he hM ha hb hc hmax
  have hbc := quadratic_split_near ⟨c.ctrl1, c.ctrl2, c.end_⟩ ht t0 t1 hu he hM hb hc hd hmax
  have habc := C67_cubic_casteljau c ht t0 t1 hu he ha hb hc hd hmax
  have k3 : pdist (c.split (fin t ht)).1.end_.real (c.real.split t).1.end_
      ≤ Real.sqrt n * (20 * F.u * M + 14 * F.eta) := near_point E0 fun j => by
    have := (habc j).2
    have e : (c.real.split t).1.end_.coords j
        = (1 - t) ^ 3 * (c.start.coords j).toReal
        + 3 * t * (1 - t) ^ 2 * (c.ctrl1.coords j).toReal
        + 3 * t ^ 2 * (1 - t) * (c.ctrl2.coords j).toReal + t ^ 3 * (c.end_.coords j).toReal := by
      simp only [CubicBezier.split, CubicBezier.real, PointN.real, coords_add, coords_sub,
        coords_mul]
      ring
    rw [e]
    exact this
  have a0 := (hab 0).1
  have a1 := (hab 1).1
  have a2 := (hab 2).1
  have b0 := (hbc 0).2
  have b1 := (hbc 1).2
  have b2 := (hbc 2).2
  fin_cases k
  · exact ⟨a0.trans w, k3⟩
  · exact ⟨a1.trans w, b0.trans w⟩
  · exact ⟨a2.trans w, b1.trans w⟩
  · exact ⟨k3, b2.trans w⟩

/-- The sums of the distances, exact and computed. -/
theorem quadratic_cut_sums (q : QuadraticBezier (PointN (Fl F) n)) {M E : ℝ} (hM : 0 ≤ M)
    (hs : BoundedBy M q.start) (hc : BoundedBy M q.ctrl) (hd : BoundedBy M q.end_)
    (hu : F.u ≤ 1 / 1024) (he : F.eta ≤ 1 / 1024) (hE : E = 13 * F.u * (M + 1) + 9 * F.eta)
    (hmax : 3 * (M + 1) + 2 ≤ F.max) (ps : List (QuadraticBezier (PointN (Fl F) n)))
    (h : FloatCutInto (fun q t => some (q.split t)) q ps) (hlen : (ps.length - 1 : ℝ) * E ≤ 1)
    {m : ℕ} (hm : ps.length * 2 ≤ m)
    (hsq : (1 + F.u) ^ (n + 1) * (n * (5 / 2 * (M + 1) + 1) ^ 2) + 2 * n * (1 + F.u) ^ n * F.eta
      ≤ F.max)
    (hsum : (1 + sumRel F n m) * (m * (2 * n * (M + 1))) + sumTiny F n m ≤ F.max) :
    let A := arcLength n (fun t i => coord (q.real.derivative.eval t) i)
    let δ := (ps.length - 1 : ℝ) * (8 * (Real.sqrt n * E))
    let lo := sumDistances (QuadraticBezier.chords ps)
    let hi := sumDistances (QuadraticBezier.edges ps)
    (∀ p ∈ ps, BoundedBy (M + 1) p.start ∧ BoundedBy (M + 1) p.ctrl ∧ BoundedBy (M + 1) p.end_) ∧
    lo.IsFinite ∧ hi.IsFinite ∧
    realDistances (QuadraticBezier.chords ps) ≤ A + δ ∧ A - δ ≤ realDistances (QuadraticBezier.edges ps) ∧
    |lo.toReal - realDistances (QuadraticBezier.chords ps)|
      ≤ sumRel F n m * realDistances (QuadraticBezier.chords ps) + sumTiny F n m ∧
    |hi.toReal - realDistances (QuadraticBezier.edges ps)|
      ≤ sumRel F n m * realDistances (QuadraticBezier.edges ps) + sumTiny F n m := by
  intro A δ lo hi
  have e0 := F.eta_nonneg
  have u0 := F.u_nonneg
  have E0 : 0 ≤ E := by rw [hE]; positivity
  obtain ⟨hbd, harc⟩ := h.total (size := fun A q => 0 ≤ A ∧ BoundedBy A q.start ∧
      BoundedBy A q.ctrl ∧ BoundedBy A q.end_)
    (arc := fun q => q.real.generic.arc) (B := M + 1) (E := E)
    (G := 8 * (Real.sqrt n * E)) E0
    (fun hA hq => ⟨hq.1.trans hA, fun i => ⟨(hq.2.1 i).1, (hq.2.1 i).2.trans hA⟩,
      fun i => ⟨(hq.2.2.1 i).1, (hq.2.2.1 i).2.trans hA⟩,
      fun i => ⟨(hq.2.2.2 i).1, (hq.2.2.2 i).2.trans hA⟩⟩)
    (by
      rintro A q t l r hA ⟨A0, q1, q2, q3⟩ tf t0 t1 hs
      obtain ⟨τ, hτ, rfl⟩ := isFinite_iff.1 tf
      rw [toReal_fin] at t0 t1
      have hEA : 13 * F.u * A + 9 * F.eta ≤ E := by
        rw [hE]
        have := mul_le_mul_of_nonneg_left hA u0
        linarith
      have h4 := quadratic_split_near q hτ t0 t1 hu he A0 q1 q2 q3 (by linarith)
      have h5 := (C86_quadratic q hτ t0 t1 hu he q1 q2 q3 (by linarith)).1
      rw [Option.some.injEq, Prod.eq_iff_fst_eq_snd_eq] at hs
      obtain ⟨rfl, rfl⟩ := hs
      have w := mul_le_mul_of_nonneg_left hEA (Real.sqrt_nonneg n)
      have w' : ∀ {p : PointN (Fl F) n}, BoundedBy (A + (13 * F.u * A + 9 * F.eta)) p →
          BoundedBy (A + E) p := fun h i => ⟨(h i).1, (h i).2.trans (by linarith)⟩
      refine ⟨⟨by linarith, w' (h5 _ (by simp)), w' (h5 _ (by simp)), w' (h5 _ (by simp))⟩,
        ⟨by linarith, w' (h5 _ (by simp)), w' (h5 _ (by simp)), w' (h5 _ (by simp))⟩, ?_⟩
      have := arc_near_split (by norm_num) t0 t1 (q.real.generic_split τ)
        (fun k => (h4 k).1.trans w) (fun k => (h4 k).2.trans w)
      refine this.trans (le_of_eq ?_)
      norm_num)
    (M := M) ⟨hM, hs, hc, hd⟩ (by linarith)
  have w' : ∀ {p : PointN (Fl F) n}, BoundedBy (M + (ps.length - 1 : ℝ) * E) p →
      BoundedBy (M + 1) p := fun h i => ⟨(h i).1, (h i).2.trans (by linarith)⟩
  have hbd' : ∀ p ∈ ps, BoundedBy (M + 1) p.start ∧ BoundedBy (M + 1) p.ctrl ∧
      BoundedBy (M + 1) p.end_ := fun p hp =>
    ⟨w' (hbd p hp).2.1, w' (hbd p hp).2.2.1, w' (hbd p hp).2.2.2⟩
  have hB1 : 5 / 2 * (M + 1) + 1 ≤ F.max := by linarith
  have hm1 : (QuadraticBezier.chords ps).length ≤ m := by
    unfold QuadraticBezier.chords
    rw [List.length_map]
    omega
  have hm2 : (QuadraticBezier.edges ps).length ≤ m := by
    unfold QuadraticBezier.edges
    rw [List.length_flatMap]
    simpa using hm
  obtain ⟨c1, -, c2⟩ := sumDistances_near hu he (by linarith) hsq hB1 hsum _ hm1 (by
    intro d hd
    obtain ⟨p, hp, rfl⟩ := List.mem_map.1 hd
    exact ⟨(hbd' p hp).1, (hbd' p hp).2.2⟩)
  obtain ⟨d1, -, d2⟩ := sumDistances_near hu he (by linarith) hsq hB1 hsum _ hm2 (by
    intro d hd
    obtain ⟨p, hp, hd⟩ := List.mem_flatMap.1 hd
    obtain ⟨h1, h2, h3⟩ := hbd' p hp
    simp only [List.mem_cons, List.not_mem_nil, or_false] at hd
    rcases hd with rfl | rfl
    exacts [⟨h1, h2⟩, ⟨h2, h3⟩])
  have hA : q.real.generic.arc = A := q.real.generic_arc
  simp only [hA] at harc
  have harc := abs_le.1 harc
  change -δ ≤ _ ∧ _ ≤ δ at harc
  refine ⟨hbd', c1, d1, ?_, ?_, c2, d2⟩
  · have := list_sum_le ps fun p _ => bezier_chord_le_arc p.real.generic (by norm_num)
    have e := quadratic_chords_eq ps
    linarith [harc.2]
  · have := list_sum_le ps fun p _ => C71_arc_length p.real.generic (by norm_num)
    have e := quadratic_edges_eq ps
    linarith [harc.1]

/-- **C137** for quadratic curves. -/
theorem C137_quadratic (q : QuadraticBezier (PointN (Fl F) n)) {M E : ℝ} (hM : 0 ≤ M)
    (hs : BoundedBy M q.start) (hc : BoundedBy M q.ctrl) (hd : BoundedBy M q.end_)
    (hu : F.u ≤ 1 / 1024) (he : F.eta ≤ 1 / 1024) (hE : E = 13 * F.u * (M + 1) + 9 * F.eta)
    (hmax : 3 * (M + 1) + 2 ≤ F.max) (ps : List (QuadraticBezier (PointN (Fl F) n)))
    (h : FloatCutInto (fun q t => some (q.split t)) q ps) (hlen : (ps.length - 1 : ℝ) * E ≤ 1)
    {m : ℕ} (hm : ps.length * 2 ≤ m) (hρ : sumRel F n m ≤ 1)
    (hsq : (1 + F.u) ^ (n + 1) * (n * (5 / 2 * (M + 1) + 1) ^ 2) + 2 * n * (1 + F.u) ^ n * F.eta
      ≤ F.max)
    (hsum : (1 + sumRel F n m) * (m * (2 * n * (M + 1))) + sumTiny F n m ≤ F.max) :
    let A := arcLength n (fun t i => coord (q.real.derivative.eval t) i)
    let δ := (ps.length - 1 : ℝ) * (8 * (Real.sqrt n * E))
    let lo := sumDistances (QuadraticBezier.chords ps)
    let hi := sumDistances (QuadraticBezier.edges ps)
    (∀ p ∈ ps, BoundedBy (M + 1) p.start ∧ BoundedBy (M + 1) p.ctrl ∧ BoundedBy (M + 1) p.end_) ∧
    lo.IsFinite ∧ hi.IsFinite ∧
    lo.toReal ≤ (1 + sumRel F n m) * (A + δ) + sumTiny F n m ∧
    (1 - sumRel F n m) * (A - δ) ≤ hi.toReal + sumTiny F n m := by
  obtain ⟨h1, h2, h3, h4, h5, h6, h7⟩ := quadratic_cut_sums q hM hs hc hd hu he hE hmax ps h hlen hm hsq hsum
  exact ⟨h1, h2, h3, computed_bounds h4 h5 (sumRel_nonneg F n m) hρ h6 h7⟩

/-- The sums of the distances, exact and computed. -/
theorem cubic_cut_sums (c : CubicBezier (PointN (Fl F) n)) {M E : ℝ} (hM : 0 ≤ M)
    (hs : BoundedBy M c.start) (hc1 : BoundedBy M c.ctrl1) (hc2 : BoundedBy M c.ctrl2)
    (hd : BoundedBy M c.end_)
    (hu : F.u ≤ 1 / 1024) (he : F.eta ≤ 1 / 1024) (hE : E = 20 * F.u * (M + 1) + 14 * F.eta)
    (hmax : 3 * (M + 1) + 2 ≤ F.max) (ps : List (CubicBezier (PointN (Fl F) n)))
    (h : FloatCutInto (fun c t => some (c.split t)) c ps) (hlen : (ps.length - 1 : ℝ) * E ≤ 1)
    {m : ℕ} (hm : ps.length * 3 ≤ m)
    (hsq : (1 + F.u) ^ (n + 1) * (n * (5 / 2 * (M + 1) + 1) ^ 2) + 2 * n * (1 + F.u) ^ n * F.eta
      ≤ F.max)
    (hsum : (1 + sumRel F n m) * (m * (2 * n * (M + 1))) + sumTiny F n m ≤ F.max) :
    let A := arcLength n (fun t i => coord (c.real.derivative.eval t) i)
    let δ := (ps.length - 1 : ℝ) * (12 * (Real.sqrt n * E))
    let lo := sumDistances (CubicBezier.chords ps)
    let hi := sumDistances (CubicBezier.edges ps)
    (∀ p ∈ ps, BoundedBy (M + 1) p.start ∧ BoundedBy (M + 1) p.ctrl1 ∧ BoundedBy (M + 1) p.ctrl2 ∧
      BoundedBy (M + 1) p.end_) ∧
    lo.IsFinite ∧ hi.IsFinite ∧
    realDistances (CubicBezier.chords ps) ≤ A + δ ∧ A - δ ≤ realDistances (CubicBezier.edges ps) ∧
    |lo.toReal - realDistances (CubicBezier.chords ps)|
      ≤ sumRel F n m * realDistances (CubicBezier.chords ps) + sumTiny F n m ∧
    |hi.toReal - realDistances (CubicBezier.edges ps)|
      ≤ sumRel F n m * realDistances (CubicBezier.edges ps) + sumTiny F n m := by
  intro A δ lo hi
  have e0 := F.eta_nonneg
  have u0 := F.u_nonneg
  have E0 : 0 ≤ E := by rw [hE]; positivity
  obtain ⟨hbd, harc⟩ := h.total (size := fun A q => 0 ≤ A ∧ BoundedBy A q.start ∧
      BoundedBy A q.ctrl1 ∧ BoundedBy A q.ctrl2 ∧ BoundedBy A q.end_)
    (arc := fun q => q.real.generic.arc) (B := M + 1) (E := E)
    (G := 12 * (Real.sqrt n * E)) E0
    (fun hA hq => ⟨hq.1.trans hA, fun i => ⟨(hq.2.1 i).1, (hq.2.1 i).2.trans hA⟩,
      fun i => ⟨(hq.2.2.1 i).1, (hq.2.2.1 i).2.trans hA⟩,
      fun i => ⟨(hq.2.2.2.1 i).1, (hq.2.2.2.1 i).2.trans hA⟩,
      fun i => ⟨(hq.2.2.2.2 i).1, (hq.2.2.2.2 i).2.trans hA⟩⟩)
    (by
      rintro A q t l r hA ⟨A0, q1, q2, q3, q4⟩ tf t0 t1 hs
      obtain ⟨τ, hτ, rfl⟩ := isFinite_iff.1 tf
      rw [toReal_fin] at t0 t1
      have hEA : 20 * F.u * A + 14 * F.eta ≤ E := by
        rw [hE]
        have := mul_le_mul_of_nonneg_left hA u0
        linarith
      have h4 := cubic_split_near q hτ t0 t1 hu he A0 q1 q2 q3 q4 (by linarith)
      have h5 := (C86_cubic q hτ t0 t1 hu he q1 q2 q3 q4 (by linarith)).1
      rw [Option.some.injEq, Prod.eq_iff_fst_eq_snd_eq] at hs
      obtain ⟨rfl, rfl⟩ := hs
      have w := mul_le_mul_of_nonneg_left hEA (Real.sqrt_nonneg n)
      have w' : ∀ {p : PointN (Fl F) n}, BoundedBy (A + (20 * F.u * A + 14 * F.eta)) p →
          BoundedBy (A + E) p := fun h i => ⟨(h i).1, (h i).2.trans (by linarith)⟩
      refine ⟨⟨by linarith, w' (h5 _ (by simp)), w' (h5 _ (by simp)), w' (h5 _ (by simp)),
          w' (h5 _ (by simp))⟩,
        ⟨by linarith, w' (h5 _ (by simp)), w' (h5 _ (by simp)), w' (h5 _ (by simp)),
          w' (h5 _ (by simp))⟩, ?_⟩
      have := arc_near_split (by norm_num) t0 t1 (q.real.generic_split τ)
        (fun k => (h4 k).1.trans w) (fun k => (h4 k).2.trans w)
      refine this.trans (le_of_eq ?_)
      norm_num)
    (M := M) ⟨hM, hs, hc1, hc2, hd⟩ (by linarith)
  have w' : ∀ {p : PointN (Fl F) n}, BoundedBy (M + (ps.length - 1 : ℝ) * E) p →
      BoundedBy (M + 1) p := fun h i => ⟨(h i).1, (h i).2.trans (by linarith)⟩
  have hbd' : ∀ p ∈ ps, BoundedBy (M + 1) p.start ∧ BoundedBy (M + 1) p.ctrl1 ∧
      BoundedBy (M + 1) p.ctrl2 ∧ BoundedBy (M + 1) p.end_ := fun p hp =>
    ⟨w' (hbd p hp).2.1, w' (hbd p hp).2.2.1, w' (hbd p hp).2.2.2.1, w' (hbd p hp).2.2.2.2⟩
  have hB1 : 5 / 2 * (M + 1) + 1 ≤ F.max := by linarith
  have hm1 : (CubicBezier.chords ps).length ≤ m := by
    unfold CubicBezier.chords
    rw [List.length_map]
    omega
  have hm2 : (CubicBezier.edges ps).length ≤ m := by
    unfold CubicBezier.edges
    rw [List.length_flatMap]
    simpa using hm
  obtain ⟨c1, -, c2⟩ := sumDistances_near hu he (by linarith) hsq hB1 hsum _ hm1 (by
    intro d hd
    obtain ⟨p, hp, rfl⟩ := List.mem_map.1 hd
    exact ⟨(hbd' p hp).1, (hbd' p hp).2.2.2⟩)
  obtain ⟨d1, -, d2⟩ := sumDistances_near hu he (by linarith) hsq hB1 hsum _ hm2 (by
    intro d hd
    obtain ⟨p, hp, hd⟩ := List.mem_flatMap.1 hd
    obtain ⟨h1, h2, h3, h4⟩ := hbd' p hp
    simp only [List.mem_cons, List.not_mem_nil, or_false] at hd
    rcases hd with rfl | rfl | rfl
    exacts [⟨h1, h2⟩, ⟨h2, h3⟩, ⟨h3, h4⟩])
  have hA : c.real.generic.arc = A := c.real.generic_arc
  simp only [hA] at harc
  have harc := abs_le.1 harc
  change -δ ≤ _ ∧ _ ≤ δ at harc
  refine ⟨hbd', c1, d1, ?_, ?_, c2, d2⟩
  · have := list_sum_le ps fun p _ => bezier_chord_le_arc p.real.generic (by norm_num)
    have e := cubic_chords_eq ps
    linarith [harc.2]
  · have := list_sum_le ps fun p _ => C71_arc_length p.real.generic (by norm_num)
    have e := cubic_edges_eq ps
    linarith [harc.1]

/-- **C137** for cubic curves. -/
theorem C137_cubic (c : CubicBezier (PointN (Fl F) n)) {M E : ℝ} (hM : 0 ≤ M)
    (hs : BoundedBy M c.start) (hc1 : BoundedBy M c.ctrl1) (hc2 : BoundedBy M c.ctrl2)
    (hd : BoundedBy M c.end_)
    (hu : F.u ≤ 1 / 1024) (he : F.eta ≤ 1 / 1024) (hE : E = 20 * F.u * (M + 1) + 14 * F.eta)
    (hmax : 3 * (M + 1) + 2 ≤ F.max) (ps : List (CubicBezier (PointN (Fl F) n)))
    (h : FloatCutInto (fun c t => some (c.split t)) c ps) (hlen : (ps.length - 1 : ℝ) * E ≤ 1)
    {m : ℕ} (hm : ps.length * 3 ≤ m) (hρ : sumRel F n m ≤ 1)
    (hsq : (1 + F.u) ^ (n + 1) * (n * (5 / 2 * (M + 1) + 1) ^ 2) + 2 * n * (1 + F.u) ^ n * F.eta
      ≤ F.max)
    (hsum : (1 + sumRel F n m) * (m * (2 * n * (M + 1))) + sumTiny F n m ≤ F.max) :
    let A := arcLength n (fun t i => coord (c.real.derivative.eval t) i)
    let δ := (ps.length - 1 : ℝ) * (12 * (Real.sqrt n * E))
    let lo := sumDistances (CubicBezier.chords ps)
    let hi := sumDistances (CubicBezier.edges ps)
    (∀ p ∈ ps, BoundedBy (M + 1) p.start ∧ BoundedBy (M + 1) p.ctrl1 ∧ BoundedBy (M + 1) p.ctrl2 ∧
      BoundedBy (M + 1) p.end_) ∧
    lo.IsFinite ∧ hi.IsFinite ∧
    lo.toReal ≤ (1 + sumRel F n m) * (A + δ) + sumTiny F n m ∧
    (1 - sumRel F n m) * (A - δ) ≤ hi.toReal + sumTiny F n m := by
  obtain ⟨h1, h2, h3, h4, h5, h6, h7⟩ := cubic_cut_sums c hM hs hc1 hc2 hd hu he hE hmax ps h hlen hm hsq hsum
  exact ⟨h1, h2, h3, computed_bounds h4 h5 (sumRel_nonneg F n m) hρ h6 h7⟩

/-! ### Halving -/

/-- `|b| b.split(t)`; `split` never panics (C33), so the default is never used. -/
noncomputable def Bezier.halveAt (t : Fl F) (b : Bezier (PointN (Fl F) n) N) :
    Bezier (PointN (Fl F) n) N × Bezier (PointN (Fl F) n) N := (b.split t).getD (b, b)

theorem Bezier.halveAt_spec (t : Fl F) (b : Bezier (PointN (Fl F) n) N) :
    b.split t = some (b.halveAt t) := by
  unfold Bezier.halveAt
  rw [bezier_split_cas]
  rfl

theorem FloatCutInto.replace {Q : Type} {split : Q → Fl F → Option (Q × Q)} {q p : Q}
    {xs ys zs : List Q} (h : FloatCutInto split q (xs ++ p :: ys)) (hz : FloatCutInto split p zs) :
    FloatCutInto split q (xs ++ zs ++ ys) := by
  induction hz with
  | whole => simpa using h
  | @cut us vs a l r t _ tf t0 t1 hs ih =>
    have h1 : FloatCutInto split q ((xs ++ us) ++ a :: (vs ++ ys)) := by simpa using ih
    simpa using h1.cut tf t0 t1 hs

/-- Halving is one way of cutting. -/
theorem floatCutInto_pieces {Q : Type} {split : Q → Fl F → Option (Q × Q)} {halve : Q → Q × Q}
    {t : Fl F} (tf : t.IsFinite) (t0 : 0 ≤ t.toReal) (t1 : t.toReal ≤ 1)
    (hh : ∀ q, split q t = some (halve q)) (k : ℕ) :
    ∀ q, FloatCutInto split q (pieces halve k q) := by
  induction k with
  | zero => exact fun q => .whole
  | succ k ih =>
    intro q
    have h0 : FloatCutInto split q ([] ++ (halve q).1 :: (halve q).2 :: []) :=
      FloatCutInto.cut (xs := []) (ys := []) (p := q) (t := t) .whole tf t0 t1 (by rw [hh])
    have h1 : FloatCutInto split q (pieces halve k (halve q).1 ++ (halve q).2 :: []) := by
      simpa using h0.replace (ih (halve q).1)
    simpa [pieces] using h1.replace (ih (halve q).2)

theorem pieces_gap_float {Q : Type} {halve : Q → Q × Q} {gap : Q → ℝ} {second : Q → ℝ → Prop}
    {size : ℝ → Q → Prop} {K x B E : ℝ} (hE : 0 ≤ E) (hg : ∀ q A, second q A → gap q ≤ K * A)
    (hs : ∀ M q A, M ≤ B → size M q → second q A →
      (size (M + E) (halve q).1 ∧ size (M + E) (halve q).2) ∧
      second (halve q).1 (A / 4 + 3 / 4 * x) ∧ second (halve q).2 (A / 4 + 3 / 4 * x)) (k : ℕ) :
    ∀ M q A, M + k * E ≤ B → size M q → second q (A + x) →
      ((pieces halve k q).map gap).sum ≤ K * (A / 2 ^ k + 2 ^ k * x) := by
  induction k with
  | zero => intro M q A _ _ h; simpa [pieces] using hg q _ h
  | succ k ih =>
    intro M q A hM h h2
    push_cast at hM
    have k0 : 0 ≤ (k : ℝ) * E := by positivity
    obtain ⟨⟨s1, s2⟩, d1, d2⟩ := hs M q _ (by linarith) h h2
    rw [show (A + x) / 4 + 3 / 4 * x = A / 4 + x by ring] at d1 d2
    have h1 := ih (M + E) _ _ (by linarith) s1 d1
    have h2 := ih (M + E) _ _ (by linarith) s2 d2
    rw [pieces, List.map_append, List.sum_append]
    refine (add_le_add h1 h2).trans (le_of_eq ?_)
    rw [pow_succ]
    field_simp
    ring

theorem SecondDiffsAtMost.near {q q' : Bezier (PointN ℝ n) N} {A δ : ℝ} (h : SecondDiffsAtMost q' A)
    (hq : ∀ k, pdist (q.control_points k) (q'.control_points k) ≤ δ) :
    SecondDiffsAtMost q (A + 4 * δ) := by
  intro j hj
  have h0 := h j hj
  have h1 := hq ⟨j, by omega⟩
  have h2 := hq ⟨j + 1, by omega⟩
  have h3 := hq ⟨j + 2, by omega⟩
  rw [pdist_eq_norm] at h1 h2 h3
  rw [extend_lt _ (show j < N by omega), extend_lt _ (show j + 1 < N by omega),
    extend_lt _ (show j + 2 < N by omega)] at h0 ⊢
  generalize toE (q.control_points ⟨j, _⟩) = a at *
  generalize toE (q.control_points ⟨j + 1, _⟩) = b at *
  generalize toE (q.control_points ⟨j + 2, _⟩) = c at *
  generalize toE (q'.control_points ⟨j, _⟩) = a' at *
  generalize toE (q'.control_points ⟨j + 1, _⟩) = b' at *
  generalize toE (q'.control_points ⟨j + 2, _⟩) = c' at *
  rw [show a + c - (2 : ℝ) • b = (a' + c' - (2 : ℝ) • b') + ((a - a') + (c - c')
    - (2 : ℝ) • (b - b')) by module]
  have t1 := norm_add_le (a' + c' - (2 : ℝ) • b') ((a - a') + (c - c') - (2 : ℝ) • (b - b'))
  have t2 := norm_sub_le ((a - a') + (c - c')) ((2 : ℝ) • (b - b'))
  have t3 := norm_add_le (a - a') (c - c')
  rw [norm_smul, Real.norm_of_nonneg (by norm_num)] at t2
  linarith

theorem SecondDiffsAtMost.mono {q : Bezier (PointN ℝ n) N} {A A' : ℝ} (h : SecondDiffsAtMost q A)
    (hA : A ≤ A') : SecondDiffsAtMost q A' := fun j hj => (h j hj).trans hA

/-- From a bound on the gap of the exact sums to a bound on the gap of the computed sums. -/
theorem computed_gap {A δ L U lo hi ρ T G : ℝ} (hL : L ≤ A + δ) (hG : U - L ≤ G) (hρ : 0 ≤ ρ)
    (hlo : |lo - L| ≤ ρ * L + T) (hhi : |hi - U| ≤ ρ * U + T) :
    hi - lo ≤ (1 + ρ) * G + 2 * ρ * (A + δ) + 2 * T := by
  rw [abs_le] at hlo hhi
  have h1 := mul_le_mul_of_nonneg_left hL hρ
  have h2 := mul_le_mul_of_nonneg_left hG (show 0 ≤ 1 + ρ by linarith)
  linarith

/-- **C137**: after `k` halvings the computed bounds differ by at most the `(N-1)(N-2)A₂ / 2^k` of
C122 and rounding errors, where `A₂` bounds the second differences of the control points. -/
theorem C137_halving (hN : 1 ≤ N) (b : Bezier (PointN (Fl F) n) N) {M E A₂ : ℝ} (hM : 0 ≤ M)
    (hb : ∀ k, BoundedBy M (b.control_points k)) (hu : F.u ≤ 1 / 1024) (he : F.eta ≤ 1 / 1024)
    (hE : E = ((1 + F.u) ^ 2 * (1 + F.u + F.eta)) ^ (N - 1)
      * (M + 1 + (N - 1 : ℕ) * (3 * (1 + F.u) * F.eta)) - (M + 1))
    (hmax : M + 1 + E ≤ F.max) (hh : (1 / 2 : ℝ) ∈ F.grid ∧ |(1 / 2 : ℝ)| ≤ F.max)
    (hA : ∀ k (h : k + 2 < N),
      pdist (b.real.control_points ⟨k, by omega⟩ + b.real.control_points ⟨k + 2, h⟩)
        (b.real.control_points ⟨k + 1, by omega⟩ + b.real.control_points ⟨k + 1, by omega⟩) ≤ A₂)
    (k : ℕ) (hlen : (2 ^ k - 1 : ℝ) * E ≤ 1)
    {m : ℕ} (hm : 2 ^ k * N ≤ m)
    (hsq : (1 + F.u) ^ (n + 1) * (n * (5 / 2 * (M + 1) + 1) ^ 2) + 2 * n * (1 + F.u) ^ n * F.eta
      ≤ F.max) (hB1 : 5 / 2 * (M + 1) + 1 ≤ F.max)
    (hsum : (1 + sumRel F n m) * (m * (2 * n * (M + 1))) + sumTiny F n m ≤ F.max) :
    let ps := pieces (Bezier.halveAt (fin (1 / 2) hh)) k b
    let A := arcLength n (fun t i => deriv (fun u => bezierCoord b.real.controlPoints u i) t)
    let δ := (2 ^ k - 1 : ℝ) * (4 * ((N - 1 : ℕ) : ℝ) * (Real.sqrt n * E))
    let lo := sumDistances (Bezier.chords hN ps)
    let hi := sumDistances (Bezier.edges ps)
    FloatCutInto (fun q t => q.split t) b ps ∧
    hi.toReal - lo.toReal
      ≤ (1 + sumRel F n m) * (((N - 1 : ℕ) : ℝ) * (N - 2)
          * (A₂ / 2 ^ k + 2 ^ k * (16 / 3 * (Real.sqrt n * E))))
        + 2 * sumRel F n m * (A + δ) + 2 * sumTiny F n m := by
  intro ps A δ lo hi
  have hcut : FloatCutInto (fun q t => q.split t) b ps :=
    floatCutInto_pieces (t := fin (1 / 2) hh) trivial (by rw [toReal_fin]; norm_num)
      (by rw [toReal_fin]; norm_num) (Bezier.halveAt_spec _) k b
  have hl0 : ps.length = 2 ^ k := pieces_length _ _
  have hl : (ps.length : ℝ) = 2 ^ k := by
    rw [hl0, Nat.cast_pow, Nat.cast_ofNat]
  have e : E = casBound F (M + 1) (N - 1) - (M + 1) := hE
  have E0 : 0 ≤ E := by
    have := casBound_mono (F := F) (show 0 ≤ M + 1 by linarith) (Nat.zero_le (N - 1))
    have h0 : casBound F (M + 1) 0 = M + 1 := by simp [casBound]
    linarith
  obtain ⟨-, -, -, h4, -, h6, h7⟩ := bezier_cut_sums hN b hM hb hu he hE hmax ps hcut
    (by rw [hl]; exact hlen) (by rw [hl0]; exact hm)
    hsq hB1 hsum
  rw [hl] at h4
  refine ⟨hcut, computed_gap h4 ?_ (sumRel_nonneg F n m) h6 h7⟩
  rw [realDistances_chords, realDistances_edges, sum_map_sub]
  have hk : (k : ℝ) ≤ 2 ^ k - 1 := by
    have : (k + 1 : ℕ) ≤ 2 ^ k := Nat.lt_two_pow_self
    have : ((k + 1 : ℕ) : ℝ) ≤ (2 ^ k : ℕ) := by exact_mod_cast this
    push_cast at this
    linarith
  refine pieces_gap_float (halve := Bezier.halveAt (fin (1 / 2) hh))
    (gap := fun p : Bezier (PointN (Fl F) n) N => controlPolygonLength p.real.control_points
      - pdist (p.real.control_points ⟨0, hN⟩) (p.real.control_points ⟨N - 1, by omega⟩))
    (x := 16 / 3 * (Real.sqrt n * E)) (K := ((N - 1 : ℕ) : ℝ) * (N - 2)) (B := M + 1) (E := E)
    (second := fun q A => SecondDiffsAtMost q.real A)
    (size := fun A q => 0 ≤ A ∧ ∀ k, BoundedBy A (q.control_points k)) E0
    (fun q A h => h.gap hN) ?_ k M b A₂ ?_ ⟨hM, hb⟩
    ((SecondDiffsAtMost.of_pdist hA).mono (by
      have := mul_nonneg (Real.sqrt_nonneg n) E0
      linarith))
  · rintro A q A' hA ⟨A0, hq⟩ h2
    have hEA := casBound_sub_mono (F := F) (N - 1) hA
    rw [← e] at hEA
    obtain ⟨l1, r1, l', r', g1, g2, g3, g4⟩ := bezier_split_near hN q hh (by norm_num)
      (by norm_num) hq A0 (by linarith)
    rw [Bezier.halveAt_spec, Option.some.injEq] at g1
    rw [Bezier.halve_spec, Option.some.injEq] at g2
    rw [g1]
    have w := mul_le_mul_of_nonneg_left hEA (Real.sqrt_nonneg n)
    have h3 := h2.halve
    rw [g2] at h3
    refine ⟨⟨⟨by linarith, fun k i => ⟨((g3 k).1 i).1, ((g3 k).1 i).2.trans (by linarith)⟩⟩,
      ⟨by linarith, fun k i => ⟨((g3 k).2 i).1, ((g3 k).2 i).2.trans (by linarith)⟩⟩⟩, ?_, ?_⟩
    · exact (h3.1.near fun k => (g4 k).1.trans w).mono (by linarith)
    · exact (h3.2.near fun k => (g4 k).2.trans w).mono (by linarith)
  · have := mul_le_mul_of_nonneg_right hk E0
    linarith

/-- **C137**: halving of quadratic curves. -/
theorem C137_quadratic_halving (q : QuadraticBezier (PointN (Fl F) n)) {M E A₂ : ℝ} (hM : 0 ≤ M)
    (hs : BoundedBy M q.start) (hc : BoundedBy M q.ctrl) (hd : BoundedBy M q.end_)
    (hu : F.u ≤ 1 / 1024) (he : F.eta ≤ 1 / 1024) (hE : E = 13 * F.u * (M + 1) + 9 * F.eta)
    (hmax : 3 * (M + 1) + 2 ≤ F.max) (hh : (1 / 2 : ℝ) ∈ F.grid ∧ |(1 / 2 : ℝ)| ≤ F.max)
    (hA : pdist (q.real.start + q.real.end_) (q.real.ctrl + q.real.ctrl) ≤ A₂)
    (k : ℕ) (hlen : (2 ^ k - 1 : ℝ) * E ≤ 1) {m : ℕ} (hm : 2 ^ k * 2 ≤ m)
    (hsq : (1 + F.u) ^ (n + 1) * (n * (5 / 2 * (M + 1) + 1) ^ 2) + 2 * n * (1 + F.u) ^ n * F.eta
      ≤ F.max)
    (hsum : (1 + sumRel F n m) * (m * (2 * n * (M + 1))) + sumTiny F n m ≤ F.max) :
    let ps := pieces (fun q => q.split (fin (1 / 2) hh)) k q
    let A := arcLength n (fun t i => coord (q.real.derivative.eval t) i)
    let δ := (2 ^ k - 1 : ℝ) * (8 * (Real.sqrt n * E))
    let lo := sumDistances (QuadraticBezier.chords ps)
    let hi := sumDistances (QuadraticBezier.edges ps)
    FloatCutInto (fun q t => some (q.split t)) q ps ∧
    hi.toReal - lo.toReal
      ≤ (1 + sumRel F n m) * (2 * (A₂ / 2 ^ k + 2 ^ k * (16 / 3 * (Real.sqrt n * E))))
        + 2 * sumRel F n m * (A + δ) + 2 * sumTiny F n m := by
  intro ps A δ lo hi
  have hcut : FloatCutInto (fun (q : QuadraticBezier (PointN (Fl F) n)) t => some (q.split t)) q ps :=
    floatCutInto_pieces (t := fin (1 / 2) hh) trivial (by rw [toReal_fin]; norm_num)
      (by rw [toReal_fin]; norm_num) (fun _ => rfl) k q
  have hl0 : ps.length = 2 ^ k := pieces_length _ _
  have hl : (ps.length : ℝ) = 2 ^ k := by
    rw [hl0, Nat.cast_pow, Nat.cast_ofNat]
  have e0 := F.eta_nonneg
  have u0 := F.u_nonneg
  have E0 : 0 ≤ E := by rw [hE]; positivity
  obtain ⟨-, -, -, h4, -, h6, h7⟩ := quadratic_cut_sums q hM hs hc hd hu he hE hmax ps hcut
    (by rw [hl]; exact hlen) (by rw [hl0]; exact hm) hsq hsum
  rw [hl] at h4
  refine ⟨hcut, computed_gap h4 ?_ (sumRel_nonneg F n m) h6 h7⟩
  rw [quadratic_chords_eq, quadratic_edges_eq, sum_map_sub]
  have hk : (k : ℝ) ≤ 2 ^ k - 1 := by
    have : (k + 1 : ℕ) ≤ 2 ^ k := Nat.lt_two_pow_self
    have : ((k + 1 : ℕ) : ℝ) ≤ (2 ^ k : ℕ) := by exact_mod_cast this
    push_cast at this
    linarith
  refine pieces_gap_float (halve := fun q : QuadraticBezier (PointN (Fl F) n) => q.split (fin (1 / 2) hh))
    (gap := fun p : QuadraticBezier (PointN (Fl F) n) =>
      controlPolygonLength p.real.generic.control_points
        - pdist (p.real.generic.control_points ⟨0, by norm_num⟩)
          (p.real.generic.control_points ⟨3 - 1, by norm_num⟩))
    (x := 16 / 3 * (Real.sqrt n * E)) (K := 2) (B := M + 1) (E := E)
    (second := fun q A => SecondDiffsAtMost q.real.generic A)
    (size := fun A q => 0 ≤ A ∧ BoundedBy A q.start ∧ BoundedBy A q.ctrl ∧ BoundedBy A q.end_) E0
    (fun q A h => (h.gap (by norm_num)).trans (le_of_eq (by norm_num))) ?_ k M q A₂ ?_
    ⟨hM, hs, hc, hd⟩ ((SecondDiffsAtMost.of_pdist (fun j hj => by
      obtain rfl : j = 0 := by omega
      exact hA)).mono (by
      have := mul_nonneg (Real.sqrt_nonneg n) E0
      linarith))
  · rintro A q A' hA ⟨A0, q1, q2, q3⟩ h2
    have hEA : 13 * F.u * A + 9 * F.eta ≤ E := by
      rw [hE]
      have := mul_le_mul_of_nonneg_left hA u0
      linarith
    have h4 := quadratic_split_near q hh (by norm_num) (by norm_num) hu he A0 q1 q2 q3 (by linarith)
    have h5 := (C86_quadratic q hh (by norm_num) (by norm_num) hu he q1 q2 q3 (by linarith)).1
    have w := mul_le_mul_of_nonneg_left hEA (Real.sqrt_nonneg n)
    have w' : ∀ {p : PointN (Fl F) n}, BoundedBy (A + (13 * F.u * A + 9 * F.eta)) p →
        BoundedBy (A + E) p := fun h i => ⟨(h i).1, (h i).2.trans (by linarith)⟩
    have h3 := h2.halve
    have hsp := q.real.generic_split (1 / 2)
    rw [Bezier.halve_spec, Option.some.injEq] at hsp
    rw [hsp] at h3
    refine ⟨⟨⟨by linarith, w' (h5 _ (by simp)), w' (h5 _ (by simp)), w' (h5 _ (by simp))⟩,
      ⟨by linarith, w' (h5 _ (by simp)), w' (h5 _ (by simp)), w' (h5 _ (by simp))⟩⟩, ?_, ?_⟩
    · exact (h3.1.near fun k => (h4 k).1.trans w).mono (by linarith)
    · exact (h3.2.near fun k => (h4 k).2.trans w).mono (by linarith)
  · have := mul_le_mul_of_nonneg_right hk E0
    linarith

/-- **C137**: halving of cubic curves. -/
theorem C137_cubic_halving (c : CubicBezier (PointN (Fl F) n)) {M E A₂ : ℝ} (hM : 0 ≤ M)
    (hs : BoundedBy M c.start) (hc1 : BoundedBy M c.ctrl1) (hc2 : BoundedBy M c.ctrl2)
    (hd : BoundedBy M c.end_)
    (hu : F.u ≤ 1 / 1024) (he : F.eta ≤ 1 / 1024) (hE : E = 20 * F.u * (M + 1) + 14 * F.eta)
    (hmax : 3 * (M + 1) + 2 ≤ F.max) (hh : (1 / 2 : ℝ) ∈ F.grid ∧ |(1 / 2 : ℝ)| ≤ F.max)
    (hA : pdist (c.real.start + c.real.ctrl2) (c.real.ctrl1 + c.real.ctrl1) ≤ A₂)
    (hA' : pdist (c.real.ctrl1 + c.real.end_) (c.real.ctrl2 + c.real.ctrl2) ≤ A₂)
    (k : ℕ) (hlen : (2 ^ k - 1 : ℝ) * E ≤ 1) {m : ℕ} (hm : 2 ^ k * 3 ≤ m)
    (hsq : (1 + F.u) ^ (n + 1) * (n * (5 / 2 * (M + 1) + 1) ^ 2) + 2 * n * (1 + F.u) ^ n * F.eta
      ≤ F.max)
    (hsum : (1 + sumRel F n m) * (m * (2 * n * (M + 1))) + sumTiny F n m ≤ F.max) :
    let ps := pieces (fun c => c.split (fin (1 / 2) hh)) k c
    let A := arcLength n (fun t i => coord (c.real.derivative.eval t) i)
    let δ := (2 ^ k - 1 : ℝ) * (12 * (Real.sqrt n * E))
    let lo := sumDistances (CubicBezier.chords ps)
    let hi := sumDistances (CubicBezier.edges ps)
    FloatCutInto (fun c t => some (c.split t)) c ps ∧
    hi.toReal - lo.toReal
      ≤ (1 + sumRel F n m) * (6 * (A₂ / 2 ^ k + 2 ^ k * (16 / 3 * (Real.sqrt n * E))))
        + 2 * sumRel F n m * (A + δ) + 2 * sumTiny F n m := by
  intro ps A δ lo hi
  have hcut : FloatCutInto (fun (c : CubicBezier (PointN (Fl F) n)) t => some (c.split t)) c ps :=
    floatCutInto_pieces (t := fin (1 / 2) hh) trivial (by rw [toReal_fin]; norm_num)
      (by rw [toReal_fin]; norm_num) (fun _ => rfl) k c
  have hl0 : ps.length = 2 ^ k := pieces_length _ _
  have hl : (ps.length : ℝ) = 2 ^ k := by
    rw [hl0, Nat.cast_pow, Nat.cast_ofNat]
  have e0 := F.eta_nonneg
  have u0 := F.u_nonneg
  have E0 : 0 ≤ E := by rw [hE]; positivity
  obtain ⟨-, -, -, h4, -, h6, h7⟩ := cubic_cut_sums c hM hs hc1 hc2 hd hu he hE hmax ps hcut
    (by rw [hl]; exact hlen) (by rw [hl0]; exact hm) hsq hsum
  rw [hl] at h4
  refine ⟨hcut, computed_gap h4 ?_ (sumRel_nonneg F n m) h6 h7⟩
  rw [cubic_chords_eq, cubic_edges_eq, sum_map_sub]
  have hk : (k : ℝ) ≤ 2 ^ k - 1 := by
    have : (k + 1 : ℕ) ≤ 2 ^ k := Nat.lt_two_pow_self
    have : ((k + 1 : ℕ) : ℝ) ≤ (2 ^ k : ℕ) := by exact_mod_cast this
    push_cast at this
    linarith
  refine pieces_gap_float (halve := fun c : CubicBezier (PointN (Fl F) n) => c.split (fin (1 / 2) hh))
    (gap := fun p : CubicBezier (PointN (Fl F) n) =>
      controlPolygonLength p.real.generic.control_points
        - pdist (p.real.generic.control_points ⟨0, by norm_num⟩)
          (p.real.generic.control_points ⟨4 - 1, by norm_num⟩))
    (x := 16 / 3 * (Real.sqrt n * E)) (K := 6) (B := M + 1) (E := E)
    (second := fun q A => SecondDiffsAtMost q.real.generic A)
    (size := fun A q => 0 ≤ A ∧ BoundedBy A q.start ∧ BoundedBy A q.ctrl1 ∧ BoundedBy A q.ctrl2 ∧ BoundedBy A q.end_) E0
    (fun q A h => (h.gap (by norm_num)).trans (le_of_eq (by norm_num))) ?_ k M c A₂ ?_
    ⟨hM, hs, hc1, hc2, hd⟩ ((SecondDiffsAtMost.of_pdist (fun j hj => by
      obtain rfl | rfl : j = 0 ∨ j = 1 := by omega
      exacts [hA, hA'])).mono (by
      have := mul_nonneg (Real.sqrt_nonneg n) E0
      linarith))
  · rintro A q A' hA ⟨A0, q1, q2, q3, q4⟩ h2
    have hEA : 20 * F.u * A + 14 * F.eta ≤ E := by
      rw [hE]
      have := mul_le_mul_of_nonneg_left hA u0
      linarith
    have h4 := cubic_split_near q hh (by norm_num) (by norm_num) hu he A0 q1 q2 q3 q4 (by linarith)
    have h5 := (C86_cubic q hh (by norm_num) (by norm_num) hu he q1 q2 q3 q4 (by linarith)).1
    have w := mul_le_mul_of_nonneg_left hEA (Real.sqrt_nonneg n)
    have w' : ∀ {p : PointN (Fl F) n}, BoundedBy (A + (20 * F.u * A + 14 * F.eta)) p →
        BoundedBy (A + E) p := fun h i => ⟨(h i).1, (h i).2.trans (by linarith)⟩
    have h3 := h2.halve
    have hsp := q.real.generic_split (1 / 2)
    rw [Bezier.halve_spec, Option.some.injEq] at hsp
    rw [hsp] at h3
    refine ⟨⟨⟨by linarith, w' (h5 _ (by simp)), w' (h5 _ (by simp)), w' (h5 _ (by simp)), w' (h5 _ (by simp))⟩,
      ⟨by linarith, w' (h5 _ (by simp)), w' (h5 _ (by simp)), w' (h5 _ (by simp)), w' (h5 _ (by simp))⟩⟩, ?_, ?_⟩
    · exact (h3.1.near fun k => (h4 k).1.trans w).mono (by linarith)
    · exact (h3.2.near fun k => (h4 k).2.trans w).mono (by linarith)
  · have := mul_le_mul_of_nonneg_right hk E0
    linarith

/-! ### Numbers -/

theorem sumRel_le {m : ℕ} (h : 2 * ((n + 3 + m : ℕ) : ℝ) * F.u ≤ 1) :
    sumRel F n m ≤ 2 * ((n + 3 + m : ℕ) : ℝ) * F.u := by
  have := pow_u_le F.u_nonneg (n + 3 + m) h
  unfold sumRel
  linarith

theorem sumTiny_le {m : ℕ} (h : 2 * (m : ℝ) * F.u ≤ 1) :
    sumTiny F n m ≤ 2 * (m * (distTiny F n + F.eta)) := by
  have := pow_u_le F.u_nonneg m h
  have e0 := F.eta_nonneg
  have hT := distTiny_nonneg F n
  unfold sumTiny
  exact mul_le_mul_of_nonneg_right (by linarith) (by positivity)

/-- The constants of `C137_cubic` and `C137_cubic_halving` for plane curves with coordinates up to
1000 that are cut into at most 1024 pieces, in binary64. -/
theorem cubic_cut_numbers (hu : F.u = 2 ^ (-(53 : ℕ) : ℤ)) (he60 : F.eta ≤ 1 / 10 ^ 60)
    (hmx : 10 ^ 60 ≤ F.max) {m : ℕ} (hm : m ≤ 3072) :
    F.u ≤ 1 / 1024 ∧ F.eta ≤ 1 / 1024 ∧ 3 * ((1000 : ℝ) + 1) + 2 ≤ F.max ∧
    20 * F.u * (1000 + 1) + 14 * F.eta ≤ 1 / 4 * (1 / 10 ^ 11) ∧
    sumRel F 2 m ≤ 1 / 10 ^ 12 ∧ sumTiny F 2 m ≤ 1 / 10 ^ 20 ∧
    (1 + F.u) ^ (2 + 1) * ((2 : ℕ) * (5 / 2 * ((1000 : ℝ) + 1) + 1) ^ 2)
      + 2 * (2 : ℕ) * (1 + F.u) ^ 2 * F.eta ≤ F.max ∧
    (1 + sumRel F 2 m) * (m * (2 * (2 : ℕ) * ((1000 : ℝ) + 1))) + sumTiny F 2 m ≤ F.max := by
  have e0 := F.eta_nonneg
  have u0 := F.u_nonneg
  have hm' : (m : ℝ) ≤ 3072 := by exact_mod_cast hm
  have hm0 : (0 : ℝ) ≤ m := m.cast_nonneg
  have hu16 : F.u ≤ 12 / 10 ^ 17 := by rw [hu]; norm_num
  have he : F.eta ≤ 1 / 10 ^ 30 := he60.trans (by norm_num)
  have hmx' : (10 : ℝ) ^ 20 ≤ F.max := le_trans (by norm_num) hmx
  have b1 : 2 * ((2 + 3 + m : ℕ) : ℝ) * F.u ≤ 1 / 10 ^ 12 := by
    have := mul_le_mul (show 2 * ((2 + 3 + m : ℕ) : ℝ) ≤ 6154 by push_cast; linarith) hu16 u0
      (by norm_num)
    linarith
  have b2 : 2 * (m : ℝ) * F.u ≤ 1 := by
    have := mul_le_mul (show 2 * (m : ℝ) ≤ 6144 by linarith) hu16 u0 (by norm_num)
    linarith
  have hρ : sumRel F 2 m ≤ 1 / 10 ^ 12 :=
    (sumRel_le (b1.trans (by norm_num))).trans b1
  have hT : sumTiny F 2 m ≤ 1 / 10 ^ 20 := by
    have h3 := distTiny_two hu he60
    refine (sumTiny_le b2).trans ?_
    have := mul_le_mul hm' (show distTiny F 2 + F.eta ≤ 1 / 10 ^ 26 + 1 / 10 ^ 30 by linarith)
      (by have := distTiny_nonneg F 2; linarith) (by norm_num)
    linarith
  have ρ0 := sumRel_nonneg F 2 m
  refine ⟨by linarith, by linarith, by linarith, by linarith, hρ, hT, ?_, ?_⟩
  · have g3 : (1 + F.u) ^ (2 + 1) ≤ 2 := by rw [hu]; norm_num
    have g2 : (1 + F.u) ^ 2 ≤ 2 := by rw [hu]; norm_num
    have a1 : (1 + F.u) ^ (2 + 1) * (((2 : ℕ) : ℝ) * (5 / 2 * ((1000 : ℝ) + 1) + 1) ^ 2)
        ≤ 2 * (((2 : ℕ) : ℝ) * (5 / 2 * ((1000 : ℝ) + 1) + 1) ^ 2) :=
      mul_le_mul_of_nonneg_right g3 (by positivity)
    have a2 : 2 * ((2 : ℕ) : ℝ) * (1 + F.u) ^ 2 * F.eta ≤ 8 * 1 := by
      refine mul_le_mul ?_ (by linarith) e0 (by norm_num)
      push_cast
      linarith
    refine (add_le_add a1 a2).trans (le_trans ?_ hmx')
    norm_num
  · have : (1 + sumRel F 2 m) * ((m : ℝ) * (2 * ((2 : ℕ) : ℝ) * ((1000 : ℝ) + 1)))
        ≤ 2 * (3072 * (2 * ((2 : ℕ) : ℝ) * ((1000 : ℝ) + 1))) :=
      mul_le_mul (by linarith) (mul_le_mul_of_nonneg_right hm' (by positivity)) (by positivity)
        (by norm_num)
    refine (add_le_add this hT).trans (le_trans ?_ hmx')
    norm_num

/-- The arc length of a cubic curve with coordinates up to 1000. -/
theorem cubic_arc_le (c : CubicBezier (PointN (Fl F) 2)) (hs : BoundedBy 1000 c.start)
    (hc1 : BoundedBy 1000 c.ctrl1) (hc2 : BoundedBy 1000 c.ctrl2) (hd : BoundedBy 1000 c.end_) :
    arcLength 2 (fun t i => coord (c.real.derivative.eval t) i) ≤ 12000 := by
  have h := C71_arc_length c.real.generic (by norm_num)
  rw [CubicBezier.generic_arc, CubicBezier.generic_polygon] at h
  have h1 := pdist_le_of_bounded (by norm_num) hs hc1
  have h2 := pdist_le_of_bounded (by norm_num) hc1 hc2
  have h3 := pdist_le_of_bounded (by norm_num) hc2 hd
  change arcLength 2 _ ≤ pdist c.start.real c.ctrl1.real + pdist c.ctrl1.real c.ctrl2.real
    + pdist c.ctrl2.real c.end_.real at h
  push_cast at h1 h2 h3
  linarith

theorem cubic_real_arc_nonneg (c : CubicBezier (PointN (Fl F) 2)) :
    0 ≤ arcLength 2 (fun t i => coord (c.real.derivative.eval t) i) := by
  have h := bezier_chord_le_arc c.real.generic (by norm_num)
  rw [CubicBezier.generic_arc] at h
  exact (pdist_nonneg _ _).trans h

theorem sqrt_two_bound : Real.sqrt ((2 : ℕ) : ℝ) ≤ 3 / 2 := by
  apply Real.sqrt_le_iff.2; norm_num

theorem cubic_cut_aux (hu : F.u = 2 ^ (-(53 : ℕ) : ℤ)) (he60 : F.eta ≤ 1 / 10 ^ 60)
    (hmx : 10 ^ 60 ≤ F.max) (c : CubicBezier (PointN (Fl F) 2))
    (hs : BoundedBy 1000 c.start) (hc1 : BoundedBy 1000 c.ctrl1) (hc2 : BoundedBy 1000 c.ctrl2)
    (hd : BoundedBy 1000 c.end_) (ps : List (CubicBezier (PointN (Fl F) 2)))
    (h : FloatCutInto (fun c t => some (c.split t)) c ps) (hlen : ps.length ≤ 1024) :
    let A := arcLength 2 (fun t i => coord (c.real.derivative.eval t) i)
    let lo := sumDistances (CubicBezier.chords ps)
    let hi := sumDistances (CubicBezier.edges ps)
    lo.IsFinite ∧ hi.IsFinite ∧ lo.toReal ≤ A + 1 / 10 ^ 7 ∧ A ≤ hi.toReal + 1 / 10 ^ 7 := by
  intro A lo hi
  obtain ⟨m, hm⟩ : ∃ m, m = ps.length * 3 := ⟨_, rfl⟩
  obtain ⟨n1, n2, n3, n4, n5, n6, n7, n8⟩ := cubic_cut_numbers hu he60 hmx (m := m) (by omega)
  have e0 := F.eta_nonneg
  have u0 := F.u_nonneg
  have ρ0 := sumRel_nonneg F 2 m
  have T0 := sumTiny_nonneg F 2 m
  obtain ⟨E, hE⟩ : ∃ E, E = 20 * F.u * (1000 + 1) + 14 * F.eta := ⟨_, rfl⟩
  have E0 : 0 ≤ E := by rw [hE]; linarith
  rw [← hE] at n4
  have hl : (ps.length : ℝ) ≤ 1024 := by exact_mod_cast hlen
  have hl1 : (1 : ℝ) ≤ ps.length := by exact_mod_cast h.ne_nil
  have hl2 := mul_le_mul_of_nonneg_right (show (ps.length - 1 : ℝ) ≤ 1023 by linarith) E0
  obtain ⟨-, h1, h2, h3, h4⟩ := C137_cubic c (by norm_num) hs hc1 hc2 hd n1 n2 hE n3 ps h
    (by linarith) hm.ge (by linarith) n7 n8
  have hA : A ≤ 12000 := cubic_arc_le c hs hc1 hc2 hd
  have hA0 : 0 ≤ A := cubic_real_arc_nonneg c
  have s0 := mul_nonneg (Real.sqrt_nonneg ((2 : ℕ) : ℝ)) E0
  have s1 := mul_le_mul_of_nonneg_right sqrt_two_bound E0
  have hδ : (ps.length - 1 : ℝ) * (12 * (Real.sqrt ((2 : ℕ) : ℝ) * E)) ≤ 1 / 2 * (1 / 10 ^ 7) := by
    have s2 := mul_le_mul (show (ps.length - 1 : ℝ) ≤ 1023 by linarith)
      (mul_le_mul_of_nonneg_left s1 (show (0 : ℝ) ≤ 12 by norm_num)) (by linarith) (by norm_num)
    linarith
  have hδ0 : 0 ≤ (ps.length - 1 : ℝ) * (12 * (Real.sqrt ((2 : ℕ) : ℝ) * E)) :=
    mul_nonneg (by linarith) (by linarith)
  change lo.toReal ≤ (1 + _) * (A + _) + _ at h3
  change (1 - _) * (A - _) ≤ hi.toReal + _ at h4
  refine ⟨h1, h2, ?_, ?_⟩
  · clear h1 h2 h4
    generalize (ps.length - 1 : ℝ) * (12 * (Real.sqrt ((2 : ℕ) : ℝ) * E)) = δ at *
    have := mul_le_mul n5 (show A + δ ≤ 12001 by linarith) (by linarith) (by norm_num)
    linarith
  · clear h1 h2 h3
    generalize (ps.length - 1 : ℝ) * (12 * (Real.sqrt ((2 : ℕ) : ℝ) * E)) = δ at *
    have := mul_le_mul n5 (show A ≤ 12001 by linarith) hA0 (by norm_num)
    have := mul_nonneg ρ0 hδ0
    linarith

theorem cubic_halving_aux (hu : F.u = 2 ^ (-(53 : ℕ) : ℤ)) (he60 : F.eta ≤ 1 / 10 ^ 60)
    (hmx : 10 ^ 60 ≤ F.max) (hh : (1 / 2 : ℝ) ∈ F.grid ∧ |(1 / 2 : ℝ)| ≤ F.max)
    (c : CubicBezier (PointN (Fl F) 2))
    (hs : BoundedBy 1000 c.start) (hc1 : BoundedBy 1000 c.ctrl1) (hc2 : BoundedBy 1000 c.ctrl2)
    (hd : BoundedBy 1000 c.end_) {A₂ : ℝ}
    (hA : pdist (c.real.start + c.real.ctrl2) (c.real.ctrl1 + c.real.ctrl1) ≤ A₂)
    (hA' : pdist (c.real.ctrl1 + c.real.end_) (c.real.ctrl2 + c.real.ctrl2) ≤ A₂)
    (k : ℕ) (hk : k ≤ 10) :
    let ps := pieces (fun c => c.split (fin (1 / 2) hh)) k c
    let lo := sumDistances (CubicBezier.chords ps)
    let hi := sumDistances (CubicBezier.edges ps)
    FloatCutInto (fun c t => some (c.split t)) c ps ∧ ps.length = 2 ^ k ∧
    hi.toReal - lo.toReal ≤ (1 + 1 / 10 ^ 12) * (6 * A₂ / 2 ^ k) + 1 / 10 ^ 6 := by
  intro ps lo hi
  have hkN : 2 ^ k ≤ 1024 := (Nat.pow_le_pow_right (by norm_num) hk).trans (by norm_num)
  obtain ⟨m, hm⟩ : ∃ m, m = 2 ^ k * 3 := ⟨_, rfl⟩
  obtain ⟨n1, n2, n3, n4, n5, n6, n7, n8⟩ := cubic_cut_numbers hu he60 hmx (m := m) (by omega)
  have e0 := F.eta_nonneg
  have u0 := F.u_nonneg
  have ρ0 := sumRel_nonneg F 2 m
  have T0 := sumTiny_nonneg F 2 m
  obtain ⟨E, hE⟩ : ∃ E, E = 20 * F.u * (1000 + 1) + 14 * F.eta := ⟨_, rfl⟩
  have E0 : 0 ≤ E := by rw [hE]; linarith
  rw [← hE] at n4
  have hl : (2 : ℝ) ^ k ≤ 1024 := by exact_mod_cast hkN
  have hl1 : (1 : ℝ) ≤ 2 ^ k := one_le_pow₀ (by norm_num)
  have hl2 := mul_le_mul_of_nonneg_right (show (2 ^ k - 1 : ℝ) ≤ 1023 by linarith) E0
  obtain ⟨h1, h2⟩ := C137_cubic_halving c (by norm_num) hs hc1 hc2 hd n1 n2 hE n3 hh hA hA' k
    (by linarith) hm.ge n7 n8
  have hAr := cubic_arc_le c hs hc1 hc2 hd
  have hA0 := cubic_real_arc_nonneg c
  have A20 : 0 ≤ A₂ := (pdist_nonneg _ _).trans hA
  have s1 := mul_le_mul_of_nonneg_right sqrt_two_bound E0
  have s0 := mul_nonneg (Real.sqrt_nonneg ((2 : ℕ) : ℝ)) E0
  have hδ : (2 ^ k - 1 : ℝ) * (12 * (Real.sqrt ((2 : ℕ) : ℝ) * E)) ≤ 1 := by
    have s2 := mul_le_mul (show (2 ^ k - 1 : ℝ) ≤ 1023 by linarith)
      (mul_le_mul_of_nonneg_left s1 (show (0 : ℝ) ≤ 12 by norm_num))
      (mul_nonneg (by norm_num) s0) (by norm_num)
    exact s2.trans (by linarith only [n4])
  have hδ0 : 0 ≤ (2 ^ k - 1 : ℝ) * (12 * (Real.sqrt ((2 : ℕ) : ℝ) * E)) :=
    mul_nonneg (by linarith only [hl1]) (mul_nonneg (by norm_num) s0)
  have hx : (2 : ℝ) ^ k * (16 / 3 * (Real.sqrt ((2 : ℕ) : ℝ) * E)) ≤ 1 / 4 * (1 / 10 ^ 7) := by
    have s2 := mul_le_mul hl
      (mul_le_mul_of_nonneg_left s1 (show (0 : ℝ) ≤ 16 / 3 by norm_num))
      (mul_nonneg (by norm_num) s0) (by norm_num)
    exact s2.trans (by linarith only [n4])
  have hx0 : 0 ≤ (2 : ℝ) ^ k * (16 / 3 * (Real.sqrt ((2 : ℕ) : ℝ) * E)) :=
    mul_nonneg (by linarith only [hl1]) (mul_nonneg (by norm_num) s0)
  refine ⟨h1, pieces_length _ _, h2.trans ?_⟩
  clear h1 h2
  generalize (2 ^ k - 1 : ℝ) * (12 * (Real.sqrt ((2 : ℕ) : ℝ) * E)) = δ at *
  generalize (2 : ℝ) ^ k * (16 / 3 * (Real.sqrt ((2 : ℕ) : ℝ) * E)) = x at *
  generalize arcLength 2 (fun t i => coord (c.real.derivative.eval t) i) = A at *
  have q0 : 0 ≤ A₂ / 2 ^ k := by positivity
  rw [mul_div_assoc]
  generalize A₂ / 2 ^ k = y at *
  have m1 := mul_le_mul n5 (show A + δ ≤ 12001 by linarith) (by linarith) (by norm_num)
  have m2 := mul_le_mul_of_nonneg_right n5 q0
  have m3 := mul_le_mul n5 (show x ≤ 1 by linarith) hx0 (by norm_num)
  linarith

section Binary64
variable (cosI acosI : ℝ → ℝ) (powI : ℝ → ℝ → ℝ)

/-- **C137** in binary64: a plane cubic curve with coordinates up to 1000 is cut into at most 1024
pieces. Then its arc length is between the computed sum of the chords and the computed sum of the
control polygons, up to `10⁻⁷`. -/
theorem C137_binary64 (c : CubicBezier (PointN (Fl (binary64 cosI acosI powI)) 2))
    (hs : BoundedBy 1000 c.start) (hc1 : BoundedBy 1000 c.ctrl1) (hc2 : BoundedBy 1000 c.ctrl2)
    (hd : BoundedBy 1000 c.end_) (ps : List (CubicBezier (PointN (Fl (binary64 cosI acosI powI)) 2)))
    (h : FloatCutInto (fun c t => some (c.split t)) c ps) (hlen : ps.length ≤ 1024) :
    let A := arcLength 2 (fun t i => coord (c.real.derivative.eval t) i)
    let lo := sumDistances (CubicBezier.chords ps)
    let hi := sumDistances (CubicBezier.edges ps)
    lo.IsFinite ∧ hi.IsFinite ∧ lo.toReal ≤ A + 1 / 10 ^ 7 ∧ A ≤ hi.toReal + 1 / 10 ^ 7 :=
  cubic_cut_aux rfl (binary64_eta cosI acosI powI) (binary64_max cosI acosI powI) c hs hc1 hc2 hd ps
    h hlen

theorem binary64_half_mem : (1 / 2 : ℝ) ∈ (binary64 cosI acosI powI).grid ∧
    |(1 / 2 : ℝ)| ≤ (binary64 cosI acosI powI).max := by
  refine ⟨⟨1, -1, by norm_num, by norm_num, by norm_num⟩, ?_⟩
  exact le_trans (by norm_num [abs_of_pos]) (binary64 cosI acosI powI).max_ge

/-- **C137** in binary64: up to ten halvings of a plane cubic curve with coordinates up to 1000 bring
the computed bounds within `6A₂ / 2^k` of each other, up to `10⁻⁶`, where `A₂` bounds the second
differences of the control points. -/
theorem C137_binary64_halving (c : CubicBezier (PointN (Fl (binary64 cosI acosI powI)) 2))
    (hs : BoundedBy 1000 c.start) (hc1 : BoundedBy 1000 c.ctrl1) (hc2 : BoundedBy 1000 c.ctrl2)
    (hd : BoundedBy 1000 c.end_) {A₂ : ℝ}
    (hA : pdist (c.real.start + c.real.ctrl2) (c.real.ctrl1 + c.real.ctrl1) ≤ A₂)
    (hA' : pdist (c.real.ctrl1 + c.real.end_) (c.real.ctrl2 + c.real.ctrl2) ≤ A₂)
    (k : ℕ) (hk : k ≤ 10) :
    let ps := pieces (fun c => c.split (fin (1 / 2) (binary64_half_mem cosI acosI powI))) k c
    let lo := sumDistances (CubicBezier.chords ps)
    let hi := sumDistances (CubicBezier.edges ps)
    FloatCutInto (fun c t => some (c.split t)) c ps ∧ ps.length = 2 ^ k ∧
    hi.toReal - lo.toReal ≤ (1 + 1 / 10 ^ 12) * (6 * A₂ / 2 ^ k) + 1 / 10 ^ 6 :=
  cubic_halving_aux rfl (binary64_eta cosI acosI powI) (binary64_max cosI acosI powI) _ c hs hc1 hc2
    hd hA hA' k hk

/-- The hypotheses of `C137_cubic`, `C137_binary64` and their versions for halving hold for the curve
with the control points (0,0), (1,2), (3,3), (5,0) and its eight pieces. -/
example : ∃ (c : CubicBezier (PointN (Fl (binary64 cosI acosI powI)) 2))
    (ps : List (CubicBezier (PointN (Fl (binary64 cosI acosI powI)) 2))),
    BoundedBy 1000 c.start ∧ BoundedBy 1000 c.ctrl1 ∧ BoundedBy 1000 c.ctrl2 ∧
    BoundedBy 1000 c.end_ ∧ c.start ≠ c.end_ ∧
    FloatCutInto (fun c t => some (c.split t)) c ps ∧ ps.length = 8 := by
  have w : ∀ a b, BoundedBy 1000 (smallPoint cosI acosI powI a b) := fun a b i =>
    ⟨(smallPoint_bounded cosI acosI powI a b i).1,
      (smallPoint_bounded cosI acosI powI a b i).2.trans (by norm_num)⟩
  have h := C137_binary64_halving cosI acosI powI
    ⟨smallPoint cosI acosI powI 0 0, smallPoint cosI acosI powI 1 2, smallPoint cosI acosI powI 3 3,
      smallPoint cosI acosI powI 5 0⟩ (w _ _) (w _ _) (w _ _) (w _ _) (le_max_left _ _)
      (le_max_right _ _) 3 (by norm_num)
  refine ⟨_, _, w _ _, w _ _, w _ _, w _ _, fun e => ?_, h.1, h.2.1⟩
  have := congrArg (fun p => (p.coords 0).toReal) e
  simp only at this
  rw [smallPoint_zero, smallPoint_zero] at this
  norm_num at this

/-- The numerical hypotheses of `C137_bounds` and `C137_halving` hold for up to 512 pieces of a plane
quintic curve with coordinates up to 1000. -/
example : let F := binary64 cosI acosI powI
    let E := ((1 + F.u) ^ 2 * (1 + F.u + F.eta)) ^ (6 - 1)
      * ((1000 : ℝ) + 1 + (6 - 1 : ℕ) * (3 * (1 + F.u) * F.eta)) - (1000 + 1)
    (1000 : ℝ) + 1 + E ≤ F.max ∧ (512 - 1 : ℝ) * E ≤ 1 ∧ 512 * 6 ≤ 3072 ∧ sumRel F 2 3072 ≤ 1 ∧
    (1 + F.u) ^ (2 + 1) * ((2 : ℕ) * (5 / 2 * ((1000 : ℝ) + 1) + 1) ^ 2)
      + 2 * (2 : ℕ) * (1 + F.u) ^ 2 * F.eta ≤ F.max ∧
    5 / 2 * ((1000 : ℝ) + 1) + 1 ≤ F.max ∧
    (1 + sumRel F 2 3072) * ((3072 : ℕ) * (2 * (2 : ℕ) * ((1000 : ℝ) + 1))) + sumTiny F 2 3072
      ≤ F.max := by
  intro F E
  obtain ⟨-, -, n3, -, n5, -, n7, n8⟩ := cubic_cut_numbers (F := F) rfl
    (binary64_eta cosI acosI powI) (binary64_max cosI acosI powI) (le_refl 3072)
  have hu : F.u = 2 ^ (-(53 : ℕ) : ℤ) := rfl
  have he : F.eta ≤ 1 / 10 ^ 30 := (binary64_eta cosI acosI powI).trans (by norm_num)
  have e0 := F.eta_nonneg
  have u0 := F.u_nonneg
  have hE : E ≤ 1 / 1000000 := by
    have : E ≤ ((1 + F.u) ^ 2 * (1 + F.u + 1 / 10 ^ 30)) ^ (6 - 1)
      * ((1000 : ℝ) + 1 + (6 - 1 : ℕ) * (3 * (1 + F.u) * (1 / 10 ^ 30))) - (1000 + 1) := by
      show ((1 + F.u) ^ 2 * (1 + F.u + F.eta)) ^ (6 - 1)
        * ((1000 : ℝ) + 1 + (6 - 1 : ℕ) * (3 * (1 + F.u) * F.eta)) - (1000 + 1) ≤ _
      gcongr
    refine this.trans ?_
    rw [hu]; norm_num
  refine ⟨by linarith only [hE, n3], by linarith only [hE], by norm_num, n5.trans (by norm_num), n7,
    by linarith only [n3], n8⟩

end Binary64

end Stroke
