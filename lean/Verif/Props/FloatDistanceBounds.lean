import Verif.Props.DistanceBounds
import Verif.Props.FloatLengthBounds

/-!
# Bounds on the distance to a curve from splitting, in floating point (C138)

The program of Verif/Props/DistanceBounds.lean with all its operations rounded: a curve with
floating-point control points is cut by `split` at floating-point parameters, and the smallest of
the computed distances to the endpoints of the pieces is taken.
-/

set_option linter.unusedSectionVars false

namespace Stroke

open Fl

variable {F : FloatFormat} {n N : ℕ}

/-! ### The user's program -/

/-- `(p - q).squared_length().sqrt()` -/
noncomputable def floatDistance (p q : PointN (Fl F) n) : Fl F :=
  Scalar.sqrt (Point.squaredLength (p - q))

/-- The smallest of the computed distances:
`let mut m = distance(ds[0]); for d in ds[1..] { if distance(d) < m { m = distance(d); } }`;
`none` if there are none. -/
noncomputable def leastDistance :
    List (PointN (Fl F) n × PointN (Fl F) n) → Option (Fl F)
  | [] => none
  | d :: ds => some (ds.foldl (fun m d =>
      if Scalar.lt (floatDistance d.1 d.2) m then floatDistance d.1 d.2 else m)
      (floatDistance d.1 d.2))

/-- The endpoints of the pieces. -/
def Bezier.ends (hN : 1 ≤ N) (ps : List (Bezier (PointN (Fl F) n) N)) : List (PointN (Fl F) n) :=
  ps.flatMap fun p => [p.control_points ⟨0, hN⟩, p.control_points ⟨N - 1, by omega⟩]

/-- The endpoints of the pieces. -/
def QuadraticBezier.ends (ps : List (QuadraticBezier (PointN (Fl F) n))) :
    List (PointN (Fl F) n) := ps.flatMap fun p => [p.start, p.end_]

/-- The endpoints of the pieces. -/
def CubicBezier.ends (ps : List (CubicBezier (PointN (Fl F) n))) :
    List (PointN (Fl F) n) := ps.flatMap fun p => [p.start, p.end_]

/-! ### The smallest computed distance -/

/-- The relative error of a computed distance. -/
noncomputable def distRel (F : FloatFormat) (n : ℕ) : ℝ := (1 + F.u) ^ (n + 3) - 1

theorem distRel_nonneg (F : FloatFormat) (n : ℕ) : 0 ≤ distRel F n := by
  have := one_le_g (F := F) (n + 3)
  unfold distRel
  linarith

theorem foldl_least (g : PointN (Fl F) n × PointN (Fl F) n → Fl F)
    (ds : List (PointN (Fl F) n × PointN (Fl F) n)) :
    ∀ m : Fl F, m.IsFinite → (∀ d ∈ ds, (g d).IsFinite) →
      let r := ds.foldl (fun m d => if Scalar.lt (g d) m then g d else m) m
      (r = m ∨ ∃ d ∈ ds, r = g d) ∧ r.toReal ≤ m.toReal ∧ ∀ d ∈ ds, r.toReal ≤ (g d).toReal := by
  induction ds with
  | nil => intro m _ _; simp
  | cons d ds ih =>
    intro m hm hf
    have hd := hf d (by simp)
    have hf' : ∀ x ∈ ds, (g x).IsFinite := fun x hx => hf x (by simp [hx])
    obtain ⟨a, ha, ea⟩ := isFinite_iff.1 hd
    obtain ⟨b, hb, eb⟩ := isFinite_iff.1 hm
    rw [List.foldl_cons]
    by_cases hlt : Scalar.lt (g d) m = true
    · rw [if_pos hlt]
      have hab : a < b := by
        rw [ea, eb] at hlt
        exact (lt_fin).1 hlt
      obtain ⟨h1, h2, h3⟩ := ih (g d) hd hf'
      have e1 : (g d).toReal = a := by rw [ea, toReal_fin]
      have e2 : m.toReal = b := by rw [eb, toReal_fin]
      refine ⟨?_, by linarith, ?_⟩
      · rcases h1 with h1 | ⟨x, hx, h1⟩
        · exact Or.inr ⟨d, by simp, h1⟩
        · exact Or.inr ⟨x, by simp [hx], h1⟩
      · intro x hx
        rcases List.mem_cons.1 hx with rfl | hx
        · exact h2
        · exact h3 x hx
    · rw [if_neg hlt]
      have hab : b ≤ a := by
        rw [ea, eb] at hlt
        by_contra hc
        exact hlt ((lt_fin).2 (not_le.1 hc))
      obtain ⟨h1, h2, h3⟩ := ih m hm hf'
      have e1 : (g d).toReal = a := by rw [ea, toReal_fin]
      have e2 : m.toReal = b := by rw [eb, toReal_fin]
      refine ⟨?_, h2, ?_⟩
      · rcases h1 with h1 | ⟨x, hx, h1⟩
        · exact Or.inl h1
        · exact Or.inr ⟨x, by simp [hx], h1⟩
      · intro x hx
        rcases List.mem_cons.1 hx with rfl | hx
        · linarith
        · exact h3 x hx

/-- The computed smallest distance: near one of the distances and, up to the error, at most each of
them. -/
theorem leastDistance_near (hu : F.u ≤ 1 / 1024) (he : F.eta ≤ 1 / 1024) {B : ℝ} (hB : 0 ≤ B)
    (hmax : (1 + F.u) ^ (n + 1) * (n * (5 / 2 * B + 1) ^ 2) + 2 * n * (1 + F.u) ^ n * F.eta
      ≤ F.max) (hB1 : 5 / 2 * B + 1 ≤ F.max)
    (ds : List (PointN (Fl F) n × PointN (Fl F) n)) (hds : ds ≠ [])
    (hb : ∀ d ∈ ds, BoundedBy B d.1 ∧ BoundedBy B d.2) :
    ∃ m, leastDistance ds = some m ∧ m.IsFinite ∧ 0 ≤ m.toReal ∧
      (∃ d ∈ ds, (1 - distRel F n) * pdist d.1.real d.2.real - distTiny F n ≤ m.toReal) ∧
      ∀ d ∈ ds, m.toReal ≤ (1 + distRel F n) * pdist d.1.real d.2.real + distTiny F n := by
  have key : ∀ d ∈ ds, (floatDistance d.1 d.2).IsFinite ∧ 0 ≤ (floatDistance d.1 d.2).toReal ∧
      |(floatDistance d.1 d.2).toReal - pdist d.1.real d.2.real|
        ≤ distRel F n * pdist d.1.real d.2.real + distTiny F n := fun d hd =>
    (C88_point_distance _ _ (sq_finite_of_bounded hu he (hb d hd).1 (hb d hd).2 hB hB1 hmax)).2
  obtain _ | ⟨d, ds⟩ := ds
  · exact absurd rfl hds
  · obtain ⟨h1, h2, h3⟩ := foldl_least (fun d => floatDistance d.1 d.2) ds (floatDistance d.1 d.2)
      (key d (by simp)).1 (fun x hx => (key x (by simp [hx])).1)
    refine ⟨_, rfl, ?_⟩
    have hall : ∀ x ∈ d :: ds, (ds.foldl (fun m d =>
      if Scalar.lt (floatDistance d.1 d.2) m then floatDistance d.1 d.2 else m)
      (floatDistance d.1 d.2)).toReal ≤ (floatDistance x.1 x.2).toReal := by
      intro x hx
      rcases List.mem_cons.1 hx with rfl | hx
      · exact h2
      · exact h3 x hx
    have hex : ∃ x ∈ d :: ds, ds.foldl (fun m d =>
      if Scalar.lt (floatDistance d.1 d.2) m then floatDistance d.1 d.2 else m)
      (floatDistance d.1 d.2) = floatDistance x.1 x.2 := by
      rcases h1 with h1 | ⟨x, hx, h1⟩
      · exact ⟨d, by simp, h1⟩
      · exact ⟨x, by simp [hx], h1⟩
    clear h1 h2 h3
    generalize ds.foldl (fun m d =>
      if Scalar.lt (floatDistance d.1 d.2) m then floatDistance d.1 d.2 else m)
      (floatDistance d.1 d.2) = m at *
    obtain ⟨x, hx, rfl⟩ := hex
    obtain ⟨k1, k2, k3⟩ := key x hx
    refine ⟨k1, k2, ⟨x, hx, ?_⟩, fun y hy => ?_⟩
    · linarith [(abs_le.1 k3).1]
    · linarith [(abs_le.1 (key y hy).2.2).2, hall y hy]

/-! ### The pieces and the pieces of the exact curve -/

/-- The control points of the curves differ by at most `ε`. -/
def ControlsNear {P : Type} [Point ℝ P] (ε : ℝ) (b b' : Bezier P N) : Prop :=
  ∀ k, pdist (b.control_points k) (b'.control_points k) ≤ ε

section Near
variable {P : Type} [Point ℝ P] [LawfulPoint P]

theorem cas_near {b b' : Bezier P N} {ε : ℝ} (ε0 : 0 ≤ ε) (h : ControlsNear ε b b') {t : ℝ}
    (t0 : 0 ≤ t) (t1 : t ≤ 1) (m j : ℕ) :
    pdist (cas (extend b.control_points) t m j) (cas (extend b'.control_points) t m j) ≤ ε := by
  induction m generalizing j with
  | zero =>
    show pdist (extend b.control_points j) (extend b'.control_points j) ≤ ε
    unfold extend
    split_ifs with hj
    · exact h _
    · rw [pdist_eq_norm, sub_self, norm_zero]
      exact ε0
  | succ m ih =>
    have h1 := ih j
    have h2 := ih (j + 1)
    rw [pdist_eq_norm] at h1 h2 ⊢
    rw [toE_cas_succ, toE_cas_succ]
    generalize toE (cas (extend b.control_points) t m j) = a at *
    generalize toE (cas (extend b'.control_points) t m j) = a' at *
    generalize toE (cas (extend b.control_points) t m (j + 1)) = c at *
    generalize toE (cas (extend b'.control_points) t m (j + 1)) = c' at *
    rw [show (1 - t) • a + t • c - ((1 - t) • a' + t • c') = (1 - t) • (a - a') + t • (c - c') by
      module]
    refine (norm_add_le _ _).trans ?_
    rw [norm_smul, norm_smul, Real.norm_of_nonneg t0, Real.norm_of_nonneg (by linarith)]
    have e1 := mul_le_mul_of_nonneg_left h1 (show 0 ≤ 1 - t by linarith)
    have e2 := mul_le_mul_of_nonneg_left h2 t0
    linarith

/-- The parts of nearby curves are nearby. -/
theorem split_near {b b' l r l' r' : Bezier P N} {ε : ℝ} (ε0 : 0 ≤ ε) (h : ControlsNear ε b b')
    {t : ℝ} (t0 : 0 ≤ t) (t1 : t ≤ 1) (hs : b.split t = some (l, r))
    (hs' : b'.split t = some (l', r')) : ControlsNear ε l l' ∧ ControlsNear ε r r' := by
  rw [bezier_split_cas, Option.some.injEq, Prod.mk.injEq] at hs hs'
  obtain ⟨rfl, rfl⟩ := hs
  obtain ⟨rfl, rfl⟩ := hs'
  exact ⟨fun k => cas_near ε0 h t0 t1 _ _, fun k => cas_near ε0 h t0 t1 _ _⟩

/-- The points of nearby curves are nearby. -/
theorem eval_near {b b' : Bezier P N} {ε : ℝ} (ε0 : 0 ≤ ε) (h : ControlsNear ε b b') {t : ℝ}
    (t0 : 0 ≤ t) (t1 : t ≤ 1) (hN : 1 ≤ N) :
    ∃ p p', b.eval t = some p ∧ b'.eval t = some p' ∧ pdist p p' ≤ ε :=
  ⟨_, _, bezier_eval_cas b hN t, bezier_eval_cas b' hN t, cas_near ε0 h t0 t1 _ _⟩

theorem ControlsNear.trans {a b c : Bezier P N} {ε ε' : ℝ} (h : ControlsNear ε a b)
    (h' : ControlsNear ε' b c) : ControlsNear (ε + ε') a c := fun k =>
  (pdist_triangle _ _ _).trans (add_le_add (h k) (h' k))

theorem ControlsNear.mono {a b : Bezier P N} {ε ε' : ℝ} (h : ControlsNear ε a b) (hε : ε ≤ ε') :
    ControlsNear ε' a b := fun k => (h k).trans hε

/-- The legs of nearby control polygons. -/
theorem ControlsNear.polygon {b b' : Bezier P N} {ε A : ℝ} (h : ControlsNear ε b b')
    (hA : ∀ j, j + 1 ≤ N - 1 →
      ‖toE (extend b'.control_points (j + 1)) - toE (extend b'.control_points j)‖ ≤ A) :
    controlPolygonLength b.control_points ≤ ((N - 1 : ℕ) : ℝ) * (A + 2 * ε) := by
  rw [controlPolygonLength_eq]
  refine (Finset.sum_le_card_nsmul _ _ (A + 2 * ε) fun k hk => ?_).trans ?_
  · have hk := Finset.mem_range.1 hk
    have h0 := hA k (by omega)
    have h1 := h ⟨k, by omega⟩
    have h2 := h ⟨k + 1, by omega⟩
    rw [pdist_eq_norm] at h1 h2
    rw [extend_lt _ (show k < N by omega), extend_lt _ (show k + 1 < N by omega)] at h0 ⊢
    generalize toE (b.control_points ⟨k, _⟩) = x at *
    generalize toE (b.control_points ⟨k + 1, _⟩) = y at *
    generalize toE (b'.control_points ⟨k, _⟩) = x' at *
    generalize toE (b'.control_points ⟨k + 1, _⟩) = y' at *
    rw [show y - x = (y' - x') + ((y - y') - (x - x')) by abel]
    have t1 := norm_add_le (y' - x') ((y - y') - (x - x'))
    have t2 := norm_sub_le (y - y') (x - x')
    linarith
  · rw [Finset.card_range, nsmul_eq_mul]

/-- If every computed piece is near a piece of the exact curve: every point of the exact curve is
near an endpoint of a computed piece, and conversely. -/
theorem near_cut_ends {Q : Type} {real : Q → Bezier P N} (hN : 1 ≤ N) {b : Bezier P N} {f : ℝ → P}
    (hf : ∀ t, b.eval t = some (f t)) {ps : List Q} {ps' : List (Bezier P N)}
    (h : CutInto (fun q t => q.split t) b ps') {ε : ℝ} (ε0 : 0 ≤ ε)
    (hn : List.Forall₂ (fun p p' => ControlsNear ε (real p) p') ps ps') :
    (∀ M, (∀ p ∈ ps, controlPolygonLength (real p).control_points ≤ M) →
      ∀ t, 0 ≤ t → t ≤ 1 → ∃ e ∈ endpointsOf hN (ps.map real), pdist (f t) e ≤ M / 2 + ε) ∧
    ∀ e ∈ endpointsOf hN (ps.map real), ∃ u, 0 ≤ u ∧ u ≤ 1 ∧ pdist e (f u) ≤ ε := by
  constructor
  · intro M hM t t0 t1
    obtain ⟨p', hp', s, s0, s1, e⟩ := h.cover (eval := fun (q : Bezier P N) (t : ℝ) => q.eval t)
      (bezier_cut_eval hN) t t0 t1
    obtain ⟨i, hi, rfl⟩ := List.getElem_of_mem hp'
    have hi' : i < ps.length := by rw [hn.length_eq]; exact hi
    have hnear := (List.forall₂_iff_get.1 hn).2 i hi' hi
    simp only [List.get_eq_getElem] at hnear
    have hmem : ps[i] ∈ ps := List.getElem_mem hi'
    obtain ⟨x, x', hx, hx', hxx⟩ := eval_near ε0 hnear s0 s1 hN
    rw [hf, hx', Option.some.injEq] at e
    subst e
    have hpM := hM _ hmem
    have hm : real ps[i] ∈ ps.map real := List.mem_map_of_mem hmem
    rw [pdist_comm] at hxx
    rcases near_endpoint _ hN s s0 s1 x hx with h1 | h1
    · refine ⟨_, (mem_endpointsOf hN _ _).2 ⟨_, hm, Or.inl rfl⟩, ?_⟩
      rw [pdist_comm] at h1
      have := pdist_triangle (f t) x ((real ps[i]).control_points ⟨0, hN⟩)
      linarith
    · refine ⟨_, (mem_endpointsOf hN _ _).2 ⟨_, hm, Or.inr rfl⟩, ?_⟩
      have := pdist_triangle (f t) x ((real ps[i]).control_points ⟨N - 1, by omega⟩)
      linarith
  · intro e he
    obtain ⟨p, hp, hpe⟩ := (mem_endpointsOf hN _ e).1 he
    obtain ⟨q, hq, rfl⟩ := List.mem_map.1 hp
    obtain ⟨i, hi, rfl⟩ := List.getElem_of_mem hq
    have hi' : i < ps'.length := by rw [← hn.length_eq]; exact hi
    have hnear := (List.forall₂_iff_get.1 hn).2 i hi hi'
    simp only [List.get_eq_getElem] at hnear
    have hmem : ps'[i] ∈ ps' := List.getElem_mem hi'
    rcases hpe with rfl | rfl
    · obtain ⟨u, u0, u1, hu⟩ := cut_endpoint_on b hN f hf ps' h _
        ((mem_endpointsOf hN _ _).2 ⟨_, hmem, Or.inl rfl⟩)
      exact ⟨u, u0, u1, by rw [← hu]; exact hnear _⟩
    · obtain ⟨u, u0, u1, hu⟩ := cut_endpoint_on b hN f hf ps' h _
        ((mem_endpointsOf hN _ _).2 ⟨_, hmem, Or.inr rfl⟩)
      exact ⟨u, u0, u1, by rw [← hu]; exact hnear _⟩

end Near

theorem forall₂_append_cons {α β : Type} {R : α → β → Prop} {xs ys : List α} {p : α} {zs : List β}
    (h : List.Forall₂ R (xs ++ p :: ys) zs) : ∃ xs' p' ys', zs = xs' ++ p' :: ys' ∧
      List.Forall₂ R xs xs' ∧ R p p' ∧ List.Forall₂ R ys ys' := by
  induction xs generalizing zs with
  | nil =>
    cases h with
    | cons hp hy => exact ⟨[], _, _, rfl, .nil, hp, hy⟩
  | cons x xs ih =>
    cases h with
    | cons hp hy =>
      obtain ⟨us, q, vs, rfl, h1, h2, h3⟩ := ih hy
      exact ⟨_ :: us, q, vs, rfl, .cons hp h1, h2, h3⟩

/-- However a curve is cut, the computed pieces are near the pieces that the exact curve has when it
is cut at the same parameters. -/
theorem FloatCutInto.near {Q : Type} {split : Q → Fl F → Option (Q × Q)} {size : ℝ → Q → Prop}
    {real : Q → Bezier (PointN ℝ n) N} {B E δ : ℝ} (hE : 0 ≤ E) (hδ : 0 ≤ δ)
    (hmono : ∀ {A A' q}, A ≤ A' → size A q → size A' q)
    (hstep : ∀ (A : ℝ) (q : Q) (t : Fl F) (l r : Q), A ≤ B → size A q → t.IsFinite → 0 ≤ t.toReal →
      t.toReal ≤ 1 → split q t = some (l, r) → size (A + E) l ∧ size (A + E) r ∧
      ∃ l' r', (real q).split t.toReal = some (l', r') ∧ ControlsNear δ (real l) l' ∧
        ControlsNear δ (real r) r')
    {q : Q} {ps : List Q} (h : FloatCutInto split q ps) {M : ℝ} (hq : size M q)
    (hM : M + (ps.length - 1 : ℝ) * E ≤ B) :
    (∀ p ∈ ps, size (M + (ps.length - 1 : ℝ) * E) p) ∧
    ∃ ps', CutInto (fun q t => q.split t) (real q) ps' ∧
      List.Forall₂ (fun p p' => ControlsNear ((ps.length - 1 : ℝ) * δ) (real p) p') ps ps' := by
  induction h with
  | whole =>
    refine ⟨by simpa using hq, [real q], .whole, .cons (fun k => ?_) .nil⟩
    rw [pdist_eq_norm, sub_self, norm_zero]
    simp
  | @cut xs ys p l r t hc tf t0 t1 hs ih =>
    have e : ((xs ++ l :: r :: ys).length - 1 : ℝ) = ((xs ++ p :: ys).length - 1 : ℝ) + 1 := by
      simp only [List.length_append, List.length_cons]
      push_cast
      ring
    rw [e] at hM ⊢
    obtain ⟨h1, ps', h2, h3⟩ := ih (by linarith)
    obtain ⟨a1, a2, l', r', a3, a4, a5⟩ := hstep _ p t l r (by linarith) (h1 p (by simp)) tf t0 t1 hs
    have e' : M + (((xs ++ p :: ys).length - 1 : ℝ) + 1) * E
        = M + ((xs ++ p :: ys).length - 1 : ℝ) * E + E := by ring
    have k0 : (0 : ℝ) ≤ (xs ++ p :: ys).length - 1 := by
      have := hc.ne_nil
      have : (1 : ℝ) ≤ (xs ++ p :: ys).length := by exact_mod_cast this
      linarith
    rw [e']
    refine ⟨?_, ?_⟩
    · intro x hx
      simp only [List.mem_append, List.mem_cons] at hx
      rcases hx with hx | rfl | rfl | hx
      · exact hmono (by linarith) (h1 x (by simp [hx]))
      · exact a1
      · exact a2
      · exact hmono (by linarith) (h1 x (by simp [hx]))
    · obtain ⟨xs', p', ys', rfl, f1, f2, f3⟩ := forall₂_append_cons h3
      generalize ((xs ++ p :: ys).length - 1 : ℝ) = k at *
      have hk := mul_nonneg k0 hδ
      obtain ⟨l'', r'', hs''⟩ : ∃ l'' r'', p'.split t.toReal = some (l'', r'') :=
        ⟨_, _, bezier_split_cas p' t.toReal⟩
      obtain ⟨g1, g2⟩ := split_near hk f2 t0 t1 a3 hs''
      refine ⟨xs' ++ l'' :: r'' :: ys', h2.cut t0 t1 hs'', ?_⟩
      have w : k * δ ≤ (k + 1) * δ := by linarith
      refine List.rel_append ?_ (.cons ?_ (.cons ?_ ?_))
      · exact f1.imp fun _ _ h => h.mono w
      · exact (a4.trans g1).mono (by linarith)
      · exact (a5.trans g2).mono (by linarith)
      · exact f3.imp fun _ _ h => h.mono w

/-- Halving: the error is proportional to the number of halvings. -/
theorem pieces_near {Q : Type} {halve : Q → Q × Q} {size : ℝ → Q → Prop}
    {real : Q → Bezier (PointN ℝ n) N} {B E δ : ℝ} (hE : 0 ≤ E) (hδ : 0 ≤ δ)
    (hs : ∀ A q, A ≤ B → size A q → (size (A + E) (halve q).1 ∧ size (A + E) (halve q).2) ∧
      ControlsNear δ (real (halve q).1) (real q).halve.1 ∧
      ControlsNear δ (real (halve q).2) (real q).halve.2) (k : ℕ) :
    ∀ M q q' ε, M + k * E ≤ B → size M q → 0 ≤ ε → ControlsNear ε (real q) q' →
      (∀ p ∈ pieces halve k q, size (M + k * E) p) ∧
      List.Forall₂ (fun p p' => ControlsNear (ε + k * δ) (real p) p') (pieces halve k q)
        (pieces Bezier.halve k q') := by
  induction k with
  | zero =>
    intro M q q' ε _ hq _ hn
    simp only [pieces, List.mem_singleton, Nat.cast_zero, zero_mul, add_zero, forall_eq]
    exact ⟨hq, .cons hn .nil⟩
  | succ k ih =>
    intro M q q' ε hM hq hε hn
    push_cast at hM ⊢
    have k0 : 0 ≤ (k : ℝ) * E := by positivity
    obtain ⟨⟨s1, s2⟩, d1, d2⟩ := hs M q (by linarith) hq
    obtain ⟨g1, g2⟩ := split_near hε hn (t := 1 / 2) (by norm_num) (by norm_num)
      (real q).halve_spec q'.halve_spec
    obtain ⟨i1, j1⟩ := ih (M + E) _ _ (δ + ε) (by linarith) s1 (by linarith) (d1.trans g1)
    obtain ⟨i2, j2⟩ := ih (M + E) _ _ (δ + ε) (by linarith) s2 (by linarith) (d2.trans g2)
    rw [show M + ((k : ℝ) + 1) * E = M + E + k * E by ring,
      show ε + ((k : ℝ) + 1) * δ = δ + ε + k * δ by ring]
    refine ⟨fun p hp => ?_, List.rel_append j1 j2⟩
    rcases List.mem_append.1 hp with hp | hp
    · exact i1 p hp
    · exact i2 p hp

/-! ### From the pieces to the computed distance -/

/-- The program applied to endpoints that are near the curve. -/
theorem leastDistance_point (hu : F.u ≤ 1 / 1024) (he : F.eta ≤ 1 / 1024) {B : ℝ} (hB : 0 ≤ B)
    (hmax : (1 + F.u) ^ (n + 1) * (n * (5 / 2 * B + 1) ^ 2) + 2 * n * (1 + F.u) ^ n * F.eta
      ≤ F.max) (hB1 : 5 / 2 * B + 1 ≤ F.max) (hρ : distRel F n ≤ 1)
    {es : List (PointN (Fl F) n)} (hes : es ≠ []) (hb : ∀ e ∈ es, BoundedBy B e)
    {x : PointN (Fl F) n} (hx : BoundedBy B x) {f : ℝ → PointN ℝ n} {H ε d : ℝ}
    (h1 : ∀ t, 0 ≤ t → t ≤ 1 → ∃ e ∈ es, pdist (f t) e.real ≤ H + ε)
    (h2 : ∀ e ∈ es, ∃ u, 0 ≤ u ∧ u ≤ 1 ∧ pdist e.real (f u) ≤ ε)
    (hd : IsCurveDistance f x.real d) :
    ∃ m, leastDistance (es.map fun e => (x, e)) = some m ∧ m.IsFinite ∧ 0 ≤ m.toReal ∧
      (1 - distRel F n) * (d - ε) - distTiny F n ≤ m.toReal ∧
      m.toReal ≤ (1 + distRel F n) * (d + H + ε) + distTiny F n := by
  have ρ0 := distRel_nonneg F n
  obtain ⟨m, hm, mf, m0, ⟨y, hy, hlo⟩, hhi⟩ := leastDistance_near hu he hB hmax hB1
    (es.map fun e => (x, e)) (by simpa using hes) (by
      intro d hd
      obtain ⟨e, he, rfl⟩ := List.mem_map.1 hd
      exact ⟨hx, hb e he⟩)
  refine ⟨m, hm, mf, m0, ?_, ?_⟩
  · obtain ⟨e, he, rfl⟩ := List.mem_map.1 hy
    obtain ⟨u, u0, u1, hu⟩ := h2 e he
    have h3 := hd.1 ⟨u, u0, u1, rfl⟩
    have h4 := pdist_triangle x.real e.real (f u)
    have h5 := mul_le_mul_of_nonneg_left (show d - ε ≤ pdist x.real e.real by linarith)
      (show 0 ≤ 1 - distRel F n by linarith)
    simp only at hlo
    linarith
  · have hr : 0 < 1 + distRel F n := by linarith
    have : (m.toReal - distTiny F n) / (1 + distRel F n) - (H + ε) ≤ d := by
      refine hd.2 ?_
      rintro z ⟨t, t0, t1, rfl⟩
      obtain ⟨e, he, h3⟩ := h1 t t0 t1
      have h4 := hhi _ (List.mem_map_of_mem he)
      have h5 := pdist_triangle x.real (f t) e.real
      have h6 : (m.toReal - distTiny F n) / (1 + distRel F n) ≤ pdist x.real e.real := by
        rw [div_le_iff₀ hr]
        simp only at h4
        linarith
      linarith
    have h7 : (m.toReal - distTiny F n) / (1 + distRel F n) ≤ d + H + ε := by linarith
    rw [div_le_iff₀ hr] at h7
    linarith

/-- The program applied to the endpoints of two curves. -/
theorem leastDistance_curves (hu : F.u ≤ 1 / 1024) (he : F.eta ≤ 1 / 1024) {B : ℝ} (hB : 0 ≤ B)
    (hmax : (1 + F.u) ^ (n + 1) * (n * (5 / 2 * B + 1) ^ 2) + 2 * n * (1 + F.u) ^ n * F.eta
      ≤ F.max) (hB1 : 5 / 2 * B + 1 ≤ F.max) (hρ : distRel F n ≤ 1)
    {es es' : List (PointN (Fl F) n)} (hes : es ≠ []) (hes' : es' ≠ [])
    (hb : ∀ e ∈ es, BoundedBy B e) (hb' : ∀ e ∈ es', BoundedBy B e)
    {f g : ℝ → PointN ℝ n} {H H' ε ε' d : ℝ}
    (h1 : ∀ t, 0 ≤ t → t ≤ 1 → ∃ e ∈ es, pdist (f t) e.real ≤ H + ε)
    (h2 : ∀ e ∈ es, ∃ u, 0 ≤ u ∧ u ≤ 1 ∧ pdist e.real (f u) ≤ ε)
    (h1' : ∀ t, 0 ≤ t → t ≤ 1 → ∃ e ∈ es', pdist (g t) e.real ≤ H' + ε')
    (h2' : ∀ e ∈ es', ∃ u, 0 ≤ u ∧ u ≤ 1 ∧ pdist e.real (g u) ≤ ε')
    (hd : IsCurvesDistance f g d) :
    ∃ m, leastDistance (es.product es') = some m ∧ m.IsFinite ∧ 0 ≤ m.toReal ∧
      (1 - distRel F n) * (d - (ε + ε')) - distTiny F n ≤ m.toReal ∧
      m.toReal ≤ (1 + distRel F n) * (d + (H + H') + (ε + ε')) + distTiny F n := by
  have ρ0 := distRel_nonneg F n
  obtain ⟨m, hm, mf, m0, ⟨y, hy, hlo⟩, hhi⟩ := leastDistance_near hu he hB hmax hB1
    (es.product es') (by
      obtain ⟨a, ha⟩ := List.exists_mem_of_ne_nil _ hes
      obtain ⟨b, hb⟩ := List.exists_mem_of_ne_nil _ hes'
      exact List.ne_nil_of_mem (List.pair_mem_product.2 ⟨ha, hb⟩)) (by
      rintro ⟨a, b⟩ hd
      obtain ⟨ha, hb1⟩ := List.pair_mem_product.1 hd
      exact ⟨hb a ha, hb' b hb1⟩)
  refine ⟨m, hm, mf, m0, ?_, ?_⟩
  · obtain ⟨a, b⟩ := y
    obtain ⟨ha, hb1⟩ := List.pair_mem_product.1 hy
    obtain ⟨u, u0, u1, hu⟩ := h2 a ha
    obtain ⟨v, v0, v1, hv⟩ := h2' b hb1
    have h3 := hd.1 ⟨u, v, u0, u1, v0, v1, rfl⟩
    have h4 := pdist_triangle (f u) a.real (g v)
    have h5 := pdist_triangle a.real b.real (g v)
    rw [pdist_comm (f u) a.real] at h4
    have h6 := mul_le_mul_of_nonneg_left (show d - (ε + ε') ≤ pdist a.real b.real by linarith)
      (show 0 ≤ 1 - distRel F n by linarith)
    simp only at hlo
    linarith
  · have hr : 0 < 1 + distRel F n := by linarith
    have : (m.toReal - distTiny F n) / (1 + distRel F n) - (H + H' + (ε + ε')) ≤ d := by
      refine hd.2 ?_
      rintro z ⟨s, t, s0, s1, t0, t1, rfl⟩
      obtain ⟨a, ha, h3⟩ := h1 s s0 s1
      obtain ⟨b, hb1, h3'⟩ := h1' t t0 t1
      have h4 := hhi _ (List.pair_mem_product.2 ⟨ha, hb1⟩)
      have h5 := pdist_triangle a.real (f s) b.real
      have h5' := pdist_triangle (f s) (g t) b.real
      rw [pdist_comm a.real (f s)] at h5
      have h6 : (m.toReal - distTiny F n) / (1 + distRel F n) ≤ pdist a.real b.real := by
        rw [div_le_iff₀ hr]
        simp only at h4
        linarith
      linarith
    have h7 : (m.toReal - distTiny F n) / (1 + distRel F n) ≤ d + (H + H') + (ε + ε') := by linarith
    rw [div_le_iff₀ hr] at h7
    linarith

/-! ### The endpoints of the pieces -/

/-- The points have coordinates up to `B`, every point of the curve is within `H + ε` of one of them,
and each of them is within `ε` of the curve. -/
structure EndsNear (f : ℝ → PointN ℝ n) (es : List (PointN (Fl F) n)) (B H ε : ℝ) : Prop where
  ne_nil : es ≠ []
  bounded : ∀ e ∈ es, BoundedBy B e
  covers : ∀ t, 0 ≤ t → t ≤ 1 → ∃ e ∈ es, pdist (f t) e.real ≤ H + ε
  on_curve : ∀ e ∈ es, ∃ u, 0 ≤ u ∧ u ≤ 1 ∧ pdist e.real (f u) ≤ ε

theorem BoundedBy.mono {p : PointN (Fl F) n} {A A' : ℝ} (h : BoundedBy A p) (hA : A ≤ A') :
    BoundedBy A' p := fun i => ⟨(h i).1, (h i).2.trans hA⟩

theorem ends_near {Q : Type} {real : Q → Bezier (PointN ℝ n) N} {first last : Q → PointN (Fl F) n}
    (hN : 1 ≤ N) (h0 : ∀ q, (real q).control_points ⟨0, hN⟩ = (first q).real)
    (h1 : ∀ q, (real q).control_points ⟨N - 1, by omega⟩ = (last q).real)
    {b : Bezier (PointN ℝ n) N} {f : ℝ → PointN ℝ n} (hf : ∀ t, b.eval t = some (f t))
    {ps : List Q} (hps : 1 ≤ ps.length) {ps' : List (Bezier (PointN ℝ n) N)}
    (hc : CutInto (fun q t => q.split t) b ps') {ε : ℝ} (ε0 : 0 ≤ ε)
    (hn : List.Forall₂ (fun p p' => ControlsNear ε (real p) p') ps ps') {B : ℝ}
    (hB : ∀ p ∈ ps, BoundedBy B (first p) ∧ BoundedBy B (last p)) {L : ℝ}
    (hL : ∀ p ∈ ps, controlPolygonLength (real p).control_points ≤ L) :
    EndsNear f (ps.flatMap fun p => [first p, last p]) B (L / 2) ε := by
  obtain ⟨g1, g2⟩ := near_cut_ends hN hf hc ε0 hn
  refine ⟨?_, ?_, ?_, ?_⟩
  · obtain _ | ⟨p, ps⟩ := ps
    · simp at hps
    · simp
  · intro e he
    obtain ⟨p, hp, he⟩ := List.mem_flatMap.1 he
    simp only [List.mem_cons, List.not_mem_nil, or_false] at he
    rcases he with rfl | rfl
    exacts [(hB p hp).1, (hB p hp).2]
  · intro t t0 t1
    obtain ⟨e, he, h5⟩ := g1 L hL t t0 t1
    obtain ⟨p, hp, he⟩ := (mem_endpointsOf hN _ _).1 he
    obtain ⟨q, hq, rfl⟩ := List.mem_map.1 hp
    rcases he with rfl | rfl
    · exact ⟨first q, List.mem_flatMap.2 ⟨q, hq, by simp⟩, by rw [← h0]; exact h5⟩
    · exact ⟨last q, List.mem_flatMap.2 ⟨q, hq, by simp⟩, by rw [← h1]; exact h5⟩
  · intro e he
    obtain ⟨p, hp, he⟩ := List.mem_flatMap.1 he
    simp only [List.mem_cons, List.not_mem_nil, or_false] at he
    refine g2 _ ((mem_endpointsOf hN _ _).2 ⟨real p, List.mem_map_of_mem hp, ?_⟩)
    rcases he with rfl | rfl
    exacts [Or.inl (h0 p).symm, Or.inr (h1 p).symm]

/-- The endpoints of the pieces of a curve, however it is cut. -/
theorem cut_ends {Q : Type} {split : Q → Fl F → Option (Q × Q)} {size : ℝ → Q → Prop}
    {real : Q → Bezier (PointN ℝ n) N} {first last : Q → PointN (Fl F) n}
    (hN : 1 ≤ N) (h0 : ∀ q, (real q).control_points ⟨0, hN⟩ = (first q).real)
    (h1 : ∀ q, (real q).control_points ⟨N - 1, by omega⟩ = (last q).real)
    {M E : ℝ} (hE : 0 ≤ E)
    (hmono : ∀ A A' q, A ≤ A' → size A q → size A' q)
    (hsize : ∀ A q, size A q → BoundedBy A (first q) ∧ BoundedBy A (last q))
    (hstep : ∀ (A : ℝ) (q : Q) (t : Fl F) (l r : Q), A ≤ M + 1 → size A q → t.IsFinite →
      0 ≤ t.toReal → t.toReal ≤ 1 → split q t = some (l, r) → size (A + E) l ∧ size (A + E) r ∧
      ∃ l' r', (real q).split t.toReal = some (l', r') ∧
        ControlsNear (Real.sqrt n * E) (real l) l' ∧ ControlsNear (Real.sqrt n * E) (real r) r')
    {q : Q} {ps : List Q} (h : FloatCutInto split q ps) (hq : size M q)
    (hlen : (ps.length - 1 : ℝ) * E ≤ 1) {L : ℝ}
    (hL : ∀ p ∈ ps, controlPolygonLength (real p).control_points ≤ L) {f : ℝ → PointN ℝ n}
    (hf : ∀ t, (real q).eval t = some (f t)) :
    EndsNear f (ps.flatMap fun p => [first p, last p]) (M + 1) (L / 2)
      ((ps.length - 1 : ℝ) * (Real.sqrt n * E)) := by
  have δ0 := mul_nonneg (Real.sqrt_nonneg n) hE
  obtain ⟨g1, ps', g2, g3⟩ := h.near (real := real) (size := size) (B := M + 1) hE δ0
    (fun {A A' q} => hmono A A' q) hstep hq (by linarith)
  have k0 : (0 : ℝ) ≤ ps.length - 1 := by
    have : (1 : ℝ) ≤ ps.length := by exact_mod_cast h.ne_nil
    linarith
  exact ends_near hN h0 h1 hf h.ne_nil g2 (mul_nonneg k0 δ0) g3
    (fun p hp => hsize _ _ (hmono _ _ _ (by linarith) (g1 p hp))) hL

/-- The endpoints of the pieces after `k` halvings. -/
theorem halving_ends {Q : Type} {split : Q → Fl F → Option (Q × Q)} {size : ℝ → Q → Prop}
    {real : Q → Bezier (PointN ℝ n) N} {first last : Q → PointN (Fl F) n}
    (hN : 1 ≤ N) (h0 : ∀ q, (real q).control_points ⟨0, hN⟩ = (first q).real)
    (h1 : ∀ q, (real q).control_points ⟨N - 1, by omega⟩ = (last q).real)
    {M E : ℝ} (hE : 0 ≤ E)
    (hmono : ∀ A A' q, A ≤ A' → size A q → size A' q)
    (hsize : ∀ A q, size A q → BoundedBy A (first q) ∧ BoundedBy A (last q))
    (hstep : ∀ (A : ℝ) (q : Q) (t : Fl F) (l r : Q), A ≤ M + 1 → size A q → t.IsFinite →
      0 ≤ t.toReal → t.toReal ≤ 1 → split q t = some (l, r) → size (A + E) l ∧ size (A + E) r ∧
      ∃ l' r', (real q).split t.toReal = some (l', r') ∧
        ControlsNear (Real.sqrt n * E) (real l) l' ∧ ControlsNear (Real.sqrt n * E) (real r) r')
    (hh : (1 / 2 : ℝ) ∈ F.grid ∧ |(1 / 2 : ℝ)| ≤ F.max) {halve : Q → Q × Q}
    (hhalve : ∀ q, split q (fin (1 / 2) hh) = some (halve q)) (k : ℕ) {q : Q} (hq : size M q)
    (hlen : k * E ≤ 1) {A : ℝ}
    (hA : ∀ k (h : k + 1 < N), pdist ((real q).control_points ⟨k, by omega⟩)
      ((real q).control_points ⟨k + 1, h⟩) ≤ A) {f : ℝ → PointN ℝ n}
    (hf : ∀ t, (real q).eval t = some (f t)) :
    EndsNear f ((pieces halve k q).flatMap fun p => [first p, last p]) (M + 1)
      (((N - 1 : ℕ) : ℝ) * (A / 2 ^ k + 2 * (k * (Real.sqrt n * E))) / 2)
      (k * (Real.sqrt n * E)) := by
  have δ0 := mul_nonneg (Real.sqrt_nonneg n) hE
  obtain ⟨g1, g3⟩ := pieces_near (real := real) (B := M + 1) (halve := halve) (size := size)
    hE δ0 (by
      intro A q hA hq
      obtain ⟨a1, a2, l', r', a3, a4, a5⟩ := hstep A q (fin (1 / 2) hh)
        (halve q).1 (halve q).2 hA hq trivial
        (by rw [toReal_fin]; norm_num) (by rw [toReal_fin]; norm_num) (hhalve q)
      rw [toReal_fin, Bezier.halve_spec, Option.some.injEq] at a3
      rw [a3]
      exact ⟨⟨a1, a2⟩, a4, a5⟩) k M q (real q) 0 (by linarith) hq le_rfl (fun j => by
      rw [pdist_eq_norm, sub_self, norm_zero])
  rw [zero_add] at g3
  have k0 : (0 : ℝ) ≤ k := k.cast_nonneg
  have hleg : ∀ p' ∈ pieces Bezier.halve k (real q), ∀ j, j + 1 ≤ N - 1 →
      ‖toE (extend p'.control_points (j + 1)) - toE (extend p'.control_points j)‖ ≤ A / 2 ^ k :=
    pieces_size_le (size := fun (q : Bezier (PointN ℝ n) N) A => ∀ j, j + 1 ≤ N - 1 →
        ‖toE (extend q.control_points (j + 1)) - toE (extend q.control_points j)‖ ≤ A)
      halve_legs k (real q) A (by
        intro j hj
        rw [norm_sub_rev, ← pdist_eq_norm, extend_lt _ (show j < N by omega),
          extend_lt _ (show j + 1 < N by omega)]
        exact hA j (by omega))
  refine ends_near hN h0 h1 hf ?_ (cutInto_pieces Bezier.halve_spec k (real q))
    (mul_nonneg k0 δ0) g3 (fun p hp => hsize _ _ (hmono _ _ _ (by linarith) (g1 p hp))) ?_
  · rw [pieces_length]
    exact Nat.one_le_two_pow
  · intro p hp
    obtain ⟨i, hi, rfl⟩ := List.getElem_of_mem hp
    have hi' : i < (pieces Bezier.halve k (real q)).length := by rw [← g3.length_eq]; exact hi
    have hnear := (List.forall₂_iff_get.1 g3).2 i hi hi'
    simp only [List.get_eq_getElem] at hnear
    exact hnear.polygon (hleg _ (List.getElem_mem hi'))

/-- One cut of a curve. -/
theorem bezier_step (hN : 1 ≤ N) {M E : ℝ} (hE : E = casBound F (M + 1) (N - 1) - (M + 1))
    (hmax : M + 1 + E ≤ F.max) (A : ℝ) (q : Bezier (PointN (Fl F) n) N) (t : Fl F)
    (l r : Bezier (PointN (Fl F) n) N) (hA : A ≤ M + 1)
    (hq : 0 ≤ A ∧ ∀ k, BoundedBy A (q.control_points k)) (tf : t.IsFinite) (t0 : 0 ≤ t.toReal)
    (t1 : t.toReal ≤ 1) (hs : q.split t = some (l, r)) :
    (0 ≤ A + E ∧ ∀ k, BoundedBy (A + E) (l.control_points k)) ∧
    (0 ≤ A + E ∧ ∀ k, BoundedBy (A + E) (r.control_points k)) ∧
    ∃ l' r', q.real.split t.toReal = some (l', r') ∧
      ControlsNear (Real.sqrt n * E) l.real l' ∧ ControlsNear (Real.sqrt n * E) r.real r' := by
  obtain ⟨A0, hq⟩ := hq
  obtain ⟨τ, hτ, rfl⟩ := isFinite_iff.1 tf
  rw [toReal_fin] at t0 t1
  have hEA := casBound_sub_mono (F := F) (N - 1) hA
  rw [← hE] at hEA
  have E0 : A ≤ casBound F A (N - 1) := by
    have := casBound_mono (F := F) A0 (Nat.zero_le (N - 1))
    have h0 : casBound F A 0 = A := by simp [casBound]
    linarith
  obtain ⟨l1, r1, l', r', h1, h2, h3, h4⟩ := bezier_split_near hN q hτ t0 t1 hq A0 (by linarith)
  rw [h1, Option.some.injEq, Prod.mk.injEq] at hs
  obtain ⟨rfl, rfl⟩ := hs
  have w := mul_le_mul_of_nonneg_left hEA (Real.sqrt_nonneg n)
  exact ⟨⟨by linarith, fun k => (h3 k).1.mono (by linarith)⟩,
    ⟨by linarith, fun k => (h3 k).2.mono (by linarith)⟩, l', r', h2,
    fun k => (h4 k).1.trans w, fun k => (h4 k).2.trans w⟩

theorem bezier_E_nonneg (N : ℕ) {M E : ℝ} (hM : 0 ≤ M)
    (hE : E = casBound F (M + 1) (N - 1) - (M + 1)) : 0 ≤ E := by
  have := casBound_mono (F := F) (show 0 ≤ M + 1 by linarith) (Nat.zero_le (N - 1))
  have h0 : casBound F (M + 1) 0 = M + 1 := by simp [casBound]
  linarith

/-- One cut of a quadratic curve. -/
theorem quadratic_step (hu : F.u ≤ 1 / 1024) (he : F.eta ≤ 1 / 1024) {M E : ℝ}
    (hE : E = 13 * F.u * (M + 1) + 9 * F.eta) (hmax : 3 * (M + 1) + 2 ≤ F.max) (A : ℝ)
    (q : QuadraticBezier (PointN (Fl F) n)) (t : Fl F) (l r : QuadraticBezier (PointN (Fl F) n))
    (hA : A ≤ M + 1)
    (hq : 0 ≤ A ∧ BoundedBy A q.start ∧ BoundedBy A q.ctrl ∧ BoundedBy A q.end_)
    (tf : t.IsFinite) (t0 : 0 ≤ t.toReal) (t1 : t.toReal ≤ 1) (hs : some (q.split t) = some (l, r)) :
    (0 ≤ A + E ∧ BoundedBy (A + E) l.start ∧ BoundedBy (A + E) l.ctrl ∧ BoundedBy (A + E) l.end_) ∧
    (0 ≤ A + E ∧ BoundedBy (A + E) r.start ∧ BoundedBy (A + E) r.ctrl ∧ BoundedBy (A + E) r.end_) ∧
    ∃ l' r', q.real.generic.split t.toReal = some (l', r') ∧
      ControlsNear (Real.sqrt n * E) l.real.generic l' ∧
      ControlsNear (Real.sqrt n * E) r.real.generic r' := by
  obtain ⟨A0, q1, q2, q3⟩ := hq
  obtain ⟨τ, hτ, rfl⟩ := isFinite_iff.1 tf
  rw [toReal_fin] at t0 t1
  have e0 := F.eta_nonneg
  have u0 := F.u_nonneg
  have uA := mul_nonneg u0 A0
  have hEA : 13 * F.u * A + 9 * F.eta ≤ E := by
    rw [hE]
    have := mul_le_mul_of_nonneg_left hA u0
    linarith
  have h4 := quadratic_split_near q hτ t0 t1 hu he A0 q1 q2 q3 (by linarith)
  have h5 := (C86_quadratic q hτ t0 t1 hu he q1 q2 q3 (by linarith)).1
  rw [Option.some.injEq, Prod.eq_iff_fst_eq_snd_eq] at hs
  obtain ⟨rfl, rfl⟩ := hs
  have w := mul_le_mul_of_nonneg_left hEA (Real.sqrt_nonneg n)
  have w' : ∀ {p : PointN (Fl F) n}, BoundedBy (A + (13 * F.u * A + 9 * F.eta)) p →
      BoundedBy (A + E) p := fun h => h.mono (by linarith)
  exact ⟨⟨by linarith, w' (h5 _ (by simp)), w' (h5 _ (by simp)), w' (h5 _ (by simp))⟩,
    ⟨by linarith, w' (h5 _ (by simp)), w' (h5 _ (by simp)), w' (h5 _ (by simp))⟩, _, _,
    q.real.generic_split τ, fun k => (h4 k).1.trans w, fun k => (h4 k).2.trans w⟩

/-- One cut of a cubic curve. -/
theorem cubic_step (hu : F.u ≤ 1 / 1024) (he : F.eta ≤ 1 / 1024) {M E : ℝ}
    (hE : E = 20 * F.u * (M + 1) + 14 * F.eta) (hmax : 3 * (M + 1) + 2 ≤ F.max) (A : ℝ)
    (q : CubicBezier (PointN (Fl F) n)) (t : Fl F) (l r : CubicBezier (PointN (Fl F) n))
    (hA : A ≤ M + 1)
    (hq : 0 ≤ A ∧ BoundedBy A q.start ∧ BoundedBy A q.ctrl1 ∧ BoundedBy A q.ctrl2 ∧
      BoundedBy A q.end_)
    (tf : t.IsFinite) (t0 : 0 ≤ t.toReal) (t1 : t.toReal ≤ 1) (hs : some (q.split t) = some (l, r)) :
    (0 ≤ A + E ∧ BoundedBy (A + E) l.start ∧ BoundedBy (A + E) l.ctrl1 ∧ BoundedBy (A + E) l.ctrl2 ∧
      BoundedBy (A + E) l.end_) ∧
    (0 ≤ A + E ∧ BoundedBy (A + E) r.start ∧ BoundedBy (A + E) r.ctrl1 ∧ BoundedBy (A + E) r.ctrl2 ∧
      BoundedBy (A + E) r.end_) ∧
    ∃ l' r', q.real.generic.split t.toReal = some (l', r') ∧
      ControlsNear (Real.sqrt n * E) l.real.generic l' ∧
      ControlsNear (Real.sqrt n * E) r.real.generic r' := by
  obtain ⟨A0, q1, q2, q3, q4⟩ := hq
  obtain ⟨τ, hτ, rfl⟩ := isFinite_iff.1 tf
  rw [toReal_fin] at t0 t1
  have e0 := F.eta_nonneg
  have u0 := F.u_nonneg
  have uA := mul_nonneg u0 A0
  have hEA : 20 * F.u * A + 14 * F.eta ≤ E := by
    rw [hE]
    have := mul_le_mul_of_nonneg_left hA u0
    linarith
  have h4 := cubic_split_near q hτ t0 t1 hu he A0 q1 q2 q3 q4 (by linarith)
  have h5 := (C86_cubic q hτ t0 t1 hu he q1 q2 q3 q4 (by linarith)).1
  rw [Option.some.injEq, Prod.eq_iff_fst_eq_snd_eq] at hs
  obtain ⟨rfl, rfl⟩ := hs
  have w := mul_le_mul_of_nonneg_left hEA (Real.sqrt_nonneg n)
  have w' : ∀ {p : PointN (Fl F) n}, BoundedBy (A + (20 * F.u * A + 14 * F.eta)) p →
      BoundedBy (A + E) p := fun h => h.mono (by linarith)
  exact ⟨⟨by linarith, w' (h5 _ (by simp)), w' (h5 _ (by simp)), w' (h5 _ (by simp)),
      w' (h5 _ (by simp))⟩,
    ⟨by linarith, w' (h5 _ (by simp)), w' (h5 _ (by simp)), w' (h5 _ (by simp)),
      w' (h5 _ (by simp))⟩, _, _,
    q.real.generic_split τ, fun k => (h4 k).1.trans w, fun k => (h4 k).2.trans w⟩

theorem bezier_ends (hN : 1 ≤ N) (b : Bezier (PointN (Fl F) n) N) {M E L : ℝ} (hM : 0 ≤ M)
    (hb : ∀ k, BoundedBy M (b.control_points k))
    (hE : E = casBound F (M + 1) (N - 1) - (M + 1)) (hmax : M + 1 + E ≤ F.max)
    (ps : List (Bezier (PointN (Fl F) n) N)) (h : FloatCutInto (fun q t => q.split t) b ps)
    (hlen : (ps.length - 1 : ℝ) * E ≤ 1)
    (hL : ∀ p ∈ ps, controlPolygonLength p.real.control_points ≤ L) (f : ℝ → PointN ℝ n)
    (hf : ∀ t, b.real.eval t = some (f t)) :
    EndsNear f (Bezier.ends hN ps) (M + 1) (L / 2) ((ps.length - 1 : ℝ) * (Real.sqrt n * E)) :=
  cut_ends (Q := Bezier (PointN (Fl F) n) N) (split := fun q t => q.split t)
    (real := fun q => q.real) (first := fun q => q.control_points ⟨0, hN⟩)
    (last := fun q => q.control_points ⟨N - 1, by omega⟩)
    (size := fun A q => 0 ≤ A ∧ ∀ k, BoundedBy A (q.control_points k)) hN (fun _ => rfl)
    (fun _ => rfl) (bezier_E_nonneg N hM hE)
    (fun A A' q hA hq => ⟨hq.1.trans hA, fun k => (hq.2 k).mono hA⟩)
    (fun A q hq => ⟨hq.2 _, hq.2 _⟩) (bezier_step hN hE hmax) h ⟨hM, hb⟩ hlen hL hf

theorem bezier_halving_ends (hN : 1 ≤ N) (b : Bezier (PointN (Fl F) n) N) {M E A : ℝ} (hM : 0 ≤ M)
    (hb : ∀ k, BoundedBy M (b.control_points k))
    (hE : E = casBound F (M + 1) (N - 1) - (M + 1)) (hmax : M + 1 + E ≤ F.max)
    (hh : (1 / 2 : ℝ) ∈ F.grid ∧ |(1 / 2 : ℝ)| ≤ F.max)
    (hA : ∀ k (h : k + 1 < N), pdist (b.real.control_points ⟨k, by omega⟩)
      (b.real.control_points ⟨k + 1, h⟩) ≤ A) (k : ℕ) (hlen : k * E ≤ 1) (f : ℝ → PointN ℝ n)
    (hf : ∀ t, b.real.eval t = some (f t)) :
    EndsNear f (Bezier.ends hN (pieces (Bezier.halveAt (fin (1 / 2) hh)) k b)) (M + 1)
      (((N - 1 : ℕ) : ℝ) * (A / 2 ^ k + 2 * (k * (Real.sqrt n * E))) / 2)
      (k * (Real.sqrt n * E)) :=
  halving_ends (Q := Bezier (PointN (Fl F) n) N) (split := fun q t => q.split t)
    (real := fun q => q.real) (first := fun q => q.control_points ⟨0, hN⟩)
    (last := fun q => q.control_points ⟨N - 1, by omega⟩)
    (size := fun A q => 0 ≤ A ∧ ∀ k, BoundedBy A (q.control_points k)) hN (fun _ => rfl)
    (fun _ => rfl) (bezier_E_nonneg N hM hE)
    (fun A A' q hA hq => ⟨hq.1.trans hA, fun k => (hq.2 k).mono hA⟩)
    (fun A q hq => ⟨hq.2 _, hq.2 _⟩) (bezier_step hN hE hmax) hh
    (fun q => q.halveAt_spec _) k ⟨hM, hb⟩ hlen hA hf

theorem quadratic_ends (q : QuadraticBezier (PointN (Fl F) n)) {M E L : ℝ} (hM : 0 ≤ M)
    (hs : BoundedBy M q.start) (hc : BoundedBy M q.ctrl) (hd : BoundedBy M q.end_)
    (hu : F.u ≤ 1 / 1024) (he : F.eta ≤ 1 / 1024) (hE : E = 13 * F.u * (M + 1) + 9 * F.eta)
    (hmax : 3 * (M + 1) + 2 ≤ F.max) (ps : List (QuadraticBezier (PointN (Fl F) n)))
    (h : FloatCutInto (fun q t => some (q.split t)) q ps) (hlen : (ps.length - 1 : ℝ) * E ≤ 1)
    (hL : ∀ p ∈ ps, pdist p.real.start p.real.ctrl + pdist p.real.ctrl p.real.end_ ≤ L) :
    EndsNear (fun t => q.real.eval t) (QuadraticBezier.ends ps) (M + 1) (L / 2)
      ((ps.length - 1 : ℝ) * (Real.sqrt n * E)) :=
  cut_ends (Q := QuadraticBezier (PointN (Fl F) n)) (split := fun q t => some (q.split t))
    (real := fun q => q.real.generic) (first := fun q => q.start) (last := fun q => q.end_)
    (size := fun A q => 0 ≤ A ∧ BoundedBy A q.start ∧ BoundedBy A q.ctrl ∧ BoundedBy A q.end_)
    (by norm_num) (fun _ => rfl) (fun _ => rfl)
    (by rw [hE]; have := F.eta_nonneg; have := F.u_nonneg; positivity)
    (fun A A' q hA hq => ⟨hq.1.trans hA, hq.2.1.mono hA, hq.2.2.1.mono hA, hq.2.2.2.mono hA⟩)
    (fun A q hq => ⟨hq.2.1, hq.2.2.2⟩) (quadratic_step hu he hE hmax) h ⟨hM, hs, hc, hd⟩ hlen
    (fun p hp => by rw [QuadraticBezier.generic_polygon]; exact hL p hp)
    (fun t => C32_quadratic_eval _ _ _ t)

theorem quadratic_halving_ends (q : QuadraticBezier (PointN (Fl F) n)) {M E A : ℝ} (hM : 0 ≤ M)
    (hs : BoundedBy M q.start) (hc : BoundedBy M q.ctrl) (hd : BoundedBy M q.end_)
    (hu : F.u ≤ 1 / 1024) (he : F.eta ≤ 1 / 1024) (hE : E = 13 * F.u * (M + 1) + 9 * F.eta)
    (hmax : 3 * (M + 1) + 2 ≤ F.max) (hh : (1 / 2 : ℝ) ∈ F.grid ∧ |(1 / 2 : ℝ)| ≤ F.max)
    (hA : pdist q.real.start q.real.ctrl ≤ A) (hA' : pdist q.real.ctrl q.real.end_ ≤ A)
    (k : ℕ) (hlen : k * E ≤ 1) :
    EndsNear (fun t => q.real.eval t)
      (QuadraticBezier.ends (pieces (fun q => q.split (fin (1 / 2) hh)) k q)) (M + 1)
      (((3 - 1 : ℕ) : ℝ) * (A / 2 ^ k + 2 * (k * (Real.sqrt n * E))) / 2)
      (k * (Real.sqrt n * E)) :=
  halving_ends (Q := QuadraticBezier (PointN (Fl F) n)) (split := fun q t => some (q.split t))
    (real := fun q => q.real.generic) (first := fun q => q.start) (last := fun q => q.end_)
    (size := fun A q => 0 ≤ A ∧ BoundedBy A q.start ∧ BoundedBy A q.ctrl ∧ BoundedBy A q.end_)
    (by norm_num) (fun _ => rfl) (fun _ => rfl)
    (by rw [hE]; have := F.eta_nonneg; have := F.u_nonneg; positivity)
    (fun A A' q hA hq => ⟨hq.1.trans hA, hq.2.1.mono hA, hq.2.2.1.mono hA, hq.2.2.2.mono hA⟩)
    (fun A q hq => ⟨hq.2.1, hq.2.2.2⟩) (quadratic_step hu he hE hmax) hh (fun _ => rfl) k
    ⟨hM, hs, hc, hd⟩ hlen
    (fun j hj => by
      obtain rfl | rfl : j = 0 ∨ j = 1 := by omega
      exacts [hA, hA'])
    (fun t => C32_quadratic_eval _ _ _ t)

theorem cubic_ends (c : CubicBezier (PointN (Fl F) n)) {M E L : ℝ} (hM : 0 ≤ M)
    (hs : BoundedBy M c.start) (hc1 : BoundedBy M c.ctrl1) (hc2 : BoundedBy M c.ctrl2)
    (hd : BoundedBy M c.end_)
    (hu : F.u ≤ 1 / 1024) (he : F.eta ≤ 1 / 1024) (hE : E = 20 * F.u * (M + 1) + 14 * F.eta)
    (hmax : 3 * (M + 1) + 2 ≤ F.max) (ps : List (CubicBezier (PointN (Fl F) n)))
    (h : FloatCutInto (fun c t => some (c.split t)) c ps) (hlen : (ps.length - 1 : ℝ) * E ≤ 1)
    (hL : ∀ p ∈ ps, pdist p.real.start p.real.ctrl1 + pdist p.real.ctrl1 p.real.ctrl2
      + pdist p.real.ctrl2 p.real.end_ ≤ L) :
    EndsNear (fun t => c.real.eval t) (CubicBezier.ends ps) (M + 1) (L / 2)
      ((ps.length - 1 : ℝ) * (Real.sqrt n * E)) :=
  cut_ends (Q := CubicBezier (PointN (Fl F) n)) (split := fun q t => some (q.split t))
    (real := fun q => q.real.generic) (first := fun q => q.start) (last := fun q => q.end_)
    (size := fun A q => 0 ≤ A ∧ BoundedBy A q.start ∧ BoundedBy A q.ctrl1 ∧ BoundedBy A q.ctrl2 ∧
      BoundedBy A q.end_)
    (by norm_num) (fun _ => rfl) (fun _ => rfl)
    (by rw [hE]; have := F.eta_nonneg; have := F.u_nonneg; positivity)
    (fun A A' q hA hq => ⟨hq.1.trans hA, hq.2.1.mono hA, hq.2.2.1.mono hA, hq.2.2.2.1.mono hA,
      hq.2.2.2.2.mono hA⟩)
    (fun A q hq => ⟨hq.2.1, hq.2.2.2.2⟩) (cubic_step hu he hE hmax) h ⟨hM, hs, hc1, hc2, hd⟩ hlen
    (fun p hp => by rw [CubicBezier.generic_polygon]; exact hL p hp)
    (fun t => C32_cubic_eval _ _ _ _ t)

theorem cubic_halving_ends (c : CubicBezier (PointN (Fl F) n)) {M E A : ℝ} (hM : 0 ≤ M)
    (hs : BoundedBy M c.start) (hc1 : BoundedBy M c.ctrl1) (hc2 : BoundedBy M c.ctrl2)
    (hd : BoundedBy M c.end_)
    (hu : F.u ≤ 1 / 1024) (he : F.eta ≤ 1 / 1024) (hE : E = 20 * F.u * (M + 1) + 14 * F.eta)
    (hmax : 3 * (M + 1) + 2 ≤ F.max) (hh : (1 / 2 : ℝ) ∈ F.grid ∧ |(1 / 2 : ℝ)| ≤ F.max)
    (hA : pdist c.real.start c.real.ctrl1 ≤ A) (hA' : pdist c.real.ctrl1 c.real.ctrl2 ≤ A)
    (hA'' : pdist c.real.ctrl2 c.real.end_ ≤ A) (k : ℕ) (hlen : k * E ≤ 1) :
    EndsNear (fun t => c.real.eval t)
      (CubicBezier.ends (pieces (fun q => q.split (fin (1 / 2) hh)) k c)) (M + 1)
      (((4 - 1 : ℕ) : ℝ) * (A / 2 ^ k + 2 * (k * (Real.sqrt n * E))) / 2)
      (k * (Real.sqrt n * E)) :=
  halving_ends (Q := CubicBezier (PointN (Fl F) n)) (split := fun q t => some (q.split t))
    (real := fun q => q.real.generic) (first := fun q => q.start) (last := fun q => q.end_)
    (size := fun A q => 0 ≤ A ∧ BoundedBy A q.start ∧ BoundedBy A q.ctrl1 ∧ BoundedBy A q.ctrl2 ∧
      BoundedBy A q.end_)
    (by norm_num) (fun _ => rfl) (fun _ => rfl)
    (by rw [hE]; have := F.eta_nonneg; have := F.u_nonneg; positivity)
    (fun A A' q hA hq => ⟨hq.1.trans hA, hq.2.1.mono hA, hq.2.2.1.mono hA, hq.2.2.2.1.mono hA,
      hq.2.2.2.2.mono hA⟩)
    (fun A q hq => ⟨hq.2.1, hq.2.2.2.2⟩) (cubic_step hu he hE hmax) hh (fun _ => rfl) k
    ⟨hM, hs, hc1, hc2, hd⟩ hlen
    (fun j hj => by
      obtain rfl | rfl | rfl : j = 0 ∨ j = 1 ∨ j = 2 := by omega
      exacts [hA, hA', hA''])
    (fun t => C32_cubic_eval _ _ _ _ t)

/-! ### The bounds -/

/-- **C138**: a curve is cut by `split` at floats in `[0, 1]`, in any order. Then the smallest
computed distance from `x` to an endpoint of a piece is at least the distance from `x` to the curve,
and exceeds it by at most half the length of the longest control polygon of the pieces, up to
rounding errors. `E` is the error bound of one `split` (C62), `distRel` and `distTiny` are the error
bounds of a computed distance (C88). -/
theorem C138_bounds (hN : 1 ≤ N) (b : Bezier (PointN (Fl F) n) N) {M E L : ℝ} (hM : 0 ≤ M)
    (hb : ∀ k, BoundedBy M (b.control_points k)) (hu : F.u ≤ 1 / 1024) (he : F.eta ≤ 1 / 1024)
    (hE : E = ((1 + F.u) ^ 2 * (1 + F.u + F.eta)) ^ (N - 1)
      * (M + 1 + (N - 1 : ℕ) * (3 * (1 + F.u) * F.eta)) - (M + 1))
    (hmax : M + 1 + E ≤ F.max) (ps : List (Bezier (PointN (Fl F) n) N))
    (h : FloatCutInto (fun q t => q.split t) b ps) (hlen : (ps.length - 1 : ℝ) * E ≤ 1)
    (hL : ∀ p ∈ ps, controlPolygonLength p.real.control_points ≤ L)
    (hsq : (1 + F.u) ^ (n + 1) * (n * (5 / 2 * (M + 1) + 1) ^ 2) + 2 * n * (1 + F.u) ^ n * F.eta
      ≤ F.max)
    (hB1 : 5 / 2 * (M + 1) + 1 ≤ F.max) (hρ : distRel F n ≤ 1) (f : ℝ → PointN ℝ n)
    (hf : ∀ t, b.real.eval t = some (f t)) (x : PointN (Fl F) n) (hx : BoundedBy (M + 1) x) (d : ℝ)
    (hd : IsCurveDistance f x.real d) :
    ∃ m, leastDistance ((Bezier.ends hN ps).map fun e => (x, e)) = some m ∧ m.IsFinite ∧ 0 ≤ m.toReal ∧
      (1 - distRel F n) * (d - (ps.length - 1 : ℝ) * (Real.sqrt n * E)) - distTiny F n ≤ m.toReal ∧
      m.toReal ≤ (1 + distRel F n) * (d + L / 2 + (ps.length - 1 : ℝ) * (Real.sqrt n * E)) + distTiny F n := by
  have h := bezier_ends hN b hM hb hE hmax ps h hlen hL f hf
  exact leastDistance_point hu he (by linarith) hsq hB1 hρ h.ne_nil h.bounded hx h.covers h.on_curve
    hd

/-- **C138** for two curves: the smallest computed distance between an endpoint of a piece of the one
and an endpoint of a piece of the other. -/
theorem C138_two_curves {N' : ℕ} (hN : 1 ≤ N) (hN' : 1 ≤ N') (b : Bezier (PointN (Fl F) n) N)
    (b' : Bezier (PointN (Fl F) n) N') {M E E' L L' : ℝ} (hM : 0 ≤ M)
    (hb : ∀ k, BoundedBy M (b.control_points k)) (hb' : ∀ k, BoundedBy M (b'.control_points k))
    (hu : F.u ≤ 1 / 1024) (he : F.eta ≤ 1 / 1024)
    (hE : E = ((1 + F.u) ^ 2 * (1 + F.u + F.eta)) ^ (N - 1)
      * (M + 1 + (N - 1 : ℕ) * (3 * (1 + F.u) * F.eta)) - (M + 1))
    (hE' : E' = ((1 + F.u) ^ 2 * (1 + F.u + F.eta)) ^ (N' - 1)
      * (M + 1 + (N' - 1 : ℕ) * (3 * (1 + F.u) * F.eta)) - (M + 1))
    (hmax : M + 1 + E ≤ F.max) (hmax' : M + 1 + E' ≤ F.max)
    (ps : List (Bezier (PointN (Fl F) n) N)) (ps' : List (Bezier (PointN (Fl F) n) N'))
    (h : FloatCutInto (fun q t => q.split t) b ps) (h' : FloatCutInto (fun q t => q.split t) b' ps')
    (hlen : (ps.length - 1 : ℝ) * E ≤ 1) (hlen' : (ps'.length - 1 : ℝ) * E' ≤ 1)
    (hL : ∀ p ∈ ps, controlPolygonLength p.real.control_points ≤ L)
    (hL' : ∀ p ∈ ps', controlPolygonLength p.real.control_points ≤ L')
    (hsq : (1 + F.u) ^ (n + 1) * (n * (5 / 2 * (M + 1) + 1) ^ 2) + 2 * n * (1 + F.u) ^ n * F.eta
      ≤ F.max)
    (hB1 : 5 / 2 * (M + 1) + 1 ≤ F.max) (hρ : distRel F n ≤ 1) (f g : ℝ → PointN ℝ n)
    (hf : ∀ t, b.real.eval t = some (f t)) (hg : ∀ t, b'.real.eval t = some (g t)) (d : ℝ)
    (hd : IsCurvesDistance f g d) :
    let ε := (ps.length - 1 : ℝ) * (Real.sqrt n * E) + (ps'.length - 1 : ℝ) * (Real.sqrt n * E')
    ∃ m, leastDistance ((Bezier.ends hN ps).product (Bezier.ends hN' ps')) = some m ∧ m.IsFinite ∧
      0 ≤ m.toReal ∧
      (1 - distRel F n) * (d - ε) - distTiny F n ≤ m.toReal ∧
      m.toReal ≤ (1 + distRel F n) * (d + (L / 2 + L' / 2) + ε) + distTiny F n := by
  have h := bezier_ends hN b hM hb hE hmax ps h hlen hL f hf
  have h' := bezier_ends hN' b' hM hb' hE' hmax' ps' h' hlen' hL' g hg
  exact leastDistance_curves hu he (by linarith) hsq hB1 hρ h.ne_nil h'.ne_nil h.bounded h'.bounded
    h.covers h.on_curve h'.covers h'.on_curve hd

theorem half_legs (K A k x : ℝ) (j : ℕ) :
    K * (A / 2 ^ j + 2 * (k * x)) / 2 + k * x = K * A / 2 ^ (j + 1) + (K + 1) * (k * x) := by
  rw [pow_succ]
  field_simp
  ring

theorem EndsNear.halving {f : ℝ → PointN ℝ n} {es : List (PointN (Fl F) n)} {B K A x : ℝ} {k : ℕ}
    (h : EndsNear f es B (K * (A / 2 ^ k + 2 * (k * x)) / 2) (k * x)) (hK : 0 ≤ K) (hx : 0 ≤ x) :
    EndsNear f es B (K * A / 2 ^ (k + 1)) ((K + 1) * (k * x)) := by
  have e := half_legs K A k x k
  have k0 : 0 ≤ (k : ℝ) * x := by positivity
  refine ⟨h.ne_nil, h.bounded, fun t t0 t1 => ?_, fun e he => ?_⟩
  · obtain ⟨a, ha, h1⟩ := h.covers t t0 t1
    exact ⟨a, ha, by linarith⟩
  · obtain ⟨u, u0, u1, h1⟩ := h.on_curve e he
    exact ⟨u, u0, u1, by nlinarith [mul_nonneg hK k0]⟩

/-- **C138**: after `k` halvings the smallest computed distance exceeds the distance by at most
`(N-1)A / 2^(k+1)` and rounding errors, where `A` bounds the legs of the control polygon. -/
theorem C138_halving (hN : 1 ≤ N) (b : Bezier (PointN (Fl F) n) N) {M E A : ℝ} (hM : 0 ≤ M)
    (hb : ∀ k, BoundedBy M (b.control_points k)) (hu : F.u ≤ 1 / 1024) (he : F.eta ≤ 1 / 1024)
    (hE : E = ((1 + F.u) ^ 2 * (1 + F.u + F.eta)) ^ (N - 1)
      * (M + 1 + (N - 1 : ℕ) * (3 * (1 + F.u) * F.eta)) - (M + 1))
    (hmax : M + 1 + E ≤ F.max) (hh : (1 / 2 : ℝ) ∈ F.grid ∧ |(1 / 2 : ℝ)| ≤ F.max)
    (hA : ∀ k (h : k + 1 < N), pdist (b.real.control_points ⟨k, by omega⟩)
      (b.real.control_points ⟨k + 1, h⟩) ≤ A) (k : ℕ) (hlen : k * E ≤ 1)
    (hsq : (1 + F.u) ^ (n + 1) * (n * (5 / 2 * (M + 1) + 1) ^ 2) + 2 * n * (1 + F.u) ^ n * F.eta
      ≤ F.max)
    (hB1 : 5 / 2 * (M + 1) + 1 ≤ F.max) (hρ : distRel F n ≤ 1) (f : ℝ → PointN ℝ n)
    (hf : ∀ t, b.real.eval t = some (f t)) (x : PointN (Fl F) n) (hx : BoundedBy (M + 1) x) (d : ℝ)
    (hd : IsCurveDistance f x.real d) :
    let ps := pieces (Bezier.halveAt (fin (1 / 2) hh)) k b
    let ε := ((N - 1 : ℕ) + 1 : ℝ) * (k * (Real.sqrt n * E))
    FloatCutInto (fun q t => q.split t) b ps ∧
    ∃ m, leastDistance ((Bezier.ends hN ps).map fun e => (x, e)) = some m ∧ m.IsFinite ∧ 0 ≤ m.toReal ∧
      (1 - distRel F n) * (d - ε) - distTiny F n ≤ m.toReal ∧
      m.toReal ≤ (1 + distRel F n) * (d + (N - 1 : ℕ) * A / 2 ^ (k + 1) + ε) + distTiny F n := by
  intro ps ε
  refine ⟨floatCutInto_pieces (t := fin (1 / 2) hh) trivial (by rw [toReal_fin]; norm_num)
    (by rw [toReal_fin]; norm_num) (fun _ => Bezier.halveAt_spec _ _) k b, ?_⟩
  have h := (bezier_halving_ends hN b hM hb hE hmax hh hA k hlen f hf).halving (Nat.cast_nonneg _)
    (mul_nonneg (Real.sqrt_nonneg n) (bezier_E_nonneg N hM hE))
  exact leastDistance_point hu he (by linarith) hsq hB1 hρ h.ne_nil h.bounded hx h.covers h.on_curve
    hd

/-- **C138** for quadratic curves. -/
theorem C138_quadratic (q : QuadraticBezier (PointN (Fl F) n)) {M E L : ℝ} (hM : 0 ≤ M)
    (hs : BoundedBy M q.start) (hc : BoundedBy M q.ctrl) (hd : BoundedBy M q.end_)
    (hu : F.u ≤ 1 / 1024) (he : F.eta ≤ 1 / 1024) (hE : E = 13 * F.u * (M + 1) + 9 * F.eta)
    (hmax : 3 * (M + 1) + 2 ≤ F.max)
    (ps : List (QuadraticBezier (PointN (Fl F) n)))
    (h : FloatCutInto (fun q t => some (q.split t)) q ps) (hlen : (ps.length - 1 : ℝ) * E ≤ 1)
    (hL : ∀ p ∈ ps, pdist p.real.start p.real.ctrl + pdist p.real.ctrl p.real.end_ ≤ L)
    (hsq : (1 + F.u) ^ (n + 1) * (n * (5 / 2 * (M + 1) + 1) ^ 2) + 2 * n * (1 + F.u) ^ n * F.eta
      ≤ F.max) (hρ : distRel F n ≤ 1) (x : PointN (Fl F) n)
    (hx : BoundedBy (M + 1) x) (d : ℝ) (hdist : IsCurveDistance (fun t => q.real.eval t) x.real d) :
    ∃ m, leastDistance ((QuadraticBezier.ends ps).map fun e => (x, e)) = some m ∧ m.IsFinite ∧ 0 ≤ m.toReal ∧
      (1 - distRel F n) * (d - (ps.length - 1 : ℝ) * (Real.sqrt n * E)) - distTiny F n ≤ m.toReal ∧
      m.toReal ≤ (1 + distRel F n) * (d + L / 2 + (ps.length - 1 : ℝ) * (Real.sqrt n * E)) + distTiny F n := by
  have h := quadratic_ends q hM hs hc hd hu he hE hmax ps h hlen hL
  exact leastDistance_point hu he (by linarith) hsq (by linarith) hρ h.ne_nil h.bounded hx h.covers
    h.on_curve hdist

/-- **C138**: halving of quadratic curves. -/
theorem C138_quadratic_halving (q : QuadraticBezier (PointN (Fl F) n)) {M E A : ℝ} (hM : 0 ≤ M)
    (hs : BoundedBy M q.start) (hc : BoundedBy M q.ctrl) (hd : BoundedBy M q.end_)
    (hu : F.u ≤ 1 / 1024) (he : F.eta ≤ 1 / 1024) (hE : E = 13 * F.u * (M + 1) + 9 * F.eta)
    (hmax : 3 * (M + 1) + 2 ≤ F.max)
    (hh : (1 / 2 : ℝ) ∈ F.grid ∧ |(1 / 2 : ℝ)| ≤ F.max)
    (hA : pdist q.real.start q.real.ctrl ≤ A) (hA' : pdist q.real.ctrl q.real.end_ ≤ A)
    (k : ℕ) (hlen : k * E ≤ 1)
    (hsq : (1 + F.u) ^ (n + 1) * (n * (5 / 2 * (M + 1) + 1) ^ 2) + 2 * n * (1 + F.u) ^ n * F.eta
      ≤ F.max) (hρ : distRel F n ≤ 1) (x : PointN (Fl F) n)
    (hx : BoundedBy (M + 1) x) (d : ℝ) (hdist : IsCurveDistance (fun t => q.real.eval t) x.real d) :
    let ps := pieces (fun q => q.split (fin (1 / 2) hh)) k q
    let ε := 3 * (k * (Real.sqrt n * E))
    FloatCutInto (fun q t => some (q.split t)) q ps ∧
    ∃ m, leastDistance ((QuadraticBezier.ends ps).map fun e => (x, e)) = some m ∧ m.IsFinite ∧ 0 ≤ m.toReal ∧
      (1 - distRel F n) * (d - ε) - distTiny F n ≤ m.toReal ∧
      m.toReal ≤ (1 + distRel F n) * (d + A / 2 ^ k + ε) + distTiny F n := by
  intro ps ε
  refine ⟨floatCutInto_pieces (t := fin (1 / 2) hh) trivial (by rw [toReal_fin]; norm_num)
    (by rw [toReal_fin]; norm_num) (fun _ => rfl) k q, ?_⟩
  have e0 := F.eta_nonneg
  have u0 := F.u_nonneg
  have h := (quadratic_halving_ends q hM hs hc hd hu he hE hmax hh hA hA' k hlen).halving
    (Nat.cast_nonneg _) (mul_nonneg (Real.sqrt_nonneg n) (by rw [hE]; positivity))
  have e1 : (((3 - 1 : ℕ) : ℝ) + 1) * (k * (Real.sqrt n * E)) = ε := by norm_num [ε]
  have e2 : ((3 - 1 : ℕ) : ℝ) * A / 2 ^ (k + 1) = A / 2 ^ k := by
    rw [pow_succ]
    push_cast
    field_simp
  rw [e1, e2] at h
  exact leastDistance_point hu he (by linarith) hsq (by linarith) hρ h.ne_nil h.bounded hx h.covers
    h.on_curve hdist

/-- **C138** for cubic curves. -/
theorem C138_cubic (c : CubicBezier (PointN (Fl F) n)) {M E L : ℝ} (hM : 0 ≤ M)
    (hs : BoundedBy M c.start) (hc1 : BoundedBy M c.ctrl1) (hc2 : BoundedBy M c.ctrl2)
    (hd : BoundedBy M c.end_)
    (hu : F.u ≤ 1 / 1024) (he : F.eta ≤ 1 / 1024) (hE : E = 20 * F.u * (M + 1) + 14 * F.eta)
    (hmax : 3 * (M + 1) + 2 ≤ F.max)
    (ps : List (CubicBezier (PointN (Fl F) n)))
    (h : FloatCutInto (fun c t => some (c.split t)) c ps) (hlen : (ps.length - 1 : ℝ) * E ≤ 1)
    (hL : ∀ p ∈ ps, pdist p.real.start p.real.ctrl1 + pdist p.real.ctrl1 p.real.ctrl2
      + pdist p.real.ctrl2 p.real.end_ ≤ L)
    (hsq : (1 + F.u) ^ (n + 1) * (n * (5 / 2 * (M + 1) + 1) ^ 2) + 2 * n * (1 + F.u) ^ n * F.eta
      ≤ F.max) (hρ : distRel F n ≤ 1) (x : PointN (Fl F) n)
    (hx : BoundedBy (M + 1) x) (d : ℝ) (hdist : IsCurveDistance (fun t => c.real.eval t) x.real d) :
    ∃ m, leastDistance ((CubicBezier.ends ps).map fun e => (x, e)) = some m ∧ m.IsFinite ∧ 0 ≤ m.toReal ∧
      (1 - distRel F n) * (d - (ps.length - 1 : ℝ) * (Real.sqrt n * E)) - distTiny F n ≤ m.toReal ∧
      m.toReal ≤ (1 + distRel F n) * (d + L / 2 + (ps.length - 1 : ℝ) * (Real.sqrt n * E)) + distTiny F n := by
  have h := cubic_ends c hM hs hc1 hc2 hd hu he hE hmax ps h hlen hL
  exact leastDistance_point hu he (by linarith) hsq (by linarith) hρ h.ne_nil h.bounded hx h.covers
    h.on_curve hdist

/-- **C138**: halving of cubic curves. -/
theorem C138_cubic_halving (c : CubicBezier (PointN (Fl F) n)) {M E A : ℝ} (hM : 0 ≤ M)
    (hs : BoundedBy M c.start) (hc1 : BoundedBy M c.ctrl1) (hc2 : BoundedBy M c.ctrl2)
    (hd : BoundedBy M c.end_)
    (hu : F.u ≤ 1 / 1024) (he : F.eta ≤ 1 / 1024) (hE : E = 20 * F.u * (M + 1) + 14 * F.eta)
    (hmax : 3 * (M + 1) + 2 ≤ F.max)
    (hh : (1 / 2 : ℝ) ∈ F.grid ∧ |(1 / 2 : ℝ)| ≤ F.max)
    (hA : pdist c.real.start c.real.ctrl1 ≤ A) (hA' : pdist c.real.ctrl1 c.real.ctrl2 ≤ A)
    (hA'' : pdist c.real.ctrl2 c.real.end_ ≤ A) (k : ℕ) (hlen : k * E ≤ 1)
    (hsq : (1 + F.u) ^ (n + 1) * (n * (5 / 2 * (M + 1) + 1) ^ 2) + 2 * n * (1 + F.u) ^ n * F.eta
      ≤ F.max) (hρ : distRel F n ≤ 1) (x : PointN (Fl F) n)
    (hx : BoundedBy (M + 1) x) (d : ℝ) (hdist : IsCurveDistance (fun t => c.real.eval t) x.real d) :
    let ps := pieces (fun c => c.split (fin (1 / 2) hh)) k c
    let ε := 4 * (k * (Real.sqrt n * E))
    FloatCutInto (fun c t => some (c.split t)) c ps ∧
    ∃ m, leastDistance ((CubicBezier.ends ps).map fun e => (x, e)) = some m ∧ m.IsFinite ∧ 0 ≤ m.toReal ∧
      (1 - distRel F n) * (d - ε) - distTiny F n ≤ m.toReal ∧
      m.toReal ≤ (1 + distRel F n) * (d + 3 / 2 * A / 2 ^ k + ε) + distTiny F n := by
  intro ps ε
  refine ⟨floatCutInto_pieces (t := fin (1 / 2) hh) trivial (by rw [toReal_fin]; norm_num)
    (by rw [toReal_fin]; norm_num) (fun _ => rfl) k c, ?_⟩
  have e0 := F.eta_nonneg
  have u0 := F.u_nonneg
  have h := (cubic_halving_ends c hM hs hc1 hc2 hd hu he hE hmax hh hA hA' hA'' k hlen).halving
    (Nat.cast_nonneg _) (mul_nonneg (Real.sqrt_nonneg n) (by rw [hE]; positivity))
  have e1 : (((4 - 1 : ℕ) : ℝ) + 1) * (k * (Real.sqrt n * E)) = ε := by norm_num [ε]
  have e2 : ((4 - 1 : ℕ) : ℝ) * A / 2 ^ (k + 1) = 3 / 2 * A / 2 ^ k := by
    rw [pow_succ]
    push_cast
    field_simp
  rw [e1, e2] at h
  exact leastDistance_point hu he (by linarith) hsq (by linarith) hρ h.ne_nil h.bounded hx h.covers
    h.on_curve hdist

/-! ### Numbers -/

/-- The constants of `C138_cubic` and `C138_cubic_halving` for plane curves with coordinates up to
1000 in binary64. -/
theorem cubic_distance_numbers (hu : F.u = 2 ^ (-(53 : ℕ) : ℤ)) (he60 : F.eta ≤ 1 / 10 ^ 60)
    (hmx : 10 ^ 60 ≤ F.max) :
    F.u ≤ 1 / 1024 ∧ F.eta ≤ 1 / 1024 ∧ 3 * ((1000 : ℝ) + 1) + 2 ≤ F.max ∧
    20 * F.u * (1000 + 1) + 14 * F.eta ≤ 1 / 4 * (1 / 10 ^ 11) ∧
    distRel F 2 ≤ 1 / 10 ^ 15 ∧ distTiny F 2 ≤ 1 / 10 ^ 20 ∧
    (1 + F.u) ^ (2 + 1) * ((2 : ℕ) * (5 / 2 * ((1000 : ℝ) + 1) + 1) ^ 2)
      + 2 * (2 : ℕ) * (1 + F.u) ^ 2 * F.eta ≤ F.max := by
  obtain ⟨n1, n2, n3, n4, -, -, n7, -⟩ := cubic_cut_numbers hu he60 hmx (m := 0) (by norm_num)
  refine ⟨n1, n2, n3, n4, ?_, (distTiny_two hu he60).trans (by norm_num), n7⟩
  unfold distRel
  rw [hu]
  norm_num

/-- From the bounds of C138 to absolute errors. -/
theorem distance_numbers {d H ε ρ T m : ℝ} (hρ0 : 0 ≤ ρ) (hρ : ρ ≤ 1 / 10 ^ 15) (hT : T ≤ 1 / 10 ^ 20)
    (hd : d ≤ 5000) (hd0 : 0 ≤ d) (hH0 : 0 ≤ H) (hε0 : 0 ≤ ε) (hε : ε ≤ 1 / 2 * (1 / 10 ^ 8))
    (h1 : (1 - ρ) * (d - ε) - T ≤ m) (h2 : m ≤ (1 + ρ) * (d + H + ε) + T) :
    d - 1 / 10 ^ 8 ≤ m ∧ m ≤ d + (1 + 1 / 10 ^ 15) * H + 1 / 10 ^ 8 := by
  have a1 := mul_le_mul hρ hd hd0 (by norm_num)
  have a2 := mul_nonneg hρ0 hε0
  have a3 := mul_le_mul hρ hε hε0 (by norm_num)
  have a4 := mul_le_mul_of_nonneg_right hρ hH0
  constructor <;> linarith

/-- The distance from a point to a curve is at most the distance to its first point. -/
theorem cubic_distance_le {c : CubicBezier (PointN (Fl F) 2)} (hs : BoundedBy 1000 c.start)
    {x : PointN (Fl F) 2} (hx : BoundedBy 1000 x) {d : ℝ}
    (hd : IsCurveDistance (fun t => c.real.eval t) x.real d) : 0 ≤ d ∧ d ≤ 5000 := by
  constructor
  · refine hd.2 ?_
    rintro y ⟨t, _, _, rfl⟩
    exact pdist_nonneg _ _
  · have h := hd.1 ⟨0, le_rfl, zero_le_one, rfl⟩
    have h0 : c.real.eval (0 : ℝ) = c.real.start := by
      have := (C31_endpoints c.real.generic (by norm_num)).1
      rw [show c.real.generic.eval (0 : ℝ) = some (c.real.eval 0) from C32_cubic_eval _ _ _ _ _,
        Option.some.injEq] at this
      exact this
    simp only [h0] at h
    have h2 := pdist_le_of_bounded (by norm_num) hx hs
    push_cast at h2
    refine h.trans (h2.trans (by norm_num))

theorem cubic_distance_aux (hu : F.u = 2 ^ (-(53 : ℕ) : ℤ)) (he60 : F.eta ≤ 1 / 10 ^ 60)
    (hmx : 10 ^ 60 ≤ F.max) (c : CubicBezier (PointN (Fl F) 2))
    (hs : BoundedBy 1000 c.start) (hc1 : BoundedBy 1000 c.ctrl1) (hc2 : BoundedBy 1000 c.ctrl2)
    (hd : BoundedBy 1000 c.end_) (ps : List (CubicBezier (PointN (Fl F) 2)))
    (h : FloatCutInto (fun c t => some (c.split t)) c ps) (hlen : ps.length ≤ 1024) {L : ℝ}
    (hL : ∀ p ∈ ps, pdist p.real.start p.real.ctrl1 + pdist p.real.ctrl1 p.real.ctrl2
      + pdist p.real.ctrl2 p.real.end_ ≤ L) (x : PointN (Fl F) 2) (hx : BoundedBy 1000 x) (d : ℝ)
    (hdist : IsCurveDistance (fun t => c.real.eval t) x.real d) :
    ∃ m, leastDistance ((CubicBezier.ends ps).map fun e => (x, e)) = some m ∧ m.IsFinite ∧
      d - 1 / 10 ^ 8 ≤ m.toReal ∧ m.toReal ≤ d + (1 + 1 / 10 ^ 15) * (L / 2) + 1 / 10 ^ 8 := by
  obtain ⟨n1, n2, n3, n4, n5, n6, n7⟩ := cubic_distance_numbers hu he60 hmx
  have e0 := F.eta_nonneg
  have u0 := F.u_nonneg
  obtain ⟨E, hE⟩ : ∃ E, E = 20 * F.u * (1000 + 1) + 14 * F.eta := ⟨_, rfl⟩
  have E0 : 0 ≤ E := by rw [hE]; linarith
  rw [← hE] at n4
  have hl : (ps.length : ℝ) ≤ 1024 := by exact_mod_cast hlen
  have hl1 : (1 : ℝ) ≤ ps.length := by exact_mod_cast h.ne_nil
  have hl2 := mul_le_mul_of_nonneg_right (show (ps.length - 1 : ℝ) ≤ 1023 by linarith) E0
  have hL0 : 0 ≤ L := by
    obtain ⟨p, hp⟩ : ∃ p, p ∈ ps := List.exists_mem_of_length_pos h.ne_nil
    refine le_trans ?_ (hL p hp)
    have := pdist_nonneg p.real.start p.real.ctrl1
    have := pdist_nonneg p.real.ctrl1 p.real.ctrl2
    have := pdist_nonneg p.real.ctrl2 p.real.end_
    linarith
  obtain ⟨m, h1, h2, -, h3, h4⟩ := C138_cubic c (by norm_num) hs hc1 hc2 hd n1 n2 hE n3 ps h
    (by linarith) hL n7 (by linarith) x (hx.mono (by norm_num)) d hdist
  obtain ⟨d0, d1⟩ := cubic_distance_le hs hx hdist
  have s0 := mul_nonneg (Real.sqrt_nonneg ((2 : ℕ) : ℝ)) E0
  have s1 := mul_le_mul_of_nonneg_right sqrt_two_bound E0
  have hε0 : 0 ≤ (ps.length - 1 : ℝ) * (Real.sqrt ((2 : ℕ) : ℝ) * E) :=
    mul_nonneg (by linarith) s0
  have hε : (ps.length - 1 : ℝ) * (Real.sqrt ((2 : ℕ) : ℝ) * E) ≤ 1 / 2 * (1 / 10 ^ 8) := by
    have s2 := mul_le_mul (show (ps.length - 1 : ℝ) ≤ 1023 by linarith) s1 s0 (by norm_num)
    exact s2.trans (by linarith only [n4])
  exact ⟨m, h1, h2, distance_numbers (distRel_nonneg F 2) n5 n6 d1 d0 (by linarith) hε0 hε h3 h4⟩

theorem cubic_distance_halving_aux (hu : F.u = 2 ^ (-(53 : ℕ) : ℤ)) (he60 : F.eta ≤ 1 / 10 ^ 60)
    (hmx : 10 ^ 60 ≤ F.max) (hh : (1 / 2 : ℝ) ∈ F.grid ∧ |(1 / 2 : ℝ)| ≤ F.max)
    (c : CubicBezier (PointN (Fl F) 2))
    (hs : BoundedBy 1000 c.start) (hc1 : BoundedBy 1000 c.ctrl1) (hc2 : BoundedBy 1000 c.ctrl2)
    (hd : BoundedBy 1000 c.end_) {A : ℝ}
    (hA : pdist c.real.start c.real.ctrl1 ≤ A) (hA' : pdist c.real.ctrl1 c.real.ctrl2 ≤ A)
    (hA'' : pdist c.real.ctrl2 c.real.end_ ≤ A) (k : ℕ) (hk : k ≤ 256) (x : PointN (Fl F) 2)
    (hx : BoundedBy 1000 x) (d : ℝ)
    (hdist : IsCurveDistance (fun t => c.real.eval t) x.real d) :
    let ps := pieces (fun c => c.split (fin (1 / 2) hh)) k c
    FloatCutInto (fun c t => some (c.split t)) c ps ∧ ps.length = 2 ^ k ∧
    ∃ m, leastDistance ((CubicBezier.ends ps).map fun e => (x, e)) = some m ∧ m.IsFinite ∧
      d - 1 / 10 ^ 8 ≤ m.toReal ∧
      m.toReal ≤ d + (1 + 1 / 10 ^ 15) * (3 / 2 * A / 2 ^ k) + 1 / 10 ^ 8 := by
  intro ps
  obtain ⟨n1, n2, n3, n4, n5, n6, n7⟩ := cubic_distance_numbers hu he60 hmx
  have e0 := F.eta_nonneg
  have u0 := F.u_nonneg
  obtain ⟨E, hE⟩ : ∃ E, E = 20 * F.u * (1000 + 1) + 14 * F.eta := ⟨_, rfl⟩
  have E0 : 0 ≤ E := by rw [hE]; linarith
  rw [← hE] at n4
  have hk1 : (k : ℝ) ≤ 256 := by exact_mod_cast hk
  have hk0 : (0 : ℝ) ≤ k := k.cast_nonneg
  have hl2 := mul_le_mul_of_nonneg_right hk1 E0
  have hA0 : 0 ≤ A := (pdist_nonneg _ _).trans hA
  obtain ⟨h0, m, h1, h2, -, h3, h4⟩ := C138_cubic_halving c (by norm_num) hs hc1 hc2 hd n1 n2 hE n3
    hh hA hA' hA'' k (by linarith) n7 (by linarith) x (hx.mono (by norm_num)) d hdist
  obtain ⟨d0, d1⟩ := cubic_distance_le hs hx hdist
  have s0 := mul_nonneg (Real.sqrt_nonneg ((2 : ℕ) : ℝ)) E0
  have s1 := mul_le_mul_of_nonneg_right sqrt_two_bound E0
  have hε0 : 0 ≤ 4 * ((k : ℝ) * (Real.sqrt ((2 : ℕ) : ℝ) * E)) := by positivity
  have hε : 4 * ((k : ℝ) * (Real.sqrt ((2 : ℕ) : ℝ) * E)) ≤ 1 / 2 * (1 / 10 ^ 8) := by
    have s2 := mul_le_mul hk1 s1 s0 (by norm_num)
    linarith only [n4, s2]
  exact ⟨h0, pieces_length _ _, m, h1, h2, distance_numbers (distRel_nonneg F 2) n5 n6 d1 d0
    (by positivity) hε0 hε h3 h4⟩

section Binary64
variable (cosI acosI : ℝ → ℝ) (powI : ℝ → ℝ → ℝ)

/-- **C138** in binary64: a plane cubic curve with coordinates up to 1000 is cut into at most 1024
pieces. Then the smallest computed distance to an endpoint of a piece is the distance to the curve up
to half the length of the longest control polygon of the pieces and `10⁻⁸`. -/
theorem C138_binary64 (c : CubicBezier (PointN (Fl (binary64 cosI acosI powI)) 2))
    (hs : BoundedBy 1000 c.start) (hc1 : BoundedBy 1000 c.ctrl1) (hc2 : BoundedBy 1000 c.ctrl2)
    (hd : BoundedBy 1000 c.end_) (ps : List (CubicBezier (PointN (Fl (binary64 cosI acosI powI)) 2)))
    (h : FloatCutInto (fun c t => some (c.split t)) c ps) (hlen : ps.length ≤ 1024) {L : ℝ}
    (hL : ∀ p ∈ ps, pdist p.real.start p.real.ctrl1 + pdist p.real.ctrl1 p.real.ctrl2
      + pdist p.real.ctrl2 p.real.end_ ≤ L) (x : PointN (Fl (binary64 cosI acosI powI)) 2)
    (hx : BoundedBy 1000 x) (d : ℝ) (hdist : IsCurveDistance (fun t => c.real.eval t) x.real d) :
    ∃ m, leastDistance ((CubicBezier.ends ps).map fun e => (x, e)) = some m ∧ m.IsFinite ∧
      d - 1 / 10 ^ 8 ≤ m.toReal ∧ m.toReal ≤ d + (1 + 1 / 10 ^ 15) * (L / 2) + 1 / 10 ^ 8 :=
  cubic_distance_aux rfl (binary64_eta cosI acosI powI) (binary64_max cosI acosI powI) c hs hc1 hc2
    hd ps h hlen hL x hx d hdist

/-- **C138** in binary64: after `k` halvings of a plane cubic curve with coordinates up to 1000 the
smallest computed distance is the distance up to `3A / 2^(k+1)` and `10⁻⁸`, where `A` bounds the legs
of the control polygon. -/
theorem C138_binary64_halving (c : CubicBezier (PointN (Fl (binary64 cosI acosI powI)) 2))
    (hs : BoundedBy 1000 c.start) (hc1 : BoundedBy 1000 c.ctrl1) (hc2 : BoundedBy 1000 c.ctrl2)
    (hd : BoundedBy 1000 c.end_) {A : ℝ}
    (hA : pdist c.real.start c.real.ctrl1 ≤ A) (hA' : pdist c.real.ctrl1 c.real.ctrl2 ≤ A)
    (hA'' : pdist c.real.ctrl2 c.real.end_ ≤ A) (k : ℕ) (hk : k ≤ 256)
    (x : PointN (Fl (binary64 cosI acosI powI)) 2) (hx : BoundedBy 1000 x) (d : ℝ)
    (hdist : IsCurveDistance (fun t => c.real.eval t) x.real d) :
    let ps := pieces (fun c => c.split (fin (1 / 2) (binary64_half_mem cosI acosI powI))) k c
    FloatCutInto (fun c t => some (c.split t)) c ps ∧ ps.length = 2 ^ k ∧
    ∃ m, leastDistance ((CubicBezier.ends ps).map fun e => (x, e)) = some m ∧ m.IsFinite ∧
      d - 1 / 10 ^ 8 ≤ m.toReal ∧
      m.toReal ≤ d + (1 + 1 / 10 ^ 15) * (3 / 2 * A / 2 ^ k) + 1 / 10 ^ 8 :=
  cubic_distance_halving_aux rfl (binary64_eta cosI acosI powI) (binary64_max cosI acosI powI) _ c
    hs hc1 hc2 hd hA hA' hA'' k hk x hx d hdist

/-- The distance of the point (2,1) from the curve with the control points (0,0), (1,2), (3,3),
(5,0): the hypotheses of C138 hold, and 30 halvings give it up to `10⁻⁶`. -/
example : ∃ (c : CubicBezier (PointN (Fl (binary64 cosI acosI powI)) 2))
    (ps : List (CubicBezier (PointN (Fl (binary64 cosI acosI powI)) 2))) (d : ℝ)
    (m : Fl (binary64 cosI acosI powI)),
    let x := smallPoint cosI acosI powI 2 1
    c.start ≠ c.end_ ∧ FloatCutInto (fun c t => some (c.split t)) c ps ∧
    IsCurveDistance (fun t => c.real.eval t) x.real d ∧
    leastDistance ((CubicBezier.ends ps).map fun e => (x, e)) = some m ∧
    |m.toReal - d| ≤ 1 / 10 ^ 6 := by
  have w : ∀ a b, BoundedBy 1000 (smallPoint cosI acosI powI a b) := fun a b =>
    (smallPoint_bounded cosI acosI powI a b).mono (by norm_num)
  have w1 : ∀ a b a' b', pdist (smallPoint cosI acosI powI a b).real
      (smallPoint cosI acosI powI a' b').real ≤ 40 := by
    intro a b a' b'
    have := pdist_le_of_bounded (by norm_num) (smallPoint_bounded cosI acosI powI a b)
      (smallPoint_bounded cosI acosI powI a' b')
    push_cast at this
    linarith
  obtain ⟨d, -, hd⟩ := C123_distance_exists (fun t => (⟨smallPoint cosI acosI powI 0 0,
    smallPoint cosI acosI powI 1 2, smallPoint cosI acosI powI 3 3,
    smallPoint cosI acosI powI 5 0⟩ : CubicBezier _).real.eval t)
    (smallPoint cosI acosI powI 2 1).real
  obtain ⟨h1, -, m, h2, -, h3, h4⟩ := C138_binary64_halving cosI acosI powI
    ⟨smallPoint cosI acosI powI 0 0, smallPoint cosI acosI powI 1 2, smallPoint cosI acosI powI 3 3,
      smallPoint cosI acosI powI 5 0⟩ (w _ _) (w _ _) (w _ _) (w _ _) (w1 _ _ _ _) (w1 _ _ _ _)
      (w1 _ _ _ _) 30 (by norm_num) (smallPoint cosI acosI powI 2 1) (w _ _) d hd
  refine ⟨_, _, d, m, fun e => ?_, h1, hd, h2, ?_⟩
  · have := congrArg (fun p => (p.coords 0).toReal) e
    simp only at this
    rw [smallPoint_zero, smallPoint_zero] at this
    norm_num at this
  · rw [abs_le]
    norm_num at h3 h4 ⊢
    constructor <;> linarith

/-- The numerical hypotheses of `C138_bounds`, `C138_two_curves` and `C138_halving` hold for up to 512
pieces of a plane quintic curve with coordinates up to 1000. -/
example : let F := binary64 cosI acosI powI
    let E := ((1 + F.u) ^ 2 * (1 + F.u + F.eta)) ^ (6 - 1)
      * ((1000 : ℝ) + 1 + (6 - 1 : ℕ) * (3 * (1 + F.u) * F.eta)) - (1000 + 1)
    (1000 : ℝ) + 1 + E ≤ F.max ∧ (512 - 1 : ℝ) * E ≤ 1 ∧ distRel F 2 ≤ 1 ∧
    (1 + F.u) ^ (2 + 1) * ((2 : ℕ) * (5 / 2 * ((1000 : ℝ) + 1) + 1) ^ 2)
      + 2 * (2 : ℕ) * (1 + F.u) ^ 2 * F.eta ≤ F.max ∧
    5 / 2 * ((1000 : ℝ) + 1) + 1 ≤ F.max := by
  intro F E
  obtain ⟨-, -, n3, -, n5, -, n7⟩ := cubic_distance_numbers (F := F) rfl
    (binary64_eta cosI acosI powI) (binary64_max cosI acosI powI)
  have hu : F.u = 2 ^ (-(53 : ℕ) : ℤ) := rfl
  have he : F.eta ≤ 1 / 10 ^ 30 := (binary64_eta cosI acosI powI).trans (by norm_num)
  have e0 := F.eta_nonneg
  have u0 := F.u_nonneg
  have hE : E ≤ 1 / 1000000 := by
    have : E ≤ ((1 + F.u) ^ 2 * (1 + F.u + 1 / 10 ^ 30)) ^ (6 - 1)
      * ((1000 : ℝ) + 1 + (6 - 1 : ℕ) * (3 * (1 + F.u) * (1 / 10 ^ 30))) - (1000 + 1) := by
      show ((1 + F.u) ^ 2 * (1 + F.u + F.eta)) ^ (6 - 1)
        * ((1000 : ℝ) + 1 + (6 - 1 : ℕ) * (3 * (1 + F.u) * F.eta)) - (1000 + 1) ≤ _
      gcongr
    refine this.trans ?_
    rw [hu]; norm_num
  exact ⟨by linarith only [hE, n3], by linarith only [hE], n5.trans (by norm_num), n7,
    by linarith only [n3]⟩

end Binary64

end Stroke
