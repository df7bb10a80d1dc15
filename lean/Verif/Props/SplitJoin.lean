import Verif.Lemmas.Casteljau
import Verif.Model.Segment

/-!
# Split curves join exactly, in any arithmetic (C65)

Nothing is assumed about the arithmetic: `S` is any scalar type, `P` any point type.  The
equalities are identities of values (for floats: the same bits), not equality up to rounding,
and also hold for NaN and infinities.
-/

set_option linter.unusedSectionVars false

namespace Stroke

variable {S P : Type} [Scalar S] [Point S P]

/-- **C65**, line segments: the outer ends are kept and the parts share a point.  (Which point,
see C06.) -/
theorem C65_line (l : LineSegment P) (t : S) :
    (l.split t).1.start = l.start ∧ (l.split t).2.end_ = l.end_ ∧
    (l.split t).1.end_ = (l.split t).2.start :=
  ⟨rfl, rfl, rfl⟩

/-- **C65**, quadratic curves: the outer ends are kept, and both parts have the point that
`eval_casteljau(t)` returns as their common end. -/
theorem C65_quadratic (q : QuadraticBezier P) (t : S) :
    (q.split t).1.start = q.start ∧ (q.split t).2.end_ = q.end_ ∧
    (q.split t).1.end_ = q.evalCasteljau t ∧ (q.split t).2.start = q.evalCasteljau t :=
  ⟨rfl, rfl, rfl, rfl⟩

/-- **C65**, cubic curves. -/
theorem C65_cubic (c : CubicBezier P) (t : S) :
    (c.split t).1.start = c.start ∧ (c.split t).2.end_ = c.end_ ∧
    (c.split t).1.end_ = c.evalCasteljau t ∧ (c.split t).2.start = c.evalCasteljau t :=
  ⟨rfl, rfl, rfl, rfl⟩

/-- **C65**, curves of every degree: the first point of the left part is the first control point,
the last point of the right part is the last control point, and the parts have the point that
`eval(t)` returns as their common end. -/
theorem C65_bezier {N : ℕ} (b : Bezier P N) (hN : 1 ≤ N) (t : S) :
    ∃ l r : Bezier P N, b.split t = some (l, r) ∧
      l.control_points ⟨0, hN⟩ = b.control_points ⟨0, hN⟩ ∧
      r.control_points ⟨N - 1, Nat.sub_lt hN Nat.one_pos⟩
        = b.control_points ⟨N - 1, Nat.sub_lt hN Nat.one_pos⟩ ∧
      b.eval t = some (l.control_points ⟨N - 1, Nat.sub_lt hN Nat.one_pos⟩) ∧
      b.eval t = some (r.control_points ⟨0, hN⟩) := by
  refine ⟨_, _, bezier_split_cas b t, ?_, ?_, bezier_eval_cas b hN t, bezier_eval_cas b hN t⟩
  · show cas (extend b.control_points) t 0 0 = _
    rw [cas, extend_lt _ hN]
  · show cas (extend b.control_points) t (N - 1 - (N - 1)) (N - 1) = _
    rw [Nat.sub_self, cas, extend_lt _ (Nat.sub_lt hN Nat.one_pos)]

/-- **C65**, segments: the outer ends are kept and the parts share a point. -/
theorem C65_segment (s : BezierSegment P) (t : S) :
    (s.split t).1.start = s.start ∧ (s.split t).2.end_ = s.end_ ∧
    (s.split t).1.end_ = (s.split t).2.start := by
  cases s <;> exact ⟨rfl, rfl, rfl⟩

/-- **C65**: splitting a part again keeps the chain of parts connected: for any sequence of split
parameters and any choice of parts, the pieces of a segment, in order, run from its start to its
end without gaps. -/
theorem C65_chain (pieces : List (BezierSegment P)) (i : ℕ) (hi : i < pieces.length) (t : S)
    (h : pieces.IsChain fun a b => a.end_ = b.start) :
    let pieces' := pieces.take i ++ [(pieces[i].split t).1, (pieces[i].split t).2] ++
      pieces.drop (i + 1)
    pieces'.IsChain (fun a b => a.end_ = b.start) ∧
      pieces'.head?.map BezierSegment.start = pieces.head?.map BezierSegment.start ∧
      pieces'.getLast?.map BezierSegment.end_ = pieces.getLast?.map BezierSegment.end_ := by
  intro pieces'
  obtain ⟨e1, e2, e3⟩ := C65_segment pieces[i] t
  induction pieces generalizing i with
  | nil => simp at hi
  | cons a l ih =>
    cases i with
    | zero =>
      simp only [List.getElem_cons_zero] at e1 e2 e3
      simp only [pieces', List.take_zero, List.nil_append, List.getElem_cons_zero, Nat.zero_add,
        List.drop_succ_cons, List.drop_zero, List.cons_append]
      refine ⟨?_, by simp [e1], ?_⟩
      · rw [List.isChain_cons_cons]
        refine ⟨e3, ?_⟩
        cases l with
        | nil => simp
        | cons b l =>
          rw [List.isChain_cons_cons] at h ⊢
          exact ⟨e2.trans h.1, h.2⟩
      · cases l with
        | nil => simp [e2]
        | cons b l => simp [List.getLast?_cons_cons]
    | succ i =>
      simp only [List.getElem_cons_succ] at e1 e2 e3
      have hi' : i < l.length := by simpa using hi
      obtain ⟨h1, h2, h3⟩ := ih i hi' (by
        cases l with
        | nil => simp
        | cons b l => exact (List.isChain_cons_cons.1 h).2) e1 e2 e3
      have hne : l.take i ++ [(l[i].split t).1, (l[i].split t).2] ++ l.drop (i + 1) ≠ [] := by simp
      simp only [pieces', List.take_succ_cons, List.getElem_cons_succ, List.drop_succ_cons,
        List.cons_append]
      generalize hL : l.take i ++ [(l[i].split t).1, (l[i].split t).2] ++ l.drop (i + 1) = L at *
      cases L with
      | nil => exact absurd rfl hne
      | cons c L =>
        cases l with
        | nil => simp at hi'
        | cons b l =>
          refine ⟨?_, by simp, ?_⟩
          · rw [List.isChain_cons_cons] at h ⊢
            refine ⟨?_, h1⟩
            rw [h.1]
            simpa using h2.symm
          · simpa [List.getLast?_cons_cons] using h3

/-- `C65_chain` applies to the one-piece chain of any segment, and to what it returns. -/
example (s : BezierSegment P) (t u : S) :
    ([(s.split t).1, ((s.split t).2.split u).1, ((s.split t).2.split u).2]).IsChain
      fun a b => a.end_ = b.start := by
  have h1 := (C65_chain [s] 0 (by simp) t (by simp)).1
  have h2 := (C65_chain [(s.split t).1, (s.split t).2] 1 (by simp) u (by simpa using h1)).1
  simpa using h2

end Stroke
