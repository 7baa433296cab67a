import Verif.Container.Glue

/-! # Histories of container operations -/

set_option linter.unusedSectionVars false
set_option linter.dupNamespace false

namespace Verif.Container

open Verif.Spline Container

variable {K : Type} [Field K] [LinearOrder K] [IsStrictOrderedRing K] {o : Order}

/-- The public operations that change a container (PolynomialSplineContainer.hpp:49-146). -/
inductive Op (o : Order) (K : Type)
  | addSpline (s : Spline o K)
  | reset
  | resetTime
  | advance (dt : K)
  | setContainerTime (t : K)
  | setDataLinear (ts ps : List K)
  | setDataVel (ts ps : List K) (v0 vT : K)
  | setDataAcc (ts ps : List K) (v0 a0 vT aT : K)

/-- One operation; the Boolean results are dropped. -/
def step (S : Solver K) : Op o K → Container o K → Outcome (Container o K)
  | .addSpline s, c => .ok (c.addSpline s)
  | .reset, c => .ok c.reset
  | .resetTime, c => .ok c.resetTime
  | .advance dt, c => c.advance dt >>= fun r => .ok r.2
  | .setContainerTime t, c => .ok (c.setContainerTime t)
  | .setDataLinear ts ps, c => Container.setDataLinear ts ps c >>= fun r => .ok r.2
  | .setDataVel ts ps v0 vT, c => Container.setDataVel S ts ps v0 vT c >>= fun r => .ok r.2
  | .setDataAcc ts ps v0 a0 vT aT, c =>
      Container.setDataAcc S ts ps v0 a0 vT aT c >>= fun r => .ok r.2

/-- A history, in the order of the list. -/
def run (S : Solver K) : List (Op o K) → Container o K → Outcome (Container o K)
  | [], c => .ok c
  | op :: ops, c => step S op c >>= run S ops

/-- A property of containers that each of the listed situations preserves holds along the history;
`G` is what is known about each operation when it is applied. -/
theorem run_invariant (S : Solver K) (I : Container o K → Prop) (G : Op o K → Container o K → Prop)
    (hstep : ∀ op c c', I c → G op c → step S op c = .ok c' → I c') (ops : List (Op o K)) :
    ∀ c c', I c → (∀ pre op post d, ops = pre ++ op :: post → run S pre c = .ok d → G op d) →
      run S ops c = .ok c' → I c' := by
  induction ops with
  | nil => intro c c' hI _ h; cases h; exact hI
  | cons op ops ih =>
    intro c c' hI hG h
    rw [run, Outcome.bind_eq_ok] at h
    obtain ⟨d, hd, h⟩ := h
    refine ih d c' (hstep op c d hI (hG [] op ops c rfl rfl) hd) ?_ h
    intro pre op' post e he hr
    refine hG (op :: pre) op' post e (by rw [he]; rfl) ?_
    rw [run, hd]; exact hr

/-! ## What `setData` leaves behind -/

/-- The cursor is rewound and the duration is right. -/
structure Rewound (c : Container o K) : Prop where
  time : c.time = 0
  offset : c.offset = 0
  idx : c.idx = 0
  duration : c.duration = total c.splines

theorem rewound_reset (c : Container o K) : Rewound c.reset := ⟨rfl, rfl, rfl, rfl⟩

theorem Rewound.addSpline {c : Container o K} (h : Rewound c) (s : Spline o K) :
    Rewound (c.addSpline s) :=
  ⟨h.time, h.offset, h.idx, by simp [Container.addSpline, total_append, h.duration]⟩

theorem linearLoop_rewound (ts ps : List K) (k : ℕ) : ∀ (i : ℕ) (c : Container o K) (b) (c'),
    Rewound c → linearLoop ts ps k i c = .ok (b, c') → Rewound c' := by
  induction k with
  | zero => intro i c b c' h e; cases e; exact h
  | succ k ih =>
    intro i c b c' h e
    rw [linearLoop, Outcome.bind_eq_ok] at e
    obtain ⟨x, -, e⟩ := e
    rw [Outcome.bind_eq_ok] at e
    obtain ⟨y, -, e⟩ := e
    split at e
    · cases e; exact h
    · rw [Outcome.bind_eq_ok] at e
      obtain ⟨p, -, e⟩ := e
      rw [Outcome.bind_eq_ok] at e
      obtain ⟨q, -, e⟩ := e
      exact ih _ _ b c' (h.addSpline _) e

theorem extract_rewound (x : ℕ → K) (ds : List K) : ∀ (j : ℕ) (c : Container o K), Rewound c →
    Rewound (extract x ds j c) := by
  induction ds with
  | nil => intro j c h; exact h
  | cons d ds ih => intro j c h; exact ih _ _ (h.addSpline _)

theorem fitWith_rewound (S : Solver K) (R C J n : ℕ) (ts ps ini fin : List K) (c : Container o K)
    (b) (c') (h : Rewound c) (e : fitWith S R C J n ts ps ini fin c = .ok (b, c')) : Rewound c' := by
  rw [fitWith, Outcome.bind_eq_ok] at e
  obtain ⟨r, -, e⟩ := e
  cases r with
  | none => cases e; exact h
  | some ds =>
    simp only at e
    rw [Outcome.bind_eq_ok] at e
    obtain ⟨s, -, e⟩ := e
    split at e
    · cases e; exact extract_rewound _ _ _ _ h
    · cases e; exact h

/-- The straight-line variant rewinds, or (fewer than two knots) does nothing. -/
theorem linear_rewound (ts ps : List K) (c : Container o K) (b) (c')
    (e : setDataLinear ts ps c = .ok (b, c')) : Rewound c' ∨ c' = c := by
  rw [setDataLinear] at e
  split at e
  · cases e; exact Or.inr rfl
  · exact Or.inl (linearLoop_rewound ts ps _ _ _ b c' (rewound_reset c) e)

theorem vel_rewound (S : Solver K) (ts ps : List K) (v0 vT : K) (c : Container o K) (b) (c')
    (e : setDataVel S ts ps v0 vT c = .ok (b, c')) : Rewound c' := by
  rw [setDataVel] at e
  split at e
  · cases e; exact rewound_reset c
  · split at e
    · rcases linear_rewound _ _ _ _ _ e with h | h
      · exact h
      · rw [h]; exact rewound_reset c
    · exact fitWith_rewound _ _ _ _ _ _ _ _ _ _ b c' (rewound_reset c) e

theorem acc_rewound (S : Solver K) (ts ps : List K) (v0 a0 vT aT : K) (c : Container o K) (b) (c')
    (e : setDataAcc S ts ps v0 a0 vT aT c = .ok (b, c')) : Rewound c' := by
  rw [setDataAcc] at e
  split at e
  · cases e; exact rewound_reset c
  · split at e
    · exact vel_rewound S ts ps v0 vT _ b c' e
    · exact fitWith_rewound _ _ _ _ _ _ _ _ _ _ b c' (rewound_reset c) e

/-- Every `setData` rewinds the container or leaves it alone. -/
theorem step_setData (S : Solver K) (op : Op o K) (c c' : Container o K)
    (hop : (∃ ts ps, op = .setDataLinear ts ps) ∨ (∃ ts ps v w, op = .setDataVel ts ps v w) ∨
      (∃ ts ps v a w b, op = .setDataAcc ts ps v a w b))
    (e : step S op c = .ok c') : Rewound c' ∨ c' = c := by
  rcases hop with ⟨ts, ps, rfl⟩ | ⟨ts, ps, v, w, rfl⟩ | ⟨ts, ps, v, a, w, b, rfl⟩ <;>
    rw [step, Outcome.bind_eq_ok] at e <;> obtain ⟨⟨b', d⟩, e, e'⟩ := e <;> cases e'
  · exact linear_rewound _ _ _ _ _ e
  · exact Or.inl (vel_rewound _ _ _ _ _ _ _ _ e)
  · exact Or.inl (acc_rewound _ _ _ _ _ _ _ _ _ _ e)

/-! ## Cursor -/

/-- The state of the cursor in histories that never seek on an empty container. -/
structure Cursor (c : Container o K) : Prop where
  duration : c.duration = total c.splines
  lo : 0 ≤ c.idx
  hi : c.idx ≤ c.splines.length
  empty : c.splines = [] → c.time = 0 ∧ c.offset = 0

theorem Rewound.cursor {c : Container o K} (h : Rewound c) : Cursor c :=
  ⟨h.duration, by rw [h.idx], by rw [h.idx]; omega, fun _ => ⟨h.time, h.offset⟩⟩

/-- The part of `advance` after its guard, when the index is in range. -/
theorem advance_in_range (dt : K) (c : Container o K) (k : ℕ) (s : Spline o K)
    (hk : c.idx = k) (hs : c.splines[k]? = some s) (ht : c.time < c.duration) :
    c.advance dt = .ok (true,
      if s.duration ≤ c.time + dt - c.offset then
        { c with time := c.time + dt
                 offset := if k + 1 < c.splines.length then c.offset + s.duration else c.offset
                 idx := (k + 1 : ℕ) }
      else { c with time := c.time + dt }) := by
  have hlt : k < c.splines.length := by
    by_contra hcon
    rw [List.getElem?_eq_none (by omega)] at hs; simp at hs
  have hne : c.splines ≠ [] := by rintro h; rw [h] at hlt; simp at hlt
  rw [advance, if_neg (by
    simp only [List.isEmpty_iff, hne, false_or, hk, toSize_nat, not_or, not_le]
    exact ⟨ht, by omega⟩)]
  simp only [at', hk, toSize_nat, hs, Outcome.deref_some, Outcome.ok_bind, ge_iff_le]
  split
  · have hz : c.splines.length ≠ 0 := by omega
    simp only [sizeMinus1, hz, if_false]
    by_cases h : k + 1 < c.splines.length
    · rw [if_pos (by omega), if_pos h]; push_cast; rfl
    · rw [if_neg (by omega), if_neg h]; push_cast; rfl
  · rfl

theorem advance_false (dt : K) (c : Container o K)
    (h : c.splines = [] ∨ c.duration ≤ c.time ∨ c.idx = c.splines.length) :
    c.advance dt = .ok (false, c) := by
  rw [advance, if_pos]
  rcases h with h | h | h
  · left; simp [h]
  · right; left; exact h
  · right; right; rw [h, toSize_nat]

theorem setContainerTime_eq (t : K) (c : Container o K) (hne : c.splines ≠ []) :
    ∃ k, k < c.splines.length ∧ findLoop t c.splines 0 0 = ((k : ℤ), start c.splines k) ∧
      c.setContainerTime t =
        { c with time := t, idx := (k : ℤ), offset := start c.splines k } := by
  obtain ⟨k, hk, e, -⟩ := findLoop_cases t c.splines hne
  refine ⟨k, hk, e, ?_⟩
  simp [setContainerTime, getActiveSplineIndexAtTime, hne, e]

end Verif.Container
