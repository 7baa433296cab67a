import Verif.Container.Unique
import Verif.Container.FitProps

/-!
# C88: is the fitted curve determined by what is asked of it?

`setData` turns its requirements (knots, end derivatives, smooth joints) into linear equations and
takes whatever solution the linear solver returns. The theorems say for which orders and numbers of
knots the requirements leave exactly one curve, and for which the positions between the knots are left
to the solver.
-/

set_option linter.unusedSectionVars false
set_option linter.dupNamespace false

namespace Verif.Container

open Verif.Spline Container

variable {K : Type} [Field K] [LinearOrder K] [IsStrictOrderedRing K] {o : Order}

/-- Specification: the segments `l` lie over consecutive knots, run through the positions, join with
equal velocity and acceleration, and start and end with the velocities `v0`, `vT`. -/
structure Fulfils (ts ps : List K) (v0 vT : K) (l : List (Spline o K)) : Prop where
  count : l.length + 1 = ts.length
  segment : ∀ j s, l[j]? = some s → ∀ a b p q, ts[j]? = some a → ts[j + 1]? = some b →
    ps[j]? = some p → ps[j + 1]? = some q →
    s.duration = b - a ∧ s.getPositionAtTime 0 = p ∧ s.getPositionAtTime (b - a) = q
  joint : ∀ j s s', l[j]? = some s → l[j + 1]? = some s' →
    s.getVelocityAtTime s.duration = s'.getVelocityAtTime 0 ∧
    s.getAccelerationAtTime s.duration = s'.getAccelerationAtTime 0
  first : ∀ s, l.head? = some s → s.getVelocityAtTime 0 = v0
  last : ∀ s, l.getLast? = some s → s.getVelocityAtTime s.duration = vT

/-- Specification: the accelerations at the two ends. -/
structure EndAccelerations (a0 aT : K) (l : List (Spline o K)) : Prop where
  first : ∀ s, l.head? = some s → s.getAccelerationAtTime 0 = a0
  last : ∀ s, l.getLast? = some s → s.getAccelerationAtTime s.duration = aT

theorem Fulfils.over {ts ps : List K} {v0 vT : K} {l : List (Spline o K)} (h : Fulfils ts ps v0 vT l)
    (hl : ps.length = ts.length) {j : ℕ} (hj : j < l.length) :
    l[j].duration = dur ts j ∧ l[j].getPositionAtTime 0 = knot ps j ∧
      l[j].getPositionAtTime (dur ts j) = knot ps (j + 1) := by
  have hc := h.count
  have := h.segment j l[j] (List.getElem?_eq_getElem hj) _ _ _ _
    (getElem?_knot (l := ts) (by omega)) (getElem?_knot (l := ts) (by omega))
    (getElem?_knot (l := ps) (by omega)) (getElem?_knot (l := ps) (by omega))
  rwa [← show dur ts j = knot ts (j + 1) - knot ts j by rw [dur, if_pos (by omega)]] at this

/-- The solution vector made of the segments `l`. -/
def coords (l : List (Spline o K)) : ℕ → K :=
  pack o fun j => (l[j]?.map Spline.coeffs).getD 0

theorem seg_coords (l : List (Spline o K)) {j : ℕ} (hj : j < l.length) :
    seg o (coords l) j = l[j].coeffs := by
  rw [coords, seg_pack]; simp [hj]

/-- The segments satisfy the equations of `setData`. -/
theorem Fulfils.eqs {ts ps : List K} {v0 vT : K} {l : List (Spline o K)} (h : Fulfils ts ps v0 vT l)
    (hinc : ts.Pairwise (· < ·)) (hl : ps.length = ts.length) (hn : 0 < l.length) (ini fin : List K)
    (hi0 : ini[0]? = some v0) (hf0 : fin[0]? = some vT)
    (hi1 : ∀ a, ini[1]? = some a → l[0].getAccelerationAtTime 0 = a)
    (hf1 : ∀ a, fin[1]? = some a → l[l.length - 1].getAccelerationAtTime l[l.length - 1].duration = a) :
    FitEq o l.length (dur ts) (knot ps) ini fin (coords l) := by
  have hd : ∀ j (hj : j < l.length), 0 < l[j].duration := by
    intro j hj; rw [(h.over hl hj).1]; exact dur_pos hinc j
  have hf := h.first l[0] (by rw [List.head?_eq_getElem?]; exact List.getElem?_eq_getElem hn)
  have hT := h.last (l[l.length - 1]'(by omega))
    (by rw [List.getLast?_eq_getElem?]; exact List.getElem?_eq_getElem _)
  refine ⟨⟨?_, ?_, ?_⟩, ⟨?_, ?_, ?_⟩, ?_⟩
  · intro p hp
    simp at hp
    rw [seg_coords l hn, ← pos_zero (hd 0 hn), (h.over hl hn).2.1, hp]
  · intro p hp
    simp [hi0] at hp
    rw [seg_coords l hn, ← vel_zero (hd 0 hn), hf, hp]
  · intro p hp
    rw [seg_coords l hn, ← acc_zero (hd 0 hn), hi1 p (by simpa using hp)]
  · intro p hp
    simp at hp
    have hs := h.over hl (show l.length - 1 < l.length by omega)
    have := pos_end (hd (l.length - 1) (by omega))
    rw [seg_coords l (by omega), ← hs.1, ← this, hs.1, hs.2.2, ← hp]
    congr 1; omega
  · intro p hp
    simp [hf0] at hp
    have hs := h.over hl (show l.length - 1 < l.length by omega)
    have := vel_end (hd (l.length - 1) (by omega))
    rw [seg_coords l (by omega), ← hs.1, ← this, hT, hp]
  · intro p hp
    have hs := h.over hl (show l.length - 1 < l.length by omega)
    have := acc_end (hd (l.length - 1) (by omega))
    rw [seg_coords l (by omega), ← hs.1, ← this, hf1 p (by simpa using hp)]
  · intro j hj
    have hj0 : j < l.length := by omega
    have hs := h.over hl hj0
    have hs' := h.over hl hj
    have hjo := h.joint j _ _ (List.getElem?_eq_getElem hj0) (List.getElem?_eq_getElem hj)
    refine ⟨?_, ?_, ?_, ?_⟩
    · rw [seg_coords l hj0, ← hs.1, ← pos_end (hd j hj0), hs.1, hs.2.2]
    · rw [seg_coords l hj, ← pos_zero (hd _ hj), hs'.2.1]
    · rw [seg_coords l hj0, seg_coords l hj, ← hs.1, ← vel_end (hd j hj0), ← vel_zero (hd _ hj)]
      exact hjo.1
    · rw [seg_coords l hj0, seg_coords l hj, ← hs.1, ← acc_end (hd j hj0), ← acc_zero (hd _ hj)]
      exact hjo.2

/-- What `setData` with accelerations delivers fulfils the requirements. -/
theorem fulfilled {ts ps : List K} {v0 vT : K} {c : Container o K} (h : Through ts ps c)
    (hs : Smooth c) (hi : ∀ s, c.splines[0]? = some s → s.getVelocityAtTime 0 = v0)
    (hf : ∀ s, c.splines.getLast? = some s → s.getVelocityAtTime s.duration = vT) :
    Fulfils ts ps v0 vT c.splines := by
  refine ⟨h.len, ?_, fun j s s' e e' => ⟨hs.vel j s s' e e', hs.acc j s s' e e'⟩, ?_, hf⟩
  · intro j s e a b p q ha hb hp hq
    obtain ⟨h1, h2, h3⟩ := h.seg j s e
    have hd : dur ts j = b - a := by
      have : j + 1 < ts.length := by
        by_contra hc
        rw [List.getElem?_eq_none (by omega)] at hb
        simp at hb
      rw [dur, if_pos this, knot, knot, ha, hb]; rfl
    rw [knot, hp] at h2
    rw [knot, hq, h1, hd] at h3
    exact ⟨h1.trans hd, h2, h3⟩
  · intro s e; rw [List.head?_eq_getElem?] at e; exact hi s e

/-- Segments with the same coefficients and the durations of the knots are equal. -/
theorem Fulfils.ext {ts ps : List K} {v0 vT : K} {l l' : List (Spline o K)}
    (h : Fulfils ts ps v0 vT l) (h' : Fulfils ts ps v0 vT l') (hl : ps.length = ts.length)
    (hc : ∀ j < l.length, seg o (coords l) j = seg o (coords l') j) : l = l' := by
  have e : l.length = l'.length := by have := h.count; have := h'.count; omega
  refine List.ext_getElem e fun j h1 h2 => ?_
  have := hc j h1
  rw [seg_coords l h1, seg_coords l' h2] at this
  have d := (h.over hl h1).1.trans (h'.over hl h2).1.symm
  cases hx : l[j]; cases hy : l'[j]
  rw [hx, hy] at this d
  simp only at this d
  rw [this, d]

/-- **C88**, the determined cases: order 3 with any number of knots, order 4 with three knots, order 5
with two knots. `setData` delivers segments fulfilling the requirements, and no other segments do. -/
theorem C88_determined_partial (S : Solver K) (ts ps : List K) (h2 : 2 ≤ ts.length)
    (hb : ts.length ≤ 2 ^ 28) (hl : ps.length = ts.length) (hinc : ts.Pairwise (· < ·))
    (ho : o = .o3 ∨ o = .o4 ∧ ts.length = 3 ∨ o = .o5 ∧ ts.length = 2)
    (v0 a0 vT aT : K) (c : Container o K) :
    ∃ c', setDataAcc S ts ps v0 a0 vT aT c = .ok (true, c') ∧ Fulfils ts ps v0 vT c'.splines ∧
      (o ≠ .o3 → EndAccelerations a0 aT c'.splines) ∧
      ∀ l : List (Spline o K), Fulfils ts ps v0 vT l → (o ≠ .o3 → EndAccelerations a0 aT l) →
        l = c'.splines := by
  obtain ⟨n, hn⟩ : ∃ n, ts.length = n + 1 := ⟨ts.length - 1, by omega⟩
  obtain ⟨c', e, hf, ha⟩ : ∃ c', setDataAcc S ts ps v0 a0 vT aT c = .ok (true, c') ∧
      Fulfils ts ps v0 vT c'.splines ∧ (o ≠ .o3 → EndAccelerations a0 aT c'.splines) := by
    by_cases h3 : o = .o3
    · subst h3
      obtain ⟨c', e, h, hs, hi, hf⟩ := vel_ok S ts ps v0 vT c n (by omega) (by omega) hn (by omega)
        hinc (by simp [Order.deg])
      rw [setDataAcc_vel S ts ps v0 a0 vT aT c n (by omega) (by omega) hn
        (Or.inl (by simp [Order.deg]))]
      exact ⟨c', e, fulfilled h hs hi hf, fun k => absurd rfl k⟩
    · obtain ⟨c', e, h, hs, hi, hf⟩ := acc_ok S ts ps v0 a0 vT aT c n (by omega) (by omega) hn
        (by omega) hinc (by
          rcases ho with rfl | ⟨rfl, h⟩ | ⟨rfl, h⟩
          · exact absurd rfl h3
          · exact Or.inr ⟨rfl, by omega⟩
          · exact Or.inl rfl)
      refine ⟨c', e, fulfilled h hs (fun s k => (hi s k).1) (fun s k => (hf s k).1), fun _ =>
        ⟨fun s k => (hi s ?_).2, fun s k => (hf s k).2⟩⟩
      rwa [List.head?_eq_getElem?] at k
  refine ⟨c', e, hf, ha, fun l hl1 hl2 => ?_⟩
  have hc1 := hl1.count
  have hc2 := hf.count
  refine hl1.ext hf hl ?_
  have first : ∀ l : List (Spline o K), ∀ (h : 0 < l.length), l.head? = some l[0] := by
    intro l h; rw [List.head?_eq_getElem?]; exact List.getElem?_eq_getElem h
  have last : ∀ l : List (Spline o K), ∀ (h : 0 < l.length),
      l.getLast? = some (l[l.length - 1]'(by omega)) := by
    intro l h; rw [List.getLast?_eq_getElem?]; exact List.getElem?_eq_getElem _
  have hpos : 0 < l.length := by omega
  have hpos' : 0 < c'.splines.length := by omega
  rcases ho with rfl | ⟨rfl, h⟩ | ⟨rfl, h⟩
  · have e1 := hl1.eqs hinc hl (by omega) [v0] [vT] rfl rfl (by simp) (by simp)
    have e2 := hf.eqs hinc hl (by omega) [v0] [vT] rfl rfl (by simp) (by simp)
    rw [show l.length = n - 1 + 1 by omega] at e1 ⊢
    rw [show c'.splines.length = n - 1 + 1 by omega] at e2
    intro j hj
    exact e1.unique3 (dur_pos hinc) e2 j (by omega)
  · have k1 := hl2 (by simp)
    have k2 := ha (by simp)
    have e1 := hl1.eqs hinc hl (by omega) [v0, a0] [vT, aT] rfl rfl
      (by simpa using k1.first _ (first l hpos)) (by simpa using k1.last _ (last l hpos))
    have e2 := hf.eqs hinc hl (by omega) [v0, a0] [vT, aT] rfl rfl
      (by simpa using k2.first _ (first _ hpos')) (by simpa using k2.last _ (last _ hpos'))
    rw [show l.length = 2 by omega] at e1 ⊢
    rw [show c'.splines.length = 2 by omega] at e2
    intro j hj
    exact e1.unique4 (dur_pos hinc) e2 j (by omega)
  · have k1 := hl2 (by simp)
    have k2 := ha (by simp)
    have e1 := hl1.eqs hinc hl (by omega) [v0, a0] [vT, aT] rfl rfl
      (by simpa using k1.first _ (first l hpos)) (by simpa using k1.last _ (last l hpos))
    have e2 := hf.eqs hinc hl (by omega) [v0, a0] [vT, aT] rfl rfl
      (by simpa using k2.first _ (first _ hpos')) (by simpa using k2.last _ (last _ hpos'))
    rw [show l.length = 1 by omega] at e1 ⊢
    rw [show c'.splines.length = 1 by omega] at e2
    intro j hj
    exact e1.unique5 (dur_pos hinc) e2 j (by omega)

/-- **C88**, consequence: in the determined cases, and for the orders 1 and 2, neither the solver nor
what the container held before has any influence on the result. -/
theorem C88_same_result (S S' : Solver K) (ts ps : List K) (h2 : 2 ≤ ts.length)
    (hb : ts.length ≤ 2 ^ 28) (hl : ps.length = ts.length) (hinc : ts.Pairwise (· < ·))
    (ho : o = .o1 ∨ o = .o2 ∨ o = .o3 ∨ o = .o4 ∧ ts.length = 3 ∨ o = .o5 ∧ ts.length = 2)
    (v0 a0 vT aT : K) (c d : Container o K) :
    setDataAcc S ts ps v0 a0 vT aT c = setDataAcc S' ts ps v0 a0 vT aT d := by
  obtain ⟨n, hn⟩ : ∃ n, ts.length = n + 1 := ⟨ts.length - 1, by omega⟩
  have same : ∀ (x y : Container o K), Through ts ps x → Through ts ps y → x.splines = y.splines →
      x = y := by
    intro x y hx hy e
    have d : x.duration = y.duration := by rw [hx.duration, hy.duration, e]
    obtain ⟨x1, x2, x3⟩ := hx.idle
    obtain ⟨y1, y2, y3⟩ := hy.idle
    cases x; cases y
    simp only at e d x1 x2 x3 y1 y2 y3
    subst e d x1 x2 x3 y1 y2 y3
    rfl
  obtain ⟨c1, e1, t1⟩ := acc_through S ts ps v0 a0 vT aT c n (by omega) (by omega) hn (by omega) hinc
  obtain ⟨c2, e2, t2⟩ := acc_through S' ts ps v0 a0 vT aT d n (by omega) (by omega) hn (by omega) hinc
  rw [e1, e2, same c1 c2 t1 t2 ?_]
  by_cases h12 : o.deg ≤ 2
  · rw [setDataAcc_vel S ts ps v0 a0 vT aT c n (by omega) (by omega) hn (Or.inl (by omega)),
      setDataVel_linear S ts ps v0 vT c n (by omega) (by omega) hn h12] at e1
    rw [setDataAcc_vel S' ts ps v0 a0 vT aT d n (by omega) (by omega) hn (Or.inl (by omega)),
      setDataVel_linear S' ts ps v0 vT d n (by omega) (by omega) hn h12] at e2
    obtain ⟨x1, q1, -, r1⟩ := linear_through ts ps n (by omega) hn (by omega) hinc c
    obtain ⟨x2, q2, -, r2⟩ := linear_through ts ps n (by omega) hn (by omega) hinc d
    rw [q1] at e1; rw [q2] at e2
    simp only [Outcome.ok.injEq, Prod.mk.injEq, true_and] at e1 e2
    rw [← e1, ← e2, r1, r2]
  · have ho' : o = .o3 ∨ o = .o4 ∧ ts.length = 3 ∨ o = .o5 ∧ ts.length = 2 := by
      rcases ho with rfl | rfl | h
      · simp [Order.deg] at h12
      · simp [Order.deg] at h12
      · exact h
    obtain ⟨x1, q1, f1, a1, -⟩ := C88_determined_partial S ts ps h2 hb hl hinc ho' v0 a0 vT aT c
    obtain ⟨x2, q2, -, -, u2⟩ := C88_determined_partial S' ts ps h2 hb hl hinc ho' v0 a0 vT aT d
    rw [q1] at e1; rw [q2] at e2
    simp only [Outcome.ok.injEq, Prod.mk.injEq, true_and] at e1 e2
    rw [← e1, ← e2]
    exact u2 _ f1 a1

/-! ## Cases left to the solver -/

/-- Specification: by the choice of the solver, the position at time `t` of the fit `r` becomes any
number whatsoever. -/
def Arbitrary (t : K) (r : Solver K → Outcome (Bool × Container o K)) : Prop :=
  ∀ p, ∃ S c', r S = .ok (true, c') ∧ c'.getPositionAtTime t = .ok p

/-- Evaluating inside segment `j` of a fitted container. -/
theorem Container.Through.inside {ts ps : List K} {c : Container o K} (h : Through ts ps c)
    (hinc : ts.Pairwise (· < ·)) (j : ℕ) (s : Spline o K) (hs : c.splines[j]? = some s) (u : K)
    (h0 : 0 < u) (h1 : u < dur ts j) :
    c.getPositionAtTime (knot ts j - knot ts 0 + u) = .ok (inner s.coeffs (tau o u)) := by
  have hl := h.len
  have hj : j < c.splines.length := by
    by_contra hc
    rw [List.getElem?_eq_none (by omega)] at hs; simp at hs
  have hd := (h.seg j s hs).1
  have hst := h.starts j (by omega)
  have := atTime_half_open Spline.getPositionAtTime c (fun s hs => (h.pos hinc s hs).le) j s hs
    (knot ts j - knot ts 0 + u) (by rw [hst]; linarith) (by rw [hst, hd]; linarith)
  rw [getPositionAtTime, this, hst, add_sub_cancel_left, Spline.getPositionAtTime,
    clamp_inside h0.le (by rw [hd]; exact h1.le)]

/-- A line of solutions moving the position at `u` of segment `j` makes it arbitrary. -/
theorem arbitrary_of_line (e : ℕ) (ts ps ini fin : List K) (n : ℕ)
    (hn : 0 < n) (hb : n < 2 ^ 28) (hts : ts.length = n + 1) (hps : ps.length = n + 1)
    (hinc : ts.Pairwise (· < ·)) (he : 1 ≤ e ∧ e ≤ 3) (hini : ini.length + 1 = e)
    (hfin : fin.length + 1 = e) (j : ℕ) (hj : j < n) (u : K) (h0 : 0 < u) (h1 : u < dur ts j)
    (hx : ∀ p, ∃ x, FitEq o n (dur ts) (knot ps) ini fin x ∧ inner (seg o x j) (tau o u) = p)
    (c : Container o K) :
    Arbitrary (knot ts j - knot ts 0 + u) fun S => fit S e ts ps ini fin c.reset := by
  intro p
  obtain ⟨x, hx, hp⟩ := hx p
  obtain ⟨S, hS⟩ := fit_any e ts ps ini fin n hn hb hts hps hinc he hini hfin x hx
  refine ⟨S, _, hS c.reset, ?_⟩
  obtain ⟨ht, -⟩ := fit_through ts ps ini fin c n x hn hts hinc hx
  have := ht.inside hinc j ⟨seg o x j, dur ts j⟩ (by simp [reset, resetTime, hj]) u h0 h1
  rw [this]
  simp only
  rw [hp]

/-- Position inside a quintic segment, with the end velocities singled out. -/
theorem quintic_at {T : K} (hT : T ≠ 0) (p v a q w e u : K) :
    inner (quintic T p v a q w e) (tau .o5 u) = inner (quintic T p 0 a q 0 e) (tau .o5 u) +
      v * (u * (T - u) ^ 3 * (T + 3 * u) / T ^ 4) - w * (u ^ 3 * (T - u) * (4 * T - 3 * u) / T ^ 4) := by
  simp [quintic, inner, sum_o5, tau]; field_simp; ring

/-- Accelerations at the knots, zero at the inner ones. -/
def endsOnly (n : ℕ) (a0 aT : K) (j : ℕ) : K := if j = 0 then a0 else if j = n then aT else 0

/-- Quintic fits with arbitrary velocities at the inner knots. -/
theorem quintic_family (n : ℕ) (hn : 0 < n) (D P V : ℕ → K) (hD : ∀ j, 0 < D j) (a0 aT : K) :
    ∃ x, FitEq .o5 n D P [V 0, a0] [V n, aT] x ∧ ∀ j, seg .o5 x j =
        quintic (D j) (P j) (V j) (endsOnly n a0 aT j) (P (j + 1)) (V (j + 1))
          (endsOnly n a0 aT (j + 1)) := by
  obtain ⟨k, rfl⟩ : ∃ k, n = k + 1 := ⟨n - 1, by omega⟩
  set A : ℕ → K := endsOnly (k + 1) a0 aT with hA
  have q := fun j => quintic_spec (hD j).ne' (P j) (V j) (A j) (P (j + 1)) (V (j + 1)) (A (j + 1))
  refine ⟨_, FitEq_of_chain (c := fun j => quintic (D j) (P j) (V j) (A j) (P (j + 1)) (V (j + 1))
    (A (j + 1))) (k := k) ⟨fun j _ => (q j).1, fun j _ => (q j).2.2.2.1,
      fun j _ => ?_, fun j _ => ?_⟩ _ a0 _ aT ?_ ?_ ?_ ?_, fun j => by rw [seg_pack]⟩
  · rw [(q j).2.2.2.2.1, (q (j + 1)).2.1]
  · rw [(q j).2.2.2.2.2, (q (j + 1)).2.2.1]
  · rw [(q 0).2.1]
  · rw [(q 0).2.2.1]; simp [hA, endsOnly]
  · rw [(q k).2.2.2.2.1]
  · rw [(q k).2.2.2.2.2]; simp [hA, endsOnly]

/-- **C88** is false for order 5 with three or more knots: at *every* time strictly between two knots
the position is arbitrary. -/
theorem C88_quintic_refuted (ts ps : List K) (h3 : 3 ≤ ts.length) (hb : ts.length ≤ 2 ^ 28)
    (hl : ps.length = ts.length) (hinc : ts.Pairwise (· < ·)) (v0 a0 vT aT : K)
    (c : Container .o5 K) (j : ℕ) (hj : j + 1 < ts.length) (t : K) (h0 : ts[j] < t)
    (h1 : t < ts[j + 1]) :
    Arbitrary (t - ts[0]) fun S => setDataAcc S ts ps v0 a0 vT aT c := by
  obtain ⟨n, hn⟩ : ∃ n, ts.length = n + 1 := ⟨ts.length - 1, by omega⟩
  have e : (fun S : Solver K => setDataAcc S ts ps v0 a0 vT aT c) =
      fun S : Solver K => fit S 3 ts ps [v0, a0] [vT, aT] c.reset := by
    funext S
    exact setDataAcc_fit S.toRawSolver ts ps v0 a0 vT aT c n (by omega) (by omega) hn (Or.inl rfl)
  rw [e]
  have hd : dur ts j = ts[j + 1] - ts[j] := by rw [dur, if_pos hj, knot_eq hj, knot_eq (by omega)]
  have et : t - ts[0] = knot ts j - knot ts 0 + (t - ts[j]) := by
    rw [knot_eq (show j < ts.length by omega), knot_eq (show 0 < ts.length by omega)]; ring
  rw [et]
  refine arbitrary_of_line 3 ts ps _ _ n (by omega) (by omega) hn (by omega) hinc (by omega) rfl rfl j
    (by omega) _ (by linarith) (by rw [hd]; linarith) (fun p => ?_) c
  set u := t - ts[j] with hu
  have u0 : 0 < u := by rw [hu]; linarith
  set T := dur ts j with hT
  have uT : u < T := by rw [hd, hu]; linarith
  have T0 : 0 < T := u0.trans uT
  have hD := dur_pos hinc
  -- with inner velocities `V`
  by_cases hj0 : j + 1 < n
  · set k := u ^ 3 * (T - u) * (4 * T - 3 * u) / T ^ 4 with hk
    have kpos : 0 < k := by
      have a : 0 < T - u := by linarith
      have b : 0 < 4 * T - 3 * u := by linarith
      positivity
    let V : K → ℕ → K := fun r i => if i = 0 then v0 else if i = n then vT else
      if i = j + 1 then r else 0
    set y := inner (quintic T (knot ps j) 0 (endsOnly n a0 aT j) (knot ps (j + 1)) 0
      (endsOnly n a0 aT (j + 1))) (tau .o5 u) with hy
    set z := V 0 j * (u * (T - u) ^ 3 * (T + 3 * u) / T ^ 4) with hz
    obtain ⟨x, hx, hA'⟩ := quintic_family n (by omega) (dur ts) (knot ps) (V ((y + z - p) / k)) hD
      a0 aT
    refine ⟨x, ?_, ?_⟩
    · simpa [V, show n ≠ 0 by omega] using hx
    · rw [hA' j, quintic_at T0.ne', ← hy, ← hk]
      have e1 : V ((y + z - p) / k) (j + 1) = (y + z - p) / k := by
        simp [V, show j + 1 ≠ n by omega]
      have e2 : V ((y + z - p) / k) j = V 0 j := by simp [V]
      rw [e1, e2, ← hz, div_mul_cancel₀ _ kpos.ne']
      ring
  · set k := u * (T - u) ^ 3 * (T + 3 * u) / T ^ 4 with hk
    have kpos : 0 < k := by
      have a : 0 < T - u := by linarith
      positivity
    have ej : j + 1 = n := by omega
    have hj1 : j ≠ 0 := by omega
    let V : K → ℕ → K := fun r i => if i = 0 then v0 else if i = n then vT else
      if i = j then r else 0
    set y := inner (quintic T (knot ps j) 0 (endsOnly n a0 aT j) (knot ps (j + 1)) 0
      (endsOnly n a0 aT (j + 1))) (tau .o5 u) with hy
    set z := vT * (u ^ 3 * (T - u) * (4 * T - 3 * u) / T ^ 4) with hz
    obtain ⟨x, hx, hA'⟩ := quintic_family n (by omega) (dur ts) (knot ps) (V ((p + z - y) / k)) hD
      a0 aT
    refine ⟨x, ?_, ?_⟩
    · simpa [V, show n ≠ 0 by omega] using hx
    · rw [hA' j, quintic_at T0.ne', ← hy, ← hk]
      have e1 : V ((p + z - y) / k) j = (p + z - y) / k := by
        simp [V, hj1, show j ≠ n by omega]
      have e2 : V ((p + z - y) / k) (j + 1) = vT := by simp [V, ej, show n ≠ 0 by omega]
      rw [e1, e2, ← hz, div_mul_cancel₀ _ kpos.ne']
      ring

/-- With fewer equations than unknowns some position between the knots is arbitrary. -/
theorem arbitrary_somewhere (e : ℕ) (ts ps ini fin : List K) (n : ℕ)
    (hn : 0 < n) (hb : n < 2 ^ 28) (hts : ts.length = n + 1) (hps : ps.length = n + 1)
    (hinc : ts.Pairwise (· < ·)) (he : 1 ≤ e ∧ e ≤ 3) (hini : ini.length + 1 = e)
    (hfin : fin.length + 1 = e) (hlt : 4 * (n - 1) + 2 * e < n * o.count)
    (hsol : ∃ x, FitEq o n (dur ts) (knot ps) ini fin x) (c : Container o K) :
    ∃ (j : ℕ) (hj : j + 1 < ts.length) (t : K), ts[j] < t ∧ t < ts[j + 1] ∧
      Arbitrary (t - ts[0]) fun S => fit S e ts ps ini fin c.reset := by
  obtain ⟨k, ⟨j, hj, hk⟩, hline⟩ := fit_line (o := o) e ts ps ini fin n hn hts hps he hini hfin hlt
  obtain ⟨u, u0, u1, hu⟩ := nonzero_inside _ hk (dur ts j) (dur_pos hinc j)
  obtain ⟨x, hx⟩ := hsol
  have hd : dur ts j = ts[j + 1] - ts[j] := by
    rw [dur, if_pos (by omega), knot_eq (by omega), knot_eq (by omega)]
  refine ⟨j, by omega, ts[j] + u, by linarith, by rw [hd] at u1; linarith, ?_⟩
  have et : ts[j] + u - ts[0] = knot ts j - knot ts 0 + u := by
    rw [knot_eq (show j < ts.length by omega), knot_eq (show 0 < ts.length by omega)]; ring
  rw [et]
  refine arbitrary_of_line e ts ps ini fin n hn hb hts hps hinc he hini hfin j hj u u0 u1
    (fun p => ?_) c
  refine ⟨_, hline x hx ((p - inner (seg o x j) (tau o u)) / inner (seg o k j) (tau o u)), ?_⟩
  set r := (p - inner (seg o x j) (tau o u)) / inner (seg o k j) (tau o u) with hr
  have := inner_lin_left 1 r (seg o x j) (seg o k j) (tau o u)
  rw [hr, div_mul_cancel₀ _ hu, one_mul, ← hr] at this
  have e2 : seg o (fun i => x i + r * k i) j = fun i => 1 * seg o x j i + r * seg o k j i := by
    funext i; simp [seg]
  rw [e2, this]; ring

/-- **C88** is also false for order 4 with two knots or with four and more, and for the variant with
velocities only for the orders 4 and 5 with any number of knots: some position strictly between two
knots is arbitrary. -/
theorem C88_refuted (ts ps : List K) (h2 : 2 ≤ ts.length) (hb : ts.length ≤ 2 ^ 28)
    (hl : ps.length = ts.length) (hinc : ts.Pairwise (· < ·)) (v0 a0 vT aT : K)
    (c : Container o K) (r : Solver K → Outcome (Bool × Container o K))
    (hr : o = .o4 ∧ ts.length ≠ 3 ∧ r = (fun S : Solver K => setDataAcc S ts ps v0 a0 vT aT c) ∨
      (o = .o4 ∨ o = .o5) ∧ r = fun S : Solver K => setDataVel S ts ps v0 vT c) :
    ∃ (j : ℕ) (hj : j + 1 < ts.length) (t : K), ts[j] < t ∧ t < ts[j + 1] ∧
      Arbitrary (t - ts[0]) r := by
  obtain ⟨n, hn⟩ : ∃ n, ts.length = n + 1 := ⟨ts.length - 1, by omega⟩
  by_cases hacc : o = .o4 ∧ 4 ≤ ts.length ∧ r = fun S : Solver K => setDataAcc S ts ps v0 a0 vT aT c
  · obtain ⟨rfl, h4, rfl⟩ := hacc
    have e : (fun S : Solver K => setDataAcc S ts ps v0 a0 vT aT c) =
        fun S : Solver K => fit S 3 ts ps [v0, a0] [vT, aT] c.reset := by
      funext S
      exact setDataAcc_fit S.toRawSolver ts ps v0 a0 vT aT c n (by omega) (by omega) hn
        (Or.inr ⟨rfl, by omega⟩)
    rw [e]
    exact arbitrary_somewhere 3 ts ps _ _ n (by omega) (by omega) hn (by omega) hinc (by omega) rfl rfl
      (by simp only [Order.count, Order.deg]; omega)
      (solvable_acc4 n (by omega) _ _ (dur_pos hinc) v0 a0 vT aT) c
  · have e : (o = .o4 ∨ o = .o5) ∧ r = fun S : Solver K => fit S 2 ts ps [v0] [vT] c.reset := by
      rcases hr with ⟨rfl, h3, rfl⟩ | ⟨h, rfl⟩
      · refine ⟨Or.inl rfl, ?_⟩
        have : ts.length = 2 := by
          by_contra hne
          exact hacc ⟨rfl, by omega, rfl⟩
        funext S
        rw [setDataAcc_vel S ts ps v0 a0 vT aT c n (by omega) (by omega) hn
          (Or.inr ⟨rfl, by omega⟩)]
        exact setDataVel_fit S.toRawSolver ts ps v0 vT c n (by omega) (by omega) hn (by simp [Order.deg])
      · refine ⟨h, ?_⟩
        funext S
        exact setDataVel_fit S.toRawSolver ts ps v0 vT c n (by omega) (by omega) hn
          (by rcases h with rfl | rfl <;> simp [Order.deg])
    obtain ⟨ho, rfl⟩ := e
    exact arbitrary_somewhere 2 ts ps _ _ n (by omega) (by omega) hn (by omega) hinc (by omega) rfl rfl
      (by rcases ho with rfl | rfl <;> simp only [Order.count, Order.deg] <;> omega)
      (solvable_vel o (by rcases ho with rfl | rfl <;> simp [Order.deg]) n (by omega) _ _
        (dur_pos hinc) v0 vT) c

/-- Instances: a cubic through four knots is the same with every solver; the position of a quintic
through `(0,0)`, `(1,0)`, `(2,0)`, at rest at both ends, at time 1/2 can be one million. -/
example (S S' : Solver ℚ) : setDataAcc S [0, 1, 3, 4] [5, -1, 2, 2] 1 0 3 0 (fresh : Container .o3 ℚ) =
    setDataAcc S' [0, 1, 3, 4] [5, -1, 2, 2] 1 0 3 0 fresh := by
  have h := C88_same_result (o := .o3) S S' [0, 1, 3, 4] [5, -1, 2, 2] (by simp) (by simp) rfl
    (by norm_num) (Or.inr (Or.inr (Or.inl rfl))) 1 0 3 0 fresh fresh
  exact h
example : ∃ (S : Solver ℚ) (c' : Container .o5 ℚ),
    setDataAcc S [0, 1, 2] [0, 0, 0] 0 0 0 0 fresh = .ok (true, c') ∧
      c'.getPositionAtTime (1 / 2) = .ok 1000000 := by
  obtain ⟨S, c', e, h⟩ := C88_quintic_refuted [(0 : ℚ), 1, 2] [0, 0, 0] (by simp) (by simp) rfl
    (by norm_num) 0 0 0 0 fresh 0 (by simp) (1 / 2) (by norm_num) (by norm_num) 1000000
  exact ⟨S, c', e, by simpa using h⟩
example : ∃ (j : ℕ) (hj : j + 1 < [(0 : ℚ), 1, 2, 4].length) (t : ℚ),
    [(0 : ℚ), 1, 2, 4][j] < t ∧ t < [(0 : ℚ), 1, 2, 4][j + 1] ∧ Arbitrary (t - [(0 : ℚ), 1, 2, 4][0])
      fun S => setDataAcc S [0, 1, 2, 4] [0, 3, 0, 1] 1 2 3 4 (fresh : Container .o4 ℚ) :=
  C88_refuted [0, 1, 2, 4] [0, 3, 0, 1] (by simp) (by simp) rfl (by norm_num) 1 2 3 4 fresh _
    (Or.inl ⟨rfl, by simp, rfl⟩)

end Verif.Container
