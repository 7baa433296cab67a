import Verif.Energy.Pieces
import Verif.Energy.Props
import Verif.Container.MoreProps

/-!
# Property C110: fitted curves of least energy
-/

set_option linter.unusedSectionVars false
set_option linter.dupNamespace false

namespace Verif.Energy

open MeasureTheory Set Polynomial Verif.Spline Verif.Container Verif.Container.Container

variable {o : Order}

/-- The polynomial of segment `i`. -/
noncomputable def seg (c : Container o ℝ) (i : ℕ) : ℝ[X] := (c.splines[i]?.map fun s => toPoly s.coeffs).getD 0

theorem seg_eq {c : Container o ℝ} {i : ℕ} {s : Spline o ℝ} (h : c.splines[i]? = some s) : seg c i = toPoly s.coeffs := by
  simp [seg, h]

theorem seg_zero (c : Container o ℝ) (i : ℕ) {j : ℕ} (hj : o.deg < j) (t : ℝ) : ders (seg c i) j t = 0 := by
  refine ders_zero ?_ t
  cases h : c.splines[i]? with
  | none => simp [seg, h]; omega
  | some s => rw [seg_eq h]; exact (natDegree_toPoly _).trans_lt hj

/-- Derivatives of the segments, on the time axis of the curve. -/
noncomputable def parts' (c : Container o ℝ) (τ : ℕ → ℝ) (i j : ℕ) (t : ℝ) : ℝ := ders (seg c i) j (t - τ i)

theorem parts'_deriv (c : Container o ℝ) (τ : ℕ → ℝ) (i j : ℕ) (t : ℝ) :
    HasDerivAt (parts' c τ i j) (parts' c τ i (j + 1) t) t := by
  have := (ders_deriv (seg c i) j (t - τ i)).comp_sub_const t (τ i)
  exact this

/-- The values of a fitted curve as a motion. -/
def curve (pos vel acc : ℝ → ℝ) : ℕ → ℝ → ℝ
  | 0 => pos
  | 1 => vel
  | _ => acc

theorem through_joins {ts ps : List ℝ} {c : Container o ℝ} (h : Through ts ps c) : ∀ j s s', c.splines[j]? = some s →
    c.splines[j + 1]? = some s' → s.getPositionAtTime s.duration = s'.getPositionAtTime 0 := by
  intro j s s' e e'
  rw [(h.seg j s e).2.2, (h.seg (j + 1) s' e').2.1]

theorem seg_at {ts ps : List ℝ} {c : Container o ℝ} (h : Through ts ps c) {n i : ℕ} (hn : ts.length = n + 1) (hi : i < n) :
    ∃ s, c.splines[i]? = some s ∧ start c.splines i = knot ts i - knot ts 0 ∧
      s.duration = knot ts (i + 1) - knot ts i := by
  have hl := h.len
  have e := List.getElem?_eq_getElem (l := c.splines) (i := i) (by omega)
  exact ⟨_, e, h.starts i (by omega), by rw [(h.seg i _ e).1, dur, if_pos (by omega)]⟩

theorem pieces_line {ts ps : List ℝ} {c : Container o ℝ} (h : Through ts ps c) (hinc : ts.Pairwise (· < ·)) {n : ℕ}
    (hn : ts.length = n + 1) {pos vel acc : ℝ → ℝ} (hp : ∀ t, c.getPositionAtTime t = .ok (pos t))
    (hv : ∀ t, c.getVelocityAtTime t = .ok (vel t)) :
    Pieces 1 n (fun i => knot ts i - knot ts 0) (parts' c fun i => knot ts i - knot ts 0) (curve pos vel acc) := by
  have hpos := h.pos hinc
  refine ⟨fun i hi => ?_, fun i _ j t => parts'_deriv c _ i j t, fun i hi j hj t ht => ?_, fun i hi t ht => ?_⟩
  · have := knot_lt hinc (Nat.lt_succ_self i) (show i + 1 < ts.length by omega)
    linarith
  · obtain ⟨s, hs, h1, h2⟩ := seg_at h hn hi
    obtain rfl : j = 0 := by omega
    have := Container.atTime_closed Spline.getPositionAtTime c hpos (through_joins h) i s hs t (by rw [h1]; exact ht.1)
      (by rw [h1, h2]; have := ht.2; linarith)
    have e : pos t = s.getPositionAtTime (t - start c.splines i) := Outcome.ok.inj ((hp t).symm.trans this)
    show pos t = _
    rw [e, h1, parts', seg_eq hs]
    refine ders_pos s ⟨?_, ?_⟩
    · have := ht.1; linarith
    · have := ht.2; rw [h2]; linarith
  · obtain ⟨s, hs, h1, h2⟩ := seg_at h hn hi
    have := Container.atTime_half_open Spline.getVelocityAtTime c (fun s hs => (hpos s hs).le) i s hs t
      (by rw [h1]; exact ht.1.le) (by rw [h1, h2]; have := ht.2; linarith)
    have e : vel t = s.getVelocityAtTime (t - start c.splines i) := Outcome.ok.inj ((hv t).symm.trans this)
    show vel t = _
    rw [e, h1, parts', seg_eq hs]
    refine ders_vel s ⟨?_, ?_⟩
    · have := ht.1; linarith
    · have := ht.2; rw [h2]; linarith

theorem pieces_smooth {ts ps : List ℝ} {c : Container o ℝ} (h : Through ts ps c) (hs : Smooth c) (hinc : ts.Pairwise (· < ·))
    {n : ℕ} (hn : ts.length = n + 1) {pos vel acc : ℝ → ℝ} (hp : ∀ t, c.getPositionAtTime t = .ok (pos t))
    (hv : ∀ t, c.getVelocityAtTime t = .ok (vel t)) (ha : ∀ t, c.getAccelerationAtTime t = .ok (acc t)) :
    Pieces 2 n (fun i => knot ts i - knot ts 0) (parts' c fun i => knot ts i - knot ts 0) (curve pos vel acc) := by
  have hpos := h.pos hinc
  have hl := pieces_line h hinc hn hp hv (acc := acc)
  refine ⟨hl.step, hl.chain, fun i hi j hj t ht => ?_, fun i hi t ht => ?_⟩
  · obtain rfl | rfl : j = 0 ∨ j = 1 := by omega
    · exact hl.val i hi 0 (by omega) t ht
    obtain ⟨s, e, h1, h2⟩ := seg_at h hn hi
    have := Container.atTime_closed Spline.getVelocityAtTime c hpos hs.vel i s e t (by rw [h1]; exact ht.1)
      (by rw [h1, h2]; have := ht.2; linarith)
    have e' : vel t = s.getVelocityAtTime (t - start c.splines i) := Outcome.ok.inj ((hv t).symm.trans this)
    show vel t = _
    rw [e', h1, parts', seg_eq e]
    refine ders_vel s ⟨?_, ?_⟩
    · have := ht.1; linarith
    · have := ht.2; rw [h2]; linarith
  · obtain ⟨s, e, h1, h2⟩ := seg_at h hn hi
    have := Container.atTime_half_open Spline.getAccelerationAtTime c (fun s hs => (hpos s hs).le) i s e t
      (by rw [h1]; exact ht.1.le) (by rw [h1, h2]; have := ht.2; linarith)
    have e' : acc t = s.getAccelerationAtTime (t - start c.splines i) := Outcome.ok.inj ((ha t).symm.trans this)
    show acc t = _
    rw [e', h1, parts', seg_eq e]
    refine ders_acc s ⟨?_, ?_⟩
    · have := ht.1; linarith
    · have := ht.2; rw [h2]; linarith

theorem values (c : Container o ℝ) : ∃ pos vel acc : ℝ → ℝ, (∀ t, c.getPositionAtTime t = .ok (pos t)) ∧
    (∀ t, c.getVelocityAtTime t = .ok (vel t)) ∧ ∀ t, c.getAccelerationAtTime t = .ok (acc t) := by
  choose pos hpos' using fun t => Container.atTime_isOk Spline.getPositionAtTime c t
  choose vel hvel using fun t => Container.atTime_isOk Spline.getVelocityAtTime c t
  choose acc hacc using fun t => Container.atTime_isOk Spline.getAccelerationAtTime c t
  exact ⟨pos, vel, acc, hpos', hvel, hacc⟩


/-- What the cubic fit is made of. -/
theorem cubic_pieces (S : Solver ℝ) (ts ps : List ℝ) (h2 : 2 ≤ ts.length) (hb : ts.length ≤ 2 ^ 28)
    (hl : ps.length = ts.length) (hinc : ts.Pairwise (· < ·)) (v0 a0 vT aT : ℝ) (c : Container .o3 ℝ)
    (r : Outcome (Bool × Container .o3 ℝ))
    (hr : r = setDataVel S ts ps v0 vT c ∨ r = setDataAcc S ts ps v0 a0 vT aT c) :
    ∃ (c' : Container .o3 ℝ) (pos vel acc : ℝ → ℝ) (τ : ℕ → ℝ) (p : ℕ → ℕ → ℝ → ℝ) (n : ℕ), ts.length = n + 1 ∧
      r = .ok (true, c') ∧ (∀ t, c'.getPositionAtTime t = .ok (pos t)) ∧ (∀ t, c'.getVelocityAtTime t = .ok (vel t)) ∧
      (∀ t, c'.getAccelerationAtTime t = .ok (acc t)) ∧ Pieces 2 n τ p (curve pos vel acc) ∧
      (∀ i < n, ∀ t, p i 4 t = 0) ∧ (∀ (i : ℕ) (hi : i < ts.length), τ i = ts[i] - ts[0]) ∧
      (∀ (i : ℕ) (hi : i < ts.length), pos (τ i) = ps[i]) ∧ vel (τ 0) = v0 ∧ vel (τ n) = vT ∧
      ∀ i, i + 1 < n → p i 2 (τ (i + 1)) = p (i + 1) 2 (τ (i + 1)) := by
  obtain ⟨n, hn⟩ : ∃ n, ts.length = n + 1 := ⟨ts.length - 1, by omega⟩
  have hr' : r = setDataVel S ts ps v0 vT c := by
    rcases hr with h | h
    · exact h
    · rw [h, setDataAcc_vel S ts ps v0 a0 vT aT c n (by omega) (by omega) hn (Or.inl (by simp [Order.deg]))]
  obtain ⟨c', e, hth, hsm, hv0, hvT⟩ := vel_ok S ts ps v0 vT c n (by omega) (by omega) hn (by omega) hinc (by simp [Order.deg])
  obtain ⟨pos, vel, acc, hp, hv, ha⟩ := values c'
  have P := pieces_smooth hth hsm hinc hn hp hv ha
  have t0 : knot ts 0 = ts[0] := knot_eq _
  have hlen := hth.len
  refine ⟨c', pos, vel, acc, _, _, n, hn, hr'.trans e, hp, hv, ha, P,
    fun i _ t => seg_zero c' i (by simp [Order.deg]) _, fun i hi => by rw [knot_eq hi, t0], fun i hi => ?_, ?_, ?_, fun i hi => ?_⟩
  · have h3 := hth.interpolates hinc h2 i (by omega)
    rw [hp, knot_eq (l := ps) (by omega)] at h3
    exact Outcome.ok.inj h3
  · have e0 := List.getElem?_eq_getElem (l := c'.splines) (i := 0) (by omega)
    have h3 := hth.at_knot hinc Spline.getVelocityAtTime 0 _ e0
    rw [hv0 _ e0] at h3
    exact Outcome.ok.inj ((hv _).symm.trans h3)
  · have e0 : c'.splines.getLast? = some (c'.splines[c'.splines.length - 1]'(by omega)) := by
      rw [List.getLast?_eq_getElem?]; exact List.getElem?_eq_getElem _
    have h3 := hth.at_last hinc Spline.getVelocityAtTime _ e0
    rw [hvT _ e0, show c'.splines.length = n by omega] at h3
    exact Outcome.ok.inj ((hv _).symm.trans h3)
  · obtain ⟨s, es, -, hd⟩ := seg_at hth hn (show i < n by omega)
    obtain ⟨s', es', -, hd'⟩ := seg_at hth hn hi
    have h3 := hsm.acc i s s' es es'
    have p1 : 0 < s.duration := hth.pos hinc s (List.mem_of_getElem? es)
    have p2 : 0 < s'.duration := hth.pos hinc s' (List.mem_of_getElem? es')
    rw [ders_acc s ⟨p1.le, le_rfl⟩, ders_acc s' ⟨le_rfl, p2.le⟩] at h3
    simp only [parts']
    rw [seg_eq es, seg_eq es', sub_self, ← h3, hd]
    congr 1
    ring

/-- **C110**, order 3: the fitted curve has the least integral of the squared acceleration among all motions through the
knots with the given velocities at both ends, and it is the only one. -/
theorem C110_cubic (S : Solver ℝ) (ts ps : List ℝ) (h2 : 2 ≤ ts.length) (hb : ts.length ≤ 2 ^ 28)
    (hl : ps.length = ts.length) (hinc : ts.Pairwise (· < ·)) (v0 a0 vT aT : ℝ) (c : Container .o3 ℝ)
    (r : Outcome (Bool × Container .o3 ℝ))
    (hr : r = setDataVel S ts ps v0 vT c ∨ r = setDataAcc S ts ps v0 a0 vT aT c) :
    ∃ (c' : Container .o3 ℝ) (pos acc : ℝ → ℝ), r = .ok (true, c') ∧ (∀ t, c'.getPositionAtTime t = .ok (pos t)) ∧
      (∀ t, c'.getAccelerationAtTime t = .ok (acc t)) ∧
      ∀ g : ℕ → ℝ → ℝ, Motion 2 0 (ts[ts.length - 1] - ts[0]) g →
        (∀ (i : ℕ) (hi : i < ts.length) (hi' : i < ps.length), g 0 (ts[i] - ts[0]) = ps[i]) →
        g 1 0 = v0 → g 1 (ts[ts.length - 1] - ts[0]) = vT →
        ∫ t in 0..ts[ts.length - 1] - ts[0], acc t ^ 2 ≤ ∫ t in 0..ts[ts.length - 1] - ts[0], g 2 t ^ 2 ∧
        (∫ t in 0..ts[ts.length - 1] - ts[0], acc t ^ 2 = ∫ t in 0..ts[ts.length - 1] - ts[0], g 2 t ^ 2 →
          ∀ t ∈ Icc (0 : ℝ) (ts[ts.length - 1] - ts[0]), g 0 t = pos t) := by
  obtain ⟨c', pos, vel, acc, τ, p, n, hn, e, hp, hv, ha, P, hz, hτ, hpos, hv0, hvT, hj⟩ :=
    cubic_pieces S ts ps h2 hb hl hinc v0 a0 vT aT c r hr
  refine ⟨c', pos, acc, e, hp, ha, fun g hg hk g0 gT => ?_⟩
  have t0 : τ 0 = 0 := by rw [hτ 0 (by omega), sub_self]
  have tn : τ n = ts[ts.length - 1] - ts[0] := by
    rw [hτ n (by omega)]
    simp [hn]
  have key := P.least (g := g) (k := 1) hz (by rw [t0, tn]; exact hg) (fun i hi j hj => by
      obtain rfl : j = 0 := by omega
      show g 0 (τ i) = pos (τ i)
      rw [hpos i (by omega), hτ i (by omega), hk i (by omega) (by omega)])
    (by show g 1 (τ 0) = vel (τ 0); rw [hv0, t0, g0]) (by show g 1 (τ n) = vel (τ n); rw [hvT, tn, gT])
    (fun i hi => Or.inr (hj i hi))
  simp only [curve, Real.norm_eq_abs, sq_abs, tn, t0] at key
  exact ⟨key.1, fun h t ht => key.2 h 0 (by omega) t ht⟩

/-- **C110**, straight lines: the variant of `setData` without end derivatives, and for the orders 1 and 2 every variant,
yields the motion through the knots with the least integral of the squared velocity, and it is the only one. -/
theorem C110_straight (S : Solver ℝ) (ts ps : List ℝ) (h2 : 2 ≤ ts.length) (hb : ts.length ≤ 2 ^ 28)
    (hl : ps.length = ts.length) (hinc : ts.Pairwise (· < ·)) (v0 a0 vT aT : ℝ) (c : Container o ℝ)
    (r : Outcome (Bool × Container o ℝ)) (hr : r = setDataLinear ts ps c ∨
      (o = .o1 ∨ o = .o2) ∧ (r = setDataVel S ts ps v0 vT c ∨ r = setDataAcc S ts ps v0 a0 vT aT c)) :
    ∃ (c' : Container o ℝ) (pos vel : ℝ → ℝ), r = .ok (true, c') ∧ (∀ t, c'.getPositionAtTime t = .ok (pos t)) ∧
      (∀ t, c'.getVelocityAtTime t = .ok (vel t)) ∧
      ∀ g : ℕ → ℝ → ℝ, Motion 1 0 (ts[ts.length - 1] - ts[0]) g →
        (∀ (i : ℕ) (hi : i < ts.length) (hi' : i < ps.length), g 0 (ts[i] - ts[0]) = ps[i]) →
        ∫ t in 0..ts[ts.length - 1] - ts[0], vel t ^ 2 ≤ ∫ t in 0..ts[ts.length - 1] - ts[0], g 1 t ^ 2 ∧
        (∫ t in 0..ts[ts.length - 1] - ts[0], vel t ^ 2 = ∫ t in 0..ts[ts.length - 1] - ts[0], g 1 t ^ 2 →
          ∀ t ∈ Icc (0 : ℝ) (ts[ts.length - 1] - ts[0]), g 0 t = pos t) := by
  have hr' : r = setDataLinear ts ps c := by
    rcases hr with h | ⟨ho, h⟩
    · exact h
    · have := (C23_choice S ts ps (by omega) hb v0 a0 vT aT c).1 ho
      rcases h with rfl | rfl
      · exact this.2
      · exact this.1
  obtain ⟨n, hn⟩ : ∃ n, ts.length = n + 1 := ⟨ts.length - 1, by omega⟩
  obtain ⟨c', e, hth, hs⟩ := linear_through ts ps n (by omega) hn (by omega) hinc c
  obtain ⟨pos, vel, acc, hp, hv, -⟩ := values c'
  have P := pieces_line hth hinc hn hp hv (acc := acc)
  refine ⟨c', pos, vel, hr'.trans e, hp, hv, fun g hg hk => ?_⟩
  have t0 : knot ts 0 = ts[0] := knot_eq _
  have tn : knot ts n = ts[ts.length - 1] := by
    rw [knot_eq (by omega)]
    simp [hn]
  have hat : ∀ i ≤ n, g 0 (knot ts i - knot ts 0) = pos (knot ts i - knot ts 0) := by
    intro i hi
    have h1 := hk i (by omega) (by omega)
    have h3 := hth.interpolates hinc h2 i (by omega)
    rw [hp, knot_eq (l := ts) (by omega), knot_eq (l := ps) (by omega), t0] at h3
    rw [knot_eq (l := ts) (i := i) (by omega), t0, h1, Outcome.ok.inj h3]
  have key := P.least (g := g) (k := 0) (fun i hi t => by
      have es : c'.splines[i]? = some (line o (knot ps i) (knot ps (i + 1)) (dur ts i)) := by
        rw [hs, List.getElem?_map, List.getElem?_range (by omega), Option.map_some]
      show ders (seg c' i) 2 _ = 0
      rw [seg_eq es]
      show (derivative (derivative (toPoly _))).eval _ = 0
      rw [eval_toPoly'']
      exact (line_coeffs o _ _ _ _).2.2)
    (by simpa [t0, tn] using hg) (fun i hi j hj => by omega) (hat 0 (by omega)) (hat n le_rfl)
    (fun i hi => Or.inl (hat (i + 1) (by omega)))
  simp only [curve, Real.norm_eq_abs, sq_abs, tn, t0, sub_self] at key
  exact ⟨key.1, fun h t ht => key.2 h 0 (by omega) t ht⟩


/-- Hypotheses of `C110_cubic` met: `t^4` passes the knots (0, 0), (1, 1) and (2, 16) with the velocities 0 and 32. -/
example (S : Solver ℝ) : ∃ (c' : Container .o3 ℝ) (acc : ℝ → ℝ),
    setDataVel S [0, 1, 2] [0, 1, 16] 0 32 fresh = .ok (true, c') ∧ (∀ t, c'.getAccelerationAtTime t = .ok (acc t)) ∧
    ∫ t in (0 : ℝ)..2, acc t ^ 2 ≤ ∫ t in (0 : ℝ)..2, ders (X ^ 4) 2 t ^ 2 := by
  obtain ⟨c', pos, acc, e, -, h, k⟩ := C110_cubic S [0, 1, 2] [0, 1, 16] (by simp) (by simp) rfl (by norm_num) 0 0 32 0
    fresh _ (Or.inl rfl)
  norm_num at k
  refine ⟨c', acc, e, h, (k (ders (X ^ 4)) (ders_motion _ _ (by norm_num)) ?_ ?_ ?_).1⟩
  · intro i hi
    match i, hi with
    | 0, _ => norm_num [ders]
    | 1, _ => norm_num [ders]
    | 2, _ => norm_num [ders]
  · norm_num [ders]
  · norm_num [ders]

/-- Hypotheses of `C110_straight` met: `t^2` passes the knots (0, 0), (1, 1) and (2, 4). -/
example (S : Solver ℝ) : ∃ (c' : Container .o4 ℝ) (vel : ℝ → ℝ),
    setDataLinear [0, 1, 2] [0, 1, 4] fresh = .ok (true, c') ∧ (∀ t, c'.getVelocityAtTime t = .ok (vel t)) ∧
    ∫ t in (0 : ℝ)..2, vel t ^ 2 ≤ ∫ t in (0 : ℝ)..2, ders (X ^ 2) 1 t ^ 2 := by
  obtain ⟨c', pos, vel, e, -, h, k⟩ := C110_straight (o := .o4) S [0, 1, 2] [0, 1, 4] (by simp) (by simp) rfl (by norm_num)
    0 0 32 0 fresh _ (Or.inl rfl)
  norm_num at k
  refine ⟨c', vel, e, h, (k (ders (X ^ 2)) (ders_motion _ _ (by norm_num)) ?_).1⟩
  intro i hi
  match i, hi with
  | 0, _ => norm_num [ders]
  | 1, _ => norm_num [ders]
  | 2, _ => norm_num [ders]

end Verif.Energy
