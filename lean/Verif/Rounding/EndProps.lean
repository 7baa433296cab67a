import Verif.Rounding.EndModel
import Verif.Rounding.LineProps

/-!
# Property C153: where a fitted scalar curve begins and ends, with rounded arithmetic
-/

set_option linter.unusedSectionVars false
set_option linter.dupNamespace false

namespace Verif.Rounding

open Verif.Spline (Order Vec Spline)

variable {K : Type} [Field K] [LinearOrder K] [IsStrictOrderedRing K] {R : Rounding K} {u : K} {o : Order}

/-! ## The sum of the durations -/

/-- The duration of the container after `k` segments. -/
def lenOf (R : Rounding K) (ts : List K) : ℕ → K
  | 0 => 0
  | k + 1 => R.rnd (lenOf R ts k + R.rnd (ts.getD (k + 1) 0 - ts.getD k 0))

theorem lenOf_near (hP : Precise R u) (hu : 0 ≤ u) {ts : List K} (hinc : ts.Pairwise (· < ·)) : ∀ k, k + 1 ≤ ts.length →
    |lenOf R ts k - (ts.getD k 0 - ts.getD 0 0)| ≤ ((1 + u) ^ (k + 1) - 1) * (ts.getD k 0 - ts.getD 0 0)
  | 0, _ => by simp [lenOf]
  | k + 1, h => by
    have ih := lenOf_near hP hu hinc k (by omega)
    have hg := sub_pos.2 (getD_lt hinc (Nat.lt_succ_self k) (by omega))
    have hD : 0 ≤ ts.getD k 0 - ts.getD 0 0 := by
      rcases Nat.eq_zero_or_pos k with rfl | h0
      · simp
      · exact sub_nonneg.2 (getD_lt hinc h0 (by omega)).le
    have h1 := hP (ts.getD (k + 1) 0 - ts.getD k 0)
    rw [abs_of_pos hg] at h1
    have h2 := add_near ih h1
    have e : ts.getD k 0 - ts.getD 0 0 + (ts.getD (k + 1) 0 - ts.getD k 0) = ts.getD (k + 1) 0 - ts.getD 0 0 := by ring
    rw [e] at h2
    have hD' : 0 ≤ ts.getD (k + 1) 0 - ts.getD 0 0 := by rw [← e]; exact add_nonneg hD hg.le
    have h3 := rnd_near hP hu h2 (le_of_eq (abs_of_nonneg hD'))
    rw [lenOf]
    refine h3.trans ?_
    rw [← e]
    set D := ts.getD k 0 - ts.getD 0 0
    set g := ts.getD (k + 1) 0 - ts.getD k 0
    have h4 : (1 + u) ^ 2 ≤ (1 + u) ^ (k + 1 + 1) := pow_le_pow_right₀ (by linarith) (by omega)
    have h5 := mul_le_mul_of_nonneg_right h4 hg.le
    have h6 : (1 + u) ^ (k + 1 + 1) = (1 + u) ^ (k + 1) * (1 + u) := pow_succ _ _
    rw [h6] at h5 ⊢
    nlinarith [h5]

theorem lenOf_nonneg {ts : List K} (hd : ∀ t ∈ ts, R.rnd t = t) (hinc : ts.Pairwise (· < ·)) : ∀ k, k + 1 ≤ ts.length →
    0 ≤ lenOf R ts k
  | 0, _ => le_rfl
  | k + 1, h => by
    have ih := lenOf_nonneg hd hinc k (by omega)
    have hg := (getD_lt hinc (Nat.lt_succ_self k) (by omega)).le
    have h1 := R.mono (sub_nonneg.2 hg)
    rw [rnd_zero] at h1
    have h2 := R.mono (add_nonneg ih h1)
    rw [rnd_zero] at h2
    exact h2

theorem lenOf_exact {ts : List K} (h1 : ∀ k, k + 1 < ts.length →
    R.rnd (ts.getD (k + 1) 0 - ts.getD k 0) = ts.getD (k + 1) 0 - ts.getD k 0 ∧
      R.rnd (ts.getD (k + 1) 0 - ts.getD 0 0) = ts.getD (k + 1) 0 - ts.getD 0 0) : ∀ k, k + 1 ≤ ts.length →
    lenOf R ts k = ts.getD k 0 - ts.getD 0 0
  | 0, _ => by simp [lenOf]
  | k + 1, h => by
    obtain ⟨a, b⟩ := h1 k (by omega)
    rw [lenOf, lenOf_exact h1 k (by omega), a, add_comm, sub_add_sub_cancel, b]

/-! ## The two fits -/

theorem segDurations_eq {ts : List K} (hd : ∀ t ∈ ts, R.rnd t = t) (hinc : ts.Pairwise (· < ·)) : ∀ k i,
    i + k + 1 = ts.length → segDurations R.arith ts k i =
      .ok (some ((List.range' i k).map fun j => R.rnd (ts.getD (j + 1) 0 - ts.getD j 0))) := by
  intro k
  induction k with
  | zero => intro i _; rfl
  | succ k ih =>
    intro i h
    have h1 : i + 1 < ts.length := by omega
    have h0 : i < ts.length := by omega
    have hlt : ts[i] < ts[i + 1] := List.pairwise_iff_getElem.1 hinc i (i + 1) h0 h1 (by omega)
    have hpos := (sub_pos_iff R (hd _ (List.getElem_mem h0)) (hd _ (List.getElem_mem h1))).2 hlt
    rw [segDurations, List.getElem?_eq_getElem h1, List.getElem?_eq_getElem h0, ih (i + 1) (by omega)]
    simp only [Outcome.deref_some, Outcome.ok_bind, Rounding.arith, decide_eq_true_eq]
    rw [if_neg (not_le.2 hpos)]
    simp [List.range'_succ, List.getD, List.getElem?_eq_getElem h1, List.getElem?_eq_getElem h0]

theorem extract_spec (cs : ℕ → Vec o K) (ts : List K) : ∀ k i (c : Box (Spline o K) K), c.duration = lenOf R ts i →
    (extract R cs ((List.range' i k).map fun j => R.rnd (ts.getD (j + 1) 0 - ts.getD j 0)) i c).duration =
      lenOf R ts (i + k) := by
  intro k
  induction k with
  | zero => intro i c h; exact h
  | succ k ih =>
    intro i c h
    rw [List.range'_succ, List.map_cons, extract]
    refine (ih (i + 1) _ ?_).trans (by rw [Nat.add_right_comm, Nat.add_assoc])
    simp only [Box.addSpline, Rounding.arith, h]
    rfl

theorem fit_spec {ts : List K} (hd : ∀ t ∈ ts, R.rnd t = t) (hinc : ts.Pairwise (· < ·)) (h2 : 2 ≤ ts.length)
    (cs : ℕ → Vec o K) (s : ScalarCurve o K) :
    ∃ s', s.fitCurve R cs ts = .ok s' ∧ s'.minTime = ts.getD 0 0 ∧ s'.container.duration = lenOf R ts (ts.length - 1) := by
  cases ts with
  | nil => simp at h2
  | cons t0 l =>
    rw [ScalarCurve.fitCurve, setDataSolved, if_neg (by omega), segDurations_eq hd hinc _ 0 (by omega)]
    refine ⟨_, rfl, rfl, ?_⟩
    have := extract_spec (R := R) cs (t0 :: l) ((t0 :: l).length - 1) 0 (s.container.reset R.arith) rfl
    rwa [zero_add] at this

theorem lineLoop_duration {ts ps : List K} (hd : ∀ t ∈ ts, R.rnd t = t) (hinc : ts.Pairwise (· < ·))
    (hl : ps.length = ts.length) : ∀ k i (c : Box (Spline o K) K), i + k + 1 = ts.length → c.duration = lenOf R ts i →
    ∃ c', lineLoop R ts ps k i c = .ok (true, c') ∧ c'.duration = lenOf R ts (i + k) := by
  intro k
  induction k with
  | zero => intro i c _ h; exact ⟨c, rfl, h⟩
  | succ k ih =>
    intro i c h hc
    have h1 : i + 1 < ts.length := by omega
    have h0 : i < ts.length := by omega
    have hlt : ts[i] < ts[i + 1] := List.pairwise_iff_getElem.1 hinc i (i + 1) h0 h1 (by omega)
    have hpos := (sub_pos_iff R (hd _ (List.getElem_mem h0)) (hd _ (List.getElem_mem h1))).2 hlt
    rw [lineLoop, List.getElem?_eq_getElem h1, List.getElem?_eq_getElem h0, List.getElem?_eq_getElem (l := ps) (by omega),
      List.getElem?_eq_getElem (l := ps) (by omega)]
    simp only [Outcome.deref_some, Outcome.ok_bind]
    rw [if_neg (not_le.2 hpos)]
    obtain ⟨c', e, h2⟩ := ih (i + 1) (c.addSpline R.arith Spline.duration
      (lineSpline R o ts[i] ts[i + 1] (ps[i]'(by omega)) (ps[i + 1]'(by omega)))) (by omega) (by
        simp only [Box.addSpline, Rounding.arith, hc, lineSpline, lenOf, List.getD, List.getElem?_eq_getElem h1,
          List.getElem?_eq_getElem h0, Option.getD_some])
    exact ⟨c', e, h2.trans (by rw [Nat.add_right_comm, Nat.add_assoc])⟩

theorem fitLines_spec {ts ps : List K} (hd : ∀ t ∈ ts, R.rnd t = t) (hinc : ts.Pairwise (· < ·)) (h2 : 2 ≤ ts.length)
    (hl : ps.length = ts.length) (s : ScalarCurve o K) :
    ∃ s', s.fitLines R ts ps = .ok s' ∧ s'.minTime = ts.getD 0 0 ∧ s'.container.duration = lenOf R ts (ts.length - 1) := by
  cases ts with
  | nil => simp at h2
  | cons t0 l =>
    obtain ⟨c', e, h⟩ := lineLoop_duration (o := o) hd hinc hl ((t0 :: l).length - 1) 0 (s.container.reset R.arith) (by omega) rfl
    rw [ScalarCurve.fitLines, setDataLinear, if_neg (by omega), e]
    exact ⟨_, rfl, rfl, by rw [h, zero_add]⟩

/-! ## C153 -/

/-- Either way of fitting a scalar curve to knots at `ts`, whatever the solver answers and whatever the values are. -/
inductive Fits (R : Rounding K) (ts : List K) (s s' : ScalarCurve o K) : Prop
  | solved (cs : ℕ → Vec o K) : s.fitCurve R cs ts = .ok s' → Fits R ts s s'
  | lines (ps : List K) : ps.length = ts.length → s.fitLines R ts ps = .ok s' → Fits R ts s s'

theorem fits_spec {ts : List K} (hd : ∀ t ∈ ts, R.rnd t = t) (hinc : ts.Pairwise (· < ·)) (h2 : 2 ≤ ts.length)
    {s s' : ScalarCurve o K} (h : Fits R ts s s') :
    s'.minTime = ts.getD 0 0 ∧ s'.container.duration = lenOf R ts (ts.length - 1) := by
  cases h with
  | solved cs h =>
    obtain ⟨s1, e, h1⟩ := fit_spec hd hinc h2 cs s
    rw [h] at e
    cases e
    exact h1
  | lines ps hl h =>
    obtain ⟨s1, e, h1⟩ := fitLines_spec hd hinc h2 hl s
    rw [h] at e
    cases e
    exact h1

/-- **C153**, the fit goes through, whatever the solver answers: for increasing times that are `double`s no operation fails. -/
theorem C153_accepts {ts : List K} (hd : ∀ t ∈ ts, R.rnd t = t) (hinc : ts.Pairwise (· < ·)) (h2 : 2 ≤ ts.length)
    (s : ScalarCurve o K) : (∀ cs : ℕ → Vec o K, ∃ s', s.fitCurve R cs ts = .ok s') ∧
      ∀ ps : List K, ps.length = ts.length → ∃ s', s.fitLines R ts ps = .ok s' :=
  ⟨fun cs => (fit_spec hd hinc h2 cs s).imp fun _ h => h.1, fun _ hl => (fitLines_spec hd hinc h2 hl s).imp fun _ h => h.1⟩

theorem segDurations_none {ts : List K} (hd : ∀ t ∈ ts, R.rnd t = t) : ∀ k i, i + k + 1 = ts.length →
    (∃ j, i ≤ j ∧ ∃ h : j + 1 < ts.length, ts[j + 1] ≤ ts[j]) → segDurations R.arith ts k i = .ok none := by
  intro k
  induction k with
  | zero => rintro i h ⟨j, h1, h2, -⟩; omega
  | succ k ih =>
    rintro i h ⟨j, h1, h2, h3⟩
    have k1 : i + 1 < ts.length := by omega
    have k0 : i < ts.length := by omega
    rw [segDurations, List.getElem?_eq_getElem k1, List.getElem?_eq_getElem k0]
    simp only [Outcome.deref_some, Outcome.ok_bind, Rounding.arith, decide_eq_true_eq]
    by_cases hle : R.rnd (ts[i + 1] - ts[i]) ≤ 0
    · rw [if_pos hle]
    · have hlt := (sub_pos_iff R (hd _ (List.getElem_mem k0)) (hd _ (List.getElem_mem k1))).1 (not_le.1 hle)
      have hne : j ≠ i := by rintro rfl; exact absurd hlt (not_lt.2 h3)
      rw [if_neg hle]
      have := ih (i + 1) (by omega) ⟨j, by omega, h2, h3⟩
      simp only [Rounding.arith] at this
      rw [this]
      rfl

/-- **C153**, what is refused: of lists of times that are `double`s, `setData` accepts those with at least two times that
increase, and no others, whatever the solver would answer. If it refuses, it leaves no segment; `fitCurve` does not
report this: where there is a first time it returns a curve that begins and ends there. -/
theorem C153_refuses {ts : List K} (hd : ∀ t ∈ ts, R.rnd t = t) (cs : ℕ → Vec o K) (s : ScalarCurve o K) :
    (∃ c' b, setDataSolved R cs ts s.container = .ok (b, c') ∧ (b = true ↔ 2 ≤ ts.length ∧ ts.Pairwise (· < ·)) ∧
      (b = false → c'.splines = [])) ∧
    (¬(2 ≤ ts.length ∧ ts.Pairwise (· < ·)) → ∀ t0 ∈ ts.head?, ∃ s', s.fitCurve R cs ts = .ok s' ∧
      s'.getMinTime = t0 ∧ s'.getMaxTime R = t0) := by
  have key : ¬(2 ≤ ts.length ∧ ts.Pairwise (· < ·)) →
      setDataSolved R cs ts s.container = .ok (false, s.container.reset R.arith) := by
    intro h
    rw [setDataSolved]
    by_cases h2 : ts.length < 2
    · rw [if_pos h2]
    · rw [if_neg h2, segDurations_none hd _ 0 (by omega)]
      · rfl
      · have hn : ¬ts.IsChain (· < ·) := fun hc => h ⟨by omega, List.isChain_iff_pairwise.1 hc⟩
        rw [List.isChain_iff_getElem] at hn
        push Not at hn
        obtain ⟨j, hj, hle⟩ := hn
        exact ⟨j, Nat.zero_le _, hj, hle⟩
  constructor
  · by_cases h : 2 ≤ ts.length ∧ ts.Pairwise (· < ·)
    · refine ⟨_, true, by rw [setDataSolved, if_neg (by omega), segDurations_eq hd h.2 _ 0 (by omega)]; rfl, ?_, ?_⟩
      · simp [h]
      · simp
    · exact ⟨_, false, key h, by simp [h], fun _ => rfl⟩
  · intro h t0 h0
    refine ⟨⟨s.container.reset R.arith, t0⟩, ?_, rfl, ?_⟩
    · rw [ScalarCurve.fitCurve, key h, Option.mem_def.1 h0]
      rfl
    · rw [ScalarCurve.getMaxTime]
      refine (congrArg R.rnd (zero_add t0)).trans (hd _ (List.mem_of_mem_head? h0))

/-- Such a list: three times of which the last two are equal. -/
example (cs : ℕ → Vec o ℚ) (s : ScalarCurve o ℚ) : ∃ s', s.fitCurve (double ℚ) cs [1, 2, 2] = .ok s' ∧
    s'.getMinTime = 1 ∧ s'.getMaxTime (double ℚ) = 1 :=
  (C153_refuses (by decide +kernel) cs s).2 (by decide +kernel) 1 rfl

/-- **C153**, where the curve begins and ends: it begins at the first knot, to the last bit; it ends no earlier than it
begins; and the time it ends at is off the last knot by `n + 2` roundings of the length and one of the time itself. -/
theorem C153_end_partial (hP : Precise R u) (hu : 0 ≤ u) {ts : List K} (hd : ∀ t ∈ ts, R.rnd t = t)
    (hinc : ts.Pairwise (· < ·)) {n : ℕ} (hn : ts.length = n + 1) (hn0 : 1 ≤ n) {s s' : ScalarCurve o K} (h : Fits R ts s s') :
    s'.getMinTime = ts.getD 0 0 ∧ s'.getMinTime ≤ s'.getMaxTime R ∧
      |s'.getMaxTime R - ts.getD n 0| ≤ ((1 + u) ^ (n + 2) - 1) * (ts.getD n 0 - ts.getD 0 0) + u * |ts.getD n 0| := by
  obtain ⟨h1, h2⟩ := fits_spec hd hinc (by omega) h
  rw [hn, Nat.add_sub_cancel] at h2
  have hr : R.rnd (ts.getD 0 0) = ts.getD 0 0 := by
    rw [List.getD, List.getElem?_eq_getElem (show 0 < ts.length by omega)]
    exact hd _ (List.getElem_mem _)
  refine ⟨h1, ?_, ?_⟩
  · rw [ScalarCurve.getMinTime, ScalarCurve.getMaxTime, h1, h2]
    have := R.mono (le_add_of_nonneg_left (a := ts.getD 0 0) (lenOf_nonneg hd hinc n (by omega)))
    rwa [hr] at this
  · rw [ScalarCurve.getMaxTime, h1, h2]
    have h3 := lenOf_near hP hu hinc n (by omega)
    have h4 : |lenOf R ts n + ts.getD 0 0 - ts.getD n 0| ≤ ((1 + u) ^ (n + 1) - 1) * (ts.getD n 0 - ts.getD 0 0) := by
      have e : lenOf R ts n + ts.getD 0 0 - ts.getD n 0 = lenOf R ts n - (ts.getD n 0 - ts.getD 0 0) := by ring
      rwa [e]
    have h5 := rnd_near hP hu h4 le_rfl
    have hD := sub_nonneg.2 (getD_lt hinc (show 0 < n by omega) (by omega)).le
    refine h5.trans ?_
    have h6 : (1 + u) ^ (n + 2) = (1 + u) ^ (n + 1) * (1 + u) := pow_succ _ _
    rw [h6]
    nlinarith [mul_nonneg hu hD]

/-- The same in `double`. -/
theorem C153_double_partial [FloorRing K] {ts : List K} (hd : ∀ t ∈ ts, (double K).rnd t = t)
    (hinc : ts.Pairwise (· < ·)) {n : ℕ} (hn : ts.length = n + 1) (hn0 : 1 ≤ n) (hn31 : n < 2 ^ 31)
    {s s' : ScalarCurve o K} (h : Fits (double K) ts s s') :
    |s'.getMaxTime (double K) - ts.getD n 0| ≤
      (n + 2) * (ts.getD n 0 - ts.getD 0 0) / 2 ^ 52 + |ts.getD n 0| / 2 ^ 53 := by
  obtain ⟨-, -, h1⟩ := C153_end_partial precise_double (by positivity) hd hinc hn hn0 h
  have hD := sub_nonneg.2 (getD_lt hinc (show 0 < n by omega) (by omega)).le
  have hn' : (n : K) ≤ 2 ^ 31 := by exact_mod_cast hn31.le
  have h2 := pow_le_linear (K := K) (u := 1 / 2 ^ 53) (by positivity) (n + 2) (by push_cast; linarith)
  push_cast at h2
  have h3 := mul_le_mul_of_nonneg_right (sub_le_sub_right h2 1) hD
  refine h1.trans ?_
  have e : (1 + 2 * ((n : K) + 2) * (1 / 2 ^ 53) - 1) * (ts.getD n 0 - ts.getD 0 0) =
      (n + 2) * (ts.getD n 0 - ts.getD 0 0) / 2 ^ 52 := by ring
  rw [e] at h3
  have e' : 1 / 2 ^ 53 * |ts.getD n 0| = |ts.getD n 0| / 2 ^ 53 := by ring
  rw [e']
  linarith

/-- **C153** when nothing is lost, e.g. when all times are multiples of one power of two and not too large: the curve ends
at the last knot. -/
theorem C153_exact {ts : List K} (hd : ∀ t ∈ ts, R.rnd t = t) (hinc : ts.Pairwise (· < ·)) {n : ℕ} (hn : ts.length = n + 1)
    (hn0 : 1 ≤ n) (hx : ∀ k, k < n → R.rnd (ts.getD (k + 1) 0 - ts.getD k 0) = ts.getD (k + 1) 0 - ts.getD k 0 ∧
      R.rnd (ts.getD (k + 1) 0 - ts.getD 0 0) = ts.getD (k + 1) 0 - ts.getD 0 0)
    {s s' : ScalarCurve o K} (h : Fits R ts s s') : s'.getMaxTime R = ts.getD n 0 := by
  obtain ⟨h1, h2⟩ := fits_spec hd hinc (by omega) h
  rw [hn, Nat.add_sub_cancel, lenOf_exact (fun k hk => hx k (by omega)) n (by omega)] at h2
  rw [ScalarCurve.getMaxTime, h1, h2, sub_add_cancel, List.getD, List.getElem?_eq_getElem (show n < ts.length by omega)]
  exact hd _ (List.getElem_mem _)

/-- The curve need not end at the last knot: in `double`, fitted to knots at 0.2 and 0.9 it ends before 0.9, so that 0.9 is
not in its domain, and fitted to knots at 0.3 and 0.9 it ends after it, whatever the solver answers. -/
theorem C153_refuted (cs : ℕ → Vec o ℚ) (s : ScalarCurve o ℚ) :
    (∃ s', s.fitCurve (double ℚ) cs [toDouble (2 / 10), toDouble (9 / 10)] = .ok s' ∧
      s'.getMaxTime (double ℚ) < toDouble (9 / 10)) ∧
    ∃ s', s.fitCurve (double ℚ) cs [toDouble (3 / 10), toDouble (9 / 10)] = .ok s' ∧
      toDouble (9 / 10) < s'.getMaxTime (double ℚ) := by
  constructor
  · obtain ⟨s', e, h1, h2⟩ := fit_spec (R := double ℚ) (ts := [toDouble (2 / 10), toDouble (9 / 10)]) (by decide +kernel)
      (by decide +kernel) (by decide) cs s
    refine ⟨s', e, ?_⟩
    rw [ScalarCurve.getMaxTime, h1, h2]
    decide +kernel
  · obtain ⟨s', e, h1, h2⟩ := fit_spec (R := double ℚ) (ts := [toDouble (3 / 10), toDouble (9 / 10)]) (by decide +kernel)
      (by decide +kernel) (by decide) cs s
    refine ⟨s', e, ?_⟩
    rw [ScalarCurve.getMaxTime, h1, h2]
    decide +kernel

/-- Instances of C153: three knots in `double`, either way. -/
example (s : ScalarCurve .o5 ℚ) : ∃ s', Fits (double ℚ) [1 / 2, 3 / 4, 2] s s' ∧ s'.getMaxTime (double ℚ) = 2 := by
  obtain ⟨s', e⟩ := (C153_accepts (R := double ℚ) (ts := [1 / 2, 3 / 4, 2]) (by decide +kernel) (by decide +kernel) (by decide) s).1
    fun _ _ => 7
  exact ⟨s', .solved _ e, C153_exact (by decide +kernel) (by decide +kernel) (n := 2) rfl (by decide) (by decide +kernel) (.solved _ e)⟩

example (s : ScalarCurve .o1 ℚ) := (C153_accepts (R := double ℚ) (ts := [1 / 2, 3 / 4, 2]) (by decide +kernel)
  (by decide +kernel) (by decide) s).2 [5, 6, 5] rfl

example (s s' : ScalarCurve .o1 ℚ) (h : Fits (double ℚ) [toDouble (2 / 10), toDouble (9 / 10)] s s') :=
  C153_end_partial precise_double (by norm_num) (by decide +kernel) (by decide +kernel) (n := 1) rfl (by decide) h

example (s s' : ScalarCurve .o1 ℚ) (h : Fits (double ℚ) [toDouble (2 / 10), toDouble (9 / 10)] s s') :=
  C153_double_partial (by decide +kernel) (by decide +kernel) (n := 1) rfl (by decide) (by decide) h

end Verif.Rounding
