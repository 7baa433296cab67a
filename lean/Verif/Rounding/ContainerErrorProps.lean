import Verif.Rounding.SplineProps
import Verif.Container.Glue

/-!
# Property C115: rounding errors when a container is evaluated
-/

set_option linter.unusedSectionVars false
set_option linter.dupNamespace false

namespace Verif.Rounding

open Verif.Spline (Order Vec Spline)
open Verif.Container (Container start total)

section
variable {K : Type} [Field K] [LinearOrder K] [IsStrictOrderedRing K] {R : Rounding K} {u : K} {o : Order}

theorem start_nonneg {l : List (Spline o K)} (hpos : ∀ s ∈ l, 0 < s.duration) (k : ℕ) : 0 ≤ start l k :=
  List.sum_nonneg fun x hx => by
    obtain ⟨s, hs, rfl⟩ := List.mem_map.1 hx
    exact (hpos s (List.mem_of_mem_take hs)).le

theorem start_le_total {l : List (Spline o K)} (hpos : ∀ s ∈ l, 0 < s.duration) (k : ℕ) : start l k ≤ total l := by
  have h : total l = total (l.take k) + total (l.drop k) := by
    rw [← Container.total_append, List.take_append_drop]
  have h2 : 0 ≤ total (l.drop k) := List.sum_nonneg fun x hx => by
    obtain ⟨s, hs, rfl⟩ := List.mem_map.1 hx
    exact (hpos s (List.mem_of_mem_drop hs)).le
  rw [start]
  linarith

/-- The computed start of a segment. -/
theorem start_near (hP : Precise R u) (hu : 0 ≤ u) {l : List (Spline o K)} (hpos : ∀ s ∈ l, 0 < s.duration) {k : ℕ}
    (hk : k ≤ l.length) :
    |Box.startOf R.arith Spline.duration l k - start l k| ≤ ((1 + u) ^ k - 1) * start l k := by
  have := fold_near hP hu (fun s : Spline o K => s.duration) (fun s => s.duration) (j := 0) (l.take k) 0 0 0 0 le_rfl
    (by simp) (by simp) fun s _ => within_zero _
  have e : ((l.take k).map fun s => |s.duration|) = (l.take k).map fun s => s.duration :=
    List.map_congr_left fun s hs => abs_of_pos (hpos s (List.mem_of_mem_take hs))
  rw [e, List.length_take, min_eq_left hk, zero_add, zero_add] at this
  exact this

/-- The segment that is used and the local time, for a query between the ends. -/
theorem time_near (hP : Precise R u) (hu : 0 ≤ u) {l : List (Spline o K)} (hpos : ∀ s ∈ l, 0 < s.duration)
    (hn : 2 * (l.length : K) * u ≤ 1) {k : ℕ} (hk : k < l.length) {t : K} (h0 : 0 ≤ t) (h1 : t ≤ total l)
    (hbefore : ∀ j (hj : j < l.length), j < k →
      ¬R.rnd (t - Box.startOf R.arith Spline.duration l j) < l[j].duration)
    (hhere : k + 1 < l.length → R.rnd (t - Box.startOf R.arith Spline.duration l k) < l[k].duration) :
    |start l k + clamp (R.rnd (t - Box.startOf R.arith Spline.duration l k)) l[k].duration - t| ≤ 2 * l.length * u * total l ∧
      0 ≤ clamp (R.rnd (t - Box.startOf R.arith Spline.duration l k)) l[k].duration ∧
      clamp (R.rnd (t - Box.startOf R.arith Spline.duration l k)) l[k].duration ≤ l[k].duration ∧
      (k + 1 < l.length → clamp (R.rnd (t - Box.startOf R.arith Spline.duration l k)) l[k].duration < l[k].duration) := by
  set D := total l with hD
  have hD0 : 0 ≤ D := h0.trans h1
  have hd : 0 < l[k].duration := hpos _ (List.getElem_mem hk)
  have hn1 : (1 : K) ≤ l.length := by exact_mod_cast (by omega : 1 ≤ l.length)
  have hE : ∀ j < l.length, |Box.startOf R.arith Spline.duration l j - start l j| ≤ 2 * (l.length - 1) * u * D := by
    intro j hj
    refine (start_near hP hu hpos hj.le).trans ?_
    have hj' : (j : K) ≤ l.length - 1 := by
      rw [le_sub_iff_add_le]; exact_mod_cast hj
    have hju : (j : K) * u ≤ (l.length - 1) * u := mul_le_mul_of_nonneg_right hj' hu
    have h2 : (1 + u) ^ j - 1 ≤ 2 * (l.length - 1) * u := by
      have := pow_le_linear hu j (by nlinarith)
      linarith
    have h3 : 0 ≤ (1 + u) ^ j - 1 := by linarith [one_le_pow' hu j]
    exact mul_le_mul h2 (start_le_total hpos j) (start_nonneg hpos j) (h3.trans h2)
  have hsum : 2 * (l.length - 1) * u * D + 2 * u * D = 2 * l.length * u * D := by ring
  have hED : 2 * l.length * u * D ≤ D := by
    have := mul_le_mul_of_nonneg_right hn hD0
    linarith
  have huD : 0 ≤ u * D := mul_nonneg hu hD0
  have hy : ∀ j < l.length, |R.rnd (t - Box.startOf R.arith Spline.duration l j) - (t - Box.startOf R.arith Spline.duration l j)| ≤
      2 * u * D := by
    intro j hj
    have h2 := abs_le.1 (hE j hj)
    have h3 := start_nonneg hpos j
    have h4 := start_le_total hpos j
    refine (hP _).trans ?_
    have h5 : |t - Box.startOf R.arith Spline.duration l j| ≤ 2 * D := by
      rw [abs_le]
      constructor <;> linarith
    have := mul_le_mul_of_nonneg_left h5 hu
    linarith
  have eS := abs_le.1 (hE k hk)
  have ey := abs_le.1 (hy k hk)
  have hsucc : start l (k + 1) = start l k + l[k].duration :=
    Container.start_succ _ _ _ (List.getElem?_eq_getElem hk)
  set S := start l k with hS
  set S' := Box.startOf R.arith Spline.duration l k with hS'
  set τ := R.rnd (t - S') with hτ
  rw [clamp]
  by_cases hlt : l[k].duration < τ
  · rw [if_pos hlt, if_pos hd]
    have hlast : k + 1 = l.length := by
      by_contra hcon
      exact absurd (hhere (by omega)) (not_lt.2 hlt.le)
    have hDS : S + l[k].duration = D := by
      rw [← hsucc, hlast, Container.start_length]
    refine ⟨?_, hd.le, le_rfl, fun h => by omega⟩
    rw [hDS, abs_le]
    constructor <;> linarith
  · rw [if_neg hlt]
    by_cases hτ0 : 0 < τ
    · rw [if_pos hτ0]
      refine ⟨?_, hτ0.le, not_lt.1 hlt, hhere⟩
      rw [abs_le]
      constructor <;> linarith
    · rw [if_neg hτ0]
      refine ⟨?_, le_rfl, hd.le, fun _ => hd⟩
      rw [add_zero, abs_le]
      refine ⟨by linarith, ?_⟩
      cases k with
      | zero =>
        have : S = 0 := by simp [hS, start]
        rw [this]
        have := mul_nonneg (mul_nonneg (by positivity : (0 : K) ≤ 2 * l.length) hu) hD0
        linarith
      | succ j =>
        have b := not_lt.1 (hbefore j (by omega) (by omega))
        have eSj := abs_le.1 (hE j (by omega))
        have eyj := abs_le.1 (hy j (by omega))
        have hsj : S = start l j + l[j].duration :=
          Container.start_succ _ _ _ (List.getElem?_eq_getElem (by omega))
        linarith

/-- **C115**. In `double` a container of `n` segments with the total duration `D` answers a query at a time `t` between 0
and `D` as it would exactly at a time `t'` that differs from `t` by at most `n D / 2^52`, up to the error of the
evaluation of a segment (C114). Position, velocity and acceleration belong to the same `t'`. -/
theorem C115_container [FloorRing K] (P : Pow (double K)) (c : Container o K) (hne : c.splines ≠ [])
    (hn : c.splines.length < 2 ^ 31) (hpos : ∀ s ∈ c.splines, 0 < s.duration) {t : K} (h0 : 0 ≤ t)
    (h1 : t ≤ (c.splines.map Spline.duration).sum) :
    ∃ t' : K, |t' - t| ≤ c.splines.length * (c.splines.map Spline.duration).sum / 2 ^ 52 ∧
      ∃ (k : ℕ) (hk : k < c.splines.length) (x : K), t' = ((c.splines.take k).map Spline.duration).sum + x ∧
        0 ≤ x ∧ x ≤ c.splines[k].duration ∧
        (∃ p q, (toBox c).atTime (double K).arith Spline.duration (position (double K) P) 0 t = .ok p ∧
          c.getPositionAtTime t' = .ok q ∧ |p - q| ≤ (∑ i, |c.splines[k].coeffs i * Spline.tau o x i|) / 2 ^ 49) ∧
        (∃ p q, (toBox c).atTime (double K).arith Spline.duration (velocity (double K) P) 0 t = .ok p ∧
          c.getVelocityAtTime t' = .ok q ∧ |p - q| ≤ (∑ i, |c.splines[k].coeffs i * Spline.dtau o x i|) / 2 ^ 49) ∧
        ∃ p q, (toBox c).atTime (double K).arith Spline.duration (acceleration (double K) P) 0 t = .ok p ∧
          c.getAccelerationAtTime t' = .ok q ∧ |p - q| ≤ (∑ i, |c.splines[k].coeffs i * Spline.ddtau o x i|) / 2 ^ 49 := by
  obtain ⟨k, hk, e, hb, hh⟩ := Box.activeAt_spec (double K).arith Spline.duration t (double K).arith.zero (toBox c) hne
  change k < c.splines.length at hk
  have hbefore : ∀ j (hj : j < c.splines.length), j < k →
      ¬(double K).rnd (t - Box.startOf (double K).arith Spline.duration c.splines j) < c.splines[j].duration :=
    fun j hj hjk => of_decide_eq_false (hb j hj hjk)
  have hhere : k + 1 < c.splines.length →
      (double K).rnd (t - Box.startOf (double K).arith Spline.duration c.splines k) < c.splines[k].duration :=
    fun h => of_decide_eq_true (hh hk h)
  have hn' : 2 * (c.splines.length : K) * (1 / 2 ^ 53) ≤ 1 := by
    have : (c.splines.length : K) ≤ 2 ^ 31 := by exact_mod_cast hn.le
    linarith
  obtain ⟨hE, hx0, hx1, hx2⟩ := time_near precise_double (by positivity) hpos hn' hk h0 h1 hbefore hhere
  set x := clamp ((double K).rnd (t - Box.startOf (double K).arith Spline.duration c.splines k)) c.splines[k].duration with hx
  have hans : ∀ f : Spline o K → K → K, (toBox c).atTime (double K).arith Spline.duration f 0 t =
      .ok (f c.splines[k] ((double K).rnd (t - Box.startOf (double K).arith Spline.duration c.splines k))) := by
    intro f
    rw [Box.atTime, e]
    simp only
    rw [if_neg (by omega), if_neg (by simp only [toBox]; omega), toSize_nat]
    simp only [toBox, List.getElem?_eq_getElem hk]
    rfl
  have hget : ∀ f : Spline o K → K → K, c.atTime f (start c.splines k + x) = .ok (f c.splines[k] x) := by
    intro f
    rcases hx1.lt_or_eq with h | h
    · rw [Container.Container.atTime_half_open f c (fun s hs => (hpos s hs).le) k _ (List.getElem?_eq_getElem hk) _
        (by linarith) (by linarith), add_sub_cancel_left]
    · have hlast : k + 1 = c.splines.length := by
        by_contra hcon
        exact absurd h (hx2 (by omega)).ne
      have hsucc := Container.start_succ _ _ _ (List.getElem?_eq_getElem hk)
      rw [hlast, Container.start_length] at hsucc
      have hkl : c.splines.length - 1 = k := by omega
      rw [Container.Container.atTime_beyond f c (fun s hs => (hpos s hs).le) c.splines[k]
        (by rw [List.getLast?_eq_getElem?, hkl, List.getElem?_eq_getElem hk]) _ (by rw [hsucc, h]), hkl, add_sub_cancel_left]
  have hcl : clamp x c.splines[k].duration = x := by
    rw [clamp, if_neg (not_lt.2 hx1)]
    by_cases h : 0 < x
    · rw [if_pos h]
    · rw [if_neg h, le_antisymm (not_lt.1 h) hx0]
  have hcl' : Spline.clamp x c.splines[k].duration = x := hcl
  refine ⟨start c.splines k + x, hE.trans (le_of_eq ?_), k, hk, x, rfl, hx0, hx1, ⟨_, _, hans _, hget _, ?_⟩, ⟨_, _, hans _, hget _, ?_⟩,
    ⟨_, _, hans _, hget _, ?_⟩⟩
  · rw [total]
    ring
  · rw [position, Spline.getPositionAtTime, ← hx, hcl']
    exact inner_double _ _ _ (tau_near precise_double (by positivity) P o _)
  · rw [velocity, Spline.getVelocityAtTime, ← hx, hcl']
    exact inner_double _ _ _ (dtau_near precise_double (by positivity) P o _)
  · rw [acceleration, Spline.getAccelerationAtTime, ← hx, hcl']
    exact inner_double _ _ _ (ddtau_near precise_double (by positivity) P o _)

end

/-- Hypotheses of `C115_container` met: two segments of order 2 with the durations 1/10 and 1/5, read at 1/4. -/
example : ∃ t' : ℚ, |t' - 1 / 4| ≤ 2 * (3 / 10) / 2 ^ 52 := by
  obtain ⟨t', h, -⟩ := C115_container (boost (double ℚ))
    (⟨[⟨![1, 2, 3], 1 / 10⟩, ⟨![-1, 2, 4], 1 / 5⟩], 0, 0, 3 / 10, 0⟩ : Container .o2 ℚ) (by simp) (by simp) (by simp) (t := 1 / 4)
    (by norm_num) (by norm_num)
  refine ⟨t', h.trans (le_of_eq ?_)⟩
  norm_num

end Verif.Rounding
