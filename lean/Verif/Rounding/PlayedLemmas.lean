import Verif.Rounding.PlayProps

/-!
# Lemmas for C163: the time at which a container is read
-/

set_option linter.unusedSectionVars false
set_option linter.dupNamespace false

namespace Verif.Rounding

open Box

section
variable {S K : Type} [Field K] [LinearOrder K] [IsStrictOrderedRing K] [FloorRing K] {dur : S → K}

theorem sum_take_le {l : List S} (hl : Timed dur l) (k : ℕ) : ((l.take k).map dur).sum ≤ (l.map dur).sum := by
  have h : (l.map dur).sum = ((l.take k).map dur).sum + ((l.drop k).map dur).sum := by
    rw [← List.sum_append, ← List.map_append, List.take_append_drop]
  have h2 : 0 ≤ ((l.drop k).map dur).sum := List.sum_nonneg fun x hx => by
    obtain ⟨s, hs, rfl⟩ := List.mem_map.1 hx
    exact (hl s (List.mem_of_mem_drop hs)).1.le
  linarith

theorem clamp_of_lt {τ d : K} (hd : 0 < d) (h : d < τ) : max 0 (min τ d) = d := by
  rw [min_eq_right h.le, max_eq_right hd.le]

/-- The segment on which the cursor is and the local time, compared with the exact starts of the segments. -/
theorem read_near {l : List S} (hl : Timed dur l) (hn : l.length ≤ 2 ^ 52) {k : ℕ} {c : Box S K} (h : Sync (ieee K) dur l k c) :
    |((l.take k).map dur).sum + max 0 (min ((ieee K).rnd (c.time - startOf (ieee K).arith dur l k)) (dur (l[k]'h.lt))) -
      max 0 (min c.time (l.map dur).sum)| ≤ l.length * (l.map dur).sum / 2 ^ 52 := by
  have hk := h.lt
  have ht := h.time
  have hbefore := h.before
  have hhere := h.here
  generalize c.time = t at *
  set D := (l.map dur).sum with hD
  have hD0 : 0 ≤ D := by
    have := sum_take_nonneg hl l.length
    rwa [List.take_length] at this
  have hd : 0 < dur l[k] := (hl _ (List.getElem_mem hk)).1
  have hn1 : (1 : K) ≤ l.length := by exact_mod_cast (by omega : 1 ≤ l.length)
  have hn2 : (l.length : K) ≤ 2 ^ 52 := by exact_mod_cast hn
  have hE : ∀ j < l.length, |startOf (ieee K).arith dur l j - ((l.take j).map dur).sum| ≤ (l.length - 1) * D / 2 ^ 52 := by
    intro j hj
    refine (startOf_near hl j hj.le).trans ?_
    have hj' : (j : K) ≤ l.length - 1 := by
      rw [le_sub_iff_add_le]; exact_mod_cast hj
    have h2 : ((1 : K) + 1 / 2 ^ 53) ^ j - 1 ≤ (l.length - 1) / 2 ^ 52 :=
      (pow_small (by omega)).trans (by gcongr)
    have h3 := sum_take_nonneg hl j
    have h4 := sum_take_le hl j
    have h5 : (0 : K) ≤ ((l.length : K) - 1) / 2 ^ 52 := div_nonneg (by linarith) (by positivity)
    calc _ ≤ ((l.length : K) - 1) / 2 ^ 52 * ((l.take j).map dur).sum := mul_le_mul_of_nonneg_right h2 h3
      _ ≤ ((l.length : K) - 1) / 2 ^ 52 * D := mul_le_mul_of_nonneg_left h4 h5
      _ = _ := by ring
  have hsum : (l.length : K) * D / 2 ^ 52 = (l.length - 1) * D / 2 ^ 52 + D / 2 ^ 52 := by ring
  have hED : (l.length : K) * D / 2 ^ 52 ≤ D := by
    rw [div_le_iff₀ (by positivity)]
    have := mul_le_mul_of_nonneg_right hn2 hD0
    linarith
  have huD : 0 ≤ D / 2 ^ 52 := by positivity
  have hE0 : 0 ≤ ((l.length : K) - 1) * D / 2 ^ 52 := div_nonneg (mul_nonneg (by linarith) hD0) (by positivity)
  have hr : ∀ j < l.length, |(ieee K).rnd (t - startOf (ieee K).arith dur l j) - (t - startOf (ieee K).arith dur l j)| ≤
      1 / 2 ^ 53 * |t - startOf (ieee K).arith dur l j| := fun j hj =>
    ieee_diff ht (rnd_startOf (R := ieee K) (dur := dur) l j hj.le)
  have hsucc : ((l.take (k + 1)).map dur).sum = ((l.take k).map dur).sum + dur l[k] := sum_take_succ l hk
  have hle := sum_take_le hl (k + 1)
  have hlast : k + 1 = l.length → ((l.take k).map dur).sum + dur l[k] = D := by
    intro e
    rw [← hsucc, e, List.take_length]
  have eS := abs_le.1 (hE k hk)
  have hS0 := sum_take_nonneg hl k
  rcases lt_or_ge t 0 with hneg | h0
  · -- before the beginning
    have hk0 : k = 0 := by
      by_contra hcon
      have b := hbefore 0 (by omega) (by omega)
      have : (ieee K).rnd (t - startOf (ieee K).arith dur l 0) ≤ 0 := by
        have := (ieee K).mono (show t - startOf (ieee K).arith dur l 0 ≤ 0 by rw [startOf_zero]; simp [Rounding.arith]; exact hneg.le)
        rwa [rnd_zero] at this
      linarith [(hl _ (List.getElem_mem (by omega : 0 < l.length))).1]
    subst hk0
    have hτ : (ieee K).rnd (t - startOf (ieee K).arith dur l 0) ≤ 0 := by
      have := (ieee K).mono (show t - startOf (ieee K).arith dur l 0 ≤ 0 by rw [startOf_zero]; simp [Rounding.arith]; exact hneg.le)
      rwa [rnd_zero] at this
    rw [max_eq_left ((min_le_left _ _).trans hτ), max_eq_left ((min_le_left _ _).trans hneg.le)]
    simp only [List.take_zero, List.map_nil, List.sum_nil, add_zero, sub_zero, abs_zero]
    linarith
  have hmin : max 0 (min t D) = min t D := max_eq_right (le_min h0 hD0)
  rw [hmin]
  have ek := abs_le.1 (hr k hk)
  rcases le_or_gt t (2 * D) with h2 | h2
  · have hy : ∀ j < l.length, |(ieee K).rnd (t - startOf (ieee K).arith dur l j) - (t - startOf (ieee K).arith dur l j)| ≤ D / 2 ^ 52 := by
      intro j hj
      refine (hr j hj).trans ?_
      have a := abs_le.1 (hE j hj)
      have b := sum_take_nonneg hl j
      have c := sum_take_le hl j
      have d : 0 ≤ startOf (ieee K).arith dur l j := by
        have h1 := (abs_le.1 (startOf_near hl j hj.le)).1
        have h2 : ((1 : K) + 1 / 2 ^ 53) ^ j - 1 ≤ 1 := (pow_small (by omega)).trans (by
          rw [div_le_one (by positivity)]
          exact_mod_cast (by omega : j ≤ 2 ^ 52))
        have := mul_le_mul_of_nonneg_right h2 b
        linarith
      have : |t - startOf (ieee K).arith dur l j| ≤ 2 * D := by
        rw [abs_le]
        constructor <;> linarith
      have := mul_le_mul_of_nonneg_left this (show (0 : K) ≤ 1 / 2 ^ 53 by positivity)
      have e : 1 / 2 ^ 53 * (2 * D) = D / 2 ^ 52 := by ring
      linarith
    have ey := abs_le.1 (hy k hk)
    have near : ∀ x, x ≤ D → |x - t| ≤ l.length * D / 2 ^ 52 → |x - min t D| ≤ l.length * D / 2 ^ 52 := by
      intro x hx hxt
      rcases le_total t D with g | g
      · rwa [min_eq_left g]
      · rw [min_eq_right g]
        have := abs_le.1 hxt
        rw [abs_le]
        constructor <;> linarith
    set S := ((l.take k).map dur).sum with hS
    set S' := startOf (ieee K).arith dur l k with hS'
    set τ := (ieee K).rnd (t - S') with hτ
    by_cases hlt : dur l[k] < τ
    · rw [clamp_of_lt hd hlt]
      have hl' : k + 1 = l.length := by
        by_contra hcon
        exact absurd (hhere (by omega)) (not_lt.2 hlt.le)
      rw [hlast hl']
      rcases le_total t D with g | g
      · rw [min_eq_left g, abs_le]
        constructor <;> linarith [hlast hl']
      · rw [min_eq_right g, sub_self, abs_zero]
        linarith
    · by_cases hτ0 : 0 < τ
      · rw [min_eq_left (not_lt.1 hlt), max_eq_right hτ0.le]
        refine near _ (by linarith [not_lt.1 hlt]) ?_
        rw [abs_le]
        constructor <;> linarith
      · rw [max_eq_left ((min_le_left _ _).trans (not_lt.1 hτ0)), add_zero]
        refine near _ (by linarith) ?_
        rw [abs_le]
        refine ⟨by linarith, ?_⟩
        cases k with
        | zero =>
          have : S = 0 := by simp [hS]
          rw [this]
          linarith
        | succ j =>
          have b := hbefore j (by omega) (by omega)
          have eSj := abs_le.1 (hE j (by omega))
          have eyj := abs_le.1 (hy j (by omega))
          have hsj : S = ((l.take j).map dur).sum + dur l[j] := sum_take_succ l (by omega)
          linarith
  · -- far beyond the end
    set S := ((l.take k).map dur).sum with hS
    set S' := startOf (ieee K).arith dur l k with hS'
    set τ := (ieee K).rnd (t - S') with hτ
    have hpos : 0 < t - S' := by linarith
    rw [abs_of_pos hpos] at ek
    have hge : dur l[k] ≤ τ := by
      have h3 : (2 * D - S - (l.length - 1) * D / 2 ^ 52) * (1 - 1 / 2 ^ 53) ≤ (t - S') * (1 - 1 / 2 ^ 53) :=
        mul_le_mul_of_nonneg_right (by linarith) (by norm_num)
      have h4 : (2 * D - S - (l.length - 1) * D / 2 ^ 52) * (1 - 1 / 2 ^ 53) = 2 * D - S - (l.length - 1) * D / 2 ^ 52 -
        D / 2 ^ 52 + (S + (l.length - 1) * D / 2 ^ 52) / 2 ^ 53 := by ring
      have h5 : 0 ≤ (S + (l.length - 1) * D / 2 ^ 52) / 2 ^ 53 := by
        apply div_nonneg (by linarith) (by positivity)
      linarith
    have hl' : k + 1 = l.length := by
      by_contra hcon
      exact absurd (hhere (by omega)) (not_lt.2 hge)
    rw [min_eq_right hge, max_eq_right hd.le, hlast hl', min_eq_right (by linarith), sub_self, abs_zero]
    linarith

end
end Verif.Rounding
