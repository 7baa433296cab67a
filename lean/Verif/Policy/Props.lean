import Verif.Policy.Lemmas

/-!
# Properties of the sampling policy (C14, C15)
-/

set_option linter.unusedSectionVars false

namespace Verif.Policy

open Verif.Manager

variable {T C : Type} [LinearOrder T] [Zero T]

/-- Specification: with ratio `m`, after a stream `xs` these measurements are knots: the first two,
every measurement completing a group of `m` (indices `1 + m`, `1 + 2m`, ...), and the newest. -/
def thinned (m : Nat) (xs : List (T × C)) : List (T × C) :=
  (xs.zipIdx.filter fun p => decide (p.2 ≤ 1 ∨ (p.2 - 1) % m = 0 ∨ p.2 + 1 = xs.length)).map Prod.fst

theorem thinned_eq (m : Nat) (xs : List (T × C)) :
    thinned m xs = keptL 0 m xs ++ if closes 0 m (xs.length - 1) then [] else xs.getLast?.toList := by
  rcases List.eq_nil_or_concat xs with rfl | ⟨ys, y, rfl⟩
  · simp [thinned, keptL]
  · rw [List.concat_eq_append, keptL_snoc]
    simp only [thinned, List.zipIdx_append, List.filter_append, List.map_append,
      List.zipIdx_singleton, List.length_append, List.length_singleton, Nat.zero_add,
      Nat.add_sub_cancel, List.append_assoc]
    congr 1
    · simp only [keptL]
      congr 1
      apply List.filter_congr
      rintro ⟨x, i⟩ hx
      have hi : i < ys.length := by
        have := (List.mem_zipIdx hx).2.1
        omega
      simp only [closes, Nat.zero_add]
      have h1 : i + 1 ≠ ys.length + 1 := by omega
      match i with
      | 0 => simp
      | 1 => simp
      | i + 2 => simp [Bool.beq_eq_decide_eq]; omega
    · cases hc : closes 0 m ys.length <;> simp

theorem ceil_div (a m : Nat) (hm : 0 < m) :
    (a + (m - 1)) / m = a / m + if a % m = 0 then 0 else 1 := by
  have h1 := Nat.div_add_mod a m
  have hlt := Nat.mod_lt a hm
  generalize a / m = q at *
  generalize a % m = r at *
  subst h1
  rw [Nat.add_assoc, Nat.mul_add_div hm]
  congr 1
  split
  · next h => rw [h, Nat.zero_add]; exact Nat.div_eq_of_lt (by omega)
  · have : r + (m - 1) = m + (r - 1) := by omega
    rw [this, Nat.add_div_left _ hm, Nat.div_eq_of_lt (by omega)]

theorem keptL_length (m : Nat) (hm : 0 < m) (xs : List (T × C)) (h : xs ≠ []) :
    (keptL 0 m xs).length = 1 + (xs.length - 1 + (m - 1)) / m := by
  induction xs using List.reverseRecOn with
  | nil => exact absurd rfl h
  | append_singleton xs x ih =>
    rw [keptL_snoc]
    cases xs with
    | nil =>
      have : (m - 1) / m = 0 := Nat.div_eq_of_lt (by omega)
      simp [keptL, closes, this]
    | cons y ys =>
      have ih := ih (by simp)
      simp only [List.length_append, ih, List.length_cons, Nat.add_sub_cancel, List.length_nil,
        Nat.zero_add]
      simp only [closes, Nat.zero_add, Nat.add_sub_cancel]
      rw [ceil_div _ _ hm]
      have h2 : ys.length + 1 + (m - 1) = ys.length + m := by omega
      rw [h2, Nat.add_div_right _ hm]
      by_cases h3 : ys.length % m = 0 <;> simp [h3] <;> omega

/-- C14. Feeding a fresh curve with sampling ratio `m >= 1` single measurements at strictly
increasing times never fails; the knots are then exactly `thinned m xs`: the last knot is the newest
measurement; the first two and every measurement completing a group of `m` are knots with their own
values; and after `n >= 2` measurements there are `2 + ceil((n-2)/m)` knots. -/
theorem C14_sampling (w : World) (m : Nat) (hm : 0 < m) (hm31 : m < 2 ^ 31) (xs : List (T × C))
    (hinc : xs.Pairwise fun a b => a.1 < b.1) (hw : w.calls + xs.length < 2 ^ 64) :
    ∃ w' c', (Curve.fresh (m : Int) : Curve T C).feed w xs = .ok (w', c') ∧
      c'.knots = thinned m xs ∧
      c'.knots.getLast? = xs.getLast? ∧
      c'.knots.Sublist xs ∧
      (∀ i (hi : i < xs.length), i ≤ 1 ∨ (i - 1) % m = 0 → xs[i] ∈ c'.knots) ∧
      (2 ≤ xs.length → c'.knots.length = 2 + (xs.length - 2 + (m - 1)) / m) := by
  obtain ⟨w', c', e, h⟩ := feed_inv w (Curve.fresh (m : Int) : Curve T C) 0 m rfl rfl rfl hm hm31 hm
    xs hinc hw
  have hk : c'.knots = thinned m xs := by rw [thinned_eq]; exact h.knots
  refine ⟨w', c', e, hk, ?_, ?_, ?_, ?_⟩
  · rcases List.eq_nil_or_concat xs with rfl | ⟨ys, y, rfl⟩
    · rw [hk]; rfl
    · rw [h.knots, List.concat_eq_append, keptL_snoc]
      simp only [List.length_append, List.length_singleton, Nat.add_sub_cancel]
      cases closes 0 m ys.length <;> simp
  · rw [hk]
    have h1 : (xs.zipIdx.filter fun p =>
        decide (p.2 ≤ 1 ∨ (p.2 - 1) % m = 0 ∨ p.2 + 1 = xs.length)).Sublist xs.zipIdx :=
      List.filter_sublist
    have h2 := h1.map Prod.fst
    rwa [List.zipIdx_map_fst] at h2
  · intro i hi hcond
    rw [hk, thinned, List.mem_map]
    refine ⟨(xs[i], i), ?_, rfl⟩
    rw [List.mem_filter]
    refine ⟨?_, by simp only [decide_eq_true_eq]; tauto⟩
    rw [List.mem_iff_getElem]
    exact ⟨i, by simpa using hi, by simp⟩
  · intro h2
    rw [h.knots, List.length_append, keptL_length m hm xs (by intro e; simp [e] at h2)]
    have h3 : xs.length - 1 = xs.length - 2 + 1 := by omega
    have h4 : xs.length - 2 + 1 + (m - 1) = xs.length - 2 + m := by omega
    rw [h3, h4, Nat.add_div_right _ hm, ceil_div _ _ hm]
    have hcl : closes 0 m (xs.length - 2 + 1) = decide ((xs.length - 2) % m = 0) := by
      simp [closes, Bool.beq_eq_decide_eq]
    rw [hcl]
    have hl : xs.getLast?.toList.length = 1 := by
      cases hg : xs.getLast? with
      | none => rw [List.getLast?_eq_none_iff] at hg; simp [hg] at h2
      | some y => simp
    by_cases h5 : (xs.length - 2) % m = 0 <;> simp [h5, hl] <;> omega

/-- A stream of 7 measurements with ratio 3. -/
example : ∃ r, (Curve.fresh 3 : Curve Nat Nat).feed ⟨10, 20⟩
      [(1, 10), (2, 20), (4, 40), (5, 50), (7, 70), (8, 80), (9, 90)] = .ok r ∧
    r.2.knots = [(1, 10), (2, 20), (7, 70), (9, 90)] ∧
    thinned 3 [(1, 10), (2, 20), (4, 40), (5, 50), (7, 70), (8, 80), (9, 90)] =
      [(1, 10), (2, 20), (7, 70), (9, 90)] :=
  ⟨_, rfl, by decide, by decide⟩

/-! ## C15: false of the code

`clear()` empties the manager but not the measurement counter. -/

/-- C15 is false, for every ratio `m >= 2`: whenever a stream of `n >= 2` measurements leaves a group
open (`(n-2) mod m ≠ 0`), then after `clear()` the next three measurements leave only two knots (the
second measurement is lost), whereas a fresh curve with the same ratio has all three. -/
theorem C15_refuted (w : World) (m : Nat) (hm31 : m < 2 ^ 31) (xs : List (T × C))
    (hinc : xs.Pairwise fun a b => a.1 < b.1) (h2 : 2 ≤ xs.length) (hopen : (xs.length - 2) % m ≠ 0)
    (hm : 0 < m) (t0 t1 t2 : T) (v0 v1 v2 : C) (h01 : t0 < t1) (h12 : t1 < t2)
    (hw : w.calls + xs.length + 3 < 2 ^ 64) :
    ∃ w' c', (Curve.fresh (m : Int) : Curve T C).feed w xs = .ok (w', c') ∧
      (∃ w'' c'', c'.clear.feed w' [(t0, v0), (t1, v1), (t2, v2)] = .ok (w'', c'') ∧
        c''.knots = [(t0, v0), (t2, v2)]) ∧
      (∃ w'' c'', (Curve.fresh (m : Int) : Curve T C).feed w' [(t0, v0), (t1, v1), (t2, v2)] =
          .ok (w'', c'') ∧ c''.knots = [(t0, v0), (t1, v1), (t2, v2)]) := by
  obtain ⟨w', c', e, h⟩ := feed_inv w (Curve.fresh (m : Int) : Curve T C) 0 m rfl rfl rfl hm hm31 hm
    xs hinc (by omega)
  have hc := h.calls
  have h3 : ([(t0, v0), (t1, v1), (t2, v2)] : List (T × C)).Pairwise fun a b => a.1 < b.1 := by
    simp [h01, h12, h01.trans h12]
  have hs : c'.pol.since = (((xs.length - 2) % m : Nat) : Int) := by
    rw [h.since, if_neg (by omega), Nat.zero_add]
  have hlt := Nat.mod_lt (xs.length - 2) hm
  refine ⟨w', c', e, ?_, ?_⟩
  · obtain ⟨w'', c'', e2, hk⟩ := feed_inv w' c'.clear ((xs.length - 2) % m) m rfl hs h.ratio hm hm31
      hlt _ h3 (by simp; omega)
    refine ⟨w'', c'', e2, ?_⟩
    rw [hk.knots]
    generalize (xs.length - 2) % m = r at *
    have h4 : r % m ≠ 0 := by rw [Nat.mod_eq_of_lt hlt]; exact hopen
    by_cases h5 : (r + 1) % m = 0
    · simp [keptL, closes, h4, h5]
    · simp [keptL, closes, h4, h5]
  · obtain ⟨w'', c'', e2, hk, _⟩ := C14_sampling w' m hm hm31 _ h3 (by simp; omega)
    refine ⟨w'', c'', e2, ?_⟩
    rw [hk]
    simp [thinned]

example : ∃ r, (Curve.fresh 3 : Curve Nat Nat).feed ⟨0, 0⟩ [(1, 10), (2, 20), (3, 30)] = .ok r ∧
    ∃ q, r.2.clear.feed r.1 [(5, 50), (6, 60), (7, 70)] = .ok q ∧ q.2.knots = [(5, 50), (7, 70)] :=
  ⟨_, rfl, _, rfl, by decide⟩

/-- C15 holds when the curve is cleared while no group is open (always true for ratio 1): afterwards
every increasing stream leaves the same knots as on a fresh curve. Missing: clearing while a group is
open, where it is false (`C15_refuted`). -/
theorem C15_clear_partial (w : World) (m : Nat) (hm : 0 < m) (hm31 : m < 2 ^ 31)
    (xs ys : List (T × C)) (hinc : xs.Pairwise fun a b => a.1 < b.1)
    (hinc' : ys.Pairwise fun a b => a.1 < b.1)
    (hclosed : xs.length < 2 ∨ (xs.length - 2) % m = 0)
    (hw : w.calls + xs.length + ys.length < 2 ^ 64) :
    ∃ w' c', (Curve.fresh (m : Int) : Curve T C).feed w xs = .ok (w', c') ∧
      ∃ w1 c1 w2 c2, c'.clear.feed w' ys = .ok (w1, c1) ∧
        (Curve.fresh (m : Int) : Curve T C).feed w' ys = .ok (w2, c2) ∧ c1.knots = c2.knots := by
  obtain ⟨w', c', e, h⟩ := feed_inv w (Curve.fresh (m : Int) : Curve T C) 0 m rfl rfl rfl hm hm31 hm
    xs hinc (by omega)
  have hc := h.calls
  have hs : c'.pol.since = ((0 : Nat) : Int) := by
    rw [h.since]
    split
    · rfl
    · rcases hclosed with h1 | h1
      · omega
      · rw [Nat.zero_add, h1]
  obtain ⟨w1, c1, e1, hk1⟩ := feed_inv w' c'.clear 0 m rfl hs h.ratio hm hm31 hm ys hinc' (by omega)
  obtain ⟨w2, c2, e2, hk2⟩ := feed_inv w' (Curve.fresh (m : Int) : Curve T C) 0 m rfl rfl rfl hm hm31
    hm ys hinc' (by omega)
  exact ⟨w', c', e, w1, c1, w2, c2, e1, e2, by rw [hk1.knots, hk2.knots]⟩

example : ([(1, 10), (2, 20), (3, 30), (4, 40)] : List (Nat × Nat)).Pairwise (fun a b => a.1 < b.1) ∧
    ([(1, 10), (2, 20), (3, 30), (4, 40)] : List (Nat × Nat)).length - 2 = 2 ∧ 2 % 2 = 0 := by decide

end Verif.Policy
