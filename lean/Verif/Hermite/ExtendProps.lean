import Verif.Hermite.ExtendSteps
import Verif.Hermite.SE3Props

/-!
# Properties of the sampling policy of `CubicHermiteSE3Curve` (C78, C79, C80)
-/

set_option linter.unusedSectionVars false
set_option linter.dupNamespace false

namespace Verif.Hermite.HPol

open Verif.Manager Verif.Kindr Verif.Policy

/-- Three poses on a line, used in the examples. -/
noncomputable def demoPose (x : ℝ) : Pose := ⟨![x, 0, 0], 1⟩

/-! ## C78 -/

/-- **C78.** Extending an empty curve through a policy with ratio `n ≥ 1` and any period by measurements at
strictly increasing times succeeds. The knots are then the measurements chosen by the rule (the first one;
then each one that has at least `n` others between it and the last chosen one and is more than the period
later), followed by the newest measurement if it was not chosen. So the newest measurement is always the
last knot, the first one always the first, and no knot is anything but a measurement. At the newest time
the curve evaluates to the newest measurement. -/
theorem C78_newest (L : LogMap) (w : World) (n : Int) (hn : 1 ≤ n) (period : ℝ) (xs : List (ℝ × Pose))
    (hinc : xs.Pairwise fun a b => a.1 < b.1) (hu : ∀ x ∈ xs, Quaternion.normSq x.2.rotation = 1)
    (hl : xs.length < 2 ^ 31) (hw : w.calls + xs.length < 2 ^ 64) :
    ∃ p' c', extend L (make n period) (SE3.fresh w) (xs.map Prod.fst) (xs.map Prod.snd) = .ok (p', c') ∧
      (c'.m.knots.map fun k => (k.1, k.2.transformation)) =
        (picked n period xs).1 ++ (if (picked n period xs).2 = 0 then [] else xs.getLast?.toList) ∧
      ((c'.m.knots.map fun k => (k.1, k.2.transformation)).getLast? = xs.getLast?) ∧
      ((c'.m.knots.map fun k => (k.1, k.2.transformation)).head? = xs.head?) ∧
      (c'.m.knots.map fun k => (k.1, k.2.transformation)).Sublist xs ∧
      ∀ t v, xs.getLast? = some (t, v) → ∃ q, SE3.evaluate L t c' = .ok (some q) ∧
        q.position = v.position ∧ ∀ u, rotate q.rotation u = rotate v.rotation u := by
  obtain ⟨p', c', e, hi⟩ := extend_inv L w n hn period xs hinc hl hw
  have hreach : SE3.Reachable L c' := by
    refine ⟨w, [.extendWith (make n period) (xs.map Prod.fst) (xs.map Prod.snd)], ?_, ?_⟩
    · intro op hop
      rw [List.mem_singleton] at hop
      subst hop
      intro v hv
      obtain ⟨x, hx, rfl⟩ := List.mem_map.1 hv
      exact hu x hx
    · simp [SE3.run, SE3.step, e]
  obtain ⟨core, tail, hk, hc, -, -, ht⟩ := hi.shape
  have h1 : (c'.m.knots.map fun k => (k.1, k.2.transformation)) =
      (picked n period xs).1 ++ (if (picked n period xs).2 = 0 then [] else xs.getLast?.toList) := by
    rw [hk, List.map_append, hc]
    congr 1
    rcases ht with ⟨h0, rfl⟩ | ⟨h0, t, v, d, hlast, rfl, -⟩
    · simp [h0]
    · rw [if_neg (by omega), hlast]; rfl
  have h2 : (c'.m.knots.map fun k => (k.1, k.2.transformation)).getLast? = xs.getLast? := by
    rw [h1]
    by_cases h0 : (picked n period xs).2 = 0
    · rw [if_pos h0, List.append_nil]
      exact picked_last n period xs h0
    · rw [if_neg h0]
      cases hlast : xs.getLast? with
      | none =>
        rw [List.getLast?_eq_none_iff] at hlast
        subst hlast
        simp [picked] at h0
      | some x => simp
  refine ⟨p', c', e, h1, h2, ?_, ?_, ?_⟩
  · have hhead : (picked n period xs).1.head? = xs.head? := by
      clear * -
      induction xs using List.reverseRecOn with
      | nil => simp [picked]
      | append_singleton xs x ih =>
        rw [picked_snoc, pick]
        cases h : (picked n period xs).1.getLast? with
        | none =>
          rw [List.getLast?_eq_none_iff, picked_nil_iff] at h
          subst h
          simp
        | some k =>
          have hne : xs ≠ [] := by
            intro e
            subst e
            simp [picked] at h
          have hne' : (picked n period xs).1 ≠ [] := by intro e; simp [e] at h
          have h3 : (xs ++ [x]).head? = xs.head? := by
            cases xs with
            | nil => exact absurd rfl hne
            | cons => rfl
          rw [h3, ← ih]
          by_cases hcnd : n ≤ (picked n period xs).2 ∧ k.1 + period < x.1
          · simp only [hcnd, and_self, if_true]
            cases hq : (picked n period xs).1 with
            | nil => exact absurd hq hne'
            | cons => rfl
          · simp only [hcnd, if_false]
    rw [h1]
    cases hq : (picked n period xs).1 with
    | nil =>
      have := (picked_nil_iff n period xs).1 hq
      subst this
      simp [picked]
    | cons a r => rw [← hhead, hq]; rfl
  · rw [h1]
    by_cases h0 : (picked n period xs).2 = 0
    · rw [if_pos h0, List.append_nil]
      exact picked_sublist n period xs
    · rw [if_neg h0]
      rcases List.eq_nil_or_concat xs with rfl | ⟨ys, y, rfl⟩
      · simp [picked]
      · rw [List.concat_eq_append] at h0 ⊢
        rw [picked_snoc, pick] at h0 ⊢
        cases hlast : (picked n period ys).1.getLast? with
        | none => simp [hlast] at h0
        | some k =>
          simp only [hlast] at h0 ⊢
          by_cases hcnd : n ≤ (picked n period ys).2 ∧ k.1 + period < y.1
          · simp [hcnd] at h0
          · simp only [hcnd, if_false]
            simpa using (picked_sublist n period ys).append (List.Sublist.refl [y])
  · intro t v hlast
    rw [hlast] at h2
    have hin := List.mem_of_getLast? h2
    obtain ⟨k, hk', he⟩ := List.mem_map.1 hin
    simp only [Prod.mk.injEq] at he
    obtain ⟨rfl, rfl⟩ := he
    obtain ⟨⟨q, hq1, hq2, -, hq3⟩, -⟩ := SE3.C35_interpolates hreach (t := k.1) (k := k.2) hk'
    exact ⟨q, hq1, hq2, hq3⟩

/-- A measurement that is not later than the last knot is refused, whatever the policy and the curve. -/
theorem C78_forward_only (L : LogMap) (p : HPol) (c : SE3) (t : ℝ) (v : Pose) (ts : List ℝ) (vs : List Pose)
    (hne : c.m.size ≠ 0) (ht : t ≤ c.m.getMaxTime) :
    extend L p c (t :: ts) (v :: vs) = .abort := by
  have : extendOne L p c t v = .abort := by
    unfold extendOne
    rw [if_pos]
    push Not
    exact ⟨ht, hne⟩
  simp [extend, this]

/-- Two lists of different lengths: a list of values that is too short is read out of bounds. -/
theorem C78_lengths (L : LogMap) (w : World) (n : Int) (hn : 1 ≤ n) (period : ℝ) (xs : List (ℝ × Pose))
    (hinc : xs.Pairwise fun a b => a.1 < b.1) (hl : xs.length < 2 ^ 31) (hw : w.calls + xs.length < 2 ^ 64)
    (t : ℝ) (ts : List ℝ) :
    extend L (make n period) (SE3.fresh w) (xs.map Prod.fst ++ t :: ts) (xs.map Prod.snd) = .ub := by
  obtain ⟨p', c', e, -⟩ := extend_inv L w n hn period xs hinc hl hw
  have := extend_append L (make n period) (SE3.fresh w) (xs.map Prod.fst) (t :: ts) (xs.map Prod.snd) []
    (by simp)
  rw [List.append_nil, e, Outcome.ok_bind] at this
  rw [this, extend]

/-- Hypotheses met: three measurements. -/
example : ([(0, demoPose 0), (1, demoPose 2), (3, demoPose 5)] : List (ℝ × Pose)).Pairwise
      (fun a b => a.1 < b.1) ∧
    (∀ x ∈ ([(0, demoPose 0), (1, demoPose 2), (3, demoPose 5)] : List (ℝ × Pose)),
      Quaternion.normSq x.2.rotation = 1) := by
  constructor
  · norm_num
  · intro x hx
    simp only [List.mem_cons, List.not_mem_nil, or_false] at hx
    rcases hx with rfl | rfl | rfl <;> simp [demoPose]

/-! ## C79 -/

/-- The measurements with an index divisible by `k`. -/
def everyNth (k : Nat) (xs : List (ℝ × Pose)) : List (ℝ × Pose) :=
  (xs.zipIdx.filter fun p => decide (p.2 % k = 0)).map Prod.fst

theorem everyNth_snoc (k : Nat) (xs : List (ℝ × Pose)) (x : ℝ × Pose) :
    everyNth k (xs ++ [x]) = everyNth k xs ++ if xs.length % k = 0 then [x] else [] := by
  simp only [everyNth, List.zipIdx_append, List.filter_append, List.map_append]
  congr 1
  simp only [List.zipIdx_singleton, List.filter_cons, List.filter_nil, Nat.zero_add]
  by_cases h : xs.length % k = 0 <;> simp [h]

theorem picked_every (n : Nat) (period : ℝ) (hp : period ≤ 0) (xs : List (ℝ × Pose))
    (hinc : xs.Pairwise fun a b => a.1 < b.1) :
    picked n period xs = (everyNth (n + 1) xs, (xs.length - 1) % (n + 1)) := by
  induction xs using List.reverseRecOn with
  | nil => simp [picked, everyNth]
  | append_singleton xs x ih =>
    rw [List.pairwise_append] at hinc
    rw [picked_snoc, ih hinc.1, everyNth_snoc, pick]
    rcases Nat.eq_zero_or_pos xs.length with h0 | h0
    · have := List.length_eq_zero_iff.1 h0
      subst this
      simp [everyNth]
    · have hne : xs ≠ [] := by rintro rfl; simp at h0
      have hne' : everyNth (n + 1) xs ≠ [] := by
        intro e
        have h1 := ih hinc.1
        have h2 := (picked_nil_iff n period xs).1 (by rw [h1, e])
        exact hne h2
      cases hl : (everyNth (n + 1) xs).getLast? with
      | none => exact absurd (List.getLast?_eq_none_iff.1 hl) hne'
      | some k =>
        have hk : k ∈ xs := by
          have h1 := List.mem_of_getLast? hl
          have h2 := picked_sublist n period xs
          rw [ih hinc.1] at h2
          exact h2.subset h1
        have hkx : k.1 + period < x.1 := by
          have := hinc.2.2 k hk x (List.mem_singleton_self _)
          linarith
        have hlen : (xs ++ [x]).length - 1 = xs.length := by simp
        have hmod := succ_mod (xs.length - 1) (n + 1) (by omega)
        rw [Nat.sub_add_cancel h0] at hmod
        have hlt := Nat.mod_lt (xs.length - 1) (show 0 < n + 1 by omega)
        simp only [hkx, and_true, hlen]
        by_cases hc : (n : Int) ≤ ((xs.length - 1) % (n + 1) : Nat)
        · have h3 : (xs.length - 1) % (n + 1) + 1 = n + 1 := by omega
          rw [if_pos h3] at hmod
          rw [if_pos hc, hmod]
          simp
        · have h3 : ¬((xs.length - 1) % (n + 1) + 1 = n + 1) := by omega
          rw [if_neg h3] at hmod
          rw [if_neg hc, hmod]
          simp

/-- **C79, what the code does.** With ratio `n ≥ 1` and no minimal period, the knots are the measurements
whose index is a multiple of `n + 1`, and the newest one. -/
theorem C79_every_partial (L : LogMap) (w : World) (n : Nat) (hn : 1 ≤ n) (xs : List (ℝ × Pose))
    (hinc : xs.Pairwise fun a b => a.1 < b.1) (hl : xs.length < 2 ^ 31)
    (hw : w.calls + xs.length < 2 ^ 64) :
    ∃ p' c', extend L (make n 0) (SE3.fresh w) (xs.map Prod.fst) (xs.map Prod.snd) = .ok (p', c') ∧
      (c'.m.knots.map fun k => (k.1, k.2.transformation)) =
        everyNth (n + 1) xs ++ (if (xs.length - 1) % (n + 1) = 0 then [] else xs.getLast?.toList) := by
  obtain ⟨p', c', e, hi⟩ := extend_inv L w n (by exact_mod_cast hn) 0 xs hinc hl hw
  obtain ⟨core, tail, hk, hc, -, -, ht⟩ := hi.shape
  refine ⟨p', c', e, ?_⟩
  rw [picked_every n 0 le_rfl xs hinc] at hc ht
  rw [hk, List.map_append, hc]
  congr 1
  rcases ht with ⟨h0, rfl⟩ | ⟨h0, t, v, d, hlast, rfl, -⟩
  · simp only at h0; simp [h0]
  · simp only at h0
    rw [if_neg (by omega), hlast]; rfl

/-- **C79 is violated for every ratio `n ≥ 1`.** The setter promises a coefficient every `n` extensions.
Yet as soon as the measurement after it has arrived, the measurement with index `n` is not a knot; with
the default ratio 1, which promises to keep every measurement, already the second of three is lost. -/
theorem C79_refuted (L : LogMap) (w : World) (n : Nat) (hn : 1 ≤ n) (xs : List (ℝ × Pose))
    (hinc : xs.Pairwise fun a b => a.1 < b.1) (hl : xs.length < 2 ^ 31)
    (hw : w.calls + xs.length < 2 ^ 64) (hlong : n + 2 ≤ xs.length) :
    ∃ p' c', extend L (make n 0) (SE3.fresh w) (xs.map Prod.fst) (xs.map Prod.snd) = .ok (p', c') ∧
      ∀ k ∈ c'.m.knots, k.1 ≠ (xs[n]'(by omega)).1 := by
  obtain ⟨p', c', e, h⟩ := C79_every_partial L w n hn xs hinc hl hw
  refine ⟨p', c', e, fun k hk hkt => ?_⟩
  have hmem : (k.1, k.2.transformation) ∈ c'.m.knots.map fun k => (k.1, k.2.transformation) :=
    List.mem_map_of_mem (f := fun k : ℝ × HKnot => (k.1, k.2.transformation)) hk
  have hidx : ∀ i (hi : i < xs.length), xs[i].1 = (xs[n]'(by omega)).1 → i = n := by
    intro i hi he
    rcases Nat.lt_trichotomy i n with h1 | h1 | h1
    · exact absurd he (List.pairwise_iff_getElem.1 hinc i n hi (by omega) h1).ne
    · exact h1
    · exact absurd he.symm (List.pairwise_iff_getElem.1 hinc n i (by omega) hi h1).ne
  rw [h, List.mem_append] at hmem
  rcases hmem with hmem | hmem
  · simp only [everyNth, List.mem_map, List.mem_filter] at hmem
    obtain ⟨⟨x, i⟩, ⟨hx, hi0⟩, he⟩ := hmem
    have hx' := List.mem_zipIdx hx
    simp only [Nat.zero_add, Nat.sub_zero] at hx'
    obtain ⟨-, hi, hx'⟩ := hx'
    simp only at he
    have : i = n := hidx i hi (by rw [← hx', he, hkt])
    subst this
    simp only [decide_eq_true_eq] at hi0
    rw [Nat.mod_eq_of_lt (by omega)] at hi0
    omega
  · split at hmem
    · simp at hmem
    · simp only [Option.mem_toList] at hmem
      rw [List.getLast?_eq_getElem?, List.getElem?_eq_some_iff] at hmem
      obtain ⟨hi, hx⟩ := hmem
      have := hidx _ hi (by rw [hx, hkt])
      omega

/-- **C79 with ratio 0.** Each measurement removes the knot before it: the curve never has more than one
knot, whose derivative is zero. -/
theorem C79_ratio_zero (L : LogMap) (w : World) (n : Int) (hn : n ≤ 0) (period : ℝ) (hper : period ≤ 0)
    (xs : List (ℝ × Pose)) (hinc : xs.Pairwise fun a b => a.1 < b.1) (hw : w.calls + xs.length < 2 ^ 64) :
    ∃ p' c', extend L (make n period) (SE3.fresh w) (xs.map Prod.fst) (xs.map Prod.snd) = .ok (p', c') ∧
      c'.m.knots = xs.getLast?.toList.map fun x => (x.1, (⟨x.2, Twist.zero⟩ : HKnot)) := by
  suffices H : ∃ p' c', extend L (make n period) (SE3.fresh w) (xs.map Prod.fst) (xs.map Prod.snd) =
      .ok (p', c') ∧ WF c'.w c'.m ∧ c'.w.calls ≤ w.calls + xs.length ∧ p'.since = 0 ∧ p'.minMeas = n ∧
      p'.period = period ∧ (∀ x, xs.getLast? = some x → p'.lastExtend = x.1) ∧
      c'.m.knots = xs.getLast?.toList.map fun x => (x.1, (⟨x.2, Twist.zero⟩ : HKnot)) by
    obtain ⟨p', c', e, -, -, -, -, -, -, h⟩ := H
    exact ⟨p', c', e, h⟩
  induction xs using List.reverseRecOn with
  | nil => exact ⟨_, _, rfl, WF.empty w, le_rfl, rfl, rfl, rfl, by simp, rfl⟩
  | append_singleton xs x ih =>
    obtain ⟨t, v⟩ := x
    rw [List.pairwise_append] at hinc
    simp only [List.length_append, List.length_singleton] at hw ⊢
    obtain ⟨p', ⟨w', m⟩, e, hwf, hcalls, hs, hmm, hpp, hle, hk⟩ := ih hinc.1 (by omega)
    simp only at hwf hcalls hk
    have hone : ∃ c'', extendOne L p' ⟨w', m⟩ t v = .ok ({ p' with since := 0, lastExtend := t }, c'') ∧
        WF c''.w c''.m ∧ c''.w.calls = w'.calls + 1 ∧ c''.m.knots = [(t, ⟨v, Twist.zero⟩)] := by
      rw [knots_of_contents] at hk
      rcases List.eq_nil_or_concat xs with rfl | ⟨ys, y, rfl⟩
      · have hm : m.contents = [] := by simpa using hk
        obtain ⟨c', key, e, hwf', hc', hcont⟩ := default_empty L p' hwf (by omega) hm t v
        have h0 : m.size = 0 := by rw [size_of_contents, hm]; rfl
        refine ⟨c', by unfold extendOne; simp only [h0, or_true, not_true, if_false, if_true]; exact e, hwf',
          hc', by rw [knots_of_contents, hcont]; rfl⟩
      · rw [List.concat_eq_append] at *
        simp only [List.getLast?_append, List.getLast?_singleton, Option.some_or, Option.toList_some,
          List.map_cons, List.map_nil] at hk
        obtain ⟨ca, r, hcont, hca, hr⟩ := List.map_eq_cons_iff.1 hk
        rw [List.map_eq_nil_iff] at hr
        subst hr
        obtain ⟨ta, ka, ka'⟩ := ca
        simp only [Prod.mk.injEq] at hca
        obtain ⟨rfl, rfl⟩ := hca
        have hyt : y.1 < t := hinc.2.2 y (by simp) _ (List.mem_singleton_self _)
        have hcont' : m.contents = [] ++ [(y.1, ka, ⟨y.2, Twist.zero⟩)] := by simpa using hcont
        obtain ⟨n', hnl, hnt, -, -⟩ := last_node hcont'
        simp only at hnt
        obtain ⟨m', er, hwf1, hcont1⟩ := remove_last hwf hcont'
        obtain ⟨c', key, e, hwf', hc', hcontc⟩ := default_empty L p' hwf1 (by omega) hcont1 t v
        have hmax : m.getMaxTime < t := by rw [maxTime_of hcont']; exact hyt
        have hs0 : m.size ≠ 0 := by rw [size_of_contents, hcont]; simp
        refine ⟨c', ?_, hwf', hc', by rw [knots_of_contents, hcontc]; rfl⟩
        unfold extendOne
        simp only [hmax, true_or, not_true, if_false, hs0, hnl, Outcome.deref, Outcome.ok_bind, hnt, er]
        rw [if_pos]
        · exact e
        · rw [hs, hmm, hpp, hle y (by simp)]
          exact ⟨hn, by linarith⟩
    obtain ⟨c'', e', hwf', hc', hk'⟩ := hone
    refine ⟨{ p' with since := 0, lastExtend := t }, c'', ?_, hwf', by omega, rfl, hmm, hpp, by simp, by simp [hk']⟩
    rw [List.map_append, List.map_append, extend_append _ _ _ _ _ _ _ (by simp), e, Outcome.ok_bind]
    simp [extend, e']

/-- The default ratio loses the second of three measurements. -/
example (L : LogMap) : ∃ p' c', extend L (make (1 : Nat) 0) (SE3.fresh ⟨0, 0⟩) [0, 1, 3]
      [demoPose 0, demoPose 2, demoPose 5] = .ok (p', c') ∧ ∀ k ∈ c'.m.knots, k.1 ≠ 1 := by
  obtain ⟨p', c', e, h⟩ := C79_refuted L ⟨0, 0⟩ 1 le_rfl
    [(0, demoPose 0), (1, demoPose 2), (3, demoPose 5)] (by norm_num) (by norm_num) (by norm_num) (by simp)
  exact ⟨p', c', e, fun k hk => by simpa using h k hk⟩

/-! ## C80 -/

/-- The derivative `d` leads from knot `a` to knot `b`: the chord of the positions, and the angular
velocity that turns one rotation into the other in that time. -/
def Leads (a b : ℝ × HKnot) (d : Twist) : Prop :=
  (b.1 - a.1) • d.translationalVelocity = b.2.transformation.position - a.2.transformation.position ∧
  (exponentialMap ((b.1 - a.1) • d.rotationalVelocity) * a.2.transformation.rotation =
      b.2.transformation.rotation ∨
    exponentialMap ((b.1 - a.1) • d.rotationalVelocity) * a.2.transformation.rotation =
      -b.2.transformation.rotation)

theorem leads_chord (L : LogMap) {a b : ℝ × HKnot} (h : a.1 < b.1)
    (ha : Quaternion.normSq a.2.transformation.rotation = 1)
    (hb : Quaternion.normSq b.2.transformation.rotation = 1) : Leads a b (chord L a b) := by
  have hne : b.1 - a.1 ≠ 0 := (sub_pos.2 h).ne'
  simp only [Leads, chord, SE3.calculateSlope, smul_smul, mul_one_div, div_self hne, one_smul, boxMinus,
    inverted, true_and]
  have un : Quaternion.normSq (b.2.transformation.rotation * star a.2.transformation.rotation) = 1 :=
    isUnit_mul hb (isUnit_star ha)
  rcases L.exp_log _ un with x | x
  · left; rw [x, mul_assoc, star_mul_self' ha, mul_one]
  · right; rw [x, neg_mul, mul_assoc, star_mul_self' ha, mul_one]

/-- **C80.** The derivatives of the chosen knots are slopes over their neighbours among the chosen knots:
the first one leads to the second, the last one comes from the one before it, every other one leads from
its predecessor to its successor. The newest measurement, if it was not chosen, gets the derivative of the
last chosen knot if it is the first one since, and otherwise the slope from there. -/
theorem C80_slopes (L : LogMap) (w : World) (n : Int) (hn : 1 ≤ n) (period : ℝ) (xs : List (ℝ × Pose))
    (hinc : xs.Pairwise fun a b => a.1 < b.1) (hu : ∀ x ∈ xs, Quaternion.normSq x.2.rotation = 1)
    (hl : xs.length < 2 ^ 31) (hw : w.calls + xs.length < 2 ^ 64) :
    ∃ p' c' core tail,
      extend L (make n period) (SE3.fresh w) (xs.map Prod.fst) (xs.map Prod.snd) = .ok (p', c') ∧
      c'.m.knots = core ++ tail ∧
      core.map (fun k => (k.1, k.2.transformation)) = (picked n period xs).1 ∧
      (tail = [] ↔ (picked n period xs).2 = 0) ∧ tail.length ≤ 1 ∧
      (∀ a, core = [a] → a.2.derivative = Twist.zero) ∧
      (∀ a b post, core = a :: b :: post → Leads a b a.2.derivative) ∧
      (∀ pre a b c post, core = pre ++ a :: b :: c :: post → Leads a c b.2.derivative) ∧
      (∀ pre a b, core = pre ++ [a, b] → Leads a b b.2.derivative) ∧
      (∀ k x, core.getLast? = some k → tail = [x] →
        ((picked n period xs).2 = 1 → x.2.derivative = k.2.derivative) ∧
        ((picked n period xs).2 ≠ 1 → Leads k x x.2.derivative)) := by
  obtain ⟨p', c', e, hi⟩ := extend_inv L w n hn period xs hinc hl hw
  have hmem := hi.knot_mem
  have hunit : ∀ k ∈ c'.m.knots, Quaternion.normSq k.2.transformation.rotation = 1 :=
    fun k hk => hu _ (hmem k hk)
  have hsort : c'.m.knots.Pairwise fun a b => a.1 < b.1 := by
    have := hi.wf.sorted
    simp only [Mgr.knots, List.pairwise_map]
    exact this
  obtain ⟨core, tail, hk, hc, hsl, hz, ht⟩ := hi.shape
  rw [hk] at hunit hsort
  rw [List.pairwise_append] at hsort
  have hcu : ∀ k ∈ core, Quaternion.normSq k.2.transformation.rotation = 1 :=
    fun k hk' => hunit k (List.mem_append_left _ hk')
  have hcs := hsort.1
  refine ⟨p', c', core, tail, e, hk, hc, ?_, ?_, hz, ?_, ?_, ?_, ?_⟩
  · rcases ht with ⟨h0, rfl⟩ | ⟨h0, t, v, d, -, rfl, -⟩
    · simp [h0]
    · simp; omega
  · rcases ht with ⟨h0, rfl⟩ | ⟨h0, t, v, d, -, rfl, -⟩ <;> simp
  · intro a b post h
    rw [hsl.first a b post h]
    subst h
    exact leads_chord L ((List.pairwise_cons.1 hcs).1 b (by simp)) (hcu a (by simp)) (hcu b (by simp))
  · intro pre a b c post h
    rw [hsl.inner pre a b c post h]
    subst h
    rw [List.pairwise_append] at hcs
    exact leads_chord L ((List.pairwise_cons.1 hcs.2.1).1 c (by simp)) (hcu a (by simp)) (hcu c (by simp))
  · intro pre a b h
    rw [hsl.last pre a b h]
    subst h
    rw [List.pairwise_append] at hcs
    exact leads_chord L ((List.pairwise_cons.1 hcs.2.1).1 b (by simp)) (hcu a (by simp)) (hcu b (by simp))
  · intro k x hlast htl
    rcases ht with ⟨h0, rfl⟩ | ⟨h0, t, v, d, -, rfl, hd⟩
    · simp at htl
    · simp only [List.cons.injEq, and_true] at htl
      subst htl
      obtain ⟨h1, h2⟩ := hd k hlast
      refine ⟨h1, fun h3 => ?_⟩
      have hkm := List.mem_of_getLast? hlast
      simp only [h2 h3]
      exact leads_chord L (a := k) (b := (t, ⟨v, _⟩)) (hsort.2.2 k hkm (t, ⟨v, d⟩) (by simp))
        (hcu k hkm) (hunit (t, ⟨v, d⟩) (by simp))

/-- Three measurements at times 0, 1, 3 with the default policy: the first and the third are chosen and
both get the velocity 5/3. -/
example (L : LogMap) : ∃ p' c', extend L (make 1 0) (SE3.fresh ⟨0, 0⟩) [0, 1, 3]
      [demoPose 0, demoPose 2, demoPose 5] = .ok (p', c') ∧
    (c'.m.knots.map fun k => k.1) = [0, 3] ∧
    ∀ k ∈ c'.m.knots, (3 : ℝ) • k.2.derivative.translationalVelocity = ![5, 0, 0] := by
  have hinc : ([(0, demoPose 0), (1, demoPose 2), (3, demoPose 5)] : List (ℝ × Pose)).Pairwise
      (fun a b => a.1 < b.1) := by norm_num
  obtain ⟨p', c', core, tail, e, hk, hc, ht, -, -, h1, -, h3, -⟩ := C80_slopes L ⟨0, 0⟩ 1 le_rfl
    0 [(0, demoPose 0), (1, demoPose 2), (3, demoPose 5)] hinc (by
      intro x hx
      simp only [List.mem_cons, List.not_mem_nil, or_false] at hx
      rcases hx with rfl | rfl | rfl <;> simp [demoPose]) (by norm_num) (by norm_num)
  have hp := picked_every 1 0 le_rfl _ hinc
  simp only [Nat.cast_one, everyNth] at hp
  rw [hp] at hc ht
  have htl : tail = [] := ht.2 (by simp)
  subst htl
  simp only [List.zipIdx_cons, List.zipIdx_nil, List.filter_cons, List.filter_nil] at hc
  simp at hc
  obtain ⟨a, r, rfl, ha, hr⟩ := List.map_eq_cons_iff.1 hc
  obtain ⟨b, r', rfl, hb, hr'⟩ := List.map_eq_cons_iff.1 hr
  rw [List.map_eq_nil_iff] at hr'
  subst hr'
  rw [List.append_nil] at hk
  simp only [Prod.mk.injEq] at ha hb
  have l1 := (h1 a b [] rfl).1
  have l2 := (h3 [] a b rfl).1
  rw [ha.1, ha.2, hb.1, hb.2] at l1 l2
  have hv : ((demoPose 5).position - (demoPose 0).position : Vec3) = ![5, 0, 0] := by
    funext i; fin_cases i <;> simp [demoPose]
  rw [hv, sub_zero] at l1 l2
  refine ⟨p', c', e, by simp [hk, ha.1, hb.1], fun k hk' => ?_⟩
  rw [hk] at hk'
  simp only [List.mem_cons, List.not_mem_nil, or_false] at hk'
  rcases hk' with rfl | rfl
  · exact l1
  · exact l2

end Verif.Hermite.HPol
