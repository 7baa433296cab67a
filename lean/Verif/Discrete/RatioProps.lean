import Verif.Discrete.ExtendProps

/-!
# Property C70: changing the sampling ratio while measurements are coming in
-/

set_option linter.unusedSectionVars false
set_option linter.dupNamespace false

namespace Verif.Discrete

open Verif.Manager Verif.Policy

section policy
variable {T C : Type} [LinearOrder T] [Zero T]

/-- Specification: how many of `n` measurements open a sampling period of length `m`, the first one being
number `c` of its period. -/
def opened (c m n : ℕ) : ℕ := ((List.range n).filter fun i => (c + i) % m = 0).length

theorem opened_succ (c m n : ℕ) :
    opened c m (n + 1) = (if c % m = 0 then 1 else 0) + opened (c + 1) m n := by
  simp only [opened, List.range_succ_eq_map, List.filter_cons, Nat.add_zero, decide_eq_true_eq]
  rw [List.filter_map]
  have : ((fun i => decide ((c + i) % m = 0)) ∘ Nat.succ) = fun i => decide ((c + 1 + i) % m = 0) := by
    funext i; simp only [Function.comp, Nat.succ_eq_add_one]; rw [show c + (i + 1) = c + 1 + i by omega]
  rw [this]
  split <;> simp [Nat.add_comm]

theorem opened_mod (c m n : ℕ) : opened (c % m) m n = opened c m n := by
  simp [opened]

/-- Specification: of measurements the first of which is number `c` of its period, the last ones of the periods,
and the very last one. -/
def lasts (c m : ℕ) (xs : List (T × C)) : List (T × C) :=
  (xs.zipIdx.filter fun p => (c + p.2 + 1) % m = 0 ∨ p.2 + 1 = xs.length).map Prod.fst

theorem lasts_cons (c m : ℕ) (x : T × C) (xs : List (T × C)) :
    lasts c m (x :: xs) = (if (c + 1) % m = 0 ∨ xs = [] then [x] else []) ++ lasts (c + 1) m xs := by
  have h1 : ((fun p : (T × C) × ℕ => decide ((c + p.2 + 1) % m = 0 ∨ p.2 + 1 = (x :: xs).length)) ∘
      Prod.map id fun i => i + 1) = fun p => decide ((c + 1 + p.2 + 1) % m = 0 ∨ p.2 + 1 = xs.length) := by
    funext p
    have e : c + (p.2 + 1) + 1 = c + 1 + p.2 + 1 := by omega
    simp [e]
  have h2 : (Prod.fst ∘ Prod.map id (fun i : ℕ => i + 1) : (T × C) × ℕ → T × C) = Prod.fst := by
    funext p; rfl
  simp only [lasts]
  rw [List.zipIdx_cons', List.filter_cons, List.filter_map, h1]
  by_cases h : (c + 1) % m = 0 ∨ xs = []
  · rw [if_pos (by simpa using h), if_pos h]
    simp [h2]
  · rw [if_neg (by simpa using h), if_neg h]
    simp [h2]

theorem lasts_mod (c m : ℕ) (xs : List (T × C)) : lasts (c % m) m xs = lasts c m xs := by
  simp [lasts, Nat.add_assoc]

/-- A single measurement that opens a period. -/
theorem extend_opens {w : World} {c : Curve T C} (h : WF w c.mgr) (hw : w.calls + 1 < 2 ^ 64)
    (h2 : 2 ≤ c.mgr.size) (hp : c.pol.minMeas = 1 ∨ c.pol.since = 0) (t : T) (v : C)
    (ht : ∀ x ∈ c.mgr.contents, x.1 < t) :
    ∃ w' m' k, c.extend w [t] [v] = .ok (w', ⟨m', { c.pol with
        since := if c.pol.minMeas = 1 then c.pol.since else 1 }⟩, [k]) ∧ WF w' m' ∧
      w'.calls = w.calls + 1 ∧ m'.contents = c.mgr.contents ++ [(t, k, v)] := by
  have hsm : ¬(c.mgr.isEmpty = true ∨ c.mgr.size = 1) := by
    rintro (h | h)
    · simp only [Mgr.isEmpty, List.isEmpty_iff] at h
      simp [Mgr.size, h] at h2
    · omega
  have hne : c.mgr.contents ≠ [] := by intro e; simp [Mgr.contents] at e; simp [Mgr.size, e] at h2
  obtain ⟨w', m', k, e, hwf, hc, hcont⟩ := addEnd_append h hw hne v ht
  refine ⟨w', m', k, ?_, hwf, hc, hcont⟩
  by_cases hm : c.pol.minMeas = 1
  · rw [Curve.extend.eq_def, if_neg (by simp)]
    simp only
    rw [if_neg hsm, if_pos hm, e, if_pos hm]
    rfl
  · have h0 : c.pol.since = 0 := by tauto
    rw [Curve.extend.eq_def, if_neg (by simp)]
    simp only
    rw [if_neg hsm, if_neg hm, if_neg (by omega), addOrMove, if_pos (by omega), e, if_neg hm, h0]
    simp only [Outcome.ok_bind]
    rw [if_neg (by omega)]
    rfl

/-- A single measurement inside a period. -/
theorem extend_moves {w : World} {c : Curve T C} (h : WF w c.mgr)
    (h2 : 2 ≤ c.mgr.size) (hm : c.pol.minMeas ≠ 1) (hs : c.pol.since ≠ 0)
    (hs31 : c.pol.since ≠ 2 ^ 31 - 1) (t : T) (v : C) (ht : ∀ x ∈ c.mgr.contents, x.1 < t) :
    ∃ w' m' pre k last, c.extend w [t] [v] = .ok (w', ⟨m', { c.pol with
        since := if c.pol.since + 1 = c.pol.minMeas then 0 else c.pol.since + 1 }⟩, []) ∧ WF w' m' ∧
      w'.calls = w.calls ∧ c.mgr.contents = pre ++ [last] ∧ m'.contents = pre ++ [(t, k, v)] := by
  have hsm : ¬(c.mgr.isEmpty = true ∨ c.mgr.size = 1) := by
    rintro (h | h)
    · simp only [Mgr.isEmpty, List.isEmpty_iff] at h
      simp [Mgr.size, h] at h2
    · omega
  have hne : c.mgr.contents ≠ [] := by intro e; simp [Mgr.contents] at e; simp [Mgr.size, e] at h2
  have hd := (List.dropLast_append_getLast hne).symm
  obtain ⟨n, w', m', hn, e, hwf, hc, hcont⟩ := moveLast h hd v ht
  refine ⟨w', m', _, _, _, ?_, hwf, hc, hd, hcont⟩
  rw [Curve.extend.eq_def, if_neg (by simp)]
  simp only
  rw [if_neg hsm, if_neg hm, if_neg hs31, addOrMove, if_neg (by omega), hn]
  simp only [e, Outcome.ok_bind]

theorem knots_snoc {m : Mgr T C} {p : Pol} {pre : List (T × ℕ × C)} {x : T × ℕ × C}
    (h : m.contents = pre ++ [x]) : (⟨m, p⟩ : Curve T C).knots = pre.map (fun x => (x.1, x.2.2)) ++
      [(x.1, x.2.2)] := by simp [Curve.knots, h]

/-- Feeding a curve whose counter is within its period. -/
theorem feed_opened (m : ℕ) (hm : 0 < m) (hm31 : m < 2 ^ 31) (xs : List (T × C)) :
    ∀ (w : World) (c : Curve T C) (a : ℕ), WF w c.mgr → w.calls + xs.length < 2 ^ 64 →
      2 ≤ c.mgr.size → c.pol.minMeas = m → c.pol.since = a → a < m →
      xs.Pairwise (fun x y => x.1 < y.1) → (∀ x ∈ c.knots, ∀ y ∈ xs, x.1 < y.1) →
      ∃ w' c', c.feed w xs = .ok (w', c') ∧ c'.knots.length = c.knots.length + opened a m xs.length ∧
        (∀ y, xs.getLast? = some y → c'.knots.getLast? = some y) ∧
        c'.knots = (if a = 0 ∨ xs = [] then c.knots else c.knots.dropLast) ++ lasts a m xs := by
  induction xs with
  | nil => intro w c a _ _ _ _ _ _ _ _; exact ⟨w, c, rfl, by simp [opened], by simp, by simp [lasts]⟩
  | cons x xs ih =>
    obtain ⟨t, v⟩ := x
    intro w c a hwf hw h2 hpm hps ham hinc hlt
    simp only [List.length_cons] at hw
    rw [List.pairwise_cons] at hinc
    have ht : ∀ x ∈ c.mgr.contents, x.1 < t := fun x hx =>
      hlt (x.1, x.2.2) (List.mem_map.mpr ⟨x, hx, rfl⟩) (t, v) (by simp)
    have finish : ∀ (w1 : World) (m1 : Mgr T C) (p1 : Pol) (a1 : ℕ) (pre : List (T × ℕ × C)) (k : ℕ) (ks),
        c.extend w [t] [v] = .ok (w1, ⟨m1, p1⟩, ks) → WF w1 m1 → w1.calls ≤ w.calls + 1 →
        m1.contents = pre ++ [(t, k, v)] → p1.minMeas = m → p1.since = a1 → a1 < m →
        2 ≤ m1.size → a1 % m = (a + 1) % m →
        pre.map (fun x => (x.1, x.2.2)) = (if a = 0 then c.knots else c.knots.dropLast) →
        m1.size = c.mgr.size + (if a % m = 0 then 1 else 0) →
        ∃ w' c', c.feed w ((t, v) :: xs) = .ok (w', c') ∧
          c'.knots.length = c.knots.length + opened a m (xs.length + 1) ∧
          (∀ y, ((t, v) :: xs).getLast? = some y → c'.knots.getLast? = some y) ∧
          c'.knots = (if a = 0 ∨ (t, v) :: xs = [] then c.knots else c.knots.dropLast) ++
            lasts a m ((t, v) :: xs) := by
      intro w1 m1 p1 a1 pre k ks he hwf1 hc1 hcont hp1 hs1 ha1 h21 ho' hpr hsz
      have ho : ∀ n, opened a1 m n = opened (a + 1) m n := fun n => by rw [← opened_mod, ho', opened_mod]
      have hk := knots_snoc (p := p1) hcont
      have hsorted := contents_sorted hwf1
      obtain ⟨w', c', e, hl, hlast, hall⟩ := ih w1 ⟨m1, p1⟩ a1 hwf1 (by omega) h21 hp1 hs1 ha1 hinc.2 (by
        intro x hx y hy
        obtain ⟨z, hz, rfl⟩ := List.mem_map.mp hx
        have hz' : z ∈ m1.contents := hz
        rw [hcont] at hz' hsorted
        rw [List.pairwise_append] at hsorted
        rcases List.mem_append.mp hz' with hz' | hz'
        · exact (hsorted.2.2 z hz' _ (List.mem_singleton_self _)).trans (hinc.1 y hy)
        · rw [List.mem_singleton] at hz'
          subst hz'
          exact hinc.1 y hy)
      refine ⟨w', c', ?_, ?_, ?_, ?_⟩
      · rw [Curve.feed, he]; exact e
      · have e1 : c.knots.length = c.mgr.size := by simp [Curve.knots, Mgr.contents, Mgr.size]
        have e2 : (⟨m1, p1⟩ : Curve T C).knots.length = m1.size := by
          simp [Curve.knots, Mgr.contents, Mgr.size]
        rw [hl, e1, e2, hsz, ho, opened_succ]; omega
      · intro y hy
        cases xs with
        | nil =>
          simp only [List.getLast?_singleton, Option.some.injEq] at hy
          cases e
          rw [hk, ← hy]; simp
        | cons z zs => exact hlast y (by simpa using hy)
      · rw [hall, hk, hpr, lasts_cons, ← lasts_mod a1, ho', lasts_mod, ← ho', Nat.mod_eq_of_lt ha1]
        by_cases h0 : a1 = 0 ∨ xs = []
        · rw [if_pos h0, if_pos h0]; simp
        · rw [if_neg h0, if_neg h0]; simp
    have ha0 : a % m = a := Nat.mod_eq_of_lt ham
    by_cases hopen : a = 0
    · obtain ⟨w1, m1, k, he, hwf1, hc1, hcont⟩ := extend_opens hwf (by omega) h2
        (Or.inr (by rw [hps, hopen]; rfl)) t v ht
      have hsz : m1.size = c.mgr.size + 1 := by
        have := congrArg List.length hcont
        simpa [Mgr.contents, Mgr.size] using this
      by_cases hm1 : m = 1
      · refine finish w1 m1 _ 0 _ k _ he hwf1 hc1.le hcont hpm ?_ hm (by omega) ?_ ?_ ?_
        · simp only [hpm, hm1]; rw [if_pos (by norm_num), hps, hopen]
        · subst hm1; simp [Nat.mod_one]
        · rw [if_pos hopen]; rfl
        · rw [hsz, ha0, if_pos hopen]
      · refine finish w1 m1 _ 1 _ k _ he hwf1 hc1.le hcont hpm ?_ (by omega) (by omega) ?_ ?_ ?_
        · simp only [hpm]; rw [if_neg (by omega)]; rfl
        · rw [hopen]
        · rw [if_pos hopen]; rfl
        · rw [hsz, ha0, if_pos hopen]
    · have hm1 : m ≠ 1 := by omega
      obtain ⟨w1, m1, pre, k, last, he, hwf1, hc1, hpre, hcont⟩ := extend_moves hwf h2
        (by rw [hpm]; omega) (by rw [hps]; omega) (by rw [hps]; omega) t v ht
      have hsz : m1.size = c.mgr.size := by
        have h1 := congrArg List.length hcont
        have h3 := congrArg List.length hpre
        simp only [Mgr.contents, List.length_map, List.length_append, List.length_singleton] at h1 h3
        simp only [Mgr.size]; omega
      refine finish w1 m1 _ ((a + 1) % m) _ k _ he hwf1 (by omega) hcont hpm ?_
        (Nat.mod_lt _ hm) (by omega) (Nat.mod_mod _ _) (by rw [if_neg hopen]; simp [Curve.knots, hpre]) ?_
      · simp only [hpm, hps]
        have := succ_mod a m hm
        rw [this, ha0]
        by_cases hc : a + 1 = m
        · rw [if_pos (by omega), if_pos hc]; rfl
        · rw [if_neg (by omega), if_neg hc]; push_cast; rfl
      · rw [hsz, ha0, if_neg hopen]; omega

/-- Feeding a curve whose counter is beyond its period. -/
theorem feed_stuck (xs : List (T × C)) : ∀ (w : World) (c : Curve T C) (a : ℕ), WF w c.mgr →
    2 ≤ c.mgr.size → c.pol.minMeas ≠ 1 → c.pol.minMeas ≤ a → c.pol.since = a → a ≠ 0 →
    a + xs.length < 2 ^ 31 → xs.Pairwise (fun x y => x.1 < y.1) →
    (∀ x ∈ c.knots, ∀ y ∈ xs, x.1 < y.1) →
    ∃ w' c', c.feed w xs = .ok (w', c') ∧ WF w' c'.mgr ∧ 2 ≤ c'.mgr.size ∧
      c'.pol = { c.pol with since := (a + xs.length : ℕ) } ∧
      (∀ y, xs.getLast? = some y → c'.knots = c.knots.dropLast ++ [y]) := by
  induction xs with
  | nil =>
    intro w c a hwf h2 _ _ hs _ _ _ _
    exact ⟨w, c, rfl, hwf, h2, by simp [← hs], by simp⟩
  | cons x xs ih =>
    obtain ⟨t, v⟩ := x
    intro w c a hwf h2 hm hma hs ha hb hinc hlt
    simp only [List.length_cons] at hb
    rw [List.pairwise_cons] at hinc
    have ht : ∀ x ∈ c.mgr.contents, x.1 < t := fun x hx =>
      hlt (x.1, x.2.2) (List.mem_map.mpr ⟨x, hx, rfl⟩) (t, v) (by simp)
    obtain ⟨w1, m1, pre, k, last, he, hwf1, hc1, hpre, hcont⟩ := extend_moves hwf h2
      hm (by rw [hs]; omega) (by rw [hs]; omega) t v ht
    have hsz : m1.size = c.mgr.size := by
      have h1 := congrArg List.length hcont
      have h3 := congrArg List.length hpre
      simp only [Mgr.contents, List.length_map, List.length_append, List.length_singleton] at h1 h3
      simp only [Mgr.size]; omega
    rw [if_neg (by rw [hs]; omega), hs] at he
    have hsorted := contents_sorted hwf1
    obtain ⟨w', c', e, hwf', h2', hp', hl⟩ := ih w1 ⟨m1, { c.pol with since := (a : ℤ) + 1 }⟩ (a + 1) hwf1
      (by simpa [hsz] using h2) hm (by simp only; omega) (by push_cast; rfl) (by omega) (by omega) hinc.2
      (by
        intro x hx y hy
        obtain ⟨z, hz, rfl⟩ := List.mem_map.mp hx
        have hz' : z ∈ m1.contents := hz
        rw [hcont] at hz' hsorted
        rw [List.pairwise_append] at hsorted
        rcases List.mem_append.mp hz' with hz' | hz'
        · exact (hsorted.2.2 z hz' _ (List.mem_singleton_self _)).trans (hinc.1 y hy)
        · rw [List.mem_singleton] at hz'
          subst hz'
          exact hinc.1 y hy)
    have hk1 : (⟨m1, { c.pol with since := (a : ℤ) + 1 }⟩ : Curve T C).knots =
        c.knots.dropLast ++ [(t, v)] := by
      rw [knots_snoc hcont]
      simp [Curve.knots, hpre]
    refine ⟨w', c', ?_, hwf', h2', ?_, ?_⟩
    · rw [Curve.feed, he]; exact e
    · rw [hp']
      simp only [Pol.mk.injEq, and_true, List.length_cons]; push_cast; ring
    · intro y hy
      cases xs with
      | nil =>
        simp only [List.getLast?_singleton, Option.some.injEq] at hy
        cases e
        rw [hk1, ← hy]
      | cons z zs =>
        rw [hl y (by simpa using hy), hk1]; simp

end policy

variable {K G V : Type} [Field K] [LinearOrder K] [IsStrictOrderedRing K] [Group G]
  [AddCommGroup V] [Module K V]

/-- **C70 (partial).** Call `setSamplingRatio(m)` on any curve with two or more knots while its counter is
below the new ratio `m > 0`, and feed it measurements with increasing times after its last knot: every
`m`-th of them becomes a new knot, counting from where the counter stood, and the last measurement is
always the last knot. The knots are then those of before (without the last one, if it is still being moved) and
the last measurements of the periods. Missing: a counter that has already reached the new ratio, see `C70_stuck`. -/
theorem C70_ratio_change_partial (L : ExpLog K G V) {kind : Kind} {s : St K G}
    (hr : Reachable L kind s) (h2 : 2 ≤ s.c.knots.length) (m a : ℕ) (hm : 0 < m) (hm31 : m < 2 ^ 31)
    (ha : s.c.pol.since = a) (ham : a < m) (xs : List (K × G))
    (hc : s.w.calls + xs.length + 1 < 2 ^ 64) (hinc : xs.Pairwise fun x y => x.1 < y.1)
    (hlt : ∀ x ∈ s.c.knots, ∀ y ∈ xs, x.1 < y.1) :
    ∃ s' w' c', step L kind s (.setRatio m) = .ok s' ∧ s'.c.feed s'.w xs = .ok (w', c') ∧
      c'.knots.length = s.c.knots.length + opened a m xs.length ∧
      (∀ y, xs.getLast? = some y → c'.knots.getLast? = some y) ∧
      c'.knots = (if a = 0 ∨ xs = [] then s.c.knots else s.c.knots.dropLast) ++ lasts a m xs := by
  have e1 : s.c.knots.length = s.c.mgr.size := by simp [Curve.knots, Mgr.contents, Mgr.size]
  obtain ⟨w', c', e, h⟩ := feed_opened m hm hm31 xs s.w { s.c with pol := s.c.pol.setRatio m } a
    (hr.WF (by omega)) (by omega) (by simp only; omega) rfl ha ham hinc hlt
  exact ⟨_, w', c', rfl, e, h⟩

/-- **C70 is false of the code**: if the new ratio is not greater than the counter (and is not 1), no new
knot is ever taken again: however many measurements come in, the last knot is moved to each of them,
until the `int` counter overflows, which is undefined behaviour. -/
theorem C70_stuck (L : ExpLog K G V) {kind : Kind} {s : St K G}
    (hr : Reachable L kind s) (hcalls : s.w.calls + 1 < 2 ^ 64) (h2 : 2 ≤ s.c.knots.length) (m : ℤ)
    (a : ℕ) (hm : m ≠ 1) (hma : m ≤ a) (ha : s.c.pol.since = a) (ha0 : a ≠ 0) (xs : List (K × G))
    (hb : a + xs.length < 2 ^ 31) (hinc : xs.Pairwise fun x y => x.1 < y.1)
    (hlt : ∀ x ∈ s.c.knots, ∀ y ∈ xs, x.1 < y.1) :
    ∃ s' w' c', step L kind s (.setRatio m) = .ok s' ∧ s'.c.feed s'.w xs = .ok (w', c') ∧
      (∀ y, xs.getLast? = some y → c'.knots = s.c.knots.dropLast ++ [y]) ∧
      (a + xs.length = 2 ^ 31 - 1 → ∀ t v, c'.extend w' [t] [v] = .ub) := by
  have e1 : s.c.knots.length = s.c.mgr.size := by simp [Curve.knots, Mgr.contents, Mgr.size]
  obtain ⟨w', c', e, -, h2', hp, h⟩ := feed_stuck xs s.w { s.c with pol := s.c.pol.setRatio m } a
    (hr.WF hcalls) (by simp only; omega) hm hma ha ha0 hb hinc hlt
  refine ⟨_, w', c', rfl, e, h, fun hov t v => ?_⟩
  rw [Curve.extend.eq_def, if_neg (by simp)]
  simp only
  rw [if_neg (by rw [small_iff]; omega), hp, if_neg (by exact hm), if_pos (by
    simp only; rw [hov]; norm_num)]

/-- A history ending in the middle of a sampling period: ratio 3, measurements at 0, 1, 2, 3. -/
def midOps : List (Op ℚ (Multiplicative ℚ)) :=
  [.setRatio 3, .extend [0, 1] [.ofAdd 1, .ofAdd 2], .extend [2] [.ofAdd 3], .extend [3] [.ofAdd 4]]

/-- The curves reached by the operations of `midOps`. -/
def mid1 : St ℚ (Multiplicative ℚ) := ⟨⟨0, 0⟩, ⟨⟨[], []⟩, ⟨0, 3⟩⟩⟩
/-- See `mid1`. -/
def mid2 : St ℚ (Multiplicative ℚ) :=
  ⟨⟨2, 2⟩, ⟨⟨[⟨0, 0, 1, .ofAdd 1⟩, ⟨1, 1, 2, .ofAdd 2⟩], [(1, 0), (2, 1)]⟩, ⟨0, 3⟩⟩⟩
/-- See `mid1`. -/
def mid3 : St ℚ (Multiplicative ℚ) :=
  ⟨⟨3, 3⟩, ⟨⟨[⟨0, 0, 1, .ofAdd 1⟩, ⟨1, 1, 2, .ofAdd 2⟩, ⟨2, 2, 3, .ofAdd 3⟩],
    [(3, 2), (1, 0), (2, 1)]⟩, ⟨1, 3⟩⟩⟩
/-- See `mid1`. -/
def mid : St ℚ (Multiplicative ℚ) :=
  ⟨⟨3, 4⟩, ⟨⟨[⟨0, 0, 1, .ofAdd 1⟩, ⟨1, 1, 2, .ofAdd 2⟩, ⟨3, 3, 3, .ofAdd 4⟩],
    [(3, 3), (1, 0), (2, 1)]⟩, ⟨2, 3⟩⟩⟩

theorem of_parts {o : Outcome (St ℚ (Multiplicative ℚ))} {s : St ℚ (Multiplicative ℚ)}
    (h : (o >>= fun s => .ok (s.w, s.c.mgr, s.c.pol)) = .ok (s.w, s.c.mgr, s.c.pol)) : o = .ok s := by
  rw [Outcome.bind_eq_ok] at h
  obtain ⟨⟨w, m, p⟩, e, h⟩ := h
  obtain ⟨w', m', p'⟩ := s
  simp only [Outcome.ok.injEq, Prod.mk.injEq] at h
  obtain ⟨rfl, rfl, rfl⟩ := h
  exact e

theorem mid_steps : step (lineMaps ℚ) .discrete ⟨⟨0, 0⟩, ⟨Mgr.empty, Pol.fresh⟩⟩ (.setRatio 3) = .ok mid1 ∧
    step (lineMaps ℚ) .discrete mid1 (.extend [0, 1] [.ofAdd 1, .ofAdd 2]) = .ok mid2 ∧
    step (lineMaps ℚ) .discrete mid2 (.extend [2] [.ofAdd 3]) = .ok mid3 ∧
    step (lineMaps ℚ) .discrete mid3 (.extend [3] [.ofAdd 4]) = .ok mid :=
  ⟨of_parts (by decide +kernel), of_parts (by decide +kernel), of_parts (by decide +kernel),
    of_parts (by decide +kernel)⟩

theorem mid_reachable : Reachable (lineMaps ℚ) .discrete mid := by
  obtain ⟨h1, h2, h3, h4⟩ := mid_steps
  refine ⟨⟨0, 0⟩, midOps, ⟨trivial, fun s1 e1 => ⟨trivial, fun s2 e2 => ⟨?_, fun s3 e3 =>
    ⟨?_, fun _ _ => trivial⟩⟩⟩⟩, ?_⟩
  · rw [h1] at e1; cases e1
    rw [h2] at e2; cases e2
    right; right; decide +kernel
  · rw [h1] at e1; cases e1
    rw [h2] at e2; cases e2
    rw [h3] at e3; cases e3
    right; right; decide +kernel
  · simp only [midOps, run, h1, h2, h3, h4, Outcome.ok_bind]

/-- Lowering the ratio of `mid` from 3 to 2, at counter 2, and feeding three more measurements: one knot
is moved three times. With ratio 4 instead, the third of them opens a period. -/
example : (∃ s' w' c', step (lineMaps ℚ) .discrete mid (.setRatio 2) = .ok s' ∧
      s'.c.feed s'.w [(4, .ofAdd 1), (5, .ofAdd 2), (6, .ofAdd 3)] = .ok (w', c') ∧
      c'.knots = [(0, .ofAdd 1), (1, .ofAdd 2), (6, .ofAdd 3)]) ∧
    (∃ s' w' c', step (lineMaps ℚ) .discrete mid (.setRatio 4) = .ok s' ∧
      s'.c.feed s'.w [(4, .ofAdd 1), (5, .ofAdd 2), (6, .ofAdd 3)] = .ok (w', c') ∧
      c'.knots = [(0, .ofAdd 1), (1, .ofAdd 2), (5, .ofAdd 2), (6, .ofAdd 3)]) := by
  constructor
  · obtain ⟨s', w', c', e, e', h, -⟩ := C70_stuck (lineMaps ℚ) mid_reachable (by decide) (by decide) 2 2
      (by decide) (by decide) rfl (by decide) [(4, .ofAdd 1), (5, .ofAdd 2), (6, .ofAdd 3)] (by decide)
      (by decide +kernel) (by decide +kernel)
    exact ⟨s', w', c', e, e', h _ rfl⟩
  · obtain ⟨s', w', c', e, e', -, -, h⟩ := C70_ratio_change_partial (lineMaps ℚ) mid_reachable (by decide) 4 2
      (by decide) (by decide) rfl (by decide) [(4, .ofAdd 1), (5, .ofAdd 2), (6, .ofAdd 3)] (by decide)
      (by decide +kernel) (by decide +kernel)
    exact ⟨s', w', c', e, e', h⟩

end Verif.Discrete
