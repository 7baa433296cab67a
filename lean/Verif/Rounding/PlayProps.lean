import Verif.Rounding.PlayLemmas
import Mathlib.Tactic.FieldSimp

/-!
# Property C161: playing a container in `double`
-/

set_option linter.unusedSectionVars false
set_option linter.dupNamespace false

namespace Verif.Rounding

open Box

section
variable {S K : Type} [Field K] [LinearOrder K] [IsStrictOrderedRing K] [FloorRing K] {dur : S → K}

theorem ieee_diff {x y : K} (hx : (ieee K).rnd x = x) (hy : (ieee K).rnd y = y) :
    |(ieee K).rnd (x - y) - (x - y)| ≤ 1 / 2 ^ 53 * |x - y| := by
  by_cases h : |x - y| < 2 ^ (-1022 : ℤ)
  · rw [(C159_agrees x y).2 ((C159_representable x).1 hx) ((C159_representable y).1 hy) h, sub_self, abs_zero]
    positivity
  · rw [(C159_agrees (x - y) 0).1 (Or.inr (not_lt.1 h))]
    exact precise_double _

theorem ieee_sum {x y : K} (hx : (ieee K).rnd x = x) (hy : (ieee K).rnd y = y) :
    |(ieee K).rnd (x + y) - (x + y)| ≤ 1 / 2 ^ 53 * |x + y| := by
  have hy' : (ieee K).rnd (-y) = -y :=
    (C159_representable _).2 (representable_neg ((C159_representable y).1 hy))
  simpa [sub_neg_eq_add] using ieee_diff hx hy'

theorem ieee_twice {x : K} (hx : (ieee K).rnd x = x) : (ieee K).rnd (2 * x) = 2 * x := by
  obtain ⟨m, e, hm, he, rfl⟩ := (C159_representable x).1 hx
  refine (C159_representable _).2 ⟨m, e + 1, hm, by omega, ?_⟩
  rw [zpow_add₀ (by norm_num : (2 : K) ≠ 0), zpow_one]
  ring

/-- A step shorter than half a segment stays shorter than the segment when it is added to a start and taken off again. -/
theorem ieee_short {s dt d : K} (hs : (ieee K).rnd s = s) (ht : (ieee K).rnd dt = dt) (h0 : 0 ≤ dt) (h : 2 * dt < d) :
    (ieee K).rnd ((ieee K).rnd (s + dt) - s) < d := by
  have h1 := (C159_nearest (s + dt)).2 s ((C159_representable s).1 hs)
  rw [show s - (s + dt) = -dt by ring, abs_neg, abs_of_nonneg h0] at h1
  have h2 := (abs_le.1 h1).2
  have h3 := (ieee K).mono (show (ieee K).rnd (s + dt) - s ≤ 2 * dt by linarith)
  rw [ieee_twice ht] at h3
  exact lt_of_le_of_lt h3 h

/-- Adding one more number. -/
theorem add_ieee {a' a d : K} {k : ℕ} (ha : (ieee K).rnd a' = a') (hd : (ieee K).rnd d = d) (h0 : 0 ≤ a) (h1 : 0 ≤ d)
    (h : |a' - a| ≤ ((1 + 1 / 2 ^ 53) ^ k - 1) * a) :
    |(ieee K).rnd (a' + d) - (a + d)| ≤ ((1 + 1 / 2 ^ 53) ^ (k + 1) - 1) * (a + d) := by
  have e := ieee_sum ha hd
  have hu : (0 : K) ≤ 1 / 2 ^ 53 := by positivity
  have hp := one_le_pow' hu k
  rw [pow_succ]
  generalize (1 : K) / 2 ^ 53 = u at *
  generalize (1 + u) ^ k = p at *
  have hsum : |a' + d| ≤ p * a + d := by
    have := abs_le.1 h
    rw [abs_le]
    constructor <;> nlinarith
  have h2 := abs_le.1 (e.trans (mul_le_mul_of_nonneg_left hsum hu))
  have h3 := abs_le.1 h
  have h4 : 0 ≤ (p - 1) * d := mul_nonneg (by linarith) h1
  have h5 : 0 ≤ u * ((p - 1) * d) := mul_nonneg hu h4
  rw [abs_le]
  constructor <;> nlinarith

/-- Durations that are positive `double`s. -/
def Timed (dur : S → K) (l : List S) : Prop := ∀ s ∈ l, 0 < dur s ∧ (ieee K).rnd (dur s) = dur s

theorem sum_take_succ (l : List S) {k : ℕ} (hk : k < l.length) :
    ((l.take (k + 1)).map dur).sum = ((l.take k).map dur).sum + dur l[k] := by
  rw [← List.take_concat_get' l k hk, List.map_append, List.sum_append]
  simp

theorem sum_take_nonneg {l : List S} (hl : Timed dur l) (k : ℕ) : 0 ≤ ((l.take k).map dur).sum :=
  List.sum_nonneg fun x hx => by
    obtain ⟨s, hs, rfl⟩ := List.mem_map.1 hx
    exact (hl s (List.mem_of_mem_take hs)).1.le

theorem startOf_near {l : List S} (hl : Timed dur l) : ∀ k, k ≤ l.length →
    |startOf (ieee K).arith dur l k - ((l.take k).map dur).sum| ≤ ((1 + 1 / 2 ^ 53) ^ k - 1) * ((l.take k).map dur).sum
  | 0, _ => by simp [startOf, Rounding.arith]
  | k + 1, hk => by
    rw [startOf_succ _ dur (by omega : k < l.length), sum_take_succ l (by omega : k < l.length)]
    have hm := hl _ (List.getElem_mem (by omega : k < l.length))
    exact add_ieee (rnd_startOf l k (by omega)) hm.2 (sum_take_nonneg hl k) hm.1.le (startOf_near hl k (by omega))

theorem pow_small {n : ℕ} (hn : n ≤ 2 ^ 52) : ((1 : K) + 1 / 2 ^ 53) ^ n - 1 ≤ n / 2 ^ 52 := by
  have h : 2 * (n : K) * (1 / 2 ^ 53) ≤ 1 := by
    have : (n : K) ≤ 2 ^ 52 := by exact_mod_cast hn
    rw [mul_one_div, div_le_one (by positivity)]
    linarith
  have := pow_le_linear (u := (1 : K) / 2 ^ 53) (by positivity) n h
  have e : 2 * (n : K) * (1 / 2 ^ 53) = n / 2 ^ 52 := by ring
  linarith

/-- When `advance` has reported the end, the time has reached the sum of the durations up to rounding. -/
theorem end_near {l : List S} (hl : Timed dur l) (hn : l.length ≤ 2 ^ 52) {k : ℕ} {c : Box S K} (h : On (ieee K) dur l k c)
    (he : c.duration ≤ c.time ∨ c.idx = l.length) :
    (l.map dur).sum * (1 - (l.length + 1) / 2 ^ 52) ≤ c.time := by
  have hlt := h.lt
  have small : ∀ j ≤ l.length, ((l.take j).map dur).sum * (1 - l.length / 2 ^ 52) ≤ startOf (ieee K).arith dur l j := by
    intro j hj
    have h1 := (abs_le.1 (startOf_near hl j hj)).1
    have h2 := sum_take_nonneg hl j
    have h3 : ((1 : K) + 1 / 2 ^ 53) ^ j - 1 ≤ l.length / 2 ^ 52 :=
      (pow_small (hj.trans hn)).trans (by
        have : (j : K) ≤ l.length := by exact_mod_cast hj
        gcongr)
    have := mul_le_mul_of_nonneg_right h3 h2
    linarith
  have hD : 0 ≤ (l.map dur).sum := by
    have := sum_take_nonneg hl l.length
    rwa [List.take_length] at this
  have stop : c.duration ≤ c.time → (l.map dur).sum * (1 - (l.length + 1) / 2 ^ 52) ≤ c.time := by
    intro g
    have h1 := small l.length le_rfl
    rw [List.take_length, ← h.duration] at h1
    have : (l.map dur).sum * (1 - (l.length + 1) / 2 ^ 52) =
      (l.map dur).sum * (1 - l.length / 2 ^ 52) - (l.map dur).sum / 2 ^ 52 := by ring
    have h3 : 0 ≤ (l.map dur).sum / 2 ^ 52 := by positivity
    linarith
  rcases he with g | g
  · exact stop g
  · rcases h.idx with e | ⟨-, e2, e3⟩
    · exact absurd (g.symm.trans e) (by norm_cast; omega)
    · have h1 := small k (by omega)
      have hd := hl _ (List.getElem_mem hlt)
      have hx : 0 < c.time - startOf (ieee K).arith dur l k := by
        by_contra hcon
        have := (ieee K).mono (not_lt.1 hcon)
        rw [rnd_zero] at this
        linarith [hd.1]
      have h2 := (abs_le.1 (ieee_diff h.time (rnd_startOf (R := ieee K) (dur := dur) l k (by omega)))).2
      rw [abs_of_pos hx] at h2
      have h3 : (l.map dur).sum = ((l.take k).map dur).sum + dur l[k] := by
        rw [← sum_take_succ l hlt, e2, List.take_length]
      set x := c.time - startOf (ieee K).arith dur l k with hxd
      have h4 : dur l[k] * (1 - 1 / 2 ^ 53) ≤ x := by
        have h5 : dur l[k] ≤ (1 + 1 / 2 ^ 53) * x := by linarith
        have := mul_le_mul_of_nonneg_right h5 (show (0 : K) ≤ 1 - 1 / 2 ^ 53 by norm_num)
        have e : (1 + 1 / 2 ^ 53) * x * (1 - 1 / 2 ^ 53) = x - x * (1 / 2 ^ 53) ^ 2 := by ring
        have : 0 ≤ x * (1 / 2 ^ 53) ^ 2 := by positivity
        linarith
      have h6 := sum_take_nonneg hl k
      have h7 : 0 ≤ dur l[k] * ((l.length : K) / 2 ^ 52) := mul_nonneg hd.1.le (by positivity)
      rw [h3]
      have e : (((l.take k).map dur).sum + dur l[k]) * (1 - ((l.length : K) + 1) / 2 ^ 52) =
        ((l.take k).map dur).sum * (1 - l.length / 2 ^ 52) + dur l[k] * (1 - 1 / 2 ^ 53) -
          (((l.take k).map dur).sum / 2 ^ 52 + dur l[k] / 2 ^ 53 + dur l[k] * (l.length / 2 ^ 52)) := by ring
      have h8 : 0 ≤ ((l.take k).map dur).sum / 2 ^ 52 + dur l[k] / 2 ^ 53 := by
        have := hd.1
        positivity
      rw [e]
      linarith

theorem sync_filled {l : List S} (hne : l ≠ []) (hpos : ∀ s ∈ l, 0 < dur s) :
    Sync (ieee K) dur l 0 ⟨l, (ieee K).arith.zero, (ieee K).arith.zero, startOf (ieee K).arith dur l l.length, 0⟩ :=
  sync_start hne hpos rfl rfl rfl rfl rfl

theorem sync_rewound {l : List S} (hne : l ≠ []) (hpos : ∀ s ∈ l, 0 < dur s) {k : ℕ} {c : Box S K} (h : On (ieee K) dur l k c) :
    Sync (ieee K) dur l 0 (c.resetTime (ieee K).arith) :=
  sync_start (c := c.resetTime (ieee K).arith) hne hpos h.splines h.duration rfl rfl rfl

/-- What a caller does who plays a container: steps, and with them seeks and rewinds. -/
def Moves (ok : K → Prop) : Op S K → Prop
  | .advance dt => ok dt
  | .seek t => Representable t
  | .resetTime => True
  | _ => False

/-- Seeks, rewinds and short steps keep the cursor where random access finds it. -/
theorem follows {l : List S} (hne : l ≠ []) (hl : ∀ s ∈ l, 0 < dur s ∧ Representable (dur s)) (c : Box S K)
    (ops : List (Op S K))
    (hops : ∀ op ∈ ops, Moves (fun dt => Representable dt ∧ 0 ≤ dt ∧ ∀ s ∈ l, 2 * dt < dur s) op) :
    ∃ c' k, run (ieee K).arith dur c (.reset :: l.map .addSpline ++ ops) = .ok c' ∧ Sync (ieee K) dur l k c' := by
  have hd : ∀ s ∈ l, (ieee K).rnd (dur s) = dur s := fun s hs => (C159_representable _).2 (hl s hs).2
  rw [run_append _ _ _ _ _ _ (run_fill _ dur l c)]
  have key : ∀ (ops : List (Op S K)) (c : Box S K) (k : ℕ), Sync (ieee K) dur l k c →
      (∀ op ∈ ops, Moves (fun dt => Representable dt ∧ 0 ≤ dt ∧ ∀ s ∈ l, 2 * dt < dur s) op) →
      ∃ c' k', run (ieee K).arith dur c ops = .ok c' ∧ Sync (ieee K) dur l k' c' := by
    intro ops
    induction ops with
    | nil => exact fun c k h _ => ⟨c, k, rfl, h⟩
    | cons op ops ih =>
      intro c k h ho
      have hop := ho op (by simp)
      have rest := fun o ho' => ho o (List.mem_cons_of_mem _ ho')
      cases op with
      | reset => exact absurd hop id
      | addSpline s => exact absurd hop id
      | resetTime =>
        exact ih _ 0 (sync_rewound hne (fun s hs => (hl s hs).1) h.toOn) rest
      | seek t =>
        obtain ⟨k', h'⟩ := sync_seek h.splines hne h.duration ((C159_representable t).2 hop)
        exact ih _ k' h' rest
      | advance dt =>
        obtain ⟨h1, h2, h3⟩ := hop
        obtain ⟨b, c', k', e, h'⟩ := h.advance h2 hd fun j hj =>
          ieee_short (rnd_startOf l j hj.le) ((C159_representable dt).2 h1) h2 (h3 _ (List.getElem_mem hj))
        obtain ⟨c'', k'', e', h''⟩ := ih c' k' h' rest
        exact ⟨c'', k'', by rw [run, step, e]; exact e', h''⟩
  obtain ⟨c', k, e, h⟩ := key ops _ 0 (sync_filled hne fun s hs => (hl s hs).1) hops
  exact ⟨c', k, e, h⟩

/-- **C161.** A container with the segments `l`, filled after a reset, in whatever state it was before, is played with
seeks, rewinds and steps shorter than half of every segment: in `double` the values at the cursor are, bit for bit, the
values that random access gives at the time of the container. -/
theorem C161_follows {l : List S} (hne : l ≠ []) (hl : ∀ s ∈ l, 0 < dur s ∧ Representable (dur s)) (c : Box S K)
    (ops : List (Op S K))
    (hops : ∀ op ∈ ops, Moves (fun dt => Representable dt ∧ 0 ≤ dt ∧ ∀ s ∈ l, 2 * dt < dur s) op) :
    ∃ c', run (ieee K).arith dur c (.reset :: l.map .addSpline ++ ops) = .ok c' ∧ c'.splines = l ∧
      ∀ {X : Type} (f : S → K → X) (x0 : X),
        c'.current (ieee K).arith f x0 = c'.atTime (ieee K).arith dur f x0 c'.time := by
  obtain ⟨c', k, e, h⟩ := follows hne hl c ops hops
  exact ⟨c', e, h.splines, fun f x0 => by rw [h.current, h.atTime]⟩

/-- **C161, the end (partial).** Whatever the steps are: a call of `advance` that returns `true` adds its step, rounded, to a
time before the stored duration; a call that returns `false` changes nothing, and the time has then reached the
sum of the `n` durations but for the fraction (n + 1) / 2^52 of it. Missing: that it has reached the stored duration, see
`C161_refuted`. -/
theorem C161_end_partial {l : List S} (hne : l ≠ []) (hn : l.length ≤ 2 ^ 52)
    (hl : ∀ s ∈ l, 0 < dur s ∧ Representable (dur s)) (c : Box S K) (ops : List (Op S K))
    (hops : ∀ op ∈ ops, Moves (fun _ => True) op) (dt : K) :
    ∃ c' b c'', run (ieee K).arith dur c (.reset :: l.map .addSpline ++ ops) = .ok c' ∧
      c'.advance (ieee K).arith dur dt = .ok (b, c'') ∧ c''.splines = l ∧
      (b = true → c'.time < c'.duration ∧ c''.time = (ieee K).rnd (c'.time + dt)) ∧
      (b = false → c'' = c' ∧ (l.map dur).sum * (1 - (l.length + 1) / 2 ^ 52) ≤ c'.time) := by
  have hT : Timed dur l := fun s hs => ⟨(hl s hs).1, (C159_representable _).2 (hl s hs).2⟩
  rw [run_append _ _ _ _ _ _ (run_fill _ dur l c)]
  have key : ∀ (ops : List (Op S K)) (c : Box S K) (k : ℕ), On (ieee K) dur l k c →
      (∀ op ∈ ops, Moves (fun _ => True) op) →
      ∃ c' k', run (ieee K).arith dur c ops = .ok c' ∧ On (ieee K) dur l k' c' := by
    intro ops
    induction ops with
    | nil => exact fun c k h _ => ⟨c, k, rfl, h⟩
    | cons op ops ih =>
      intro c k h ho
      have hop := ho op (by simp)
      have rest := fun o ho' => ho o (List.mem_cons_of_mem _ ho')
      cases op with
      | reset => exact absurd hop id
      | addSpline s => exact absurd hop id
      | resetTime =>
        exact ih _ 0 (sync_rewound hne (fun s hs => (hl s hs).1) h).toOn rest
      | seek t =>
        obtain ⟨k', h'⟩ := sync_seek h.splines hne h.duration ((C159_representable t).2 hop)
        exact ih _ k' h'.toOn rest
      | advance dt =>
        obtain ⟨b, c', k', e, h', -⟩ := h.advance dt
        obtain ⟨c'', k'', e', h''⟩ := ih c' k' h' rest
        exact ⟨c'', k'', by rw [run, step, e]; exact e', h''⟩
  obtain ⟨c', k, e, h⟩ := key ops _ 0 (sync_filled hne fun s hs => (hl s hs).1).toOn hops
  obtain ⟨b, c'', k', e', h', h1, h2⟩ := h.advance dt
  exact ⟨c', b, c'', e, e', h'.splines, h1, fun hb => ⟨(h2 hb).1, end_near hT hn h (h2 hb).2⟩⟩

theorem play_snoc (A : Arith K) (dt : K) : ∀ (n : ℕ) (c c1 : Box S K), play A dur dt n c = .ok (true, c1) →
    ∀ c2, c1.advance A dur dt = .ok (true, c2) → play A dur dt (n + 1) c = .ok (true, c2) := by
  intro n
  induction n with
  | zero =>
    intro c c1 h c2 h2
    rw [play] at h
    cases h
    rw [play, h2]
    rfl
  | succ n ih =>
    intro c c1 h c2 h2
    rw [play, Outcome.bind_eq_ok] at h
    obtain ⟨⟨b, d⟩, e, g⟩ := h
    cases b with
    | false => simp at g
    | true =>
      rw [play, e]
      exact ih d c1 (by simpa using g) c2 h2

/-- Playing with equal steps: the times drift from the multiples of the step by rounding only. -/
theorem play_near {l : List S} (hne : l ≠ []) (hl : Timed dur l) {dt : K} (hdt : (ieee K).rnd dt = dt) (h0 : 0 ≤ dt)
    (c0 : Box S K) (hc0 : c0 = ⟨l, 0, 0, startOf (ieee K).arith dur l l.length, 0⟩) (n : ℕ) :
    ∃ m c k, m ≤ n ∧ play (ieee K).arith dur dt m c0 = .ok (true, c) ∧ On (ieee K) dur l k c ∧
      |c.time - m * dt| ≤ ((1 + 1 / 2 ^ 53) ^ m - 1) * (m * dt) ∧
      (∀ i, m = i + 1 → ∃ t, |t - i * dt| ≤ ((1 + 1 / 2 ^ 53) ^ i - 1) * (i * dt) ∧ t < c.duration) ∧
      (m < n → (c.duration ≤ c.time ∨ c.idx = l.length) ∧ ∀ dt', c.advance (ieee K).arith dur dt' = .ok (false, c)) := by
  induction n with
  | zero =>
    refine ⟨0, c0, 0, le_rfl, rfl, ?_, ?_, by simp, by simp⟩
    · exact (sync_start hne (fun s hs => (hl s hs).1) (by rw [hc0]) (by rw [hc0]) (by rw [hc0]) (by rw [hc0]) (by rw [hc0])).toOn
    · simp [hc0]
  | succ n ih =>
    obtain ⟨m, c, k, hm, e, h, h1, h2, h3⟩ := ih
    rcases lt_or_eq_of_le hm with g | rfl
    · exact ⟨m, c, k, by omega, e, h, h1, h2, fun _ => h3 g⟩
    · obtain ⟨b, c', k', e', h', g1, g2⟩ := h.advance dt
      cases b with
      | true =>
        obtain ⟨g3, g4⟩ := g1 rfl
        refine ⟨m + 1, c', k', le_rfl, play_snoc _ dt m c0 c e c' e', h', ?_, ?_, fun g => absurd g (by omega)⟩
        · rw [g4]
          have := add_ieee h.time hdt (by positivity) h0 h1
          have e3 : ((m + 1 : ℕ) : K) * dt = m * dt + dt := by push_cast; ring
          rw [e3]
          exact this
        · intro i hi
          have : i = m := by omega
          subst this
          exact ⟨c.time, h1, by rw [h'.duration, ← h.duration]; exact g3⟩
      | false =>
        obtain ⟨-, g4⟩ := g2 rfl
        refine ⟨m, c, k, by omega, e, h, h1, h2, fun _ => ⟨g4, fun dt' => ?_⟩⟩
        rcases g4 with g4 | g4
        · rw [Box.advance, if_pos]
          simp [Rounding.arith, g4]
        · exact advance_after _ dur dt' (by rw [g4, h.splines])

/-- **C161, the clock.** After `n` steps that all returned `true` the time of the container is `n dt` up to the fraction
n / 2^52 of it. -/
theorem C161_clock {l : List S} (hne : l ≠ []) (hl : ∀ s ∈ l, 0 < dur s ∧ Representable (dur s)) (c : Box S K) {dt : K}
    (hdt : Representable dt) (h0 : 0 ≤ dt) {n : ℕ} (hn : n ≤ 2 ^ 52) :
    ∃ c0, run (ieee K).arith dur c (.reset :: l.map .addSpline) = .ok c0 ∧
      ∀ c', play (ieee K).arith dur dt n c0 = .ok (true, c') → |c'.time - n * dt| ≤ n / 2 ^ 52 * (n * dt) := by
  have hT : Timed dur l := fun s hs => ⟨(hl s hs).1, (C159_representable _).2 (hl s hs).2⟩
  refine ⟨_, run_fill _ dur l c, fun c' hc' => ?_⟩
  have main : ∀ (n : ℕ) (c0 c' : Box S K) (j k : ℕ), On (ieee K) dur l k c0 →
      |c0.time - j * dt| ≤ ((1 + 1 / 2 ^ 53) ^ j - 1) * (j * dt) → play (ieee K).arith dur dt n c0 = .ok (true, c') →
      |c'.time - (j + n : ℕ) * dt| ≤ ((1 + 1 / 2 ^ 53) ^ (j + n) - 1) * ((j + n : ℕ) * dt) := by
    intro n
    induction n with
    | zero =>
      intro c0 c' j k _ h e
      rw [play] at e
      cases e
      exact h
    | succ n ih =>
      intro c0 c' j k h h1 e
      rw [play, Outcome.bind_eq_ok] at e
      obtain ⟨⟨b, d⟩, e, g⟩ := e
      obtain ⟨b', d', k', e', h', g1, -⟩ := h.advance dt
      rw [e] at e'
      cases e'
      cases b with
      | false => simp at g
      | true =>
        have := ih d c' (j + 1) k' h' (by
          rw [(g1 rfl).2]
          have := add_ieee h.time ((C159_representable _).2 hdt) (by positivity) h0 h1
          have e3 : ((j + 1 : ℕ) : K) * dt = j * dt + dt := by push_cast; ring
          rw [e3]
          exact this) (by simpa using g)
        rwa [show j + 1 + n = j + (n + 1) by omega] at this
  have h := main n _ c' 0 0 (sync_filled hne fun s hs => (hl s hs).1).toOn (by simp [Rounding.arith]) hc'
  rw [Nat.zero_add] at h
  exact h.trans (mul_le_mul_of_nonneg_right (pow_small hn) (by positivity))

/-- **C161, the number of steps.** A container whose durations add up to more than `N - 1` and at most `N` steps is played in
`N - 1`, `N` or `N + 1` steps: so many calls return `true`, and from then on every call returns `false`. For at most 2^25
segments and steps (nine hours at a thousand steps per second). -/
theorem C161_steps {l : List S} (hne : l ≠ []) (hn : l.length ≤ 2 ^ 25) (hl : ∀ s ∈ l, 0 < dur s ∧ Representable (dur s))
    (c : Box S K) {dt : K} (hdt : Representable dt) (h0 : 0 < dt) {N : ℕ} (hN : N ≤ 2 ^ 25)
    (hlo : (N - 1) * dt < (l.map dur).sum) (hhi : (l.map dur).sum ≤ N * dt) :
    ∃ c0 m c', run (ieee K).arith dur c (.reset :: l.map .addSpline) = .ok c0 ∧ N ≤ m + 1 ∧ m ≤ N + 1 ∧
      play (ieee K).arith dur dt m c0 = .ok (true, c') ∧ ∀ dt', c'.advance (ieee K).arith dur dt' = .ok (false, c') := by
  have hT : Timed dur l := fun s hs => ⟨(hl s hs).1, (C159_representable _).2 (hl s hs).2⟩
  obtain ⟨m, c', k, hm, e, h, h1, h2, h3⟩ := play_near hne hT ((C159_representable _).2 hdt) h0.le
    ⟨l, 0, 0, startOf (ieee K).arith dur l l.length, 0⟩ rfl (N + 2)
  have hL : (l.length : K) ≤ 2 ^ 25 := by exact_mod_cast hn
  have hNK : (N : K) ≤ 2 ^ 25 := by exact_mod_cast hN
  have drift : ∀ i : ℕ, i ≤ N + 2 → ((1 + 1 / 2 ^ 53) ^ i - 1) * (i * dt) ≤ dt * (5 / 16) := by
    intro i hi
    have h5 : i ≤ 2 ^ 52 := by omega
    have h6 : (i : K) ≤ 2 ^ 25 + 2 := by
      have : (i : K) ≤ N + 2 := by exact_mod_cast hi
      linarith
    have h7 : (0 : K) ≤ i := by positivity
    calc ((1 + 1 / 2 ^ 53) ^ i - 1) * (i * dt) ≤ i / 2 ^ 52 * (i * dt) :=
          mul_le_mul_of_nonneg_right (pow_small h5) (by positivity)
      _ = i * i / 2 ^ 52 * dt := by ring
      _ ≤ (2 ^ 25 + 2) * (2 ^ 25 + 2) / 2 ^ 52 * dt := by gcongr
      _ ≤ dt * (5 / 16) := by
        rw [mul_comm]
        apply mul_le_mul_of_nonneg_left _ h0.le
        norm_num
  have hsum : 0 ≤ (l.map dur).sum := by
    have := sum_take_nonneg hT l.length
    rwa [List.take_length] at this
  have hdur : c'.duration ≤ (l.map dur).sum + dt * (5 / 16) := by
    have h5 := (abs_le.1 (startOf_near hT l.length le_rfl)).2
    rw [List.take_length, ← h.duration] at h5
    have h6 : ((1 : K) + 1 / 2 ^ 53) ^ l.length - 1 ≤ 2 ^ 25 / 2 ^ 52 :=
      (pow_small (by omega)).trans (by gcongr)
    have h7 := mul_le_mul_of_nonneg_right h6 hsum
    have h8 : (l.map dur).sum ≤ 2 ^ 25 * dt := hhi.trans (mul_le_mul_of_nonneg_right hNK h0.le)
    have h9 := mul_le_mul_of_nonneg_left h8 (show (0 : K) ≤ 2 ^ 25 / 2 ^ 52 by positivity)
    have : (2 : K) ^ 25 / 2 ^ 52 * (2 ^ 25 * dt) = dt * (1 / 4) := by ring
    linarith
  have upper : m ≤ N + 1 := by
    cases m with
    | zero => omega
    | succ i =>
      obtain ⟨t, t1, t2⟩ := h2 i rfl
      have t3 := (abs_le.1 (t1.trans (drift i (by omega)))).1
      have t4 : (i : K) * dt < (N + 1) * dt := by linarith
      have t5 : (i : K) < N + 1 := lt_of_mul_lt_mul_right t4 h0.le
      have : i < N + 1 := by exact_mod_cast t5
      omega
  obtain ⟨s1, s2⟩ := h3 (by omega)
  refine ⟨_, m, c', run_fill _ dur l c, ?_, upper, e, s2⟩
  have t1 := end_near hT (hn.trans (by norm_num)) h s1
  have t2 := (abs_le.1 (h1.trans (drift m hm))).2
  have t3 : (l.map dur).sum * ((l.length + 1) / 2 ^ 52) ≤ dt * (5 / 16) := by
    have h8 : (l.map dur).sum ≤ 2 ^ 25 * dt := hhi.trans (mul_le_mul_of_nonneg_right hNK h0.le)
    calc (l.map dur).sum * ((l.length + 1) / 2 ^ 52) ≤ 2 ^ 25 * dt * ((2 ^ 25 + 1) / 2 ^ 52) := by gcongr
      _ = dt * (2 ^ 25 * (2 ^ 25 + 1) / 2 ^ 52) := by ring
      _ ≤ _ := mul_le_mul_of_nonneg_left (by norm_num) h0.le
  have t4 : ((N : K) - 1) * dt < (m + 1) * dt := by
    have : (l.map dur).sum * (1 - ((l.length : K) + 1) / 2 ^ 52) =
      (l.map dur).sum - (l.map dur).sum * ((l.length + 1) / 2 ^ 52) := by ring
    linarith
  have t5 : (N : K) - 1 < m + 1 := lt_of_mul_lt_mul_right t4 h0.le
  have t6 : (N : K) < (m + 2 : ℕ) := by push_cast; linarith
  have : N < m + 2 := by exact_mod_cast t6
  omega

end

/-- Ten segments of one second played with steps of 0.1 seconds (rounded to `double`), after a seek. -/
example : (∀ s ∈ List.replicate 10 (1 : ℚ), 0 < id s ∧ Representable (id s)) ∧
    ∀ op ∈ [Op.advance (toDouble (1 / 10)), .seek (1 / 4), .advance (toDouble (1 / 10)), .resetTime],
      Moves (S := ℚ) (fun dt => Representable dt ∧ 0 ≤ dt ∧ ∀ s ∈ List.replicate 10 (1 : ℚ), 2 * dt < id s) op := by
  have h1 : Representable (1 : ℚ) := ⟨1, 0, by norm_num, by norm_num, by norm_num⟩
  have h2 : Representable (toDouble (1 / 10 : ℚ)) := (C159_representable _).1 (by decide +kernel)
  have h3 : (0 : ℚ) ≤ toDouble (1 / 10) ∧ 2 * toDouble (1 / 10 : ℚ) < 1 := by decide +kernel
  refine ⟨fun s hs => ?_, fun op hop => ?_⟩
  · rw [List.eq_of_mem_replicate hs]
    exact ⟨by norm_num, h1⟩
  · simp only [List.mem_cons, List.not_mem_nil, or_false] at hop
    rcases hop with rfl | rfl | rfl | rfl
    · exact ⟨h2, h3.1, fun s hs => by rw [List.eq_of_mem_replicate hs]; exact h3.2⟩
    · exact ⟨1, -2, by norm_num, by norm_num, by norm_num⟩
    · exact ⟨h2, h3.1, fun s hs => by rw [List.eq_of_mem_replicate hs]; exact h3.2⟩
    · trivial

/-- One second in steps of 0.1 seconds: `N` is 10, and 11 calls return `true` (C98_refuted). -/
example : ((10 : ℕ) - 1 : ℚ) * toDouble (1 / 10) < ([1].map id).sum ∧ ([1].map id).sum ≤ (10 : ℕ) * toDouble (1 / 10 : ℚ) := by
  decide +kernel

/-- **C161 is false of the code** as far as the end goes: a container of two segments reports its end although its time has not
reached its duration: the segments last 3/2 2⁻⁵² and 1 + 2⁻⁵¹, the time is 1 + 3/2 2⁻⁵¹, the duration 1 + 2⁻⁵⁰. -/
theorem C161_refuted :
    let l : List ℚ := [3 / 2 * (1 / 2 ^ 52), 1 + 1 / 2 ^ 51]
    (∀ d ∈ l, 0 < d ∧ Representable d) ∧ Representable (1 + 3 / 2 ^ 52 : ℚ) ∧
    ∀ c : Box ℚ ℚ, ∃ c', run (ieee ℚ).arith id c (.reset :: l.map .addSpline ++ [.advance (1 + 3 / 2 ^ 52), .advance 0]) = .ok c' ∧
      c'.time < c'.duration ∧ ∀ dt, c'.advance (ieee ℚ).arith id dt = .ok (false, c') := by
  intro l
  refine ⟨?_, (C159_representable _).1 (by decide +kernel), fun c => ?_⟩
  · intro d hd
    have : (ieee ℚ).rnd d = d ∧ 0 < d := by
      revert d
      decide +kernel
    exact ⟨this.2, (C159_representable _).1 this.1⟩
  · rw [run_append _ _ _ _ _ _ (run_fill _ id l c)]
    refine ⟨⟨l, 3 / 2 * (1 / 2 ^ 52), 1 + 3 / 2 ^ 52, 1 + 1 / 2 ^ 50, 2⟩, by decide +kernel, by decide +kernel, fun dt => ?_⟩
    exact advance_after _ _ _ rfl

/-- **C161 is false of the code** for steps that are merely shorter than every segment, which is enough without rounding (C27):
segments of 2⁵³, 2 + 2⁻⁵¹, 2 and 2 seconds, a seek to 2⁵³ + 2 and a step of 1.5 seconds. The cursor is two seconds into the third
segment, random access at the beginning of the fourth. -/
theorem C161_step_refuted :
    let l : List ℚ := [2 ^ 53, 2 + 1 / 2 ^ 51, 2, 2]
    (∀ d ∈ l, 0 < d ∧ Representable d ∧ 3 / 2 < d) ∧ Representable (2 ^ 53 + 2 : ℚ) ∧ Representable (3 / 2 : ℚ) ∧
    ∀ c : Box ℚ ℚ, ∃ c', run (ieee ℚ).arith id c (.reset :: l.map .addSpline ++ [.seek (2 ^ 53 + 2), .advance (3 / 2)]) = .ok c' ∧
      c'.current (ieee ℚ).arith (fun _ t => t) 0 = .ok 2 ∧
      c'.atTime (ieee ℚ).arith id (fun _ t => t) 0 c'.time = .ok 0 := by
  intro l
  refine ⟨?_, (C159_representable _).1 (by decide +kernel), (C159_representable _).1 (by decide +kernel), fun c => ?_⟩
  · intro d hd
    have : (ieee ℚ).rnd d = d ∧ 3 / 2 < d := by
      revert d
      decide +kernel
    exact ⟨by linarith [this.2], (C159_representable _).1 this.1, this.2⟩
  · rw [run_append _ _ _ _ _ _ (run_fill _ id l c)]
    exact ⟨⟨l, 2 ^ 53 + 2, 2 ^ 53 + 4, 2 ^ 53 + 6, 2⟩, by decide +kernel, by decide +kernel, by decide +kernel⟩

end Verif.Rounding
