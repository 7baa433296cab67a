import Verif.Rounding.PlayedLemmas
import Verif.Rounding.ContainerErrorProps

/-!
# Property C163: what is played in `double` is the curve
-/

set_option linter.unusedSectionVars false
set_option linter.dupNamespace false

namespace Verif.Rounding

open Box
open Verif.Spline (Order Spline)
open Verif.Container (Container start total)

section
variable {S K : Type} [Field K] [LinearOrder K] [IsStrictOrderedRing K] [FloorRing K] {dur : S → K}

/-- An evaluation of segments that takes the time into the segment first, as `PolynomialSpline` does (C18). -/
def Saturating {X : Type} (dur : S → K) (f : S → K → X) : Prop := ∀ s x, f s x = f s (max 0 (min x (dur s)))

theorem clamp_eq (x d : K) : clamp x d = max 0 (min x d) := by
  rw [clamp]
  by_cases h1 : d < x
  · rw [if_pos h1, min_eq_right h1.le]
    by_cases h2 : 0 < d
    · rw [if_pos h2, max_eq_right h2.le]
    · rw [if_neg h2, max_eq_left (not_lt.1 h2)]
  · rw [if_neg h1, min_eq_left (not_lt.1 h1)]
    by_cases h2 : 0 < x
    · rw [if_pos h2, max_eq_right h2.le]
    · rw [if_neg h2, max_eq_left (not_lt.1 h2)]

theorem saturating {X : Type} (g : S → K → X) : Saturating dur fun s x => g s (clamp x (dur s)) := by
  intro s x
  simp only [clamp_eq]
  congr 1
  rcases le_total (max 0 (min x (dur s))) (dur s) with h | h
  · rw [min_eq_left h, max_eq_right (le_max_left _ _)]
  · rw [min_eq_right h]
    rcases le_total 0 (min x (dur s)) with h2 | h2
    · rw [max_eq_right h2] at h ⊢
      rw [max_eq_right (h2.trans (min_le_right _ _))]
      exact le_antisymm (min_le_right _ _) h
    · rw [max_eq_left h2] at h ⊢
      exact (max_eq_left h).symm

/-- **C163, the time that is read.** A container with the segments `l`, filled after a reset and played in `double` with
seeks, rewinds and steps shorter than half of every segment. At the cursor and by random access it shows the segment `k`
at the local time `x`, where the exact time `start of k + x` differs from the time of the container, taken between 0 and
the exact duration `D`, by at most `n D / 2^52`. All values, derivatives among them, belong to the same `k` and `x`. -/
theorem C163_read {l : List S} (hne : l ≠ []) (hn : l.length ≤ 2 ^ 52) (hl : ∀ s ∈ l, 0 < dur s ∧ Representable (dur s))
    (c : Box S K) (ops : List (Op S K))
    (hops : ∀ op ∈ ops, Moves (fun dt => Representable dt ∧ 0 ≤ dt ∧ ∀ s ∈ l, 2 * dt < dur s) op) :
    ∃ c', run (ieee K).arith dur c (.reset :: l.map .addSpline ++ ops) = .ok c' ∧
      ∃ (k : ℕ) (hk : k < l.length) (x : K), 0 ≤ x ∧ x ≤ dur l[k] ∧ (k + 1 < l.length → x < dur l[k]) ∧
        |((l.take k).map dur).sum + x - max 0 (min c'.time (l.map dur).sum)| ≤ l.length * (l.map dur).sum / 2 ^ 52 ∧
        ∀ {X : Type} (f : S → K → X) (x0 : X), Saturating dur f →
          c'.current (ieee K).arith f x0 = .ok (f l[k] x) ∧
          c'.atTime (ieee K).arith dur f x0 c'.time = .ok (f l[k] x) := by
  have hT : Timed dur l := fun s hs => ⟨(hl s hs).1, (C159_representable _).2 (hl s hs).2⟩
  obtain ⟨c', k, e, h⟩ := follows hne hl c ops hops
  refine ⟨c', e, k, h.lt, max 0 (min ((ieee K).rnd (c'.time - startOf (ieee K).arith dur l k)) (dur (l[k]'h.lt))), le_max_left _ _,
    max_le (hT _ (List.getElem_mem h.lt)).1.le (min_le_right _ _),
    fun g => max_lt (hT _ (List.getElem_mem h.lt)).1 ((min_le_left _ _).trans_lt (h.here g)), read_near hT hn h, fun f x0 hf => ?_⟩
  rw [← hf]
  exact ⟨h.toOn.current f x0, h.atTime f x0⟩

/-- **C163, played.** After `n` equal steps `dt`, shorter than half of every segment, that all returned `true`, the value at
the cursor is that of the exact curve at a time that differs from `n dt` (from the end, if `n dt` is beyond it) by at most
`n (n dt) / 2^52 + L D / 2^52`, for `L` segments and the duration `D`. -/
theorem C163_played {l : List S} (hne : l ≠ []) (hL : l.length ≤ 2 ^ 52) (hl : ∀ s ∈ l, 0 < dur s ∧ Representable (dur s))
    (c : Box S K) {dt : K} (hdt : Representable dt) (h0 : 0 ≤ dt) (hshort : ∀ s ∈ l, 2 * dt < dur s) {n : ℕ} (hn : n ≤ 2 ^ 52) :
    ∃ c0, run (ieee K).arith dur c (.reset :: l.map .addSpline) = .ok c0 ∧
      ∀ c', play (ieee K).arith dur dt n c0 = .ok (true, c') →
        ∃ (k : ℕ) (hk : k < l.length) (x : K), 0 ≤ x ∧ x ≤ dur l[k] ∧ (k + 1 < l.length → x < dur l[k]) ∧
          |((l.take k).map dur).sum + x - min (n * dt) (l.map dur).sum| ≤ n / 2 ^ 52 * (n * dt) + l.length * (l.map dur).sum / 2 ^ 52 ∧
          ∀ {X : Type} (f : S → K → X) (x0 : X), Saturating dur f → c'.current (ieee K).arith f x0 = .ok (f l[k] x) := by
  obtain ⟨c0, e0, hclock⟩ := C161_clock hne hl c hdt h0 hn
  refine ⟨c0, e0, fun c' hc' => ?_⟩
  have hstep : ∀ (n : ℕ) (c0 c' : Box S K), play (ieee K).arith dur dt n c0 = .ok (true, c') →
      run (ieee K).arith dur c0 (List.replicate n (.advance dt)) = .ok c' := by
    intro n
    induction n with
    | zero => intro c0 c' h; rw [play] at h; cases h; rfl
    | succ n ih =>
      intro c0 c' h
      rw [play, Outcome.bind_eq_ok] at h
      obtain ⟨⟨b, d⟩, e, g⟩ := h
      cases b with
      | false => simp at g
      | true =>
        rw [List.replicate_succ, run, step, e]
        exact ih d c' (by simpa using g)
  obtain ⟨c1, e1, k, hk, x, hx0, hx1, hx2, hx, hf⟩ := C163_read hne hL hl c (List.replicate n (.advance dt)) (fun op hop => by
    rw [List.eq_of_mem_replicate hop]
    exact ⟨hdt, h0, hshort⟩)
  rw [run_append _ _ _ _ _ _ e0, hstep n c0 c' hc'] at e1
  cases e1
  refine ⟨k, hk, x, hx0, hx1, hx2, ?_, fun f x0 h => (hf f x0 h).1⟩
  have hc := abs_le.1 (hclock c' hc')
  have hx := abs_le.1 hx
  have hD : 0 ≤ (l.map dur).sum := List.sum_nonneg fun y hy => by
    obtain ⟨s, hs, rfl⟩ := List.mem_map.1 hy
    exact (hl s hs).1.le
  have hndt : 0 ≤ (n : K) * dt := by positivity
  have hδ : 0 ≤ (n : K) / 2 ^ 52 * (n * dt) := by positivity
  have hm : |max 0 (min c'.time (l.map dur).sum) - min (n * dt) (l.map dur).sum| ≤ n / 2 ^ 52 * (n * dt) := by
    rw [abs_le]
    rcases le_total c'.time (l.map dur).sum with g | g <;> rcases le_total ((n : K) * dt) (l.map dur).sum with g' | g' <;>
      rcases le_total 0 c'.time with g'' | g'' <;>
      simp only [min_eq_left, min_eq_right, g, g', max_eq_left, max_eq_right, g'', hD] <;> constructor <;> linarith
  have hm := abs_le.1 hm
  rw [abs_le]
  constructor <;> linarith

/-- **C163, the curve.** A container of polynomial segments, played as in `C163_played`: the position at the cursor, with the
segments evaluated in `double`, is that of the exact curve at `t'`, up to the rounding error of one evaluation (C114); so
are the velocity and the acceleration, at the same `t'`. -/
theorem C163_curve {o : Order} (P : Pow (double K)) (c : Container o K) (hne : c.splines ≠ []) (hL : c.splines.length ≤ 2 ^ 52)
    (hl : ∀ s ∈ c.splines, 0 < s.duration ∧ Representable s.duration) (b : Box (Spline o K) K) {dt : K} (hdt : Representable dt) (h0 : 0 ≤ dt)
    (hshort : ∀ s ∈ c.splines, 2 * dt < s.duration) {n : ℕ} (hn : n ≤ 2 ^ 52) :
    ∃ b0, run (ieee K).arith Spline.duration b (.reset :: c.splines.map .addSpline) = .ok b0 ∧
      ∀ b', play (ieee K).arith Spline.duration dt n b0 = .ok (true, b') →
        ∃ t' : K, |t' - min (n * dt) (c.splines.map Spline.duration).sum| ≤
            n / 2 ^ 52 * (n * dt) + c.splines.length * (c.splines.map Spline.duration).sum / 2 ^ 52 ∧
          ∃ (k : ℕ) (hk : k < c.splines.length) (x : K), t' = ((c.splines.take k).map Spline.duration).sum + x ∧ 0 ≤ x ∧
            x ≤ c.splines[k].duration ∧
            (∃ p q, b'.current (ieee K).arith (position (double K) P) 0 = .ok p ∧ c.getPositionAtTime t' = .ok q ∧
              |p - q| ≤ (∑ i, |c.splines[k].coeffs i * Spline.tau o x i|) / 2 ^ 49) ∧
            (∃ p q, b'.current (ieee K).arith (velocity (double K) P) 0 = .ok p ∧ c.getVelocityAtTime t' = .ok q ∧
              |p - q| ≤ (∑ i, |c.splines[k].coeffs i * Spline.dtau o x i|) / 2 ^ 49) ∧
            ∃ p q, b'.current (ieee K).arith (acceleration (double K) P) 0 = .ok p ∧ c.getAccelerationAtTime t' = .ok q ∧
              |p - q| ≤ (∑ i, |c.splines[k].coeffs i * Spline.ddtau o x i|) / 2 ^ 49 := by
  obtain ⟨b0, e0, hplay⟩ := C163_played hne hL hl b hdt h0 hshort hn
  refine ⟨b0, e0, fun b' hb' => ?_⟩
  obtain ⟨k, hk, x, hx0, hx1, hx2, hx, hf⟩ := hplay b' hb'
  have hget : ∀ f : Spline o K → K → K, c.atTime f (start c.splines k + x) = .ok (f c.splines[k] x) := by
    intro f
    rcases hx1.lt_or_eq with h | h
    · rw [Container.Container.atTime_half_open f c (fun s hs => (hl s hs).1.le) k _ (List.getElem?_eq_getElem hk) _
        (by linarith) (by linarith), add_sub_cancel_left]
    · have hlast : k + 1 = c.splines.length := by
        by_contra hcon
        exact absurd h (hx2 (by omega)).ne
      have hsucc := Container.start_succ _ _ _ (List.getElem?_eq_getElem hk)
      rw [hlast, Container.start_length] at hsucc
      have hkl : c.splines.length - 1 = k := by omega
      rw [Container.Container.atTime_beyond f c (fun s hs => (hl s hs).1.le) c.splines[k]
        (by rw [List.getLast?_eq_getElem?, hkl, List.getElem?_eq_getElem hk]) _ (by rw [hsucc, h]), hkl, add_sub_cancel_left]
  have hcl : max 0 (min x c.splines[k].duration) = x := by rw [min_eq_left hx1, max_eq_right hx0]
  obtain ⟨a1, a2, a3⟩ := C114_segment P c.splines[k] x
  rw [hcl] at a1 a2 a3
  exact ⟨start c.splines k + x, hx, k, hk, x, rfl, hx0, hx1,
    ⟨_, _, hf (position (double K) P) 0
      (saturating (dur := Spline.duration) fun (s : Spline o K) y => inner (double K) s.coeffs (tau (double K) P o y)), hget _, a1⟩, ⟨_, _, hf (velocity (double K) P) 0
      (saturating (dur := Spline.duration) fun (s : Spline o K) y => inner (double K) s.coeffs (dtau (double K) P o y)), hget _, a2⟩,
    ⟨_, _, hf (acceleration (double K) P) 0
      (saturating (dur := Spline.duration) fun (s : Spline o K) y => inner (double K) s.coeffs (ddtau (double K) P o y)), hget _, a3⟩⟩

/-- **C163, how far off.** If the exact curve moves at most at the speed `V`, and `M` bounds the sums of the absolute values of
the terms of the polynomials, the position at the cursor after `n` steps is that of the exact curve at `n dt` up to
`V (n (n dt) + L D) / 2^52 + M / 2^49`. -/
theorem C163_near {o : Order} (P : Pow (double K)) (c : Container o K) (hne : c.splines ≠ []) (hL : c.splines.length ≤ 2 ^ 52)
    (hl : ∀ s ∈ c.splines, 0 < s.duration ∧ Representable s.duration) (b : Box (Spline o K) K) {dt : K} (hdt : Representable dt) (h0 : 0 ≤ dt)
    (hshort : ∀ s ∈ c.splines, 2 * dt < s.duration) {n : ℕ} (hn : n ≤ 2 ^ 52) {V M : K} (hV0 : 0 ≤ V)
    (hV : ∀ s t p q, 0 ≤ s → 0 ≤ t → s ≤ (c.splines.map Spline.duration).sum → t ≤ (c.splines.map Spline.duration).sum →
      c.getPositionAtTime s = .ok p → c.getPositionAtTime t = .ok q → |p - q| ≤ V * |s - t|)
    (hM : ∀ s ∈ c.splines, ∀ x, 0 ≤ x → x ≤ s.duration → ∑ i, |s.coeffs i * Spline.tau o x i| ≤ M) {q : K}
    (hq : c.getPositionAtTime (min (n * dt) (c.splines.map Spline.duration).sum) = .ok q) :
    ∃ b0, run (ieee K).arith Spline.duration b (.reset :: c.splines.map .addSpline) = .ok b0 ∧
      ∀ b', play (ieee K).arith Spline.duration dt n b0 = .ok (true, b') →
        ∃ p, b'.current (ieee K).arith (position (double K) P) 0 = .ok p ∧
          |p - q| ≤ V * (n / 2 ^ 52 * (n * dt) + c.splines.length * (c.splines.map Spline.duration).sum / 2 ^ 52) + M / 2 ^ 49 := by
  obtain ⟨b0, e0, hplay⟩ := C163_curve P c hne hL hl b hdt h0 hshort hn
  refine ⟨b0, e0, fun b' hb' => ?_⟩
  obtain ⟨t', ht', k, hk, x, ht, hx0, hx1, ⟨p, q', hp, hq', hpq⟩, -⟩ := hplay b' hb'
  refine ⟨p, hp, ?_⟩
  have hT : Timed Spline.duration c.splines := fun s hs => ⟨(hl s hs).1, (C159_representable _).2 (hl s hs).2⟩
  have hD : 0 ≤ (c.splines.map Spline.duration).sum := by
    have := sum_take_nonneg hT c.splines.length
    rwa [List.take_length] at this
  have h1 := sum_take_nonneg hT k
  have h2 := sum_take_le hT (k + 1)
  rw [sum_take_succ c.splines hk] at h2
  have h3 := hV t' (min (n * dt) (c.splines.map Spline.duration).sum) q' q (by linarith) (le_min (by positivity) hD) (by linarith)
    (min_le_right _ _) hq' hq
  have h4 := h3.trans (mul_le_mul_of_nonneg_left ht' hV0)
  have h5 : (∑ i, |c.splines[k].coeffs i * Spline.tau o x i|) / 2 ^ 49 ≤ M / 2 ^ 49 :=
    div_le_div_of_nonneg_right (hM _ (List.getElem_mem hk) x hx0 hx1) (by positivity)
  have h6 := abs_sub_le p q' q
  linarith

end

/-! ## Examples -/

/-- Two segments of order 2, half a second and three quarters of a second long, played with steps of an eighth. -/
def twoPieces : Container .o2 ℚ := ⟨[⟨![1, 2, 3], 1 / 2⟩, ⟨![-1, 3, 17 / 4], 3 / 4⟩], 0, 0, 5 / 4, 0⟩

theorem twoPieces_timed : ∀ s ∈ twoPieces.splines, 0 < s.duration ∧ Representable s.duration := by
  intro s hs
  have : (ieee ℚ).rnd s.duration = s.duration ∧ 0 < s.duration := by
    simp only [twoPieces, List.mem_cons, List.not_mem_nil, or_false] at hs
    rcases hs with rfl | rfl <;> decide +kernel
  exact ⟨this.2, (C159_representable _).1 this.1⟩

example (b : Box (Spline .o2 ℚ) ℚ) := C163_curve (boost (double ℚ)) twoPieces (by simp [twoPieces]) (by simp [twoPieces])
  twoPieces_timed b (dt := 1 / 8) ((C159_representable _).1 (by decide +kernel)) (by norm_num)
  (by simp only [twoPieces, List.mem_cons, List.not_mem_nil, or_false]; rintro s (rfl | rfl) <;> norm_num) (n := 7) (by norm_num)

/-- After seven of these steps the cursor is three eighths into the second segment. -/
example : (run (ieee ℚ).arith Spline.duration (Box.fresh (ieee ℚ).arith) (.reset :: twoPieces.splines.map .addSpline) >>= fun b =>
      play (ieee ℚ).arith Spline.duration (1 / 8) 7 b >>= fun r => .ok (r.1, r.2.idx, r.2.time - r.2.offset)) =
    .ok (true, 1, 3 / 8) := by decide +kernel

/-- One segment, t² + 2 t + 3 for half a second. -/
def onePiece : Container .o2 ℚ := ⟨[⟨![1, 2, 3], 1 / 2⟩], 0, 0, 1 / 2, 0⟩

theorem onePiece_position {t : ℚ} (h0 : 0 ≤ t) (h1 : t ≤ 1 / 2) : onePiece.getPositionAtTime t = .ok (t ^ 2 + 2 * t + 3) := by
  have e : (⟨![1, 2, 3], 1 / 2⟩ : Spline .o2 ℚ).getPositionAtTime t = t ^ 2 + 2 * t + 3 := by
    have hc : Spline.clamp t (1 / 2 : ℚ) = t := by
      rw [Spline.clamp, if_neg (not_lt.2 h1)]
      by_cases h : 0 < t
      · rw [if_pos h]
      · rw [if_neg h, le_antisymm (not_lt.1 h) h0]
    rw [Spline.getPositionAtTime, hc]
    simp only [Spline.inner, Spline.tau]
    change ∑ x : Fin 3, ![1, 2, 3] x * ![t ^ 2, t, 1] x = _
    simp [Fin.sum_univ_three]
  rcases h1.lt_or_eq with h | rfl
  · have := Container.Container.atTime_half_open Spline.getPositionAtTime onePiece (by simp [onePiece]) 0 ⟨![1, 2, 3], 1 / 2⟩ rfl t
      (by simpa [start] using h0) (by simpa [start] using h)
    rw [Container.Container.getPositionAtTime, this]
    simpa [start] using e
  · have := Container.Container.atTime_beyond Spline.getPositionAtTime onePiece (by simp [onePiece]) ⟨![1, 2, 3], 1 / 2⟩ rfl (1 / 2)
      (by simp [onePiece, total])
    rw [Container.Container.getPositionAtTime, this]
    simpa [start, onePiece] using e

example (b : Box (Spline .o2 ℚ) ℚ) := C163_near (boost (double ℚ)) onePiece (by simp [onePiece]) (by simp [onePiece]) (by
    intro s hs
    have : (ieee ℚ).rnd s.duration = s.duration ∧ 0 < s.duration := by
      simp only [onePiece, List.mem_cons, List.not_mem_nil, or_false] at hs
      subst hs
      decide +kernel
    exact ⟨this.2, (C159_representable _).1 this.1⟩)
  b (dt := 1 / 8) ((C159_representable _).1 (by decide +kernel)) (by norm_num)
  (by simp only [onePiece, List.mem_cons, List.not_mem_nil, or_false]; rintro s rfl; norm_num) (n := 3) (by norm_num) (V := 3) (M := 5)
  (by norm_num) (by
    intro s t p q hs ht hs' ht' hp hq
    have hs' : s ≤ 1 / 2 := by simpa [onePiece] using hs'
    have ht' : t ≤ 1 / 2 := by simpa [onePiece] using ht'
    rw [onePiece_position hs hs'] at hp
    rw [onePiece_position ht ht'] at hq
    cases hp
    cases hq
    rw [show s ^ 2 + 2 * s + 3 - (t ^ 2 + 2 * t + 3) = (s + t + 2) * (s - t) by ring, abs_mul, abs_of_nonneg (by linarith : 0 ≤ s + t + 2)]
    exact mul_le_mul_of_nonneg_right (by linarith) (abs_nonneg _))
  (by
    simp only [onePiece, List.mem_cons, List.not_mem_nil, or_false]
    rintro s rfl x h0 h1
    simp only at h1
    simp only [Spline.tau]
    change ∑ i : Fin 3, |![1, 2, 3] i * ![x ^ 2, x, 1] i| ≤ _
    simp [Fin.sum_univ_three, abs_mul, abs_of_nonneg h0]
    nlinarith)
  (onePiece_position (by norm_num [onePiece]) (by norm_num [onePiece]))

example {c : Box ℚ ℚ} := C163_read (dur := id) (l := [1 / 2, 3 / 4]) (by simp) (by simp) (by
  intro s hs
  have : (ieee ℚ).rnd s = s ∧ 0 < s := by
    simp only [List.mem_cons, List.not_mem_nil, or_false] at hs
    rcases hs with rfl | rfl <;> decide +kernel
  exact ⟨this.2, (C159_representable _).1 this.1⟩) c [.seek 1, .advance (1 / 8), .resetTime] (by
  intro op hop
  simp only [List.mem_cons, List.not_mem_nil, or_false] at hop
  rcases hop with rfl | rfl | rfl
  · exact (C159_representable _).1 (by decide +kernel)
  · refine ⟨(C159_representable _).1 (by decide +kernel), by norm_num, ?_⟩
    simp only [List.mem_cons, List.not_mem_nil, or_false]
    rintro s (rfl | rfl) <;> norm_num
  · trivial)

end Verif.Rounding
