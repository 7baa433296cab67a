import Verif.Container.Assembly
import Mathlib.Tactic.FieldSimp
import Mathlib.Tactic.LinearCombination

/-! # The equations of `setData` always have a solution -/

set_option linter.unusedSectionVars false
set_option linter.dupNamespace false

namespace Verif.Container

open Verif.Spline

variable {K : Type} [Field K] [LinearOrder K] [IsStrictOrderedRing K] {o : Order}

/-- The solution vector holding the given segments. -/
def pack (o : Order) (c : ℕ → Vec o K) (i : ℕ) : K := row (c (i / o.count)) (i % o.count)

theorem seg_pack (c : ℕ → Vec o K) (j : ℕ) : seg o (pack o c) j = c j := by
  funext i
  have hi := i.2
  have hpos : 0 < o.count := by simp [Order.count]
  have e1 : (j * o.count + (i : ℕ)) / o.count = j := by
    rw [Nat.add_comm, Nat.add_mul_div_right _ _ hpos, Nat.div_eq_of_lt hi, Nat.zero_add]
  have e2 : (j * o.count + (i : ℕ)) % o.count = i := by
    rw [Nat.add_comm, Nat.add_mul_mod_self_right, Nat.mod_eq_of_lt hi]
  simp only [seg, pack, Sys.column, e1, e2, row, hi, dif_pos]

/-- Segments `0 ... k` interpolate and are smooth up to the second derivative. -/
structure Chain (o : Order) (D P : ℕ → K) (k : ℕ) (c : ℕ → Vec o K) : Prop where
  start : ∀ j ≤ k, inner (c j) (tauZero o) = P j
  stop : ∀ j ≤ k, inner (c j) (tau o (D j)) = P (j + 1)
  vel : ∀ j < k, inner (c j) (dtau o (D j)) = inner (c (j + 1)) (dtauZero o)
  acc : ∀ j < k, inner (c j) (ddtau o (D j)) = inner (c (j + 1)) (ddtauZero o)

theorem Chain.single (D P : ℕ → K) (c : ℕ → Vec o K) (h1 : inner (c 0) (tauZero o) = P 0)
    (h2 : inner (c 0) (tau o (D 0)) = P 1) : Chain o D P 0 c := by
  constructor
  · intro j hj; obtain rfl : j = 0 := by omega
    exact h1
  · intro j hj; obtain rfl : j = 0 := by omega
    exact h2
  · intro j hj; omega
  · intro j hj; omega

/-- Appending a segment. -/
theorem Chain.snoc {D P : ℕ → K} {k : ℕ} {c : ℕ → Vec o K} (h : Chain o D P k c) (d : Vec o K)
    (h1 : inner d (tauZero o) = P (k + 1)) (h2 : inner d (tau o (D (k + 1))) = P (k + 2))
    (h3 : inner (c k) (dtau o (D k)) = inner d (dtauZero o))
    (h4 : inner (c k) (ddtau o (D k)) = inner d (ddtauZero o)) :
    Chain o D P (k + 1) (fun j => if j = k + 1 then d else c j) := by
  constructor
  · intro j hj
    by_cases e : j = k + 1
    · subst e; simpa using h1
    · simpa [e] using h.start j (by omega)
  · intro j hj
    by_cases e : j = k + 1
    · subst e; simpa using h2
    · simpa [e] using h.stop j (by omega)
  · intro j hj
    have e : j ≠ k + 1 := by omega
    by_cases e2 : j = k
    · subst e2; simpa using h3
    · simpa [e, e2] using h.vel j (by omega)
  · intro j hj
    have e : j ≠ k + 1 := by omega
    by_cases e2 : j = k
    · subst e2; simpa using h4
    · simpa [e, e2] using h.acc j (by omega)

/-- Clamped cubic splines: for every end velocity there is a chain, and its end acceleration is an
affine, non-decreasing function of the end velocity. -/
theorem cubic_chain (D P : ℕ → K) (hD : ∀ j, 0 < D j) (v0 : K) (k : ℕ) :
    ∃ α β : K, 0 ≤ β ∧ ∀ w, ∃ c, Chain .o3 D P k c ∧ inner (c 0) (dtauZero .o3) = v0 ∧
      inner (c k) (dtau .o3 (D k)) = w ∧ inner (c k) (ddtau .o3 (D k)) = α + β * w := by
  induction k with
  | zero =>
    have hT := hD 0
    refine ⟨-6 * (P 1 - P 0) / D 0 ^ 2 + 2 * v0 / D 0, 4 / D 0, by positivity, fun w => ?_⟩
    obtain ⟨s1, s2, s3, s4, -, s6⟩ := cubic_spec hT.ne' (P 0) v0 (P 1) w
    refine ⟨fun _ => cubic (D 0) (P 0) v0 (P 1) w, Chain.single _ _ _ s1 s3, s2, s4, ?_⟩
    rw [s6]; field_simp; ring
  | succ k ih =>
    obtain ⟨α, β, hβ, ih⟩ := ih
    have hT := hD (k + 1)
    have hden : 0 < β + 4 / D (k + 1) := by positivity
    set T := D (k + 1) with hTdef
    set q := P (k + 2) - P (k + 1) with hq
    refine ⟨-6 * q / T ^ 2 + 2 / T * ((6 * q / T ^ 2 - α) / (β + 4 / T)),
      4 / T - 4 / T ^ 2 / (β + 4 / T), ?_, fun w => ?_⟩
    · rw [sub_nonneg, div_le_iff₀ hden]
      have h1 : 4 / T * (β + 4 / T) = 4 / T * β + 16 / T ^ 2 := by field_simp; ring
      rw [h1]
      have h2 : 0 ≤ 4 / T * β := by positivity
      have h3 : 4 / T ^ 2 ≤ 16 / T ^ 2 := by gcongr; norm_num
      linarith
    · obtain ⟨c, hc, c0, c1, c2⟩ := ih ((6 * q / T ^ 2 - α - 2 * w / T) / (β + 4 / T))
      set v := (6 * q / T ^ 2 - α - 2 * w / T) / (β + 4 / T) with hv
      have hv' : v * (β + 4 / T) = 6 * q / T ^ 2 - α - 2 * w / T := by
        rw [hv, div_mul_cancel₀ _ hden.ne']
      obtain ⟨s1, s2, s3, s4, s5, s6⟩ := cubic_spec hT.ne' (P (k + 1)) v (P (k + 2)) w
      refine ⟨fun j => if j = k + 1 then cubic T (P (k + 1)) v (P (k + 2)) w else c j,
        hc.snoc _ s1 s3 (by rw [c1, s2]) ?_, by simpa using c0, by simpa using s4, ?_⟩
      · rw [c2, s5, ← hq]
        have : (4 * v + 2 * w) / T = 4 * v / T + 2 * w / T := by ring
        rw [this]
        linear_combination hv'
      · simp only [if_true]
        rw [s6, ← hq]
        have e : v = (6 * q / T ^ 2 - α) / (β + 4 / T) - 2 * w / T / (β + 4 / T) := by
          rw [hv]; ring
        rw [e]; ring

/-- A cubic read as a polynomial of order 3, 4 or 5. -/
def lift : (o : Order) → Vec .o3 K → Vec o K
  | .o1, _ => 0
  | .o2, _ => 0
  | .o3, c => c
  | .o4, c => ![0, c 0, c 1, c 2, c 3]
  | .o5, c => ![0, 0, c 0, c 1, c 2, c 3]

theorem lift_spec (o : Order) (ho : 3 ≤ o.deg) (c : Vec .o3 K) (t : K) :
    inner (lift o c) (tau o t) = inner c (tau .o3 t) ∧
    inner (lift o c) (dtau o t) = inner c (dtau .o3 t) ∧
    inner (lift o c) (ddtau o t) = inner c (ddtau .o3 t) := by
  cases o
  · simp [Order.deg] at ho
  · simp [Order.deg] at ho
  · exact ⟨rfl, rfl, rfl⟩
  · refine ⟨?_, ?_, ?_⟩ <;> simp [lift, inner, tau, dtau, ddtau, sum_o3, sum_o4]
  · refine ⟨?_, ?_, ?_⟩ <;> simp [lift, inner, tau, dtau, ddtau, sum_o3, sum_o5]

/-- Velocity formulation: solvable for orders 3, 4, 5 and any number of segments. -/
theorem solvable_vel (o : Order) (ho : 3 ≤ o.deg) (n : ℕ) (hn : 0 < n) (D P : ℕ → K)
    (hD : ∀ j, 0 < D j) (v0 vT : K) : ∃ x, FitEq o n D P [v0] [vT] x := by
  obtain ⟨k, rfl⟩ : ∃ k, n = k + 1 := ⟨n - 1, by omega⟩
  obtain ⟨α, β, -, h⟩ := cubic_chain D P hD v0 k
  obtain ⟨c, hc, c0, c1, -⟩ := h vT
  refine ⟨pack o fun j => lift o (c j), ?_⟩
  have z : ∀ j, inner (lift o (c j)) (tauZero o) = inner (c j) (tauZero .o3) ∧
    inner (lift o (c j)) (dtauZero o) = inner (c j) (dtauZero .o3) ∧
    inner (lift o (c j)) (ddtauZero o) = inner (c j) (ddtauZero .o3) := by
    intro j
    simp only [← tau_zero, ← dtau_zero, ← ddtau_zero]
    exact lift_spec o ho (c j) 0
  have l := fun j t => lift_spec o ho (c j) t
  refine ⟨?_, ?_, ?_⟩
  · refine ⟨?_, ?_, ?_⟩
    · simp only [seg_pack, (z _).1]; simpa using hc.start 0 (by omega)
    · simp only [seg_pack, (z _).2.1]; simpa using c0
    · simp
  · refine ⟨?_, ?_, ?_⟩
    · simp only [seg_pack, Nat.add_sub_cancel, (l _ _).1]; simpa using hc.stop k le_rfl
    · simp only [seg_pack, Nat.add_sub_cancel, (l _ _).2.1]; simpa using c1
    · simp
  · intro j hj
    unfold Sys.JunEq
    simp only [seg_pack, (z _).1, (z _).2.1, (z _).2.2, (l _ _).1, (l _ _).2.1, (l _ _).2.2]
    exact ⟨hc.stop j (by omega), hc.start (j + 1) (by omega), hc.vel j (by omega),
      hc.acc j (by omega)⟩

/-- Quartic chains with prescribed start velocity and acceleration: the end acceleration is affine and
increasing in the end velocity. -/
theorem quartic_chain (D P : ℕ → K) (hD : ∀ j, 0 < D j) (v0 a0 : K) (k : ℕ) :
    ∃ α β : K, 0 < β ∧ ∀ w, ∃ c, Chain .o4 D P k c ∧ inner (c 0) (dtauZero .o4) = v0 ∧
      inner (c 0) (ddtauZero .o4) = a0 ∧
      inner (c k) (dtau .o4 (D k)) = w ∧ inner (c k) (ddtau .o4 (D k)) = α + β * w := by
  induction k with
  | zero =>
    have hT := hD 0
    refine ⟨a0 + 6 * v0 / D 0 - 12 * (P 1 - P 0) / D 0 ^ 2, 6 / D 0, by positivity, fun w => ?_⟩
    obtain ⟨s1, s2, s3, s4, s5, s6⟩ := quartic_spec hT.ne' (P 0) v0 a0 (P 1) w
    refine ⟨fun _ => quartic (D 0) (P 0) v0 a0 (P 1) w, Chain.single _ _ _ s1 s4, s2, s3, s5, ?_⟩
    rw [s6]; ring
  | succ k ih =>
    obtain ⟨α, β, hβ, ih⟩ := ih
    have hT := hD (k + 1)
    obtain ⟨c, hc, c0, c0', c1, c2⟩ := ih 0
    refine ⟨α - 12 * (P (k + 2) - P (k + 1)) / D (k + 1) ^ 2, 6 / D (k + 1), by positivity,
      fun w => ?_⟩
    obtain ⟨s1, s2, s3, s4, s5, s6⟩ := quartic_spec hT.ne' (P (k + 1)) 0 α (P (k + 2)) w
    refine ⟨fun j => if j = k + 1 then quartic (D (k + 1)) (P (k + 1)) 0 α (P (k + 2)) w else c j,
        hc.snoc _ s1 s4 (by rw [c1, s2]) (by rw [c2, s3]; ring), by simpa using c0,
        by simpa using c0', by simpa using s5, ?_⟩
    simp only [if_true]
    rw [s6]; ring

/-- The conditions from a chain with its end derivatives. -/
theorem FitEq_of_chain {D P : ℕ → K} {k : ℕ} {c : ℕ → Vec o K} (hc : Chain o D P k c)
    (v0 a0 vT aT : K) (h1 : inner (c 0) (dtauZero o) = v0) (h2 : inner (c 0) (ddtauZero o) = a0)
    (h3 : inner (c k) (dtau o (D k)) = vT) (h4 : inner (c k) (ddtau o (D k)) = aT) :
    FitEq o (k + 1) D P [v0, a0] [vT, aT] (pack o c) := by
  refine ⟨⟨?_, ?_, ?_⟩, ⟨?_, ?_, ?_⟩, ?_⟩
  · simp only [seg_pack]; simpa using hc.start 0 (by omega)
  · simp only [seg_pack]; simpa using h1
  · simp only [seg_pack]; simpa using h2
  · simp only [seg_pack, Nat.add_sub_cancel]; simpa using hc.stop k le_rfl
  · simp only [seg_pack, Nat.add_sub_cancel]; simpa using h3
  · simp only [seg_pack, Nat.add_sub_cancel]; simpa using h4
  · intro j hj
    unfold Sys.JunEq
    simp only [seg_pack]
    exact ⟨hc.stop j (by omega), hc.start (j + 1) (by omega), hc.vel j (by omega),
      hc.acc j (by omega)⟩

/-- Acceleration formulation, order 4, at least two segments. -/
theorem solvable_acc4 (n : ℕ) (hn : 2 ≤ n) (D P : ℕ → K) (hD : ∀ j, 0 < D j) (v0 a0 vT aT : K) :
    ∃ x, FitEq .o4 n D P [v0, a0] [vT, aT] x := by
  obtain ⟨k, rfl⟩ : ∃ k, n = k + 1 + 1 := ⟨n - 2, by omega⟩
  obtain ⟨α, β, hβ, h⟩ := quartic_chain D P hD v0 a0 k
  have hT := hD (k + 1)
  have hden : 0 < β + 6 / D (k + 1) := by positivity
  obtain ⟨c, hc, c0, c0', c1, c2⟩ := h ((aT - α - 6 * vT / D (k + 1) +
    12 * (P (k + 2) - P (k + 1)) / D (k + 1) ^ 2) / (β + 6 / D (k + 1)))
  set w := (aT - α - 6 * vT / D (k + 1) +
    12 * (P (k + 2) - P (k + 1)) / D (k + 1) ^ 2) / (β + 6 / D (k + 1)) with hw
  have hw' : w * (β + 6 / D (k + 1)) = aT - α - 6 * vT / D (k + 1) +
    12 * (P (k + 2) - P (k + 1)) / D (k + 1) ^ 2 := by rw [hw, div_mul_cancel₀ _ hden.ne']
  obtain ⟨s1, s2, s3, s4, s5, s6⟩ := quartic_spec hT.ne' (P (k + 1)) w (α + β * w) (P (k + 2)) vT
  refine ⟨_, FitEq_of_chain (hc.snoc _ s1 s4 (by rw [c1, s2]) (by rw [c2, s3])) v0 a0 vT aT
    (by simpa using c0) (by simpa using c0') (by simpa using s5) ?_⟩
  simp only [if_true]
  rw [s6]
  have : 6 * (w + vT) / D (k + 1) = w * (6 / D (k + 1)) + 6 * vT / D (k + 1) := by ring
  rw [this]
  linear_combination hw'

/-- Acceleration formulation, order 5, any number of segments: rest at every junction. -/
theorem solvable_acc5 (n : ℕ) (hn : 0 < n) (D P : ℕ → K) (hD : ∀ j, 0 < D j) (v0 a0 vT aT : K) :
    ∃ x, FitEq .o5 n D P [v0, a0] [vT, aT] x := by
  obtain ⟨k, rfl⟩ : ∃ k, n = k + 1 := ⟨n - 1, by omega⟩
  let V : ℕ → K := fun j => if j = 0 then v0 else if j = k + 1 then vT else 0
  let A : ℕ → K := fun j => if j = 0 then a0 else if j = k + 1 then aT else 0
  have q := fun j => quintic_spec (hD j).ne' (P j) (V j) (A j) (P (j + 1)) (V (j + 1)) (A (j + 1))
  refine ⟨_, FitEq_of_chain (c := fun j => quintic (D j) (P j) (V j) (A j) (P (j + 1)) (V (j + 1))
    (A (j + 1))) (k := k) ⟨fun j _ => (q j).1, fun j _ => (q j).2.2.2.1,
      fun j _ => ?_, fun j _ => ?_⟩ v0 a0 vT aT ?_ ?_ ?_ ?_⟩
  · rw [(q j).2.2.2.2.1, (q (j + 1)).2.1]
  · rw [(q j).2.2.2.2.2, (q (j + 1)).2.2.1]
  · rw [(q 0).2.1]; simp [V]
  · rw [(q 0).2.2.1]; simp [A]
  · rw [(q k).2.2.2.2.1]; simp [V]
  · rw [(q k).2.2.2.2.2]; simp [A]

end Verif.Container
