import Verif.Decimal.Lemmas
import Verif.Hermite.WriteProps
import Verif.Csv.Props

/-!
# Properties C102 and C103: how exact the files of numbers are
-/

set_option linter.unusedSectionVars false
set_option linter.dupNamespace false

namespace Verif.Decimal

open Verif.Csv Verif.Rounding

section
variable {K : Type} [Field K] [LinearOrder K] [IsStrictOrderedRing K] [FloorRing K]

/-- The characters of a printed number. -/
def Numeral (s : Str) : Prop := ∀ c ∈ s, isDigit c = true ∨ c ∈ ['-', '+', '.', 'e']

theorem Numeral.of_digits {s : Str} (h : Digits s) : Numeral s := fun c hc => Or.inl (h c hc)

theorem Numeral.append {s t : Str} (h : Numeral s) (h' : Numeral t) : Numeral (s ++ t) := fun c hc =>
  (List.mem_append.1 hc).elim (h c) (h' c)

theorem Numeral.cons {c : Char} {s : Str} (hc : c ∈ ['-', '+', '.', 'e']) (h : Numeral s) : Numeral (c :: s) :=
  fun d hd => (List.mem_cons.1 hd).elim (fun e => Or.inr (e ▸ hc)) (h d)

theorem Numeral.sign (x : K) : Numeral (sign x) := by
  rw [Decimal.sign]
  split_ifs
  · exact Numeral.cons (by decide) (fun c hc => by simp at hc)
  · exact fun c hc => by simp at hc

theorem Numeral.frac {s : Str} (h : Digits s) : Numeral (frac s) := by
  rw [Decimal.frac]
  split_ifs
  · exact fun c hc => by simp at hc
  · exact Numeral.cons (by decide) (Numeral.of_digits (digits_strip h))

theorem numeral_fixed (x : K) : Numeral (fixed x) :=
  (Numeral.sign x).append ((Numeral.of_digits (digits_nat _)).append
    (Numeral.cons (by decide) (Numeral.of_digits (digits_pad _ _))))

theorem numeral_layout (m : ℕ) (e : ℤ) : Numeral (layout m e) := by
  have ht : ∀ k, Digits ((pad 6 m).take k) := fun k c hc => digits_pad 6 m c (List.mem_of_mem_take hc)
  have hd : ∀ k, Digits ((pad 6 m).drop k) := fun k c hc => digits_pad 6 m c (List.mem_of_mem_drop hc)
  rw [layout]
  by_cases h1 : e < -4 ∨ 6 ≤ e
  · rw [if_pos h1]
    refine ((Numeral.of_digits (ht 1)).append (Numeral.frac (hd 1))).append (Numeral.cons (by decide) ?_)
    refine Numeral.cons ?_ (Numeral.of_digits (digits_pad _ _))
    split_ifs <;> decide
  rw [if_neg h1]
  by_cases h2 : e < 0
  · rw [if_pos h2]
    have hr : Digits (List.replicate (-1 - e).toNat '0' ++ pad 6 m) := by
      intro c hc
      rcases List.mem_append.1 hc with hc | hc
      · rw [List.eq_of_mem_replicate hc]
        decide
      · exact digits_pad 6 m c hc
    exact Numeral.append (s := ['0']) (fun c hc => by simp at hc; subst hc; decide) (Numeral.frac hr)
  · rw [if_neg h2]
    exact (Numeral.of_digits (ht _)).append (Numeral.frac (hd _))

theorem numeral_general (x : K) : Numeral (general x) := by
  rw [general]
  split_ifs
  · exact fun c hc => by simp at hc; subst hc; decide
  · exact (Numeral.sign x).append (numeral_layout _ _)

theorem Numeral.not_mem {s : Str} (h : Numeral s) {c : Char} (h1 : isDigit c = false)
    (h2 : c ∉ ['-', '+', '.', 'e']) : c ∉ s := fun hc => by
  rcases h c hc with h | h
  · rw [h1] at h; cases h
  · exact h2 h

theorem fixed_ne (x : K) : fixed x ≠ [] := by
  intro h
  have := congrArg List.length h
  rw [fixed] at this
  simp at this

theorem general_ne (x : K) : general x ≠ [] := by
  rw [general]
  split_ifs with h
  · simp
  · obtain ⟨c, q, e, -⟩ := layout_head (sci |x|).1 (sci |x|).2
    rw [e]
    simp

variable (K) in
/-- `%lf` is a way of printing as assumed in `Hermite.Lf`. -/
def lf : Hermite.Lf K where
  print := fixed
  print_ne := fixed_ne
  print_space x := (numeral_fixed x).not_mem (by decide) (by decide)
  print_newline x := (numeral_fixed x).not_mem (by decide) (by decide)

/-- `ostringstream` and `atof` are printing and parsing as assumed in `Csv.Fmt`. `R` is the rounding at the end
of `atof`. -/
def fmt (R : Rounding K) : Fmt K where
  print := general
  parse s := R.rnd (decimal s)
  print_ne := general_ne
  print_comma x := (numeral_general x).not_mem (by decide) (by decide)
  print_newline x := (numeral_general x).not_mem (by decide) (by decide)

/-! ## C102 -/

/-- **C102**, one number: what `%lf` prints is within half a millionth, whatever the number. -/
theorem C102_fixed (x : K) : |(decimal (fixed x) : K) - x| ≤ 1 / (2 * 10 ^ 6) := by
  have h := roundEven_near (|x| * 10 ^ 6)
  have h2 : abs ((roundEven (|x| * 10 ^ 6) : K) / 10 ^ 6 - |x|) ≤ 1 / (2 * 10 ^ 6) := by
    have : (roundEven (|x| * 10 ^ 6) : K) / 10 ^ 6 - |x| =
        ((roundEven (|x| * 10 ^ 6) : K) - |x| * 10 ^ 6) / 10 ^ 6 := by
      field_simp
    rw [this, abs_div, abs_of_pos (show (0 : K) < 10 ^ 6 by norm_num), div_le_div_iff₀ (by norm_num) (by norm_num)]
    generalize abs ((roundEven (|x| * 10 ^ 6) : K) - |x| * 10 ^ 6) = a at h
    linarith
  rw [decimal_fixed]
  by_cases hx : x < 0
  · rw [if_pos hx]
    rw [abs_of_neg hx] at h2 ⊢
    rw [← abs_neg]
    convert h2 using 2
    ring
  · rw [if_neg hx]
    rw [abs_of_nonneg (not_lt.1 hx)] at h2 ⊢
    exact h2

/-- **C102**, order: `%lf` keeps the order of numbers, though not strictly. -/
theorem C102_order {x y : K} (h : x ≤ y) : (decimal (fixed x) : K) ≤ decimal (fixed y) := by
  have h6 : (0 : K) < 10 ^ 6 := by norm_num
  have hnn : ∀ z : K, (0 : K) ≤ (roundEven (|z| * 10 ^ 6) : K) / 10 ^ 6 := fun z =>
    div_nonneg (by exact_mod_cast roundEven_nonneg (mul_nonneg (abs_nonneg z) h6.le)) h6.le
  have hm : ∀ {a b : K}, |a| ≤ |b| → (roundEven (|a| * 10 ^ 6) : K) / 10 ^ 6 ≤ (roundEven (|b| * 10 ^ 6) : K) / 10 ^ 6 :=
    fun hab => div_le_div_of_nonneg_right
      (by exact_mod_cast roundEven_mono (mul_le_mul_of_nonneg_right hab h6.le)) h6.le
  rw [decimal_fixed, decimal_fixed]
  by_cases hx : x < 0
  · rw [if_pos hx]
    by_cases hy : y < 0
    · rw [if_pos hy]
      exact neg_le_neg (hm (by rw [abs_of_neg hx, abs_of_neg hy]; linarith))
    · rw [if_neg hy]
      linarith [hnn x, hnn y]
  · rw [if_neg hx, if_neg (fun hy => hx (lt_of_le_of_lt h hy))]
    exact hm (by rw [abs_of_nonneg (not_lt.1 hx), abs_of_nonneg (le_trans (not_lt.1 hx) h)]; exact h)

end

open Verif.Hermite Verif.Kindr

theorem mapM_some {α β : Type} (f : α → Option β) (g : α → β) : ∀ l : List α, (∀ a ∈ l, f a = some (g a)) →
    l.mapM f = some (l.map g) := by
  intro l
  induction l with
  | nil => intro _; rfl
  | cons a l ih =>
    intro h
    rw [List.mapM_cons, h a (by simp), ih fun b hb => h b (by simp [hb])]
    rfl

/-- **C102 (partial).** The repository's MATLAB reader recovers from a file written by
`CubicHermiteSE3Curve::writeEvalToFile(name, m + 2)` its `m + 1` samples: time, position, quaternion, linear and
angular velocity in this order, each within half a millionth, and the times in order. Missing: that
different sample times stay different, see `C102_times_refuted`. -/
theorem C102_file_partial {L : LogMap} {c : SE3} (hr : SE3.Reachable L c) (h2 : 2 ≤ c.m.knots.length)
    (m turns : ℕ) (ht : m + 1 < turns) (fs : FS) (name : Str) (hw : fs.writable name = true) :
    ∃ (p : ℝ → Pose) (v : ℝ → Twist) (fs' : FS) (text : Str) (rows : List (List ℝ)),
      (∀ t, c.getMinTime ≤ t → t ≤ c.getMaxTime →
        c.evaluate L t = .ok (some (p t)) ∧ c.evaluateDerivative L t 1 = .ok (some (v t))) ∧
      c.writeEvalToFile (lf ℝ) L turns fs name (m + 2) = .ok (some (true, fs')) ∧
      fs'.files name = some text ∧ readCurve text = some rows ∧
      List.Forall₂ (fun row (k : ℕ) =>
        let t := c.getMinTime + k * ((c.getMaxTime - c.getMinTime) / (m + 1))
        List.Forall₂ (fun a b => |a - b| ≤ 1 / (2 * 10 ^ 6)) row (SE3.numbers t (p t) (v t)))
        rows (List.range (m + 1)) ∧
      (rows.map fun row => row.getD 0 0).Pairwise (· ≤ ·) := by
  obtain ⟨p, v, fs', text, hpv, e, -, ht', hf⟩ := SE3.C74_samples_partial hr h2 (lf ℝ) m turns ht fs name hw
  let nums : ℕ → List ℝ := fun k =>
    let t := c.getMinTime + k * ((c.getMaxTime - c.getMinTime) / (m + 1))
    SE3.numbers t (p t) (v t)
  have hn : ∀ k, (nums k).length = 14 := fun k => by simp [nums, SE3.numbers]
  have hread : (readCurve text : Option (List (List ℝ))) = some ((List.range (m + 1)).map fun k => (nums k).map fun x => decimal (fixed x)) := by
    have h1 : (readCurve text : Option (List (List ℝ))) = ((fields text).drop 1).mapM fun f =>
        let f := f.filter (· ≠ [])
        if 14 ≤ f.length then some ((f.take 14).map decimal) else none := by
      rw [readCurve, fields, ← List.map_drop, List.mapM_map]
      rfl
    rw [h1, hf, List.drop_one, List.tail_cons, List.mapM_map]
    refine mapM_some _ _ _ fun k _ => ?_
    have h3 : ((nums k).map (lf ℝ).print).filter (fun f => decide (f ≠ [])) = (nums k).map (lf ℝ).print := by
      rw [List.filter_eq_self]
      intro a ha
      obtain ⟨x, -, rfl⟩ := List.mem_map.1 ha
      exact decide_eq_true (fixed_ne x)
    have h4 : ((nums k).map (lf ℝ).print).length = 14 := by rw [List.length_map, hn]
    simp only [Function.comp]
    change (if 14 ≤ (((nums k).map (lf ℝ).print).filter (fun f => decide (f ≠ []))).length then
      some ((((nums k).map (lf ℝ).print).filter (fun f => decide (f ≠ []))).take 14 |>.map decimal) else none) = _
    rw [h3, if_pos h4.ge, List.take_of_length_le h4.le, List.map_map]
    rfl
  refine ⟨p, v, fs', text, _, hpv, e, ht', hread, ?_, ?_⟩
  · rw [List.forall₂_map_left_iff, List.forall₂_same]
    intro k _
    rw [List.forall₂_map_left_iff, List.forall₂_same]
    exact fun x _ => C102_fixed x
  · rw [List.map_map, List.pairwise_map]
    refine List.pairwise_lt_range.imp fun {a b} hab => ?_
    have hlt := Hermite.min_lt_max hr.good.1 h2
    have hd : 0 ≤ (c.getMaxTime - c.getMinTime) / ((m : ℝ) + 1) :=
      div_nonneg (sub_nonneg.2 hlt.le) (by positivity)
    have hab' : (a : ℝ) ≤ b := by exact_mod_cast hab.le
    have := mul_le_mul_of_nonneg_right hab' hd
    exact C102_order (by linarith)

/-- **C102 is false of the code**: if the samples are less than half a microsecond apart and the curve starts at
time 0, the first two times in the file are the same text, so the step the reader computes from them is 0. -/
theorem C102_times_refuted {L : LogMap} {c : SE3} (hr : SE3.Reachable L c) (h2 : 2 ≤ c.m.knots.length)
    (h0 : c.getMinTime = 0) (m turns : ℕ) (hm : 0 < m) (ht : m + 1 < turns)
    (hd : c.getMaxTime / (m + 1) < 1 / (2 * 10 ^ 6)) (fs : FS) (name : Str) (hw : fs.writable name = true) :
    ∃ (fs' : FS) (text : Str) (r0 r1 : List Str) (rest : List (List Str)),
      c.writeEvalToFile (lf ℝ) L turns fs name (m + 2) = .ok (some (true, fs')) ∧
      fs'.files name = some text ∧ fields text = names :: r0 :: r1 :: rest ∧
      r0.head? = some "0.000000".toList ∧ r1.head? = some "0.000000".toList := by
  obtain ⟨p, v, fs', text, hpv, e, -, ht', hf⟩ := SE3.C74_samples_partial hr h2 (lf ℝ) m turns ht fs name hw
  obtain ⟨n, rfl⟩ : ∃ n, m = n + 1 := ⟨m - 1, by omega⟩
  have hlt := Hermite.min_lt_max hr.good.1 h2
  have small : ∀ x : ℝ, 0 ≤ x → x < 1 / (2 * 10 ^ 6) → fixed x = "0.000000".toList := by
    intro x hx hx'
    have : roundEven (|x| * 10 ^ 6) = 0 := by
      refine roundEven_unique ?_
      rw [Int.cast_zero, sub_zero, abs_mul, abs_abs, abs_of_nonneg hx, abs_of_pos (by norm_num)]
      rw [lt_div_iff₀ (by norm_num)] at hx'
      linarith
    rw [fixed, this, sign, if_neg (not_lt.2 hx)]
    decide
  rw [List.range_succ_eq_map, List.range_succ_eq_map] at hf
  simp only [List.map_cons] at hf
  refine ⟨fs', text, _, _, _, e, ht', hf, ?_, ?_⟩
  · simp only [SE3.numbers, List.append_assoc, List.singleton_append, h0,
      Nat.cast_zero, zero_mul, add_zero]
    exact congrArg some (small 0 le_rfl (by norm_num))
  · simp only [SE3.numbers, List.append_assoc, List.singleton_append, h0,
      zero_add, sub_zero]
    refine congrArg some (small _ ?_ ?_)
    · have : (0 : ℝ) < c.getMaxTime := by rw [← h0]; exact hlt
      positivity
    · push_cast at hd ⊢
      simpa using hd

/-- A curve from time 0 to time `d`. -/
noncomputable def brief (d : ℝ) : SE3 :=
  ⟨⟨2, 2⟩, ⟨[⟨0, 0, 1, ⟨⟨0, 1⟩, Twist.zero⟩⟩, ⟨1, d, 2, ⟨⟨![7, 1, 0], 1⟩, Twist.zero⟩⟩],
    [(1, 0), (2, 1)]⟩⟩

theorem brief_reachable (L : LogMap) {d : ℝ} (hd : 0 < d) : SE3.Reachable L (brief d) := by
  refine ⟨⟨0, 0⟩, [.fitDerivatives [0, d] [⟨0, 1⟩, ⟨![7, 1, 0], 1⟩] Twist.zero Twist.zero], ?_, ?_⟩
  · simp [SE3.Op.UnitRotations]
  · simp [SE3.run, SE3.step, SE3.fitCurveWithDerivatives, SE3.fitLoop, SE3.knotDerivative, SE3.fresh, SE3.clear,
      Manager.Mgr.clear, Manager.Mgr.insertCoefficients, Manager.Mgr.insertLoop, Manager.Mgr.insertCoefficient,
      Manager.Mgr.empty, Manager.scanAtTime, Manager.getNextKey, Manager.newAddr, Manager.mapInsert, Manager.kmSet,
      brief, not_le.2 hd, not_lt.2 hd.le, hd]

/-- Five samples of a curve of one microsecond. -/
example (L : LogMap) : ∃ (fs' : FS) (text : Str) (r0 r1 : List Str) (rest : List (List Str)),
    (brief (1 / 10 ^ 6)).writeEvalToFile (lf ℝ) L 9 noFiles ['f'] ((3 : ℕ) + 2) = .ok (some (true, fs')) ∧
    fs'.files ['f'] = some text ∧ fields text = names :: r0 :: r1 :: rest ∧
    r0.head? = some "0.000000".toList ∧ r1.head? = some "0.000000".toList :=
  C102_times_refuted (brief_reachable L (by norm_num)) (by simp [brief, Manager.Mgr.knots]) rfl 3 9 (by omega) (by omega)
    (by change (1 / 10 ^ 6 : ℝ) / _ < _; norm_num) noFiles ['f'] rfl

/-- Three samples of the demo curve, read back. -/
example (L : LogMap) : ∃ (fs' : FS) (text : Str) (rows : List (List ℝ)),
    SE3.demo.writeEvalToFile (lf ℝ) L 9 noFiles ['f'] ((1 : ℕ) + 2) = .ok (some (true, fs')) ∧
    fs'.files ['f'] = some text ∧ readCurve text = some rows ∧ rows.length = 2 := by
  obtain ⟨p, v, fs', text, rows, -, e, h1, h2, h3, -⟩ := C102_file_partial (SE3.demo_reachable L)
    (by simp [SE3.demo, Manager.Mgr.knots]) 1 9 (by omega) noFiles ['f'] rfl
  exact ⟨fs', text, rows, e, h1, h2, h3.length_eq⟩

example : String.ofList (fixed (-1 / 3 : ℚ)) = "-0.333333" ∧ String.ofList (fixed (5 / 2 : ℚ)) = "2.500000" := by
  decide +kernel

/-! ## C103 -/

section
variable {K : Type} [Field K] [LinearOrder K] [IsStrictOrderedRing K] [FloorRing K]

/-- **C103**, one number: what `toString<double>` prints is within five millionths of the number. -/
theorem C103_general (x : K) : |(decimal (general x) : K) - x| ≤ |x| / (2 * 10 ^ 5) := by
  rw [decimal_general]
  rcases lt_trichotomy x 0 with h | h | h
  · rw [if_pos h, abs_of_neg h, ← abs_neg]
    have := sixPos_near (neg_pos.2 h)
    convert this using 2
    ring
  · subst h
    simp
  · rw [if_neg h.le.not_gt, if_neg h.ne', abs_of_pos h]
    exact sixPos_near h

theorem sixPos_pos {x : K} (h : 0 < x) : 0 < sixPos x := lt_of_lt_of_le (ten_zpow_pos _) (sixPos_bounds h).1

/-- **C103**, order: printing keeps the order of numbers, though not strictly. -/
theorem C103_order {x y : K} (h : x ≤ y) : (decimal (general x) : K) ≤ decimal (general y) := by
  rw [decimal_general, decimal_general]
  rcases lt_trichotomy x 0 with hx | hx | hx
  · rw [if_pos hx]
    have := sixPos_pos (neg_pos.2 hx)
    rcases lt_trichotomy y 0 with hy | hy | hy
    · rw [if_pos hy]
      exact neg_le_neg (sixPos_mono (neg_pos.2 hy) (neg_le_neg h))
    · rw [if_neg hy.not_lt, if_pos hy]
      linarith
    · rw [if_neg hy.le.not_gt, if_neg hy.ne']
      linarith [sixPos_pos hy]
  · subst hx
    rw [if_neg (lt_irrefl _), if_pos rfl, if_neg (not_lt.2 h)]
    split_ifs with hy
    · exact le_rfl
    · exact (sixPos_pos (lt_of_le_of_ne h (Ne.symm hy))).le
  · have hy := lt_of_lt_of_le hx h
    rw [if_neg hx.le.not_gt, if_neg hx.ne', if_neg hy.le.not_gt, if_neg hy.ne']
    exact sixPos_mono hx h

theorem roundPos_near {x : K} (hx : 0 < x) : |roundPos x - x| ≤ x / 2 ^ 53 := by
  have hp := two_zpow_pos (K := K) (Int.log 2 x - 52)
  have h1 := roundEven_near (x / 2 ^ (Int.log 2 x - 52))
  have h2 : roundPos x - x = ((roundEven (x / 2 ^ (Int.log 2 x - 52)) : K) - x / 2 ^ (Int.log 2 x - 52)) *
      2 ^ (Int.log 2 x - 52) := by
    rw [sub_mul, div_mul_cancel₀ _ hp.ne', roundPos]
  have h3 := (scaled_bounds hx).1
  rw [le_div_iff₀ hp] at h3
  push_cast at h3
  rw [h2, abs_mul, abs_of_pos hp, le_div_iff₀ (by norm_num)]
  have h4 := mul_le_mul_of_nonneg_right h1 hp.le
  linarith

/-- A number with at most six significant digits has exactly six, some of them zeros. -/
theorem six_digits {m : ℕ} (h0 : 0 < m) (h : m < 10 ^ 6) (k : ℤ) :
    ∃ (m' : ℕ) (e : ℤ), 10 ^ 5 ≤ m' ∧ m' < 10 ^ 6 ∧ (m : K) * 10 ^ k = m' * 10 ^ (e - 5) := by
  have hl : Nat.log 10 m < 6 := Nat.log_lt_of_lt_pow h0.ne' h
  have h1 : 10 ^ Nat.log 10 m ≤ m := Nat.pow_log_le_self 10 h0.ne'
  have h2 : m < 10 ^ (Nat.log 10 m + 1) := Nat.lt_pow_succ_log_self (by norm_num) m
  refine ⟨m * 10 ^ (5 - Nat.log 10 m), k + Nat.log 10 m, ?_, ?_, ?_⟩
  · calc 10 ^ 5 = 10 ^ Nat.log 10 m * 10 ^ (5 - Nat.log 10 m) := by rw [← pow_add]; congr 1; omega
      _ ≤ _ := Nat.mul_le_mul_right _ h1
  · calc _ < 10 ^ (Nat.log 10 m + 1) * 10 ^ (5 - Nat.log 10 m) :=
          Nat.mul_lt_mul_of_pos_right h2 (pow_pos (by norm_num) _)
      _ = 10 ^ 6 := by rw [← pow_add]; congr 1; omega
  · push_cast
    rw [mul_assoc, ← zpow_natCast (10 : K) (5 - Nat.log 10 m), ← zpow_add₀ ten_ne]
    congr 2
    omega

theorem sixPos_short {x : K} {m : ℕ} (h0 : 0 < m) (h : m < 10 ^ 6) {k : ℤ}
    (hx : |x - m * 10 ^ k| ≤ m * 10 ^ k / 2 ^ 53) : sixPos x = m * 10 ^ k := by
  obtain ⟨m', e, h1, h2, h3⟩ := six_digits (K := K) h0 h k
  have hp := ten_zpow_pos (K := K) (e - 6)
  have hd : (0 : K) < m * 10 ^ k := mul_pos (by exact_mod_cast h0) (ten_zpow_pos k)
  have hpos : 0 < x := by
    rw [abs_le] at hx
    have : (m : K) * 10 ^ k / 2 ^ 53 ≤ m * 10 ^ k / 2 := by gcongr; norm_num
    linarith
  have hs : sci x = (m', e) := by
    refine sci_near h1 h2 ?_
    rw [← h3]
    refine lt_of_le_of_lt hx ?_
    rw [h3, show e - 5 = e - 6 + 1 by ring, zpow_add_one₀ ten_ne, div_lt_div_iff₀ (by norm_num) (by norm_num)]
    have c2 : (m' : K) ≤ 10 ^ 6 := by exact_mod_cast h2.le
    have : (m' : K) * (10 ^ (e - 6) * 10) * 2 = (20 * m') * 10 ^ (e - 6) := by ring
    rw [this, mul_comm ((10 : K) ^ (e - 6))]
    exact mul_lt_mul_of_pos_right (lt_of_le_of_lt (mul_le_mul_of_nonneg_left c2 (by norm_num)) (by norm_num)) hp
  have := (sci_spec hpos).2.2
  rw [hs] at this
  rw [← this, h3]

/-- **C103**, exactness: the `double` nearest to a decimal number of at most six significant digits survives
printing and reading. -/
theorem C103_exact {m : ℕ} (h : m < 10 ^ 6) (k : ℤ) (s : Bool) {x : K}
    (hx : x = toDouble (if s then -((m : K) * 10 ^ k) else m * 10 ^ k)) :
    (fmt (double K)).parse ((fmt (double K)).print x) = x := by
  change toDouble (decimal (general x)) = x
  rcases Nat.eq_zero_or_pos m with rfl | h0
  · have : x = 0 := by
      rw [hx, ← toDouble_zero]
      simp
    rw [this, decimal_general, if_neg (lt_irrefl _), if_pos rfl, toDouble_zero]
  · have hd : (0 : K) < m * 10 ^ k := mul_pos (by exact_mod_cast h0) (ten_zpow_pos k)
    cases s
    · simp only [Bool.false_eq_true, if_false] at hx
      have hx' : x = roundPos ((m : K) * 10 ^ k) := by rw [hx, toDouble_pos hd]
      have hp : 0 < x := by rw [hx']; exact roundPos_pos hd
      rw [decimal_general, if_neg hp.le.not_gt, if_neg hp.ne', sixPos_short h0 h (k := k), ← hx]
      rw [hx']
      exact roundPos_near hd
    · simp only [if_true] at hx
      have hx' : -x = roundPos ((m : K) * 10 ^ k) := by
        rw [hx, toDouble_neg (neg_neg_of_pos hd), neg_neg, neg_neg]
      have hp : 0 < -x := by rw [hx']; exact roundPos_pos hd
      rw [decimal_general, if_pos (neg_pos.1 hp), sixPos_short h0 h (k := k), ← hx]
      rw [hx']
      exact roundPos_near hd

/-- **C103 (partial), files.** Vectors of decimal numbers with at most six significant digits that are written
with `writeTimeVectorCSV` come back unchanged from `loadTimeVectorCSV`, in `double` arithmetic. Missing: numbers
with more digits, see `C103_times_refuted`; and the times, see C46. -/
theorem C103_values_partial {fs : FS} {name : Str} (hw : fs.writable name = true) {times : List K}
    {values : List (List K)} (hl : times.length = values.length) (hne : times ≠ []) {dim : ℕ} (hd : 0 < dim)
    (hdim : ∀ v ∈ values, v.length = dim)
    (hx : ∀ v ∈ values, ∀ x ∈ v, ∃ (m : ℕ) (k : ℤ) (s : Bool), m < 10 ^ 6 ∧
      x = toDouble (if s then -((m : K) * 10 ^ k) else m * 10 ^ k)) :
    ∃ fs' ts, writeTimeVectorCSV (fmt (double K)) fs name times values = .ok fs' ∧
      loadTimeVectorCSV (fmt (double K)) fs' name = .ok (ts, values) :=
  C46_values_partial (fmt (double K)) hw hl hne hd hdim fun v hv x hx' => by
    obtain ⟨m, k, s, h, e⟩ := hx v hv x hx'
    exact C103_exact h k s e

/-- **C103 is false of the code**: numbers that agree in their first six digits are printed the same, whatever
their distance. -/
theorem C103_refuted {m : ℕ} (hm : 10 ^ 5 ≤ m) (hm' : m < 10 ^ 6) (e : ℤ) {x y : K}
    (hx : m * 10 ^ (e - 5) ≤ x) (hx' : x < m * 10 ^ (e - 5) + 10 ^ (e - 5) / 2)
    (hy : m * 10 ^ (e - 5) ≤ y) (hy' : y < m * 10 ^ (e - 5) + 10 ^ (e - 5) / 2) :
    general x = general y := by
  have hc : (0 : K) < m * 10 ^ (e - 5) := mul_pos (by exact_mod_cast (by omega : 0 < m)) (ten_zpow_pos _)
  have px := lt_of_lt_of_le hc hx
  have py := lt_of_lt_of_le hc hy
  rw [general, general, if_neg px.ne', if_neg py.ne', abs_of_pos px, abs_of_pos py, sci_cell hm hm' hx hx',
    sci_cell hm hm' hy hy', sign, sign, if_neg px.le.not_gt, if_neg py.le.not_gt]

end

/-- **C103 is false of the code**: times of more than an hour, in seconds since 1970, all give the same file. -/
theorem C103_times_refuted (fs : FS) (name : Str) (values : List (List ℝ)) (times times' : List ℝ)
    (hl : times.length = times'.length)
    (h : ∀ t ∈ times ++ times', 1416160000 ≤ t ∧ t < 1416165000) (R : Rounding ℝ) :
    writeTimeVectorCSV (fmt R) fs name times values = writeTimeVectorCSV (fmt R) fs name times' values := by
  have hp : ∀ t ∈ times ++ times', (general t : Str) = general (1416160000 : ℝ) := by
    intro t ht
    obtain ⟨h1, h2⟩ := h t ht
    refine C103_refuted (m := 141616) (by norm_num) (by norm_num) 9 ?_ ?_ ?_ ?_ <;> norm_num <;> linarith
  have key : ∀ (dim : ℕ) (a b : List ℝ) (vs : List (List ℝ)), a.length = b.length →
      (∀ t ∈ a ++ b, (general t : Str) = general (1416160000 : ℝ)) →
      printRows (fmt R) dim a vs = printRows (fmt R) dim b vs := by
    intro dim a
    induction a with
    | nil =>
      intro b vs hb _
      have : b = [] := by simpa using hb.symm
      rw [this]
    | cons x a ih =>
      intro b vs hb hg
      cases b with
      | nil => simp at hb
      | cons y b =>
        cases vs with
        | nil => rfl
        | cons v vs =>
          have e1 : (fmt R).print x = (fmt R).print y :=
            (hg x (by simp)).trans (hg y (by simp)).symm
          rw [printRows, printRows, e1, ih b vs (by simpa using hb) fun t ht => hg t (by
            rcases List.mem_append.1 ht with h | h <;> simp [h])]
  simp only [writeTimeVectorCSV, hl]
  cases values with
  | nil => rfl
  | cons v vs => simp only [key _ times times' _ hl hp]

/-- Hypotheses met: two stamps a second apart. -/
example (fs : FS) (R : Rounding ℝ) : writeTimeVectorCSV (fmt R) fs ['f'] [1416160000, 1416160001] [[1], [2]] =
    writeTimeVectorCSV (fmt R) fs ['f'] [1416164000, 1416164999] [[1], [2]] :=
  C103_times_refuted fs _ _ [1416160000, 1416160001] [1416164000, 1416164999] rfl (by simp; norm_num) R

/-- Numbers that meet the hypotheses of `C103_values_partial`, and how they are printed. -/
example : (toDouble (1 / 10 : ℚ) = toDouble (((1 : ℕ) : ℚ) * 10 ^ (-1 : ℤ))) ∧
    String.ofList (general (toDouble (1 / 10 : ℚ))) = "0.1" ∧
    String.ofList (general (toDouble (-123456 / 10 ^ 10 : ℚ))) = "-1.23456e-05" ∧
    String.ofList (general (1416160001 : ℚ)) = "1.41616e+09" := by
  decide +kernel

end Verif.Decimal
