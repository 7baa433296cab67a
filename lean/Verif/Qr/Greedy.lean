import Verif.Qr.Basic

/-!
# Which columns get a pivot

The pivots of the factorisation are those of exact orthogonalisation: at every step the column farthest from
the span of the columns chosen so far. The residuals, up to a common factor, are rational when the matrix
is, so the choice can be checked by computing with integers.
-/

set_option linter.unusedSectionVars false
set_option linter.dupNamespace false

namespace Verif.Qr

open Finset

/-- Reflections keep inner products. -/
theorem applyAll_inner {rows : ℕ} (l : List Reflection) (hg : ∀ h ∈ l, h.Good rows) (x y : ℕ → ℝ) :
    ∑ i ∈ range rows, applyAll rows l x i * applyAll rows l y i = ∑ i ∈ range rows, x i * y i := by
  have h := applyAll_length l hg (fun i => 1 * x i + 1 * y i)
  rw [applyAll_lin] at h
  have hx := applyAll_length l hg x
  have hy := applyAll_length l hg y
  have e : ∀ u v : ℕ → ℝ, ∑ i ∈ range rows, (1 * u i + 1 * v i) ^ 2 =
      ∑ i ∈ range rows, u i ^ 2 + 2 * ∑ i ∈ range rows, u i * v i + ∑ i ∈ range rows, v i ^ 2 := by
    intro u v
    rw [mul_sum, ← sum_add_distrib, ← sum_add_distrib]
    exact sum_congr rfl fun i _ => by ring
  rw [e, e] at h
  linarith

/-- From its first row on, a reflection looks only at the entries from there on. -/
theorem Reflection.apply_tail {rows : ℕ} (h : Reflection) {x y : ℕ → ℝ} (e : ∀ i, h.k ≤ i → i < rows → x i = y i)
    (i : ℕ) (hk : h.k ≤ i) (hi : i < rows) : h.apply rows x i = h.apply rows y i := by
  simp only [Reflection.apply]
  rw [e i hk hi, sum_congr rfl fun m hm => by rw [e m (mem_Ico.1 hm).1 (mem_Ico.1 hm).2]]

/-- `W q` is, up to the factor `a`, the part of column `q` orthogonal to the first `k` pivot columns. -/
structure Residual (rows cols k : ℕ) (F : Factor) (a : ℝ) (W : ℕ → ℕ → ℝ) : Prop where
  ne : a ≠ 0
  rest : ∀ j, k ≤ j → j < cols → ∀ i < rows,
    applyAll rows F.refl (W (F.perm j)) i = a * if k ≤ i then F.R i j else 0
  done : ∀ j < k, ∀ i < rows, W (F.perm j) i = 0

theorem residual_norm {rows cols k : ℕ} {A : ℕ → ℕ → ℝ} {F : Factor} (hI : Inv rows cols A k F) {a : ℝ}
    {W : ℕ → ℕ → ℝ} (hW : Residual rows cols k F a W) (hk : k ≤ rows) {j : ℕ} (h1 : k ≤ j) (h2 : j < cols) :
    ∑ i ∈ range rows, W (F.perm j) i ^ 2 = a ^ 2 * tail2 rows k fun i => F.R i j := by
  rw [← applyAll_length F.refl hI.good, ← sum_range_add_sum_Ico _ hk, tail2, mul_sum]
  rw [sum_eq_zero (s := range k), zero_add]
  · refine sum_congr rfl fun i hi => ?_
    have := mem_Ico.1 hi
    rw [hW.rest j h1 h2 i this.2, if_pos this.1, mul_pow]
  · intro i hi
    have := mem_range.1 hi
    rw [hW.rest j h1 h2 i (by omega), if_neg (by omega)]
    ring

/-- The column of largest residual gets the next pivot. -/
theorem residual_pivot {rows cols k : ℕ} {A : ℕ → ℕ → ℝ} {F : Factor} (hI : Inv rows cols A k F) {a : ℝ}
    {W : ℕ → ℕ → ℝ} (hW : Residual rows cols k F a W) (hr : k < rows) (hc : k < cols) {q : ℕ} (hq : q < cols)
    (hpos : 0 < ∑ i ∈ range rows, W q i ^ 2)
    (hmax : ∀ r < cols, r ≠ q → ∑ i ∈ range rows, W r i ^ 2 < ∑ i ∈ range rows, W q i ^ 2) :
    F.perm (pivot rows cols k F.R) = q ∧ tail2 rows k (fun i => F.R i (pivot rows cols k F.R)) ≠ 0 := by
  obtain ⟨p1, p2, p3⟩ := pivot_spec rows cols k F.R hc
  have hj : F.perm.symm q < cols := (hI.perm _).1 (by simpa using hq)
  have hjk : k ≤ F.perm.symm q := by
    by_contra hlt
    have h0 := hW.done (F.perm.symm q) (by omega)
    rw [Equiv.apply_symm_apply] at h0
    rw [sum_eq_zero fun i hi => by rw [h0 i (mem_range.1 hi)]; norm_num] at hpos
    exact lt_irrefl _ hpos
  have n1 := residual_norm hI hW hr.le hjk hj
  have n2 := residual_norm hI hW hr.le p1 p2
  rw [Equiv.apply_symm_apply] at n1
  have ha : 0 < a ^ 2 := by have := hW.ne; positivity
  have hle := mul_le_mul_of_nonneg_left (p3 _ hjk hj) ha.le
  rw [← n1, ← n2] at hle
  refine ⟨?_, fun h0 => ?_⟩
  · by_contra hne
    exact absurd (hmax _ ((hI.perm _).2 p2) hne) (not_lt.2 hle)
  · rw [h0, mul_zero] at n2
    rw [n2] at hle
    exact absurd hpos (not_lt.2 hle)

/-- One step of the orthogonalisation. -/
theorem residual_step {rows cols k : ℕ} {A : ℕ → ℕ → ℝ} {F : Factor} (hI : Inv rows cols A k F) {a : ℝ}
    {W W' : ℕ → ℕ → ℝ} (hW : Residual rows cols k F a W) (hr : k < rows) (hc : k < cols)
    (h0 : tail2 rows k (fun i => F.R i (pivot rows cols k F.R)) ≠ 0) {c : ℝ} (hc0 : c ≠ 0)
    (hW' : ∀ q < cols, ∀ i < rows, c * W' q i =
      (∑ m ∈ range rows, W (F.perm (pivot rows cols k F.R)) m ^ 2) * W q i -
      (∑ m ∈ range rows, W q m * W (F.perm (pivot rows cols k F.R)) m) *
        W (F.perm (pivot rows cols k F.R)) i) (e : ℕ) :
    ∃ a', Residual rows cols (k + 1)
      ⟨fun i j => (makeHouseholder rows k (fun i => F.R i (Equiv.swap k (pivot rows cols k F.R) k))).apply
          rows (fun i => F.R i (Equiv.swap k (pivot rows cols k F.R) j)) i,
        (Equiv.swap k (pivot rows cols k F.R)).trans F.perm,
        F.refl ++ [makeHouseholder rows k (fun i => F.R i (Equiv.swap k (pivot rows cols k F.R) k))],
        e⟩ a' W' := by
  have hn2 : ∑ m ∈ range rows, W (F.perm (pivot rows cols k F.R)) m ^ 2 =
      a ^ 2 * tail2 rows k fun i => F.R i (pivot rows cols k F.R) :=
    residual_norm hI hW hr.le (pivot_spec rows cols k F.R hc).1 (pivot_spec rows cols k F.R hc).2.1
  have hI' := step_inv hI hr hc h0 e
  obtain ⟨p1, p2, -⟩ := pivot_spec rows cols k F.R hc
  have hsw : Equiv.swap k (pivot rows cols k F.R) k = pivot rows cols k F.R :=
    Equiv.swap_apply_left k _
  rw [hsw] at hI' ⊢
  generalize pivot rows cols k F.R = p at *
  obtain ⟨s1, s2, s3, s4⟩ := makeHouseholder_spec rows k (fun i => F.R i p) hr
  have s4 := s4 h0
  generalize makeHouseholder rows k (fun i => F.R i p) = h at *
  have hN : (∑ m ∈ range rows, W (F.perm p) m ^ 2) ≠ 0 := by
    rw [hn2]; exact mul_ne_zero (pow_ne_zero _ hW.ne) h0
  have hlow : ∀ j, j < k → Equiv.swap k p j = j := fun j hj =>
    Equiv.swap_apply_of_ne_of_ne (by omega) (by omega)
  generalize hNd : (∑ m ∈ range rows, W (F.perm p) m ^ 2) = N at *
  have hzero : ∀ q < cols, ∀ i < rows, (W q i = 0 ∧ ∀ m < rows, W q m = 0) → W' q i = 0 := by
    intro q hq i hi ⟨h1, h2⟩
    have := hW' q hq i hi
    rw [h1, sum_eq_zero fun m hm => by rw [h2 m (mem_range.1 hm), zero_mul], mul_zero, zero_mul, sub_zero] at this
    exact (mul_eq_zero.1 this).resolve_left hc0
  refine ⟨a * N / c, ⟨div_ne_zero (mul_ne_zero hW.ne hN) hc0, ?_, ?_⟩⟩
  · intro j hj hjc i hi
    simp only [applyAll_append, Equiv.trans_apply]
    generalize hjj : Equiv.swap k p j = j'
    have hj' : k ≤ j' ∧ j' < cols ∧ j' ≠ p := by
      rw [← hjj]
      refine ⟨?_, (swap_lt hc p2 j).2 hjc, fun he => ?_⟩
      · rw [Equiv.swap_apply_def]
        split
        · omega
        · split <;> omega
      · have : Equiv.swap k p j = Equiv.swap k p k := by rw [he, hsw]
        have := (Equiv.swap k p).injective this
        omega
    have hq : F.perm j' < cols := (hI.perm _).2 hj'.2.1
    generalize hD : ∑ m ∈ range rows, W (F.perm j') m * W (F.perm p) m = D at *
    have hWeq : ∀ i < rows, W' (F.perm j') i = N / c * W (F.perm j') i + -D / c * W (F.perm p) i := by
      intro i hi
      have := hW' _ hq i hi
      rw [hD] at this
      field_simp
      linarith
    have hU := hW.rest j' hj'.1 hj'.2.1
    have hV := hW.rest p p1 p2
    have hcong : ∀ i < rows, applyAll rows F.refl (W' (F.perm j')) i =
        N / c * applyAll rows F.refl (W (F.perm j')) i + -D / c * applyAll rows F.refl (W (F.perm p)) i := by
      have hg : ∀ (l : List Reflection) (x y : ℕ → ℝ), (∀ i < rows, x i = y i) →
          ∀ i < rows, applyAll rows l x i = applyAll rows l y i := by
        intro l
        induction l with
        | nil => exact fun x y h => h
        | cons g l ih => exact fun x y h => ih _ _ (Reflection.apply_congr g h)
      intro i hi
      rw [hg F.refl _ _ hWeq i hi]
      exact congrFun (applyAll_lin rows F.refl (N / c) (-D / c) (W (F.perm j')) (W (F.perm p))) i
    have hgood : ∀ g ∈ F.refl ++ [h], g.Good rows := hI'.good
    have hin1 := applyAll_inner (F.refl ++ [h]) hgood (W (F.perm j')) (W (F.perm p))
    have hin2 := applyAll_inner (F.refl ++ [h]) hgood (W (F.perm p)) (W (F.perm p))
    rw [applyAll_append, applyAll_append, hD] at hin1
    rw [applyAll_append] at hin2
    generalize applyAll rows F.refl (W (F.perm j')) = U at *
    generalize applyAll rows F.refl (W (F.perm p)) = V at *
    have hVlow : ∀ i < rows, i < k → h.apply rows V i = 0 := by
      intro i hi hik
      rw [Reflection.apply, if_neg (by omega), hV i hi, if_neg (by omega), mul_zero]
    have hsc : ∀ (x y : ℕ → ℝ), (∀ i < rows, x i = a * if k ≤ i then y i else 0) → ∀ i, k ≤ i → i < rows →
        h.apply rows x i = a * h.apply rows y i := by
      intro x y hxy i hki hi
      have h1 : h.apply rows x i = h.apply rows (fun i => a * y i + 0 * y i) i :=
        Reflection.apply_tail h (fun m hm hm' => by
          rw [hxy m hm', if_pos (by omega)]
          ring) i (by omega) hi
      rw [h1, Reflection.apply_lin]
      ring
    have hVhigh : ∀ i < rows, k < i → h.apply rows V i = 0 := by
      intro i hi hki
      rw [hsc V (fun i => F.R i p) hV i hki.le hi, s3 i hki hi, mul_zero]
    have hsingle : ∀ x : ℕ → ℝ, ∑ i ∈ range rows, x i * h.apply rows V i = x k * h.apply rows V k := by
      intro x
      refine sum_eq_single k (fun i hi hik => ?_) fun hn => absurd (mem_range.2 hr) hn
      have := mem_range.1 hi
      rcases Nat.lt_or_gt_of_ne hik with h' | h'
      · rw [hVlow i this h', mul_zero]
      · rw [hVhigh i this h', mul_zero]
    rw [hsingle] at hin1 hin2
    have hN2 : N = h.apply rows V k * h.apply rows V k := by
      rw [hin2, ← hNd]
      exact sum_congr rfl fun i _ => by ring
    rw [Reflection.apply_congr h hcong i hi, Reflection.apply_lin]
    beta_reduce
    by_cases hik : i < k
    · rw [if_neg (by omega), hVlow i hi hik, Reflection.apply, if_neg (by omega), hU i hi, if_neg (by omega)]
      ring
    · have hUi := hsc U (fun i => F.R i j') hU i (by omega) hi
      by_cases hik' : i = k
      · subst hik'
        rw [if_neg (by omega), ← hin1, hN2]
        ring
      · rw [if_pos (by omega), hVhigh i hi (by omega), hUi]
        ring
  · intro j hj i hi
    rcases Nat.lt_succ_iff_lt_or_eq.1 hj with hj | rfl
    · simp only [Equiv.trans_apply, hlow j hj]
      exact hzero _ ((hI.perm _).2 (by omega)) i hi ⟨hW.done j hj i hi, hW.done j hj⟩
    · simp only [Equiv.trans_apply, hsw]
      have := hW' _ ((hI.perm p).2 p2) i hi
      have hs : ∑ m ∈ range rows, W (F.perm p) m * W (F.perm p) m = N := by
        rw [← hNd]
        exact sum_congr rfl fun m _ => by ring
      rw [hs, sub_self] at this
      exact (mul_eq_zero.1 this).resolve_left hc0

/-! ## Integer certificates -/

/-- Entry `i` of column `q` of a table. -/
def entry (Z : List (List ℤ)) (q i : ℕ) : ℤ := (Z.getD q []).getD i 0

/-- Inner product of the first `n` entries of two columns. -/
def dot (Z : List (List ℤ)) (q r : ℕ) : ℕ → ℤ
  | 0 => 0
  | n + 1 => dot Z q r n + entry Z q n * entry Z r n

/-- One step checked: column `p` of `Z` is the longest, and `c` times `Z'` is the orthogonalisation of `Z`
against it, times its squared length. -/
def Step (rows cols : ℕ) (Z : List (List ℤ)) (p : ℕ) (c : ℤ) (Z' : List (List ℤ)) : Prop :=
  c ≠ 0 ∧ p < cols ∧ 0 < dot Z p p rows ∧ ∀ q < cols, (q = p ∨ dot Z q q rows < dot Z p p rows) ∧
    ∀ i < rows, c * entry Z' q i = dot Z p p rows * entry Z q i - dot Z q p rows * entry Z p i

instance (rows cols : ℕ) (Z : List (List ℤ)) (p : ℕ) (c : ℤ) (Z' : List (List ℤ)) :
    Decidable (Step rows cols Z p c Z') := by unfold Step; infer_instance

/-- The columns of a table as real vectors. -/
def real (Z : List (List ℤ)) (q i : ℕ) : ℝ := (entry Z q i : ℝ)

theorem dot_real (Z : List (List ℤ)) (q r n : ℕ) :
    ∑ i ∈ range n, real Z q i * real Z r i = (dot Z q r n : ℝ) := by
  induction n with
  | zero => simp [dot]
  | succ n ih => rw [sum_range_succ, ih, dot, real, real]; push_cast; ring

theorem norm_real (Z : List (List ℤ)) (q n : ℕ) : ∑ i ∈ range n, real Z q i ^ 2 = (dot Z q q n : ℝ) := by
  rw [← dot_real]
  exact sum_congr rfl fun i _ => by ring

theorem factorLoop_pivots {rows cols : ℕ} {A : ℕ → ℕ → ℝ} (Z : ℕ → List (List ℤ)) (p : ℕ → ℕ) (c : ℕ → ℤ) :
    ∀ (n k : ℕ) (F : Factor) (a : ℝ), Inv rows cols A k F → Residual rows cols k F a (real (Z k)) →
    n + k = min rows cols → (∀ m, k ≤ m → m < k + n → Step rows cols (Z m) (p m) (c m) (Z (m + 1))) →
    (factorLoop rows cols n k F).rank = k + n ∧
    (∀ j < k, (factorLoop rows cols n k F).perm j = F.perm j) ∧
    ∀ m, k ≤ m → m < k + n → (factorLoop rows cols n k F).perm m = p m
  | 0, k, F, a, _, _, _, _ => ⟨rfl, fun _ _ => rfl, fun m h1 h2 => by omega⟩
  | n + 1, k, F, a, hI, hW, hn, hs => by
    have hr : k < rows := by omega
    have hc : k < cols := by omega
    obtain ⟨t1, t2, t3, t4⟩ := hs k le_rfl (by omega)
    obtain ⟨q1, q2⟩ := residual_pivot hI hW hr hc t2 (by rw [norm_real]; exact_mod_cast t3) (by
      intro r hrc hne
      rw [norm_real, norm_real]
      exact_mod_cast (t4 r hrc).1.resolve_left hne)
    obtain ⟨a', hW'⟩ := residual_step (W' := real (Z (k + 1))) hI hW hr hc q2 (c := (c k : ℝ))
      (by exact_mod_cast t1) (by
        intro q hq i hi
        rw [q1, norm_real, dot_real]
        simp only [real]
        exact_mod_cast (t4 q hq).2 i hi) k
    have ih := factorLoop_pivots Z p c n (k + 1) _ a' (step_inv hI hr hc q2 k) hW' (by omega)
      (fun m h1 h2 => hs m (by omega) (by omega))
    rw [factorLoop]
    simp only
    rw [if_neg q2]
    obtain ⟨i1, i2, i3⟩ := ih
    refine ⟨by rw [i1]; omega, fun j hj => ?_, fun m h1 h2 => ?_⟩
    · rw [i2 j (by omega)]
      simp only [Equiv.trans_apply]
      rw [Equiv.swap_apply_of_ne_of_ne (by omega)
        (by have := (pivot_spec rows cols k F.R hc).1; omega)]
    · rcases Nat.eq_or_lt_of_le h1 with rfl | h1
      · rw [i2 k (by omega)]
        simp only [Equiv.trans_apply, Equiv.swap_apply_left]
        exact q1
      · exact i3 m (by omega) (by omega)

/-- A checked certificate says which columns get a pivot. -/
theorem pivots_of_certificate {rows cols : ℕ} {A : ℕ → ℕ → ℝ} (Z : ℕ → List (List ℤ)) (p : ℕ → ℕ) (c : ℕ → ℤ)
    (a : ℝ) (ha : a ≠ 0) (hA : ∀ q < cols, ∀ i < rows, real (Z 0) q i = a * A i q)
    (hs : ∀ m < min rows cols, Step rows cols (Z m) (p m) (c m) (Z (m + 1))) (q : ℕ) :
    q ∈ pivots rows cols A ↔ ∃ m < min rows cols, p m = q := by
  obtain ⟨h1, -, h3⟩ := factorLoop_pivots (A := A) Z p c (min rows cols) 0 ⟨A, Equiv.refl ℕ, [], 0⟩ a
    ⟨by simp, by simp, fun _ _ _ => rfl, by simp, by simp⟩
    ⟨ha, fun j _ hj i hi => by simpa [applyAll] using hA j hj i hi, fun j hj => by omega⟩ (by simp)
    (fun m _ hm => hs m (by omega))
  change (factor rows cols A).perm.symm q < (factor rows cols A).rank ↔ _
  have h1 : (factor rows cols A).rank = min rows cols := by rw [factor, h1, Nat.zero_add]
  have h3 : ∀ m < min rows cols, (factor rows cols A).perm m = p m := fun m hm => by
    rw [factor]; exact h3 m (by omega) (by omega)
  rw [h1]
  constructor
  · intro hq
    exact ⟨_, hq, by rw [← h3 _ hq]; simp⟩
  · rintro ⟨m, hm, rfl⟩
    rw [← h3 m hm]
    simpa using hm

end Verif.Qr
