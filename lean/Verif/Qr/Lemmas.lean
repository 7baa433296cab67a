import Verif.Qr.Model
import Mathlib.Tactic.Ring
import Mathlib.Tactic.FieldSimp
import Mathlib.Tactic.Linarith
import Mathlib.Tactic.LinearCombination

/-!
# Lemmas about the QR factorisation
-/

set_option linter.unusedSectionVars false
set_option linter.dupNamespace false

namespace Verif.Qr

open Finset

theorem tail2_nonneg (rows k : ℕ) (x : ℕ → ℝ) : 0 ≤ tail2 rows k x :=
  sum_nonneg fun _ _ => sq_nonneg _

theorem tail2_eq_zero {rows k : ℕ} {x : ℕ → ℝ} (h : tail2 rows k x = 0) (i : ℕ) (hk : k ≤ i)
    (hr : i < rows) : x i = 0 := by
  have := (sum_eq_zero_iff_of_nonneg fun _ _ => sq_nonneg _).1 h i (mem_Ico.2 ⟨hk, hr⟩)
  exact pow_eq_zero_iff (two_ne_zero) |>.1 this

theorem tail2_split {rows k : ℕ} (x : ℕ → ℝ) (hk : k < rows) :
    tail2 rows k x = x k ^ 2 + tail2 rows (k + 1) x :=
  sum_eq_sum_Ico_succ_bot hk _

/-! ## Reflections -/

/-- What makes a reflection keep lengths. -/
def Reflection.Good (rows : ℕ) (h : Reflection) : Prop :=
  h.tau * (h.tau * tail2 rows h.k h.v - 2) = 0

/-- A reflection is linear. -/
theorem Reflection.apply_lin (rows : ℕ) (h : Reflection) (r s : ℝ) (x y : ℕ → ℝ) :
    h.apply rows (fun i => r * x i + s * y i) =
      fun i => r * h.apply rows x i + s * h.apply rows y i := by
  funext i
  simp only [Reflection.apply]
  split
  · have : ∑ m ∈ Ico h.k rows, h.v m * (r * x m + s * y m) =
        r * ∑ m ∈ Ico h.k rows, h.v m * x m + s * ∑ m ∈ Ico h.k rows, h.v m * y m := by
      rw [mul_sum, mul_sum, ← sum_add_distrib]
      exact sum_congr rfl fun m _ => by ring
    rw [this]
    ring
  · rfl

/-- A reflection keeps the length. -/
theorem Reflection.apply_length {rows : ℕ} {h : Reflection} (hg : h.Good rows) (x : ℕ → ℝ) :
    ∑ i ∈ range rows, h.apply rows x i ^ 2 = ∑ i ∈ range rows, x i ^ 2 := by
  by_cases hk : h.k ≤ rows
  · rw [← sum_range_add_sum_Ico _ hk, ← sum_range_add_sum_Ico (fun i => x i ^ 2) hk]
    congr 1
    · refine sum_congr rfl fun i hi => ?_
      rw [Reflection.apply, if_neg (by have := mem_range.1 hi; omega)]
    · set w := ∑ m ∈ Ico h.k rows, h.v m * x m with hw
      have e : ∀ i ∈ Ico h.k rows, h.apply rows x i ^ 2 =
          x i ^ 2 + (h.tau * w) * (h.tau * w * h.v i ^ 2 - 2 * (h.v i * x i)) := by
        intro i hi
        rw [Reflection.apply, if_pos (mem_Ico.1 hi), ← hw]
        ring
      rw [sum_congr rfl e, sum_add_distrib, ← mul_sum, sum_sub_distrib, ← mul_sum, ← mul_sum, ← hw]
      have := hg
      simp only [Reflection.Good, tail2] at this
      linear_combination w ^ 2 * this
  · refine sum_congr rfl fun i hi => ?_
    rw [Reflection.apply, if_neg (by have := mem_range.1 hi; omega)]

/-- `beta` of `makeHouseholder` is not zero and has the sign opposite to that of the first entry. -/
theorem beta_spec (c q : ℝ) (hq : 0 < q) :
    ∃ β : ℝ, (if 0 ≤ c then -√(c ^ 2 + q) else √(c ^ 2 + q)) = β ∧ β ≠ 0 ∧ c - β ≠ 0 ∧ β ^ 2 = c ^ 2 + q := by
  have hp : 0 < c ^ 2 + q := by positivity
  have hs := Real.sqrt_pos.2 hp
  have h2 := Real.sq_sqrt hp.le
  refine ⟨_, rfl, ?_, ?_, ?_⟩
  · split <;> simp [hs.ne']
  · split <;> rename_i h
    · have : 0 < c - -√(c ^ 2 + q) := by linarith
      exact this.ne'
    · have : c - √(c ^ 2 + q) < 0 := by linarith [not_le.1 h]
      exact this.ne
  · split
    · rw [neg_sq, h2]
    · exact h2

/-- The three things `makeHouseholder` is for. -/
theorem makeHouseholder_spec (rows k : ℕ) (x : ℕ → ℝ) (hk : k < rows) :
    (makeHouseholder rows k x).k = k ∧ (makeHouseholder rows k x).Good rows ∧
      (∀ i, k < i → i < rows → (makeHouseholder rows k x).apply rows x i = 0) ∧
      (tail2 rows k x ≠ 0 → (makeHouseholder rows k x).apply rows x k ≠ 0) := by
  unfold makeHouseholder
  by_cases h0 : tail2 rows (k + 1) x = 0
  · rw [if_pos h0]
    refine ⟨rfl, by simp [Reflection.Good], fun i hi hr => ?_, fun h => ?_⟩
    · simp only [Reflection.apply, zero_mul, sub_zero, ite_self]
      exact tail2_eq_zero h0 i hi hr
    · simp only [Reflection.apply, zero_mul, sub_zero, ite_self]
      rw [tail2_split x hk, h0, add_zero] at h
      exact fun h' => h (by rw [h']; norm_num)
  · rw [if_neg h0]
    have hq : 0 < tail2 rows (k + 1) x := lt_of_le_of_ne (tail2_nonneg _ _ _) (Ne.symm h0)
    obtain ⟨β, hβ, b0, b1, b2⟩ := beta_spec (x k) _ hq
    simp only [hβ]
    set v : ℕ → ℝ := fun i => if i = k then 1 else x i / (x k - β) with hv
    have vk : v k = 1 := by simp [hv]
    have vi : ∀ i, k < i → v i = x i / (x k - β) := fun i hi => by
      simp [hv, show i ≠ k by omega]
    have t1 : tail2 rows (k + 1) v = tail2 rows (k + 1) x / (x k - β) ^ 2 := by
      rw [tail2, tail2, sum_div]
      refine sum_congr rfl fun i hi => ?_
      rw [vi i (by have := (mem_Ico.1 hi).1; omega), div_pow]
    have t2 : ∑ m ∈ Ico k rows, v m * x m = -β := by
      rw [sum_eq_sum_Ico_succ_bot hk, vk]
      have : ∑ m ∈ Ico (k + 1) rows, v m * x m = tail2 rows (k + 1) x / (x k - β) := by
        rw [tail2, sum_div]
        refine sum_congr rfl fun i hi => ?_
        rw [vi i (by have := (mem_Ico.1 hi).1; omega)]
        ring
      rw [this]
      field_simp
      linear_combination -b2
    refine ⟨trivial, ?_, ?_, ?_⟩
    · simp only [Reflection.Good]
      rw [tail2_split v hk, vk, t1]
      have : (β - x k) / β * (1 ^ 2 + tail2 rows (k + 1) x / (x k - β) ^ 2) - 2 = 0 := by
        have e : tail2 rows (k + 1) x = β ^ 2 - x k ^ 2 := by linarith
        rw [e]
        field_simp
        ring
      rw [this, mul_zero]
    · intro i hi hr
      simp only [Reflection.apply]
      rw [if_pos ⟨hi.le, hr⟩, t2, vi i hi]
      field_simp
      ring
    · intro _
      simp only [Reflection.apply]
      rw [if_pos ⟨le_refl k, hk⟩, t2, vk]
      have : x k - (β - x k) / β * 1 * -β = β := by
        field_simp
        ring
      rw [this]
      exact b0

/-! ## The pivot -/

theorem pivotLoop_spec (rows k : ℕ) (A : ℕ → ℕ → ℝ) : ∀ (n j p : ℕ), k ≤ p → p < j →
    (∀ q, k ≤ q → q < j → tail2 rows k (fun i => A i q) ≤ tail2 rows k (fun i => A i p)) →
    k ≤ pivotLoop rows k A n j p ∧ pivotLoop rows k A n j p < j + n ∧
      ∀ q, k ≤ q → q < j + n → tail2 rows k (fun i => A i q) ≤
        tail2 rows k (fun i => A i (pivotLoop rows k A n j p))
  | 0, j, p, h1, h2, h3 => ⟨h1, h2, h3⟩
  | n + 1, j, p, h1, h2, h3 => by
    rw [pivotLoop]
    have := pivotLoop_spec rows k A n (j + 1)
      (if tail2 rows k (fun i => A i p) < tail2 rows k (fun i => A i j) then j else p)
      (by split <;> omega) (by split <;> omega) (by
        intro q hq hj
        split <;> rename_i h
        · rcases Nat.lt_succ_iff_lt_or_eq.1 hj with h' | rfl
          · exact (h3 q hq h').trans h.le
          · exact le_refl _
        · rcases Nat.lt_succ_iff_lt_or_eq.1 hj with h' | rfl
          · exact h3 q hq h'
          · exact not_lt.1 h)
    obtain ⟨a, b, c⟩ := this
    exact ⟨a, by omega, fun q hq hj => c q hq (by omega)⟩

theorem pivot_spec (rows cols k : ℕ) (A : ℕ → ℕ → ℝ) (hk : k < cols) :
    k ≤ pivot rows cols k A ∧ pivot rows cols k A < cols ∧
      ∀ q, k ≤ q → q < cols → tail2 rows k (fun i => A i q) ≤
        tail2 rows k (fun i => A i (pivot rows cols k A)) := by
  obtain ⟨a, b, c⟩ := pivotLoop_spec rows k A (cols - (k + 1)) (k + 1) k le_rfl (by omega) (by
    intro q h1 h2
    rw [show q = k by omega])
  exact ⟨a, by rw [pivot]; omega, fun q h1 h2 => c q h1 (by omega)⟩

/-! ## The factorisation -/

theorem applyAll_append (rows : ℕ) (l : List Reflection) (h : Reflection) (b : ℕ → ℝ) :
    applyAll rows (l ++ [h]) b = h.apply rows (applyAll rows l b) := by
  simp [applyAll]

theorem applyAll_lin (rows : ℕ) : ∀ (l : List Reflection) (r s : ℝ) (x y : ℕ → ℝ),
    applyAll rows l (fun i => r * x i + s * y i) =
      fun i => r * applyAll rows l x i + s * applyAll rows l y i
  | [], _, _, _, _ => rfl
  | h :: l, r, s, x, y => by
    have := applyAll_lin rows l r s (h.apply rows x) (h.apply rows y)
    simp only [applyAll, List.foldl_cons] at this ⊢
    rw [Reflection.apply_lin]
    exact this

theorem applyAll_length {rows : ℕ} : ∀ (l : List Reflection) (_ : ∀ h ∈ l, h.Good rows) (x : ℕ → ℝ),
    ∑ i ∈ range rows, applyAll rows l x i ^ 2 = ∑ i ∈ range rows, x i ^ 2
  | [], _, _ => rfl
  | h :: l, hg, x => by
    have := applyAll_length l (fun h' hh => hg h' (List.mem_cons_of_mem _ hh)) (h.apply rows x)
    simp only [applyAll, List.foldl_cons] at this ⊢
    rw [this, Reflection.apply_length (hg h List.mem_cons_self)]

/-- A reflection looks at the first `rows` entries only. -/
theorem Reflection.apply_congr {rows : ℕ} (h : Reflection) {x y : ℕ → ℝ} (e : ∀ i < rows, x i = y i)
    (i : ℕ) (hi : i < rows) : h.apply rows x i = h.apply rows y i := by
  simp only [Reflection.apply]
  rw [e i hi, sum_congr rfl fun m hm => by rw [e m (mem_Ico.1 hm).2]]

/-- A reflection of a combination of columns. -/
theorem Reflection.apply_sum (rows : ℕ) (h : Reflection) (x : ℕ → ℕ → ℝ) (y : ℕ → ℝ) (n i : ℕ) :
    h.apply rows (fun i => ∑ j ∈ range n, x i j * y j) i =
      ∑ j ∈ range n, h.apply rows (fun i => x i j) i * y j := by
  simp only [Reflection.apply]
  split
  · simp only [sub_mul, sum_sub_distrib]
    congr 1
    simp only [mul_sum, sum_mul]
    rw [sum_comm]
    refine sum_congr rfl fun j _ => sum_congr rfl fun m _ => by ring
  · rfl

/-- What holds of a factorisation after `k` steps. -/
structure Inv (rows cols : ℕ) (A : ℕ → ℕ → ℝ) (k : ℕ) (F : Factor) : Prop where
  good : ∀ h ∈ F.refl, h.Good rows
  perm : ∀ j, F.perm j < cols ↔ j < cols
  same : ∀ (x : ℕ → ℝ), ∀ i < rows, ∑ j ∈ range cols, F.R i j * x (F.perm j) =
    applyAll rows F.refl (fun i => ∑ j ∈ range cols, A i j * x j) i
  diag : ∀ j < k, F.R j j ≠ 0
  lower : ∀ j < k, ∀ i, j < i → i < rows → F.R i j = 0

theorem sum_perm {cols : ℕ} (σ : Equiv.Perm ℕ) (h : ∀ j, σ j < cols ↔ j < cols) (f : ℕ → ℝ) :
    ∑ j ∈ range cols, f (σ j) = ∑ j ∈ range cols, f j := by
  refine sum_bij (fun j _ => σ j) ?_ ?_ ?_ ?_
  · intro j hj; exact mem_range.2 ((h j).2 (mem_range.1 hj))
  · intro a _ b _ e; exact σ.injective e
  · intro j hj
    exact ⟨σ.symm j, mem_range.2 ((h _).1 (by simpa using mem_range.1 hj)), by simp⟩
  · intro j _; rfl

theorem swap_lt {k p cols : ℕ} (hk : k < cols) (hp : p < cols) (j : ℕ) :
    Equiv.swap k p j < cols ↔ j < cols := by
  rw [Equiv.swap_apply_def]
  split
  · subst_vars; exact ⟨fun _ => hk, fun _ => hp⟩
  · split
    · subst_vars; exact ⟨fun _ => hp, fun _ => hk⟩
    · rfl

/-- One step keeps the invariant. -/
theorem step_inv {rows cols : ℕ} {A : ℕ → ℕ → ℝ} {k : ℕ} {F : Factor} (hI : Inv rows cols A k F)
    (hr : k < rows) (hc : k < cols)
    (h0 : tail2 rows k (fun i => F.R i (pivot rows cols k F.R)) ≠ 0) (e : ℕ) :
    Inv rows cols A (k + 1)
      ⟨fun i j => (makeHouseholder rows k (fun i => F.R i (Equiv.swap k (pivot rows cols k F.R) k))).apply
          rows (fun i => F.R i (Equiv.swap k (pivot rows cols k F.R) j)) i,
        (Equiv.swap k (pivot rows cols k F.R)).trans F.perm,
        F.refl ++ [makeHouseholder rows k (fun i => F.R i (Equiv.swap k (pivot rows cols k F.R) k))],
        e⟩ := by
  obtain ⟨p1, p2, -⟩ := pivot_spec rows cols k F.R hc
  generalize pivot rows cols k F.R = p at *
  obtain ⟨s1, s2, s3, s4⟩ := makeHouseholder_spec rows k (fun i => F.R i (Equiv.swap k p k)) hr
  generalize makeHouseholder rows k (fun i => F.R i (Equiv.swap k p k)) = h at *
  have hsw : Equiv.swap k p k = p := Equiv.swap_apply_left k p
  have hlow : ∀ j, j < k → Equiv.swap k p j = j := fun j hj =>
    Equiv.swap_apply_of_ne_of_ne (by omega) (by omega)
  have hfix : ∀ j, j < k → ∀ i < rows, h.apply rows (fun i => F.R i (Equiv.swap k p j)) i = F.R i j := by
    intro j hj i hi
    simp only [hlow j hj, Reflection.apply, s1]
    split
    · rw [sum_eq_zero, mul_zero, sub_zero]
      intro m hm
      have := mem_Ico.1 hm
      rw [hI.lower j hj m (by omega) this.2, mul_zero]
    · rfl
  refine ⟨?_, ?_, ?_, ?_, ?_⟩
  · intro g hg
    rcases List.mem_append.1 hg with hg | hg
    · exact hI.good g hg
    · rw [List.mem_singleton.1 hg]; exact s2
  · intro j
    rw [Equiv.trans_apply, hI.perm, swap_lt hc p2]
  · intro x i hi
    simp only [applyAll_append, Equiv.trans_apply]
    rw [← Reflection.apply_sum rows h (fun i j => F.R i (Equiv.swap k p j))
      (fun j => x (F.perm (Equiv.swap k p j))) cols i]
    refine Reflection.apply_congr h (fun i hi => ?_) i hi
    rw [← hI.same x i hi]
    exact sum_perm (Equiv.swap k p) (swap_lt hc p2) fun j => F.R i j * x (F.perm j)
  · intro j hj
    rcases Nat.lt_succ_iff_lt_or_eq.1 hj with hj | rfl
    · simp only
      rw [hfix j hj j (by omega)]
      exact hI.diag j hj
    · exact s4 (by rw [hsw]; exact h0)
  · intro j hj i hi hir
    rcases Nat.lt_succ_iff_lt_or_eq.1 hj with hj | rfl
    · simp only
      rw [hfix j hj i hir]
      exact hI.lower j hj i hi hir
    · exact s3 i hi hir

/-- What holds of a finished factorisation. -/
structure Done (rows cols : ℕ) (A : ℕ → ℕ → ℝ) (F : Factor) : Prop extends Inv rows cols A F.rank F where
  rank_rows : F.rank ≤ rows
  rank_cols : F.rank ≤ cols
  rest : ∀ i, F.rank ≤ i → i < rows → ∀ j, F.rank ≤ j → j < cols → F.R i j = 0

theorem factorLoop_done {rows cols : ℕ} {A : ℕ → ℕ → ℝ} : ∀ (n k : ℕ) (F : Factor),
    Inv rows cols A k F → n + k = min rows cols → Done rows cols A (factorLoop rows cols n k F)
  | 0, k, F, hI, hn => by
    rw [factorLoop]
    refine ⟨⟨hI.good, hI.perm, hI.same, hI.diag, hI.lower⟩, by simp only; omega, by simp only; omega, ?_⟩
    intro i h1 h2 j h3 h4
    simp only at h1 h3
    omega
  | n + 1, k, F, hI, hn => by
    have hr : k < rows := by omega
    have hc : k < cols := by omega
    rw [factorLoop]
    simp only
    split <;> rename_i h0
    · refine ⟨⟨hI.good, hI.perm, hI.same, hI.diag, hI.lower⟩, hr.le, hc.le, ?_⟩
      intro i h1 h2 j h3 h4
      simp only at h1 h3 ⊢
      have := (pivot_spec rows cols k F.R hc).2.2 j h3 h4
      rw [h0] at this
      exact tail2_eq_zero (x := fun i => F.R i j) (le_antisymm this (tail2_nonneg _ _ _)) i h1 h2
    · exact factorLoop_done n (k + 1) _ (step_inv hI hr hc h0 k) (by omega)

theorem factor_done (rows cols : ℕ) (A : ℕ → ℕ → ℝ) : Done rows cols A (factor rows cols A) :=
  factorLoop_done _ 0 _ ⟨by simp, by simp, fun _ _ _ => rfl, by simp, by simp⟩ (by simp)

/-! ## Substitution -/

theorem back_solves (R : ℕ → ℕ → ℝ) (b : ℕ → ℝ) (r : ℕ) (hd : ∀ j < r, R j j ≠ 0) :
    ∀ m ≤ r, ∀ i, r - m ≤ i → i < r →
      R i i * back R b r m i + ∑ q ∈ Ico (i + 1) r, R i q * back R b r m q = b i
  | 0, _, i, h1, h2 => by omega
  | m + 1, hm, i, h1, h2 => by
    have e : ∀ q, r - (m + 1) < q → back R b r (m + 1) q = back R b r m q := by
      intro q hq
      simp only [back]
      rw [if_neg (by omega)]
    by_cases hi : i = r - (m + 1)
    · have hs : ∑ q ∈ Ico (i + 1) r, R i q * back R b r (m + 1) q =
          ∑ q ∈ Ico (i + 1) r, R i q * back R b r m q :=
        sum_congr rfl fun q hq => by rw [e q (by have := (mem_Ico.1 hq).1; omega)]
      rw [hs]
      simp only [back]
      rw [if_pos hi, ← hi]
      have := hd i h2
      field_simp
      ring
    · rw [e i (by omega), sum_congr rfl fun q hq => by
        rw [e q (by have := (mem_Ico.1 hq).1; omega)]]
      exact back_solves R b r hd m (by omega) i (by omega) h2

theorem back_lin (R : ℕ → ℕ → ℝ) (r s : ℝ) (b b' : ℕ → ℝ) (n : ℕ) : ∀ m,
    back R (fun i => r * b i + s * b' i) n m = fun j => r * back R b n m j + s * back R b' n m j
  | 0 => by funext j; simp [back]
  | m + 1 => by
    funext j
    simp only [back, back_lin R r s b b' n m]
    split
    · have : ∑ q ∈ Ico (n - (m + 1) + 1) n, R (n - (m + 1)) q * (r * back R b n m q + s * back R b' n m q) =
          r * ∑ q ∈ Ico (n - (m + 1) + 1) n, R (n - (m + 1)) q * back R b n m q +
          s * ∑ q ∈ Ico (n - (m + 1) + 1) n, R (n - (m + 1)) q * back R b' n m q := by
        rw [mul_sum, mul_sum, ← sum_add_distrib]
        exact sum_congr rfl fun q _ => by ring
      rw [this]
      ring
    · rfl

end Verif.Qr
