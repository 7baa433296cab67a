import Verif.Container.Model
import Verif.Spline.Lemmas

/-! # The equations assembled by `setData`, read as conditions on the segments -/

set_option linter.unusedSectionVars false
set_option linter.dupNamespace false

namespace Verif.Container

open Verif.Spline

variable {K : Type} [Field K] [LinearOrder K] [IsStrictOrderedRing K] {o : Order}

/-- The coefficients of segment `j` inside a solution vector. -/
def seg (o : Order) (x : ℕ → K) (j : ℕ) : Vec o K := fun i => x (Sys.column o j + i)

namespace Sys

/-- The equations entered so far hold for `x`, up to `R` between the two sides. -/
def Sat (R : K → K → Prop) (s : Sys K) (x : ℕ → K) : Prop :=
  ∀ r < s.next, R (∑ c ∈ Finset.range s.cols, s.A r c * x c) (s.b r)

/-- Rows not entered yet are zero. -/
def Clean (s : Sys K) : Prop := ∀ r, s.next ≤ r → ∀ c, s.A r c = 0

theorem sum_block {n : ℕ} (v : Fin n → K) (col cols : ℕ) (h : col + n ≤ cols) (x : ℕ → K) :
    ∑ c ∈ Finset.range cols, (if col ≤ c ∧ c < col + n then row v (c - col) else 0) * x c =
      inner (fun i : Fin n => x (col + i)) v := by
  obtain ⟨m, rfl⟩ := Nat.exists_eq_add_of_le h
  rw [Finset.sum_range_add, Finset.sum_range_add]
  have h1 : ∑ c ∈ Finset.range col,
      (if col ≤ c ∧ c < col + n then row v (c - col) else 0) * x c = 0 := by
    refine Finset.sum_eq_zero fun c hc => ?_
    have := Finset.mem_range.mp hc
    rw [if_neg (by omega), zero_mul]
  have h3 : ∑ c ∈ Finset.range m, (if col ≤ col + n + c ∧ col + n + c < col + n then
      row v (col + n + c - col) else 0) * x (col + n + c) = 0 := by
    refine Finset.sum_eq_zero fun c _ => ?_
    rw [if_neg (by omega), zero_mul]
  rw [h1, h3, Finset.sum_range, zero_add, add_zero]
  unfold inner row
  refine Finset.sum_congr rfl fun i _ => ?_
  have := i.2
  rw [if_pos (by omega)]
  simp [mul_comm]

/-- `out` is `s` with `k` more equations, together equivalent to `E`. -/
def Adds (R : K → K → Prop) (s : Sys K) (k : ℕ) (E : (ℕ → K) → Prop) (out : Outcome (Sys K)) : Prop :=
  ∃ s', out = .ok s' ∧ s'.rows = s.rows ∧ s'.cols = s.cols ∧ s'.next = s.next + k ∧ s'.Clean ∧
    ∀ x, s'.Sat R x ↔ s.Sat R x ∧ E x

theorem Adds.refl {R : K → K → Prop} {s : Sys K} (h : s.Clean) : Adds R s 0 (fun _ => True) (.ok s) :=
  ⟨s, rfl, rfl, rfl, rfl, h, by simp⟩

theorem Adds.bind {R : K → K → Prop} {s : Sys K} {k l : ℕ} {E F : (ℕ → K) → Prop} {out : Outcome (Sys K)}
    {f : Sys K → Outcome (Sys K)} (h : Adds R s k E out)
    (hf : ∀ s' : Sys K, s'.Clean → s'.rows = s.rows → s'.cols = s.cols → s'.next = s.next + k →
      Adds R s' l F (f s')) : Adds R s (k + l) (fun x => E x ∧ F x) (out >>= f) := by
  obtain ⟨s', rfl, hr, hc, hn, hcl, hs⟩ := h
  obtain ⟨s'', e, hr', hc', hn', hcl', hs'⟩ := hf s' hcl hr hc hn
  refine ⟨s'', e, hr'.trans hr, hc'.trans hc, by omega, hcl', fun x => ?_⟩
  rw [hs', hs, and_assoc]

theorem Adds.congr {R : K → K → Prop} {s : Sys K} {k k' : ℕ} {E F : (ℕ → K) → Prop} {out : Outcome (Sys K)}
    (h : Adds R s k E out) (hk : k = k') (hE : ∀ x, E x ↔ F x) : Adds R s k' F out := by
  obtain ⟨s', e, a, b, c, d, f⟩ := h
  exact ⟨s', e, a, b, by omega, d, fun x => by rw [f, hE]⟩

theorem one_block (R : K → K → Prop) (s : Sys K) (hcl : s.Clean) (col : ℕ) (v : Vec o K) (p : K)
    (hr : s.next < s.rows) (hc : col + o.count ≤ s.cols) :
    Adds R s 1 (fun x => R (inner (fun i : Fin o.count => x (col + i)) v) p)
      (s.block col v >>= target p) := by
  simp only [block, hr, hc, and_self, if_true, Outcome.ok_bind, target]
  refine ⟨_, rfl, rfl, rfl, rfl, ?_, ?_⟩
  · intro r hr' c
    simp only at hr' ⊢
    rw [if_neg (by omega)]
    exact hcl r (by omega) c
  · intro x
    unfold Sat
    simp only
    rw [← sum_block v col s.cols hc x]
    have hrow : ∀ c, (if col ≤ c ∧ c < col + o.count then row v (c - col) else s.A s.next c) =
        (if col ≤ c ∧ c < col + o.count then row v (c - col) else 0) := by
      intro c; rw [hcl _ le_rfl]
    constructor
    · intro h
      refine ⟨fun r hr' => ?_, ?_⟩
      · have := h r (by omega)
        simpa only [hr'.ne, false_and, if_false] using this
      · have := h s.next (by omega)
        simpa only [true_and, if_true, hrow] using this
    · rintro ⟨h1, h2⟩ r hr'
      by_cases e : r = s.next
      · subst e
        simpa only [true_and, if_true, hrow] using h2
      · simpa only [e, false_and, if_false] using h1 r (by omega)

theorem two_blocks (R : K → K → Prop) (s : Sys K) (hcl : s.Clean) (col col' : ℕ) (v v' : Vec o K) (p : K)
    (hr : s.next < s.rows) (hcc : col + o.count ≤ col') (hc : col' + o.count ≤ s.cols) :
    Adds R s 1 (fun x => R (inner (fun i : Fin o.count => x (col + i)) v +
        inner (fun i : Fin o.count => x (col' + i)) v') p)
      (s.block col v >>= fun s => s.block col' v' >>= target p) := by
  have hc0 : col + o.count ≤ s.cols := by omega
  simp only [block, hr, hc, hc0, and_self, if_true, Outcome.ok_bind, target]
  have key : ∀ x : ℕ → K, ∑ c ∈ Finset.range s.cols,
      (if col' ≤ c ∧ c < col' + o.count then row v' (c - col') else
        if col ≤ c ∧ c < col + o.count then row v (c - col) else 0) * x c =
      inner (fun i : Fin o.count => x (col + i)) v +
        inner (fun i : Fin o.count => x (col' + i)) v' := by
    intro x
    rw [← sum_block v col s.cols hc0 x, ← sum_block v' col' s.cols hc x, ← Finset.sum_add_distrib]
    refine Finset.sum_congr rfl fun c _ => ?_
    by_cases h1 : col' ≤ c ∧ c < col' + o.count
    · rw [if_pos h1, if_pos h1, if_neg (by omega)]; ring
    · rw [if_neg h1, if_neg h1]; ring
  refine ⟨_, rfl, rfl, rfl, rfl, ?_, ?_⟩
  · intro r hr' c
    simp only at hr' ⊢
    rw [if_neg (by omega), if_neg (by omega)]
    exact hcl r (by omega) c
  · intro x
    unfold Sat
    simp only
    rw [← key x]
    have hrow : ∀ c, (if col' ≤ c ∧ c < col' + o.count then row v' (c - col') else
        if col ≤ c ∧ c < col + o.count then row v (c - col) else s.A s.next c) =
        (if col' ≤ c ∧ c < col' + o.count then row v' (c - col') else
        if col ≤ c ∧ c < col + o.count then row v (c - col) else 0) := by
      intro c; rw [hcl _ le_rfl]
    constructor
    · intro h
      refine ⟨fun r hr' => ?_, ?_⟩
      · have := h r (by omega)
        simpa only [hr'.ne, false_and, if_false] using this
      · have := h s.next (by omega)
        simpa only [true_and, if_true, hrow] using this
    · rintro ⟨h1, h2⟩ r hr'
      by_cases e : r = s.next
      · subst e
        simpa only [true_and, if_true, hrow] using h2
      · simpa only [e, false_and, if_false] using h1 r (by omega)

theorem zero_clean (r c : ℕ) : (zero r c : Sys K).Clean := fun _ _ _ => rfl

/-- The initial conditions on a solution vector, up to `R`. -/
def IniRel (R : K → K → Prop) (o : Order) (ini : List K) (x : ℕ → K) : Prop :=
  (∀ p, ini[0]? = some p → R (inner (seg o x 0) (tauZero o)) p) ∧
  (∀ p, ini[1]? = some p → R (inner (seg o x 0) (dtauZero o)) p) ∧
  (∀ p, ini[2]? = some p → R (inner (seg o x 0) (ddtauZero o)) p)

/-- The initial conditions on a solution vector. -/
def IniEq (o : Order) (ini : List K) (x : ℕ → K) : Prop :=
  (∀ p, ini[0]? = some p → inner (seg o x 0) (tauZero o) = p) ∧
  (∀ p, ini[1]? = some p → inner (seg o x 0) (dtauZero o) = p) ∧
  (∀ p, ini[2]? = some p → inner (seg o x 0) (ddtauZero o) = p)

/-- The final conditions on a solution vector, up to `R`. -/
def FinRel (R : K → K → Prop) (o : Order) (fin : List K) (d : K) (last : ℕ) (x : ℕ → K) : Prop :=
  (∀ p, fin[0]? = some p → R (inner (seg o x last) (tau o d)) p) ∧
  (∀ p, fin[1]? = some p → R (inner (seg o x last) (dtau o d)) p) ∧
  (∀ p, fin[2]? = some p → R (inner (seg o x last) (ddtau o d)) p)

/-- The final conditions on a solution vector. -/
def FinEq (o : Order) (fin : List K) (d : K) (last : ℕ) (x : ℕ → K) : Prop :=
  (∀ p, fin[0]? = some p → inner (seg o x last) (tau o d) = p) ∧
  (∀ p, fin[1]? = some p → inner (seg o x last) (dtau o d) = p) ∧
  (∀ p, fin[2]? = some p → inner (seg o x last) (ddtau o d) = p)

/-- One optional condition. -/
theorem condition_adds (R : K → K → Prop) (s : Sys K) (hcl : s.Clean) (j : ℕ) (v : Vec o K) (q : Option K)
    (hr : s.next + (if q.isSome then 1 else 0) ≤ s.rows) (hc : column o j + o.count ≤ s.cols) :
    Adds R s (if q.isSome then 1 else 0) (fun x => ∀ p, q = some p → R (inner (seg o x j) v) p)
      (s.condition (column o j) v q) := by
  cases q with
  | none => exact (Adds.refl hcl).congr rfl (by simp)
  | some p =>
    simp at hr
    refine (one_block R s hcl (column o j) v p (by omega) hc).congr (by simp) fun x => ?_
    simp only [Option.some.injEq, forall_eq']
    rfl

theorem length_le_three (l : List K) (hl : l.length ≤ 3) : l.length =
    (if l[0]?.isSome then 1 else 0) + ((if l[1]?.isSome then 1 else 0) +
      (if l[2]?.isSome then 1 else 0)) := by
  rcases l with _ | ⟨a, _ | ⟨b, _ | ⟨c, _ | ⟨d, l⟩⟩⟩⟩ <;> simp at hl ⊢
  omega

theorem addInitial_adds (R : K → K → Prop) (s : Sys K) (hcl : s.Clean) (ini : List K) (hl : ini.length ≤ 3)
    (hr : s.next + ini.length ≤ s.rows) (hc : o.count ≤ s.cols) :
    Adds R s ini.length (IniRel R o ini) (s.addInitialConditions o ini) := by
  have hc' : column o 0 + o.count ≤ s.cols := by simpa [column] using hc
  have hlen := length_le_three ini hl
  refine ((condition_adds (o := o) R s hcl 0 (getTimeVectorAtZero o) ini[0]? (by omega) hc').bind
    fun s1 c1 r1 l1 n1 => (condition_adds (o := o) R s1 c1 0 (getDiffTimeVectorAtZero o) ini[1]?
      (by omega) (by omega)).bind fun s2 c2 r2 l2 n2 =>
        condition_adds (o := o) R s2 c2 0 (getDDiffTimeVectorAtZero o) ini[2]?
      (by omega) (by omega)).congr hlen.symm fun x => Iff.rfl

theorem addFinal_adds (R : K → K → Prop) (s : Sys K) (hcl : s.Clean) (fin : List K) (d : K) (last : ℕ)
    (hl : fin.length ≤ 3) (hr : s.next + fin.length ≤ s.rows)
    (hc : column o last + o.count ≤ s.cols) :
    Adds R s fin.length (FinRel R o fin d last) (s.addFinalConditions o fin d last) := by
  have hlen := length_le_three fin hl
  refine ((condition_adds (o := o) R s hcl last (getTimeVector o d) fin[0]? (by omega) hc).bind
    fun s1 c1 r1 l1 n1 => (condition_adds (o := o) R s1 c1 last (getDTimeVector o d) fin[1]?
      (by omega) (by omega)).bind fun s2 c2 r2 l2 n2 =>
        condition_adds (o := o) R s2 c2 last (getDDTimeVector o d) fin[2]?
      (by omega) (by omega)).congr hlen.symm fun x => Iff.rfl

/-- The conditions at the junction after segment `j`, of duration `d`, at position `p`, up to `R`. -/
def JunRel (R : K → K → Prop) (o : Order) (d p : K) (j : ℕ) (x : ℕ → K) : Prop :=
  R (inner (seg o x j) (tau o d)) p ∧ R (inner (seg o x (j + 1)) (tauZero o)) p ∧
  R (inner (seg o x j) (dtau o d) - inner (seg o x (j + 1)) (dtauZero o)) 0 ∧
  R (inner (seg o x j) (ddtau o d) - inner (seg o x (j + 1)) (ddtauZero o)) 0

/-- The conditions at the junction after segment `j`, of duration `d`, at position `p`. -/
def JunEq (o : Order) (d p : K) (j : ℕ) (x : ℕ → K) : Prop :=
  inner (seg o x j) (tau o d) = p ∧ inner (seg o x (j + 1)) (tauZero o) = p ∧
  inner (seg o x j) (dtau o d) = inner (seg o x (j + 1)) (dtauZero o) ∧
  inner (seg o x j) (ddtau o d) = inner (seg o x (j + 1)) (ddtauZero o)

theorem inner_neg (a b : Vec o K) : inner a (-b) = -inner a b := by
  simp [inner, Finset.sum_neg_distrib]

theorem addJunction_adds (R : K → K → Prop) (s : Sys K) (hcl : s.Clean) (ds ps : List K) (j : ℕ) (d p : K)
    (hd : ds[j]? = some d) (hp : ps[j + 1]? = some p) (hr : s.next + 4 ≤ s.rows)
    (hc : column o (j + 1) + o.count ≤ s.cols) :
    Adds R s 4 (JunRel R o d p j) (s.addJunction o ds ps j) := by
  have hcol : column o j + o.count ≤ column o (j + 1) := by simp [column, Nat.succ_mul]
  simp only [addJunction, hd, hp, Outcome.deref_some, Outcome.ok_bind]
  have b1 := one_block (o := o) R s hcl (column o j) (getTimeVector o d) p (by omega) (by omega)
  have b2 := b1.bind (l := 1) (f := fun s => s.block (column o (j + 1)) (getTimeVectorAtZero o) >>=
    target p) fun s1 c1 r1 l1 n1 => one_block (o := o) R s1 c1 _ _ p (by omega) (by omega)
  have b3 := b2.bind (l := 1) (f := fun s => s.block (column o j) (getDTimeVector o d) >>= fun s =>
    s.block (column o (j + 1)) (-getDTimeVectorAtZero o) >>= target 0)
    fun s1 c1 r1 l1 n1 => two_blocks (o := o) R s1 c1 _ _ _ _ 0 (by omega) hcol (by omega)
  have b4 := b3.bind (l := 1) (f := fun s => s.block (column o j) (getDDTimeVector o d) >>= fun s =>
    s.block (column o (j + 1)) (-getDDTimeVectorAtZero o) >>= target 0)
    fun s1 c1 r1 l1 n1 => two_blocks (o := o) R s1 c1 _ _ _ _ 0 (by omega) hcol (by omega)
  have hassoc : ∀ {α β γ : Type} (a : Outcome α) (f : α → Outcome β) (g : β → Outcome γ),
      ((a >>= f) >>= g) = (a >>= fun x => f x >>= g) := by
    intro α β γ a f g; cases a <;> rfl
  simp only [hassoc] at b4
  refine b4.congr rfl fun x => ?_
  simp only [inner_neg, ← sub_eq_add_neg, JunRel, and_assoc]
  rfl

theorem addJunctions_adds (R : K → K → Prop) (ds ps : List K) (D P : ℕ → K) (k : ℕ) : ∀ (j : ℕ) (s : Sys K),
    s.Clean → (∀ i, j ≤ i → i < j + k → ds[i]? = some (D i) ∧ ps[i + 1]? = some (P (i + 1))) →
    s.next + 4 * k ≤ s.rows → column o (j + k) + o.count ≤ s.cols →
    Adds R s (4 * k) (fun x => ∀ i, j ≤ i → i < j + k → JunRel R o (D i) (P (i + 1)) i x)
      (s.addJunctions o ds ps k j) := by
  induction k with
  | zero =>
    intro j s hcl _ _ _
    refine (Adds.refl hcl).congr rfl fun x => ?_
    simp only [true_iff]
    intro i h1 h2; omega
  | succ k ih =>
    intro j s hcl hd hr hc
    have hcol : column o (j + 1) + o.count ≤ column o (j + (k + 1)) + o.count := by
      simp only [column]
      exact Nat.add_le_add_right (Nat.mul_le_mul_right _ (by omega)) _
    have h0 := hd j le_rfl (by omega)
    refine ((addJunction_adds (o := o) R s hcl ds ps j _ _ h0.1 h0.2 (by omega) (by omega)).bind
      (l := 4 * k) (f := fun s => s.addJunctions o ds ps k (j + 1))
      fun s1 c1 r1 l1 n1 => ih (j + 1) s1 c1 (fun i h1 h2 => hd i (by omega) (by omega)) (by omega)
        (by rw [show j + 1 + k = j + (k + 1) by omega]; omega)).congr (by omega) fun x => ?_
    constructor
    · rintro ⟨a, b⟩ i h1 h2
      rcases Nat.eq_or_lt_of_le h1 with rfl | h
      · exact a
      · exact b i h (by omega)
    · intro h
      exact ⟨h j le_rfl (by omega), fun i h1 h2 => h i (by omega) (by omega)⟩

end Sys

open Container

/-- All conditions on the segments of a fit through positions `P 0 ... P n` with durations
`D 0 ... D (n-1)`, up to `R`. -/
def FitRel (R : K → K → Prop) (o : Order) (n : ℕ) (D P : ℕ → K) (ini fin : List K) (x : ℕ → K) :
    Prop :=
  Sys.IniRel R o (P 0 :: ini) x ∧ Sys.FinRel R o (P n :: fin) (D (n - 1)) (n - 1) x ∧
    ∀ j, j + 1 < n → Sys.JunRel R o (D j) (P (j + 1)) j x

/-- All conditions on the segments of a fit through positions `P 0 ... P n` with durations
`D 0 ... D (n-1)`. -/
def FitEq (o : Order) (n : ℕ) (D P : ℕ → K) (ini fin : List K) (x : ℕ → K) : Prop :=
  Sys.IniEq o (P 0 :: ini) x ∧ Sys.FinEq o (P n :: fin) (D (n - 1)) (n - 1) x ∧
    ∀ j, j + 1 < n → Sys.JunEq o (D j) (P (j + 1)) j x

theorem numSplines_eq (ts : List K) (n : ℕ) (h : ts.length = n + 1) (hb : n < 2 ^ 28) :
    numSplines ts = n := by
  have : sizeMinus1 ts.length = n := by unfold sizeMinus1; rw [h, if_neg (by omega)]; rfl
  rw [numSplines, this, u32, Nat.mod_eq_of_lt (by omega)]

theorem numJunctions_eq (n : ℕ) (h : 0 < n) (hb : n < 2 ^ 28) : numJunctions n = n - 1 := by
  rw [numJunctions, if_neg (by omega)]

theorem numConstraints_eq (e n : ℕ) (h : 0 < n) (hb : n < 2 ^ 28) (he : e ≤ 3) :
    numConstraints e n = 4 * (n - 1) + 2 * e := by
  simp only [numConstraints, numJunctions_eq n h hb, u32]
  omega

theorem solutionDim_eq (o : Order) (n : ℕ) (hb : n < 2 ^ 28) : solutionDim o n = n * o.count := by
  simp only [solutionDim, u32]
  have : o.count ≤ 6 := by cases o <;> simp [Order.deg]
  have : n * o.count ≤ n * 6 := Nat.mul_le_mul_left _ this
  omega

/-- What the assembled system says, up to any relation between the sides of the equations. -/
theorem assembleWith_rel (o : Order) (e n R : ℕ) (ps ds ini fin : List K) (D P : ℕ → K)
    (hn : 0 < n) (hR : R = 4 * (n - 1) + 2 * e) (hps : ps.length = n + 1)
    (hds : ds.length = n) (hD : ∀ j < n, ds[j]? = some (D j)) (hP : ∀ j ≤ n, ps[j]? = some (P j))
    (he : 1 ≤ e ∧ e ≤ 3) (hini : ini.length + 1 = e) (hfin : fin.length + 1 = e) :
    ∃ s, assembleWith o R (n * o.count) (n - 1) ps ds ini fin = .ok s ∧ s.next = R ∧
      s.rows = R ∧ s.cols = n * o.count ∧
      ∀ (R' : K → K → Prop) x, (∀ r < s.rows,
        R' (∑ c ∈ Finset.range s.cols, s.A r c * x c) (s.b r)) ↔ FitRel R' o n D P ini fin x := by
  have h0 : ps.head? = some (P 0) := by rw [List.head?_eq_getElem?]; exact hP 0 (by omega)
  have hl : ps.getLast? = some (P n) := by
    rw [List.getLast?_eq_getElem?, hps]; exact hP n le_rfl
  have hdl : ds.getLast? = some (D (n - 1)) := by
    rw [List.getLast?_eq_getElem?, hds]; exact hD (n - 1) (by omega)
  have hmul : (n - 1) * o.count + o.count = n * o.count := by
    rw [← Nat.succ_mul]; congr 1; omega
  have hfl : (P n :: fin).length = e := by simpa using hfin
  have hil : (P 0 :: ini).length = e := by simpa using hini
  have z : (Sys.zero R (n * o.count) : Sys K).next = 0 ∧
    (Sys.zero R (n * o.count) : Sys K).rows = R ∧
    (Sys.zero R (n * o.count) : Sys K).cols = n * o.count := ⟨rfl, rfl, rfl⟩
  have zc : (Sys.zero R (n * o.count) : Sys K).Clean := Sys.zero_clean _ _
  have zs : ∀ (R' : K → K → Prop) x, (Sys.zero R (n * o.count) : Sys K).Sat R' x := fun _ x r hr => absurd hr (by simp [z.1])
  unfold assembleWith
  generalize (Sys.zero R (n * o.count) : Sys K) = s0 at z zc zs ⊢
  obtain ⟨z1, z2, z3⟩ := z
  rw [h0, hl, hdl]
  simp only [Outcome.deref_some, Outcome.ok_bind]
  have hini' := fun R' => Sys.addInitial_adds (o := o) R' s0 zc (P 0 :: ini) (by omega) (by omega)
    (by omega)
  obtain ⟨s1, e1, r1, c1, n1, k1, -⟩ := hini' Eq
  have q1 : ∀ R' x, s1.Sat R' x ↔ _ := fun R' => by
    obtain ⟨s1', e1', -, -, -, -, q⟩ := hini' R'
    cases e1.symm.trans e1'
    exact q
  have hfin' := fun R' => Sys.addFinal_adds (o := o) R' s1 k1 (P n :: fin) (D (n - 1)) (n - 1)
    (by omega) (by omega) (by rw [Sys.column]; omega)
  obtain ⟨s2, e2, r2, c2, n2, k2, -⟩ := hfin' Eq
  have q2 : ∀ R' x, s2.Sat R' x ↔ _ := fun R' => by
    obtain ⟨s2', e2', -, -, -, -, q⟩ := hfin' R'
    cases e2.symm.trans e2'
    exact q
  have hjun' := fun R' => Sys.addJunctions_adds (o := o) R' ds ps D P (n - 1) 0 s2 k2
    (fun i _ h => ⟨hD i (by omega), hP (i + 1) (by omega)⟩) (by omega)
    (by rw [Sys.column, Nat.zero_add]; omega)
  obtain ⟨s3, e3, r3, c3, n3, k3, -⟩ := hjun' Eq
  have q3 : ∀ R' x, s3.Sat R' x ↔ _ := fun R' => by
    obtain ⟨s3', e3', -, -, -, -, q⟩ := hjun' R'
    cases e3.symm.trans e3'
    exact q
  rw [e1, Outcome.ok_bind, e2, Outcome.ok_bind, e3]
  refine ⟨s3, rfl, by omega, by omega, by omega, fun R' x => ?_⟩
  have hnr : s3.rows = s3.next := by omega
  have : (∀ r < s3.rows, R' (∑ c ∈ Finset.range s3.cols, s3.A r c * x c) (s3.b r)) ↔
      s3.Sat R' x := by rw [hnr]; rfl
  rw [this, q3, q2, q1]
  unfold FitRel
  constructor
  · rintro ⟨⟨⟨-, a⟩, b⟩, c⟩
    exact ⟨a, b, fun j hj => c j (by omega) (by omega)⟩
  · rintro ⟨a, b, c⟩
    exact ⟨⟨⟨zs R' x, a⟩, b⟩, fun j _ hj => c j (by omega)⟩

theorem fitRel_eq (o : Order) (n : ℕ) (D P : ℕ → K) (ini fin : List K) (x : ℕ → K) :
    FitRel Eq o n D P ini fin x ↔ FitEq o n D P ini fin x := by
  simp only [FitRel, FitEq, Sys.IniRel, Sys.IniEq, Sys.FinRel, Sys.FinEq, Sys.JunRel, Sys.JunEq,
    sub_eq_zero]

/-- What the assembled system says. -/
theorem assembleWith_eq (o : Order) (e n R : ℕ) (ps ds ini fin : List K) (D P : ℕ → K)
    (hn : 0 < n) (hR : R = 4 * (n - 1) + 2 * e) (hps : ps.length = n + 1)
    (hds : ds.length = n) (hD : ∀ j < n, ds[j]? = some (D j)) (hP : ∀ j ≤ n, ps[j]? = some (P j))
    (he : 1 ≤ e ∧ e ≤ 3) (hini : ini.length + 1 = e) (hfin : fin.length + 1 = e) :
    ∃ s, assembleWith o R (n * o.count) (n - 1) ps ds ini fin = .ok s ∧ s.next = R ∧
      s.rows = R ∧ s.cols = n * o.count ∧
      ∀ x, Solves s.rows s.cols s.A s.b x ↔ FitEq o n D P ini fin x := by
  obtain ⟨s, e1, e2, e3, e4, e5⟩ := assembleWith_rel o e n R ps ds ini fin D P hn hR hps hds hD hP he
    hini hfin
  exact ⟨s, e1, e2, e3, e4, fun x => (e5 Eq x).trans (fitRel_eq o n D P ini fin x)⟩

end Verif.Container
