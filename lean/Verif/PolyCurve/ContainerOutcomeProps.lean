import Verif.PolyCurve.LengthProps
import Verif.Container.PlayProps

/-!
# Property C128: exactly which container calls are undefined behaviour

For the spline container, on all its states and all arguments: which calls return and which are undefined behaviour, and
that none aborts or throws. Lists of times and positions may have any lengths and need not be increasing.
-/

set_option linter.unusedSectionVars false
set_option linter.dupNamespace false

namespace Verif.Container

open Verif.Spline Container

/-! ## Outcomes that are a return or undefined behaviour -/

/-- The call returns or is undefined behaviour. -/
def Tame {α : Type} (x : Outcome α) : Prop := x ≠ .abort ∧ x ≠ .throw

section tame

variable {α β : Type}

theorem tame_ok (a : α) : Tame (Outcome.ok a) := ⟨by simp, by simp⟩
theorem tame_ub : Tame (Outcome.ub : Outcome α) := ⟨by simp, by simp⟩

theorem tame_deref (x : Option α) : Tame (Outcome.deref x) := by
  cases x
  · exact tame_ub
  · exact tame_ok _

theorem Tame.bind {x : Outcome α} {f : α → Outcome β} (h : Tame x) (hf : ∀ a, Tame (f a)) : Tame (x >>= f) := by
  cases x with
  | ok a => exact hf a
  | abort => exact absurd rfl h.1
  | throw => exact absurd rfl h.2
  | ub => exact tame_ub

theorem Tame.ub_iff {x : Outcome α} (h : Tame x) : x = .ub ↔ ¬∃ a, x = .ok a := by
  cases x with
  | ok a => simp
  | abort => exact absurd rfl h.1
  | throw => exact absurd rfl h.2
  | ub => simp

end tame

variable {K : Type} [Field K] [LinearOrder K] [IsStrictOrderedRing K] {o : Order}

theorem tame_block (col : ℕ) (v : Vec o K) (s : Sys K) : Tame (s.block col v) := by
  unfold Sys.block
  split
  · exact tame_ok _
  · exact tame_ub

theorem tame_target (x : K) (s : Sys K) : Tame (s.target x) := by
  unfold Sys.target
  split
  · exact tame_ok _
  · exact tame_ub

theorem tame_condition (col : ℕ) (v : Vec o K) (q : Option K) (s : Sys K) : Tame (s.condition col v q) := by
  unfold Sys.condition
  cases q with
  | none => exact tame_ok _
  | some x => exact (tame_block ..).bind fun s => tame_target ..

theorem tame_junction (ds ps : List K) (j : ℕ) (s : Sys K) : Tame (s.addJunction o ds ps j) :=
  (tame_deref _).bind fun _ => (tame_block ..).bind fun _ => (tame_deref _).bind fun _ => (tame_target ..).bind fun _ =>
    (tame_block ..).bind fun _ => (tame_target ..).bind fun _ => (tame_block ..).bind fun _ => (tame_block ..).bind fun _ =>
    (tame_target ..).bind fun _ => (tame_block ..).bind fun _ => (tame_block ..).bind fun _ => tame_target ..

theorem tame_junctions (ds ps : List K) : ∀ (k j : ℕ) (s : Sys K), Tame (s.addJunctions o ds ps k j)
  | 0, _, _ => tame_ok _
  | k + 1, j, s => (tame_junction ds ps j s).bind fun s => tame_junctions ds ps k (j + 1) s

theorem tame_assemble (rows cols nj : ℕ) (ps ds ini fin : List K) :
    Tame (assembleWith o rows cols nj ps ds ini fin) :=
  (tame_deref _).bind fun _ =>
    ((tame_condition ..).bind fun _ => (tame_condition ..).bind fun _ => tame_condition ..).bind fun _ =>
    (tame_deref _).bind fun _ => (tame_deref _).bind fun _ =>
    ((tame_condition ..).bind fun _ => (tame_condition ..).bind fun _ => tame_condition ..).bind fun _ =>
    tame_junctions ..

theorem tame_seg (ts : List K) : ∀ k i, Tame (segDurations ts k i)
  | 0, _ => tame_ok _
  | k + 1, i => (tame_deref _).bind fun _ => (tame_deref _).bind fun _ => by
      split
      · exact tame_ok _
      · exact (tame_seg ts k (i + 1)).bind fun _ => tame_ok _

theorem tame_fitWith (S : RawSolver K) (rows cols nj n : ℕ) (ts ps ini fin : List K) (c : Container o K) :
    Tame (fitWith S rows cols nj n ts ps ini fin c) :=
  (tame_seg ts n 0).bind fun r => by
    cases r with
    | none => exact tame_ok _
    | some ds =>
      refine (tame_assemble ..).bind fun s => ?_
      split
      · exact tame_ok _
      · exact tame_ok _

theorem tame_linearLoop (ts ps : List K) : ∀ (k i : ℕ) (c : Container o K), Tame (linearLoop ts ps k i c)
  | 0, _, _ => tame_ok _
  | k + 1, i, c => (tame_deref _).bind fun _ => (tame_deref _).bind fun _ => by
      split
      · exact tame_ok _
      · exact (tame_deref _).bind fun _ => (tame_deref _).bind fun _ => tame_linearLoop ts ps k (i + 1) _

theorem tame_linear (ts ps : List K) (c : Container o K) : Tame (setDataLinear ts ps c) := by
  unfold setDataLinear
  split
  · exact tame_ok _
  · exact tame_linearLoop ..

theorem tame_vel (S : RawSolver K) (ts ps : List K) (v0 vT : K) (c : Container o K) :
    Tame (setDataVel S ts ps v0 vT c) := by
  unfold setDataVel
  simp only
  split
  · exact tame_ok _
  · split
    · exact tame_linear ..
    · exact tame_fitWith ..

theorem tame_acc (S : RawSolver K) (ts ps : List K) (v0 a0 vT aT : K) (c : Container o K) :
    Tame (setDataAcc S ts ps v0 a0 vT aT c) := by
  unfold setDataAcc
  simp only
  split
  · exact tame_ok _
  · split
    · exact tame_vel ..
    · exact tame_fitWith ..

theorem tame_at' (l : List (Spline o K)) (i : ℤ) : Tame (at' l i) := tame_deref _

theorem tame_advance (dt : K) (c : Container o K) : Tame (c.advance dt) := by
  unfold Container.advance
  simp only
  split
  · exact tame_ok _
  · refine (tame_at' ..).bind fun s => ?_
    split
    · split
      · exact tame_ok _
      · exact tame_ok _
    · exact tame_ok _

theorem tame_step (S : Solver K) (op : Op o K) (c : Container o K) : Tame (step S op c) := by
  cases op with
  | addSpline s => exact tame_ok _
  | reset => exact tame_ok _
  | resetTime => exact tame_ok _
  | advance dt => exact (tame_advance dt c).bind fun _ => tame_ok _
  | setContainerTime t => exact tame_ok _
  | setDataLinear ts ps => exact (tame_linear ts ps c).bind fun _ => tame_ok _
  | setDataVel ts ps v w => exact (tame_vel S.toRawSolver ts ps v w c).bind fun _ => tame_ok _
  | setDataAcc ts ps v a w b => exact (tame_acc S.toRawSolver ts ps v a w b c).bind fun _ => tame_ok _

/-! ## The specification -/

/-- Specification: the straight-line loop runs out of positions. It comes to a segment of positive duration one of whose
end points has no position, having met none of non-positive duration. -/
def LinearShort (ts ps : List K) : Prop :=
  ∃ (m : ℕ) (hm : m + 1 < ts.length), (∀ (j : ℕ) (hj : j ≤ m), ts[j] < ts[j + 1]) ∧ ps.length ≤ m + 1

/-- Specification: the constrained fit runs out of positions. The times are increasing, and there is no position, or an
inner time without position. (A missing last position is not noticed.) -/
def FitShort (ts ps : List K) : Prop := ts.Pairwise (· < ·) ∧ (ps = [] ∨ ps.length + 1 < ts.length)

/-- Specification: exactly the calls that are undefined behaviour. -/
def Undefined (c : Container o K) : Op o K → Prop
  | .advance _ => c.splines ≠ [] ∧ c.time < c.duration ∧ c.idx = -1
  | .setDataLinear ts ps => LinearShort ts ps
  | .setDataVel ts ps _ _ =>
    match o with
    | .o1 | .o2 => ts = [] ∨ LinearShort ts ps
    | .o3 => ts = [] ∨ 2 ≤ ts.length ∧ FitShort ts ps
    | .o4 | .o5 => 2 ≤ ts.length ∧ FitShort ts ps
  | .setDataAcc ts ps _ _ _ _ =>
    match o with
    | .o1 | .o2 => ts = [] ∨ LinearShort ts ps
    | .o3 => ts = [] ∨ 2 ≤ ts.length ∧ FitShort ts ps
    | .o4 | .o5 => 2 ≤ ts.length ∧ FitShort ts ps
  | _ => False

/-- The bounds on sizes: a `setData` with at most 2^28 times. -/
def Sized : Op o K → Prop
  | .setDataLinear ts _ | .setDataVel ts _ _ _ | .setDataAcc ts _ _ _ _ _ => ts.length ≤ 2 ^ 28
  | _ => True

/-! ## The straight-line variant -/

theorem linearLoop_ok_iff (ts ps : List K) : ∀ (k i : ℕ) (c : Container o K), i + k + 1 = ts.length →
    ((∃ r, linearLoop ts ps k i c = .ok r) ↔
      ¬∃ m, i ≤ m ∧ ∃ hm : m + 1 < ts.length, (∀ (j : ℕ) (hj : j ≤ m), i ≤ j → ts[j] < ts[j + 1]) ∧ ps.length ≤ m + 1)
  | 0, i, c, hl => by
    refine iff_of_true ⟨_, rfl⟩ ?_
    rintro ⟨m, h, hm, -⟩
    omega
  | k + 1, i, c, hl => by
    rw [linearLoop, List.getElem?_eq_getElem (show i + 1 < ts.length by omega),
      List.getElem?_eq_getElem (show i < ts.length by omega)]
    simp only [Outcome.deref_some, Outcome.ok_bind]
    split
    · rename_i hle
      refine iff_of_true ⟨_, rfl⟩ ?_
      rintro ⟨m, h, hm, hj, -⟩
      have := hj i h le_rfl
      linarith
    · rename_i hlt
      by_cases hp : ps.length ≤ i + 1
      · refine iff_of_false ?_ (not_not.mpr ⟨i, le_rfl, by omega, fun j hj hi => ?_, hp⟩)
        · rintro ⟨r, hr⟩
          rw [Outcome.bind_eq_ok] at hr
          obtain ⟨p, -, hr⟩ := hr
          rw [List.getElem?_eq_none (show ps.length ≤ i + 1 from hp)] at hr
          simp at hr
        · obtain rfl : j = i := by omega
          linarith
      · rw [List.getElem?_eq_getElem (show i < ps.length by omega),
          List.getElem?_eq_getElem (show i + 1 < ps.length by omega)]
        simp only [Outcome.deref_some, Outcome.ok_bind]
        rw [linearLoop_ok_iff ts ps k (i + 1) _ (by omega), not_iff_not]
        constructor
        · rintro ⟨m, h, hm, hj, hl⟩
          refine ⟨m, by omega, hm, fun j hjm hij => ?_, hl⟩
          by_cases e : j = i
          · subst e; linarith
          · exact hj j hjm (by omega)
        · rintro ⟨m, h, hm, hj, hl⟩
          exact ⟨m, by omega, hm, fun j hjm hij => hj j hjm (by omega), hl⟩

theorem linear_ub_iff (ts ps : List K) (c : Container o K) : setDataLinear ts ps c = .ub ↔ LinearShort ts ps := by
  rw [(tame_linear ts ps c).ub_iff, setDataLinear]
  split
  · rename_i h
    refine iff_of_false (by simp) ?_
    rintro ⟨m, hm, -⟩
    omega
  · rename_i h
    rw [linearLoop_ok_iff ts ps _ _ _ (by omega), not_not]
    constructor
    · rintro ⟨m, -, hm, hj, hl⟩
      exact ⟨m, hm, fun j h => hj j h (by omega), hl⟩
    · rintro ⟨m, hm, hj, hl⟩
      exact ⟨m, by omega, hm, fun j h _ => hj j h, hl⟩

/-! ## The constrained variants -/

theorem junctions_need (ds ps : List K) : ∀ (k j : ℕ) (s s' : Sys K), s.addJunctions o ds ps k j = .ok s' →
    ∀ i, j + 1 ≤ i → i < j + 1 + k → i < ps.length
  | 0, j, _, _, _, i, h1, h2 => by omega
  | k + 1, j, s, s', h, i, h1, h2 => by
    rw [Sys.addJunctions, Outcome.bind_eq_ok] at h
    obtain ⟨s1, e1, h⟩ := h
    by_cases hi : i = j + 1
    · subst hi
      rw [Sys.addJunction, Outcome.bind_eq_ok] at e1
      obtain ⟨d, -, e1⟩ := e1
      rw [Outcome.bind_eq_ok] at e1
      obtain ⟨s2, -, e1⟩ := e1
      rw [Outcome.bind_eq_ok] at e1
      obtain ⟨p, e, -⟩ := e1
      by_contra hc
      rw [List.getElem?_eq_none (show ps.length ≤ j + 1 by omega)] at e
      simp at e
    · exact junctions_need ds ps k (j + 1) s1 s' h i (by omega) (by omega)

/-- A constrained fit that returns has the positions it needs. -/
theorem fit_need (S : RawSolver K) (e : ℕ) (ts ps ini fin : List K) (c : Container o K) (n : ℕ) (hts : ts.length = n + 1)
    (hn : 0 < n) (hb : n < 2 ^ 28) (hinc : ts.Pairwise (· < ·)) (r : Bool × Container o K)
    (h : fit S e ts ps ini fin c = .ok r) : ps ≠ [] ∧ n ≤ ps.length := by
  have hs := segDurations_ok ts hinc n 0 (by omega)
  rw [fit, fitWith, numSplines_eq ts n hts hb, hs] at h
  simp only [Outcome.ok_bind] at h
  rw [Outcome.bind_eq_ok] at h
  obtain ⟨s, h, -⟩ := h
  rw [assembleWith, Outcome.bind_eq_ok] at h
  obtain ⟨p0, h0, h⟩ := h
  rw [Outcome.bind_eq_ok] at h
  obtain ⟨s1, -, h⟩ := h
  rw [Outcome.bind_eq_ok] at h
  obtain ⟨pT, -, h⟩ := h
  rw [Outcome.bind_eq_ok] at h
  obtain ⟨d, -, h⟩ := h
  rw [Outcome.bind_eq_ok] at h
  obtain ⟨s2, -, h⟩ := h
  have hne : ps ≠ [] := by rintro rfl; simp at h0
  refine ⟨hne, ?_⟩
  rw [numJunctions, if_neg (by omega)] at h
  have hl := List.length_pos_iff.mpr hne
  by_cases h1 : n = 1
  · omega
  · have := junctions_need _ _ _ _ _ _ h (n - 1) (by omega) (by omega)
    omega

/-- A list of `n + 1` positions with the ones the fit looks at. -/
theorem padded (ps : List K) (n : ℕ) (hn : 0 < n) (hne : ps ≠ []) (hl : n ≤ ps.length) :
    ∃ ps' : List K, ps'.length = n + 1 ∧ ps.head? = ps'.head? ∧ ps.getLast? = ps'.getLast? ∧
      ∀ i, i < n → ps[i]? = ps'[i]? := by
  refine ⟨ps.take n ++ [ps.getLast hne], by simp [hl], ?_, by simp [List.getLast?_eq_some_getLast hne], ?_⟩
  · cases ps with
    | nil => simp at hne
    | cons a l =>
      obtain ⟨m, rfl⟩ : ∃ m, n = m + 1 := ⟨n - 1, by omega⟩
      simp
  · intro i hi
    rw [List.getElem?_append_left (by simp; omega), List.getElem?_take_of_lt hi]

theorem notInc (ts : List K) (n : ℕ) (hts : ts.length = n + 1) (h : ¬ts.Pairwise (· < ·)) :
    ∃ j < n, knot ts (j + 1) ≤ knot ts j := by
  by_contra hc
  push Not at hc
  apply h
  rw [← List.isChain_iff_pairwise, List.isChain_iff_getElem]
  intro i hi
  have := hc i (by omega)
  rwa [knot_eq (by omega), knot_eq (by omega)] at this

/-- The constrained fit of the container, for the two sets of conditions. -/
theorem fit_ub_iff (S : Solver K) (e : ℕ) (ts ps ini fin : List K) (c : Container o K) (n : ℕ) (hts : ts.length = n + 1)
    (hn : 0 < n) (hb : n < 2 ^ 28)
    (hok : ∀ ps' : List K, ps'.length = n + 1 → ts.Pairwise (· < ·) → ∃ r, fit S e ts ps' ini fin c = .ok r) :
    fit S e ts ps ini fin c = .ub ↔ FitShort ts ps := by
  have ht : Tame (fit S.toRawSolver e ts ps ini fin c) := tame_fitWith ..
  rw [ht.ub_iff]
  by_cases hinc : ts.Pairwise (· < ·)
  · by_cases hs : ps = [] ∨ ps.length + 1 < ts.length
    · refine iff_of_true ?_ ⟨hinc, hs⟩
      rintro ⟨r, hr⟩
      obtain ⟨h1, h2⟩ := fit_need S.toRawSolver e ts ps ini fin c n hts hn hb hinc r hr
      rcases hs with h | h
      · exact h1 h
      · omega
    · refine iff_of_false ?_ (fun h => hs h.2)
      rw [not_not]
      push Not at hs
      obtain ⟨ps', hl, h0, h1, h2⟩ := padded ps n hn hs.1 (by omega)
      rw [PolyCurve.fit_congr S e (by omega) (by omega) ini fin c h0 h1 fun i _ hi => h2 i (by omega)]
      exact hok ps' hl hinc
  · refine iff_of_false ?_ (fun h => hinc h.1)
    rw [not_not]
    exact ⟨_, fit_bad S e ts ps ini fin c n hts hb (notInc ts n hts hinc)⟩

theorem vel_ub_iff (S : Solver K) (ts ps : List K) (v0 vT : K) (c : Container o K) (n : ℕ) (hts : ts.length = n + 1)
    (hn : 0 < n) (hb : n < 2 ^ 28) (ho : 3 ≤ o.deg) : setDataVel S ts ps v0 vT c = .ub ↔ FitShort ts ps := by
  rw [setDataVel_fit S.toRawSolver ts ps v0 vT c n hn hb hts ho]
  refine fit_ub_iff S 2 ts ps _ _ _ n hts hn hb fun ps' hl hinc => ?_
  obtain ⟨c', e, -⟩ := vel_through S ts ps' v0 vT c n hn hb hts hl hinc
  rw [setDataVel_fit S.toRawSolver ts ps' v0 vT c n hn hb hts ho] at e
  exact ⟨_, e⟩

theorem acc_ub_iff (S : Solver K) (ts ps : List K) (v0 a0 vT aT : K) (c : Container o K) (n : ℕ)
    (hts : ts.length = n + 1) (hn : 0 < n) (hb : n < 2 ^ 28) (ho : 3 ≤ o.deg) :
    setDataAcc S ts ps v0 a0 vT aT c = .ub ↔ FitShort ts ps := by
  by_cases h : o.deg = 5 ∨ o.deg = 4 ∧ 2 ≤ n
  · rw [setDataAcc_fit S.toRawSolver ts ps v0 a0 vT aT c n hn hb hts h]
    refine fit_ub_iff S 3 ts ps _ _ _ n hts hn hb fun ps' hl hinc => ?_
    obtain ⟨c', e, -⟩ := acc_through S ts ps' v0 a0 vT aT c n hn hb hts hl hinc
    rw [setDataAcc_fit S.toRawSolver ts ps' v0 a0 vT aT c n hn hb hts h] at e
    exact ⟨_, e⟩
  · have hle : o.deg ≤ 5 := by cases o <;> simp [Order.deg]
    rw [setDataAcc_vel S.toRawSolver ts ps v0 a0 vT aT c n hn hb hts (by omega), vel_ub_iff S ts ps v0 vT c n hts hn hb ho]

theorem acc_linear (S : Solver K) (ts ps : List K) (v0 a0 vT aT : K) (c : Container o K) (n : ℕ)
    (hts : ts.length = n + 1) (hn : 0 < n) (hb : n < 2 ^ 28) (ho : o.deg ≤ 2) :
    setDataAcc S ts ps v0 a0 vT aT c = setDataLinear ts ps c := by
  rw [setDataAcc_vel S.toRawSolver ts ps v0 a0 vT aT c n hn hb hts (by omega),
    setDataVel_linear S.toRawSolver ts ps v0 vT c n hn hb hts ho]

/-- With one time every variant returns false. -/
theorem single (S : Solver K) (t : K) (ps : List K) (v0 a0 vT aT : K) (c : Container o K) :
    setDataVel S [t] ps v0 vT c = .ok (false, c.reset) ∧ setDataAcc S [t] ps v0 a0 vT aT c = .ok (false, c.reset) := by
  constructor <;> simp [setDataVel, setDataAcc, numSplines, sizeMinus1, u32]

/-! ## The cursor -/

/-- What every history keeps of the cursor. -/
structure Placed (c : Container o K) : Prop where
  lo : -1 ≤ c.idx
  hi : c.idx ≤ c.splines.length

theorem Rewound.placed {c : Container o K} (h : Rewound c) : Placed c :=
  ⟨by rw [h.idx]; omega, by rw [h.idx]; omega⟩

theorem findLoop_range (t : K) : ∀ (l : List (Spline o K)) (i : ℕ) (off : K), l ≠ [] →
    (i : ℤ) ≤ (findLoop t l i off).1 ∧ (findLoop t l i off).1 < i + l.length
  | [s], i, off, _ => by
    rw [findLoop]
    split
    · simp
    · simp [findLoop]
  | s :: s' :: l, i, off, _ => by
    rw [findLoop]
    split
    · simp; omega
    · have := findLoop_range t (s' :: l) (i + 1) (if (s' :: l).isEmpty then off else off + s.duration) (by simp)
      push_cast [List.length_cons] at this ⊢
      omega

theorem placed_step (S : Solver K) (op : Op o K) (c c' : Container o K) (h : Placed c) (hs : c.splines.length < 2 ^ 31)
    (e : step S op c = .ok c') : Placed c' := by
  have hset : Rewound c' ∨ c' = c → Placed c' := by
    rintro (h' | rfl)
    · exact h'.placed
    · exact h
  cases op with
  | addSpline s =>
    cases e
    refine ⟨h.lo, ?_⟩
    have := h.hi
    simp [Container.addSpline]; omega
  | reset => cases e; exact (rewound_reset c).placed
  | resetTime => cases e; exact ⟨by simp [Container.resetTime], by simp [Container.resetTime]⟩
  | setContainerTime t =>
    cases e
    by_cases hne : c.splines = []
    · constructor <;> simp [Container.setContainerTime, getActiveSplineIndexAtTime, hne]
    · have := findLoop_range t c.splines 0 0 hne
      have he : c.splines.isEmpty = false := by simpa using hne
      constructor <;> simp only [Container.setContainerTime, getActiveSplineIndexAtTime, he] <;> simp at this ⊢ <;> omega
  | advance dt =>
    rw [step, Outcome.bind_eq_ok] at e
    obtain ⟨⟨b, d⟩, e, e'⟩ := e
    cases e'
    unfold Container.advance at e
    simp only at e
    split at e
    · cases e; exact h
    · rename_i hg
      push Not at hg
      rw [Outcome.bind_eq_ok] at e
      obtain ⟨s, hs', e⟩ := e
      have hlt : c.idx < c.splines.length := by
        have := hg.2.2
        have h1 := h.hi
        by_contra hc
        have h2 : c.idx = c.splines.length := by omega
        apply this
        rw [h2, toSize, if_neg (by omega)]
        simp
      have hlo := h.lo
      have hhi := h.hi
      split at e
      · split at e <;> cases e <;> exact ⟨by simp; omega, by simp; omega⟩
      · cases e; exact ⟨h.lo, h.hi⟩
  | setDataLinear ts ps => exact hset (step_setData S _ c c' (Or.inl ⟨ts, ps, rfl⟩) e)
  | setDataVel ts ps v w => exact hset (step_setData S _ c c' (Or.inr (Or.inl ⟨ts, ps, v, w, rfl⟩)) e)
  | setDataAcc ts ps v a w b => exact hset (step_setData S _ c c' (Or.inr (Or.inr ⟨ts, ps, v, a, w, b, rfl⟩)) e)

theorem toSize_neg_one : toSize (-1) = 2 ^ 64 - 1 := by decide

theorem at'_ub_iff {c : Container o K} (h : Placed c) (hs : c.splines.length < 2 ^ 31)
    (hi : toSize c.idx ≠ c.splines.length) : at' c.splines c.idx = .ub ↔ c.idx = -1 := by
  have hlo := h.lo
  have hhi := h.hi
  by_cases he : c.idx = -1
  · refine iff_of_true ?_ he
    rw [at', he, toSize_neg_one, List.getElem?_eq_none (by omega), Outcome.deref_none]
  · refine iff_of_false ?_ he
    have hk : toSize c.idx < c.splines.length := by
      have : toSize c.idx = c.idx.toNat := by rw [toSize, if_neg (by omega)]
      omega
    rw [at', List.getElem?_eq_getElem hk]
    simp

theorem advance_ub_iff {c : Container o K} (h : Placed c) (hs : c.splines.length < 2 ^ 31) (dt : K) :
    c.advance dt = .ub ↔ c.splines ≠ [] ∧ c.time < c.duration ∧ c.idx = -1 := by
  unfold Container.advance
  simp only
  split
  · rename_i hg
    refine iff_of_false (by simp) ?_
    rintro ⟨h1, h2, h3⟩
    rcases hg with hg | hg | hg
    · exact h1 (by simpa using hg)
    · exact absurd h2 (not_lt.mpr hg)
    · rw [h3, toSize_neg_one] at hg; omega
  · rename_i hg
    push Not at hg
    obtain ⟨g1, g2, g3⟩ := hg
    have h0 := at'_ub_iff h hs g3
    have g1' : c.splines ≠ [] := by simpa using g1
    constructor
    · intro e
      refine ⟨g1', g2, h0.mp ?_⟩
      cases ha : at' c.splines c.idx with
      | ok s =>
        rw [ha] at e
        simp only [Outcome.ok_bind] at e
        split at e
        · split at e <;> cases e
        · cases e
      | ub => rfl
      | abort => exact absurd ha (tame_at' ..).1
      | throw => exact absurd ha (tame_at' ..).2
    · rintro ⟨-, -, h3⟩
      rw [h0.mpr h3]; rfl

/-! ## C128 -/

/-- C128, the calls. On a container with the cursor where histories put it (`C128_placed`) and fewer than 2^31 segments,
with at most 2^28 times: a call is undefined behaviour exactly when `Undefined` says so, it returns otherwise, and it
never aborts or throws. -/
theorem C128_calls (S : Solver K) (op : Op o K) (c : Container o K) (h : -1 ≤ c.idx ∧ c.idx ≤ c.splines.length)
    (hs : c.splines.length < 2 ^ 31) (hz : Sized op) :
    (step S op c = .ub ↔ Undefined c op) ∧ ((∃ c', step S op c = .ok c') ↔ ¬Undefined c op) := by
  have hp : Placed c := ⟨h.1, h.2⟩
  have bind_ub : ∀ x : Outcome (Bool × Container o K), (x >>= fun r => Outcome.ok r.2) = .ub ↔ x = .ub := by
    intro x; cases x <;> simp
  have hub : step S op c = .ub ↔ Undefined c op := by
    cases op with
    | addSpline s => simp [step, Undefined]
    | reset => simp [step, Undefined]
    | resetTime => simp [step, Undefined]
    | setContainerTime t => simp [step, Undefined]
    | advance dt => rw [step, bind_ub, advance_ub_iff hp hs]; rfl
    | setDataLinear ts ps => rw [step, bind_ub, linear_ub_iff]; rfl
    | setDataVel ts ps v w =>
      rw [step, bind_ub]
      simp only [Sized] at hz
      rcases ts with _ | ⟨t, _ | ⟨t', ts⟩⟩
      · cases o
        · exact iff_of_true (C48_container_refuted S ps v 0 w 0 c (by simp)).1 (Or.inl rfl)
        · exact iff_of_true (C48_container_refuted S ps v 0 w 0 c (by simp)).1 (Or.inl rfl)
        · exact iff_of_true (C48_container_refuted S ps v 0 w 0 c (by simp)).1 (Or.inl rfl)
        · rw [((C48_container_partial S ps v 0 w 0 c).2 (by simp)).1]; simp [Undefined]
        · rw [((C48_container_partial S ps v 0 w 0 c).2 (by simp)).1]; simp [Undefined]
      · rw [(single S t ps v 0 w 0 c).1]
        cases o <;> simp [Undefined, LinearShort]
      · have hl : (t :: t' :: ts).length = ts.length + 1 + 1 := rfl
        have hb : ts.length + 1 < 2 ^ 28 := by omega
        cases o
        · rw [setDataVel_linear S.toRawSolver _ ps v w c _ (by omega) hb hl (by simp [Order.deg]), linear_ub_iff]
          simp [Undefined]
        · rw [setDataVel_linear S.toRawSolver _ ps v w c _ (by omega) hb hl (by simp [Order.deg]), linear_ub_iff]
          simp [Undefined]
        all_goals
          rw [vel_ub_iff S _ ps v w c _ hl (by omega) hb (by simp [Order.deg])]
          simp [Undefined]
    | setDataAcc ts ps v a w b =>
      rw [step, bind_ub]
      simp only [Sized] at hz
      rcases ts with _ | ⟨t, _ | ⟨t', ts⟩⟩
      · cases o
        · exact iff_of_true (C48_container_refuted S ps v a w b c (by simp)).2 (Or.inl rfl)
        · exact iff_of_true (C48_container_refuted S ps v a w b c (by simp)).2 (Or.inl rfl)
        · exact iff_of_true (C48_container_refuted S ps v a w b c (by simp)).2 (Or.inl rfl)
        · rw [((C48_container_partial S ps v a w b c).2 (by simp)).2]; simp [Undefined]
        · rw [((C48_container_partial S ps v a w b c).2 (by simp)).2]; simp [Undefined]
      · rw [(single S t ps v a w b c).2]
        cases o <;> simp [Undefined, LinearShort]
      · have hl : (t :: t' :: ts).length = ts.length + 1 + 1 := rfl
        have hb : ts.length + 1 < 2 ^ 28 := by omega
        cases o
        · rw [acc_linear S _ ps v a w b c _ hl (by omega) hb (by simp [Order.deg]), linear_ub_iff]
          simp [Undefined]
        · rw [acc_linear S _ ps v a w b c _ hl (by omega) hb (by simp [Order.deg]), linear_ub_iff]
          simp [Undefined]
        all_goals
          rw [acc_ub_iff S _ ps v a w b c _ hl (by omega) hb (by simp [Order.deg])]
          simp [Undefined]
  refine ⟨hub, ?_⟩
  rw [← hub, (tame_step S op c).ub_iff, not_not]

/-- C128, reading. Under the same conditions: reading position, velocity or acceleration at the cursor is undefined behaviour
exactly when there are segments and the cursor is at -1, and returns otherwise; reading them at a time always returns. -/
theorem C128_reads (c : Container o K) (h : -1 ≤ c.idx ∧ c.idx ≤ c.splines.length) (hs : c.splines.length < 2 ^ 31)
    (q : Quantity) :
    (q.now c = .ub ↔ c.splines ≠ [] ∧ c.idx = -1) ∧ ((∃ x, q.now c = .ok x) ↔ ¬(c.splines ≠ [] ∧ c.idx = -1)) ∧
      ∀ t, ∃ x, q.atTime t c = .ok x := by
  have hp : Placed c := ⟨h.1, h.2⟩
  have hub : q.now c = .ub ↔ c.splines ≠ [] ∧ c.idx = -1 := by
    rw [q.now_eq, current]
    split
    · rename_i he
      exact iff_of_false (by simp) fun hc => hc.1 (by simpa using he)
    · rename_i he
      have hne : c.splines ≠ [] := by simpa using he
      split
      · rename_i hi
        rw [List.getLast?_eq_some_getLast hne]
        refine iff_of_false (by simp) fun hc => ?_
        rw [hc.2, toSize_neg_one] at hi
        omega
      · rename_i hi
        rw [← at'_ub_iff hp hs hi]
        constructor
        · intro e
          refine ⟨hne, ?_⟩
          cases ha : at' c.splines c.idx with
          | ok s => rw [ha] at e; cases e
          | ub => rfl
          | abort => exact absurd ha (tame_at' ..).1
          | throw => exact absurd ha (tame_at' ..).2
        · rintro ⟨-, e⟩
          rw [e]; rfl
  have ht : Tame (q.now c) := by
    rw [q.now_eq, current]
    split
    · exact tame_ok _
    · split
      · exact (tame_deref _).bind fun _ => tame_ok _
      · exact (tame_at' ..).bind fun _ => tame_ok _
  refine ⟨hub, by rw [← hub, ht.ub_iff, not_not], fun t => ?_⟩
  rw [q.atTime_eq, Container.atTime]
  by_cases hne : c.splines = []
  · exact ⟨0, by simp [getActiveSplineIndexAtTime, hne]⟩
  · have hr := findLoop_range t c.splines 0 0 hne
    have he : c.splines.isEmpty = false := by simpa using hne
    simp only [getActiveSplineIndexAtTime, he]
    have h0 : ¬(findLoop t c.splines 0 0).1 < 0 := by omega
    have h1 : ¬(findLoop t c.splines 0 0).1.toNat = c.splines.length := by omega
    have h2 : toSize (findLoop t c.splines 0 0).1 < c.splines.length := by rw [toSize, if_neg h0]; omega
    refine ⟨q.seg c.splines[toSize (findLoop t c.splines 0 0).1] (t - (findLoop t c.splines 0 0).2), ?_⟩
    simp [h0, h1, at', List.getElem?_eq_getElem h2]

/-! ### How many segments a history can make -/

/-- The number of segments a call can add. -/
def weight : Op o K → ℕ
  | .addSpline _ => 1
  | .setDataLinear ts _ | .setDataVel ts _ _ _ | .setDataAcc ts _ _ _ _ _ => ts.length
  | _ => 0

theorem linearLoop_length (ts ps : List K) : ∀ (k i : ℕ) (c c' : Container o K) (b : Bool),
    linearLoop ts ps k i c = .ok (b, c') → c'.splines.length ≤ c.splines.length + k
  | 0, _, c, c', b, h => by cases h; simp
  | k + 1, i, c, c', b, h => by
    rw [linearLoop, Outcome.bind_eq_ok] at h
    obtain ⟨x, -, h⟩ := h
    rw [Outcome.bind_eq_ok] at h
    obtain ⟨y, -, h⟩ := h
    split at h
    · cases h; omega
    · rw [Outcome.bind_eq_ok] at h
      obtain ⟨p, -, h⟩ := h
      rw [Outcome.bind_eq_ok] at h
      obtain ⟨q, -, h⟩ := h
      have := linearLoop_length ts ps k (i + 1) _ c' b h
      simp [Container.addSpline] at this
      omega

theorem linear_length (ts ps : List K) (c c' : Container o K) (b : Bool) (h : setDataLinear ts ps c = .ok (b, c')) :
    c'.splines.length ≤ c.splines.length + ts.length := by
  rw [setDataLinear] at h
  split at h
  · cases h; omega
  · have := linearLoop_length ts ps _ _ _ c' b h
    simp [Container.reset, Container.resetTime] at this
    omega

theorem extract_length (x : ℕ → K) : ∀ (ds : List K) (j : ℕ) (c : Container o K),
    (extract x ds j c).splines.length = c.splines.length + ds.length
  | [], _, _ => rfl
  | d :: ds, j, c => by
    rw [extract, extract_length x ds]
    simp [Container.addSpline]
    omega

theorem seg_length (ts : List K) : ∀ (k i : ℕ) (ds : List K), segDurations ts k i = .ok (some ds) → ds.length ≤ ts.length - i
  | 0, _, ds, h => by cases h; simp
  | k + 1, i, ds, h => by
    rw [segDurations, Outcome.bind_eq_ok] at h
    obtain ⟨x, hx, h⟩ := h
    have hi : i + 1 < ts.length := by
      by_contra hc
      rw [List.getElem?_eq_none (by omega)] at hx
      simp at hx
    rw [Outcome.bind_eq_ok] at h
    obtain ⟨y, -, h⟩ := h
    split at h
    · cases h
    · rw [Outcome.bind_eq_ok] at h
      obtain ⟨r, hr, h⟩ := h
      cases r with
      | none => cases h
      | some ds' =>
        have := seg_length ts k (i + 1) ds' hr
        cases h
        simp only [List.length_cons]
        omega

theorem fitWith_length (S : RawSolver K) (rows cols nj n : ℕ) (ts ps ini fin : List K) (c c' : Container o K) (b : Bool)
    (h : fitWith S rows cols nj n ts ps ini fin c = .ok (b, c')) : c'.splines.length ≤ c.splines.length + ts.length := by
  rw [fitWith, Outcome.bind_eq_ok] at h
  obtain ⟨r, hr, h⟩ := h
  cases r with
  | none => cases h; omega
  | some ds =>
    simp only at h
    rw [Outcome.bind_eq_ok] at h
    obtain ⟨s, -, h⟩ := h
    split at h
    · cases h
      rw [extract_length]
      have := seg_length ts n 0 ds hr
      omega
    · cases h; omega

theorem vel_length (S : RawSolver K) (ts ps : List K) (v0 vT : K) (c c' : Container o K) (b : Bool)
    (h : setDataVel S ts ps v0 vT c = .ok (b, c')) : c'.splines.length ≤ ts.length := by
  have h0 : c.reset.splines.length = 0 := rfl
  rw [setDataVel] at h
  split at h
  · cases h; omega
  · split at h
    · have := linear_length _ _ _ _ _ h; omega
    · have := fitWith_length _ _ _ _ _ _ _ _ _ _ _ _ h; omega

theorem acc_length (S : RawSolver K) (ts ps : List K) (v0 a0 vT aT : K) (c c' : Container o K) (b : Bool)
    (h : setDataAcc S ts ps v0 a0 vT aT c = .ok (b, c')) : c'.splines.length ≤ ts.length := by
  have h0 : c.reset.splines.length = 0 := rfl
  rw [setDataAcc] at h
  split at h
  · cases h; omega
  · split at h
    · exact vel_length _ _ _ _ _ _ _ _ h
    · have := fitWith_length _ _ _ _ _ _ _ _ _ _ _ _ h; omega

theorem step_length (S : Solver K) (op : Op o K) (c c' : Container o K) (h : step S op c = .ok c') :
    c'.splines.length ≤ c.splines.length + weight op := by
  cases op with
  | addSpline s => cases h; simp [Container.addSpline, weight]
  | reset => cases h; simp [Container.reset, Container.resetTime]
  | resetTime => cases h; simp [Container.resetTime]
  | setContainerTime t => cases h; simp [Container.setContainerTime]
  | advance dt =>
    rw [step, Outcome.bind_eq_ok] at h
    obtain ⟨⟨b, d⟩, h, e⟩ := h
    cases e
    have : d.splines = c.splines := by
      unfold Container.advance at h
      simp only at h
      split at h
      · cases h; rfl
      · rw [Outcome.bind_eq_ok] at h
        obtain ⟨s, -, h⟩ := h
        split at h
        · split at h <;> cases h <;> rfl
        · cases h; rfl
    simp [this]
  | setDataLinear ts ps =>
    rw [step, Outcome.bind_eq_ok] at h
    obtain ⟨⟨b, d⟩, h, e⟩ := h
    cases e
    exact linear_length ts ps c d b h
  | setDataVel ts ps v w =>
    rw [step, Outcome.bind_eq_ok] at h
    obtain ⟨⟨b, d⟩, h, e⟩ := h
    cases e
    have := vel_length _ ts ps v w c d b h
    simp only [weight]; omega
  | setDataAcc ts ps v a w b' =>
    rw [step, Outcome.bind_eq_ok] at h
    obtain ⟨⟨b, d⟩, h, e⟩ := h
    cases e
    have := acc_length _ ts ps v a w b' c d b h
    simp only [weight]; omega

theorem run_length (S : Solver K) : ∀ (ops : List (Op o K)) (c c' : Container o K), run S ops c = .ok c' →
    c'.splines.length ≤ c.splines.length + (ops.map weight).sum
  | [], c, c', h => by cases h; simp
  | op :: ops, c, c', h => by
    rw [run, Outcome.bind_eq_ok] at h
    obtain ⟨d, hd, h⟩ := h
    have h1 := step_length S op c d hd
    have h2 := run_length S ops d c' h
    simp only [List.map_cons, List.sum_cons]
    omega

/-- Specification: the sizes a history stays within. At most 2^28 times in each `setData`, and fewer than 2^31 segments
and times in all. -/
def SizedRun (ops : List (Op o K)) : Prop := (∀ op ∈ ops, Sized op) ∧ (ops.map weight).sum < 2 ^ 31

/-- Every history of a new container leaves the cursor at -1, at a segment, or at the end. -/
theorem C128_placed (S : Solver K) (ops : List (Op o K)) (hz : SizedRun ops) (c : Container o K)
    (h : run S ops fresh = .ok c) : -1 ≤ c.idx ∧ c.idx ≤ c.splines.length ∧ c.splines.length < 2 ^ 31 := by
  have hlen : ∀ pre post d, ops = pre ++ post → run S pre (fresh : Container o K) = .ok d → d.splines.length < 2 ^ 31 := by
    intro pre post d e hr
    have := run_length S pre fresh d hr
    have h2 := hz.2
    rw [e, List.map_append, List.sum_append] at h2
    simp only [Container.fresh, Container.reset, Container.resetTime, List.length_nil] at this
    omega
  have hc : Placed c := run_invariant S Placed (fun _ c => c.splines.length < 2 ^ 31)
    (fun op c c' hI hG e => placed_step S op c c' hI hG e) ops fresh c (rewound_reset _).placed
    (fun pre op post d e hr => hlen pre (op :: post) d e hr) h
  exact ⟨hc.lo, hc.hi, hlen ops [] c (by simp) h⟩

/-- C128, histories. A history of a new container is undefined behaviour exactly when it contains a call that is, on the
container reached before it; otherwise it returns. -/
theorem C128_history (S : Solver K) (ops : List (Op o K)) (hz : SizedRun ops) :
    (run S ops (fresh : Container o K) = .ub ↔
      ∃ pre op post d, ops = pre ++ op :: post ∧ run S pre (fresh : Container o K) = .ok d ∧ Undefined d op) ∧
    ((∃ c, run S ops (fresh : Container o K) = .ok c) ∨ run S ops (fresh : Container o K) = .ub) := by
  have run_append : ∀ (l m : List (Op o K)) (c : Container o K), run S (l ++ m) c = (run S l c >>= run S m) := by
    intro l
    induction l with
    | nil => intro m c; rfl
    | cons a l ih =>
      intro m c
      simp only [List.cons_append, run]
      cases step S a c <;> simp [ih]
  have tame_run : ∀ (l : List (Op o K)) (c : Container o K), Tame (run S l c) := by
    intro l
    induction l with
    | nil => intro c; exact tame_ok _
    | cons a l ih => intro c; exact (tame_step S a c).bind fun d => ih d
  have step_iff : ∀ pre op post d, ops = pre ++ op :: post → run S pre (fresh : Container o K) = .ok d →
      (step S op d = .ub ↔ Undefined d op) := by
    intro pre op post d e hr
    have hz' : SizedRun pre := by
      refine ⟨fun x hx => hz.1 x (by rw [e]; simp [hx]), ?_⟩
      have := hz.2
      rw [e, List.map_append, List.sum_append] at this
      omega
    obtain ⟨h1, h2, h3⟩ := C128_placed S pre hz' d hr
    exact (C128_calls S op d ⟨h1, h2⟩ h3 (hz.1 op (by rw [e]; simp))).1
  refine ⟨⟨fun h => ?_, ?_⟩, ?_⟩
  · -- the first call that does not return
    have : ∀ (post pre : List (Op o K)) (d : Container o K), ops = pre ++ post →
        run S pre (fresh : Container o K) = .ok d → run S post d = .ub →
        ∃ pre op post d, ops = pre ++ op :: post ∧ run S pre (fresh : Container o K) = .ok d ∧ Undefined d op := by
      intro post
      induction post with
      | nil => intro pre d _ _ hu; cases hu
      | cons op post ih =>
        intro pre d e hd hu
        cases hst : step S op d with
        | ok d' =>
          rw [run, hst, Outcome.ok_bind] at hu
          refine ih (pre ++ [op]) d' (by rw [e]; simp) ?_ hu
          rw [run_append, hd]
          simp [run, hst]
        | ub => exact ⟨pre, op, post, d, e, hd, (step_iff pre op post d e hd).mp hst⟩
        | abort => exact absurd hst (tame_step S op d).1
        | throw => exact absurd hst (tame_step S op d).2
    exact this ops [] fresh rfl rfl h
  · rintro ⟨pre, op, post, d, e, hd, hu⟩
    have hs := (step_iff pre op post d e hd).mpr hu
    rw [e, run_append, hd]
    simp [run, hs]
  · have := tame_run ops fresh
    cases hr : run S ops (fresh : Container o K) with
    | ok c => exact Or.inl ⟨c, rfl⟩
    | ub => exact Or.inr rfl
    | abort => exact absurd hr this.1
    | throw => exact absurd hr this.2

/-- C128 has instances of both kinds: seeking on an empty container, adding a segment and advancing is undefined behaviour;
a quintic fit in which the last position is missing returns, one in which an inner one is missing too does not. -/
example (S : Solver ℚ) (s : Spline .o5 ℚ) (hs : 1 < s.duration) :
    run S [.setContainerTime 1, .addSpline s, .advance 1] (fresh : Container .o5 ℚ) = .ub ∧
    (∃ c, run S [.setDataVel [0, 1, 2] [5, 6] 0 0] (fresh : Container .o5 ℚ) = .ok c) ∧
    run S [.addSpline s, .setDataVel [0, 1, 2] [5] 0 0] (fresh : Container .o5 ℚ) = .ub := by
  refine ⟨?_, ?_, ?_⟩
  · refine (C128_history S _ ⟨by simp [Sized], by simp [weight]⟩).1.mpr
      ⟨[.setContainerTime 1, .addSpline s], .advance 1, [], _, rfl, rfl, ?_⟩
    refine ⟨by simp [Container.addSpline], ?_, ?_⟩
    · simpa [Container.addSpline, Container.setContainerTime, Container.fresh, Container.reset, Container.resetTime] using hs
    · simp [Container.addSpline, Container.setContainerTime, Container.fresh, Container.reset, Container.resetTime,
        getActiveSplineIndexAtTime]
  · have h := C128_history S [Op.setDataVel (o := .o5) [(0 : ℚ), 1, 2] [5, 6] 0 0] ⟨by simp [Sized], by simp [weight]⟩
    rcases h.2 with h' | h'
    · exact h'
    · obtain ⟨pre, op, post, d, e, -, hu⟩ := h.1.mp h'
      cases pre with
      | nil =>
        simp only [List.nil_append, List.cons.injEq] at e
        rw [← e.1] at hu
        simp [Undefined, FitShort] at hu
      | cons a l => simp at e
  · exact (C128_history S _ ⟨by simp [Sized], by simp [weight]⟩).1.mpr
      ⟨[.addSpline s], .setDataVel [0, 1, 2] [5] 0 0, [], _, rfl, rfl, by simp [Undefined, FitShort]⟩

end Verif.Container
