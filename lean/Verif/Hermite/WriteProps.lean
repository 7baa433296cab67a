import Verif.Hermite.WriteModel
import Verif.Hermite.E3Props
import Verif.Hermite.SE3Props
import Verif.Csv.Lemmas

/-!
# Properties C74 and C75: `writeEvalToFile` of the Hermite curves
-/

set_option linter.unusedSectionVars false
set_option linter.dupNamespace false

namespace Verif.Hermite

open Verif.Csv Verif.Manager Verif.Kindr

section generic
variable {K : Type} [Field K] [LinearOrder K] [IsStrictOrderedRing K]

/-- Reading a file back: its lines, each split at the spaces. -/
def fields (text : Str) : List (List Str) :=
  (getlines '\n' none text).map fun l => getlines ' ' none l

theorem line_fields (P : Lf K) (xs : List K) :
    getlines ' ' none (xs.flatMap fun x => P.print x ++ [' ']) = xs.map P.print := by
  induction xs with
  | nil => rfl
  | cons x xs ih =>
    simp only [List.flatMap_cons, List.append_assoc, List.singleton_append, List.map_cons]
    rw [getlines_sep (P.print_space x), ih]
    rfl

theorem line_newline (P : Lf K) (xs : List K) : '\n' ∉ xs.flatMap fun x => P.print x ++ [' '] := by
  intro h
  obtain ⟨x, -, hx⟩ := List.mem_flatMap.1 h
  rcases List.mem_append.1 hx with h | h
  · exact P.print_newline x h
  · simp at h

theorem fields_lines (P : Lf K) (rows : List (List K)) :
    fields (rows.flatMap (printLine P)) = rows.map (List.map P.print) := by
  induction rows with
  | nil => rfl
  | cons r rows ih =>
    simp only [fields, List.flatMap_cons, printLine, List.append_assoc, List.singleton_append,
      List.map_cons] at *
    rw [getlines_sep (line_newline P r)]
    simp only [Option.getD_none, List.nil_append, List.map_cons, line_fields]
    rw [← ih]

/-- The names in the header. -/
def names : List Str :=
  ["t", "px", "py", "pz", "rw", "rx", "ry", "rz", "vx", "vy", "vz", "wx", "wy", "wz"].map String.toList

theorem fields_header (text : Str) : fields (header ++ text) = names :: fields text := by
  have e : header = "t px py pz rw rx ry rz vx vy vz wx wy wz ".toList ++ ['\n'] := by decide
  rw [fields, e, List.append_assoc, List.singleton_append, getlines_sep (by decide)]
  simp only [List.map_cons]
  rfl

theorem loop_spec (ev : K → Outcome (Option (List K))) (lo d : K) (m : ℕ) (xs : ℕ → List K)
    (hd : 0 < d) (hev : ∀ j < m, ev (lo + j * d) = .ok (some (xs j))) : ∀ (n k : ℕ) (acc : List (List K)),
    m - k < n → k ≤ m →
    evalLoop ev (lo + m * d) (some d) n (lo + k * d) acc =
      .ok (some (true, acc ++ (List.range' k (m - k)).map xs)) := by
  intro n
  induction n with
  | zero => intro k acc h; omega
  | succ n ih =>
    intro k acc h hk
    rw [evalLoop]
    rcases hk.lt_or_eq with hk | rfl
    · have hlt : (k : K) * d < m * d := mul_lt_mul_of_pos_right (by exact_mod_cast hk) hd
      rw [if_pos (by linarith), hev k hk]
      simp only [Outcome.ok_bind]
      have := ih (k + 1) (acc ++ [xs k]) (by omega) (by omega)
      rw [show lo + k * d + d = lo + ((k + 1 : ℕ) : K) * d by push_cast; ring, this,
        show m - k = (m - (k + 1)) + 1 by omega, List.range'_succ]
      simp
    · rw [if_neg (lt_irrefl _)]
      simp

/-- The file a run of the loop leaves. -/
theorem writeEval_of {P : Lf K} {ev : K → Outcome (Option (List K))} {lo hi : K} {turns : ℕ} {fs : FS}
    {name : Str} {N : ℤ} {b : Bool} {rows : List (List K)} (hw : fs.writable name = true)
    (h : evalLoop ev hi (timeStep lo hi N) turns lo [] = .ok (some (b, rows))) :
    ∃ fs', writeEval P ev lo hi turns fs name N = .ok (some (b, fs')) ∧
      (∀ n, n ≠ name → fs'.files n = fs.files n) ∧ ∃ text, fs'.files name = some text ∧
      fields text = names :: rows.map (List.map P.print) := by
  refine ⟨{ fs with files := fun n =>
    if n = name then some (header ++ rows.flatMap (printLine P)) else fs.files n }, ?_,
    fun n hn => if_neg hn, _, if_pos rfl, ?_⟩
  · rw [writeEval, if_pos hw, h]
    rfl
  · rw [fields_header, fields_lines]

/-- What `writeEval` does when the evaluations succeed on the domain, for at least two samples. -/
theorem writeEval_spec (P : Lf K) (ev : K → Outcome (Option (List K))) (lo hi : K) (hlt : lo < hi)
    (f : K → List K) (hev : ∀ t, lo ≤ t → t ≤ hi → ev t = .ok (some (f t))) (m : ℕ)
    (turns : ℕ) (ht : m + 1 < turns) (fs : FS) (name : Str) (hw : fs.writable name = true) :
    ∃ fs', writeEval P ev lo hi turns fs name (m + 2) = .ok (some (true, fs')) ∧
      (∀ n, n ≠ name → fs'.files n = fs.files n) ∧ ∃ text, fs'.files name = some text ∧
      fields text = names :: (List.range (m + 1)).map fun k : ℕ =>
        (f (lo + k * ((hi - lo) / (m + 1)))).map P.print := by
  have hm : (0 : K) < m + 1 := by positivity
  set d := (hi - lo) / (m + 1 : K) with hd
  have hd0 : 0 < d := div_pos (by linarith) hm
  have hhi : lo + ((m + 1 : ℕ) : K) * d = hi := by
    rw [hd]; push_cast; field_simp; ring
  have hdt : timeStep lo hi (m + 2) = some d := by
    rw [timeStep, if_neg (by omega), hd]
    congr 2
    push_cast; ring
  have key := loop_spec ev lo d (m + 1) (fun k => f (lo + k * d)) hd0 (fun j hj => by
    have h0 : (0 : K) ≤ j * d := by positivity
    have h1 : (j : K) * d ≤ ((m + 1 : ℕ) : K) * d :=
      mul_le_mul_of_nonneg_right (by exact_mod_cast hj.le) hd0.le
    exact hev _ (by linarith) (by linarith)) turns 0 [] (by omega) (by omega)
  rw [hhi] at key
  simp only [Nat.cast_zero, zero_mul, add_zero, Nat.sub_zero, List.nil_append] at key
  obtain ⟨fs', e, h1, text, h2, h3⟩ := writeEval_of (P := P) (ev := ev) (N := (m + 2 : ℤ)) hw
    (by rw [hdt]; exact key)
  refine ⟨fs', e, h1, text, h2, ?_⟩
  rw [h3, ← List.range_eq_range', List.map_map]
  rfl

theorem writeEval_one (P : Lf K) (ev : K → Outcome (Option (List K))) (lo hi : K) (hlt : lo < hi)
    (x : List K) (h0 : ev lo = .ok (some x)) (turns : ℕ) (ht : 0 < turns) (fs : FS) (name : Str)
    (hw : fs.writable name = true) :
    ∃ fs', writeEval P ev lo hi turns fs name 1 = .ok (some (true, fs')) ∧
      (∀ n, n ≠ name → fs'.files n = fs.files n) ∧ ∃ text, fs'.files name = some text ∧
      fields text = [names, x.map P.print] := by
  obtain ⟨n, rfl⟩ : ∃ n, turns = n + 1 := ⟨turns - 1, by omega⟩
  refine writeEval_of (rows := [x]) hw ?_
  rw [evalLoop, if_pos hlt, h0]
  rfl

theorem writeEval_neg (P : Lf K) (ev : K → Outcome (Option (List K))) (lo hi : K) (hlt : lo < hi)
    (x : List K) (h0 : ev lo = .ok (some x)) (hout : ∀ t, t < lo → ev t = .ok none) (N : ℤ) (hN : N ≤ 0)
    (turns : ℕ) (ht : 1 < turns) (fs : FS) (name : Str) (hw : fs.writable name = true) :
    ∃ fs', writeEval P ev lo hi turns fs name N = .ok (some (false, fs')) ∧
      (∀ n, n ≠ name → fs'.files n = fs.files n) ∧ ∃ text, fs'.files name = some text ∧
      fields text = [names, x.map P.print] := by
  obtain ⟨n, rfl⟩ : ∃ n, turns = n + 1 + 1 := ⟨turns - 2, by omega⟩
  have hneg : (((N - 1 : ℤ)) : K) < 0 := by exact_mod_cast (by omega : N - 1 < 0)
  have hd : (hi - lo) / ((N - 1 : ℤ) : K) < 0 := div_neg_of_pos_of_neg (by linarith) hneg
  refine writeEval_of (rows := [x]) hw ?_
  rw [evalLoop, if_pos hlt, h0, timeStep, if_neg (by omega)]
  simp only [Outcome.ok_bind]
  rw [evalLoop, if_pos (by linarith), hout _ (by linarith)]
  rfl

theorem writeEval_flat (P : Lf K) (ev : K → Outcome (Option (List K))) (lo hi : K) (h : ¬ lo < hi)
    (N : ℤ) (turns : ℕ) (ht : 0 < turns) (fs : FS) (name : Str) (hw : fs.writable name = true) :
    ∃ fs', writeEval P ev lo hi turns fs name N = .ok (some (true, fs')) ∧
      (∀ n, n ≠ name → fs'.files n = fs.files n) ∧ ∃ text, fs'.files name = some text ∧
      fields text = [names] := by
  obtain ⟨n, rfl⟩ : ∃ n, turns = n + 1 := ⟨turns - 1, by omega⟩
  refine writeEval_of (rows := []) hw ?_
  rw [evalLoop, if_neg h]

end generic

theorem min_lt_max {T C : Type} [LinearOrder T] [Zero T] {m : Mgr T C} (hs : Sorted m.nodes)
    (h2 : 2 ≤ m.knots.length) : m.getMinTime < m.getMaxTime := by
  rw [Mgr.knots, List.length_map] at h2
  match hn : m.nodes, h2 with
  | a :: b :: l, _ =>
    have h := min_le_node hs (n := a) (by simp [hn])
    refine lt_of_le_of_ne (h.1.trans h.2) fun e => ?_
    exact not_single hs (pre := []) hn m.getMinTime ⟨e.symm, rfl⟩

theorem flat_of_few {T C : Type} [LinearOrder T] [Zero T] {m : Mgr T C} (h : m.knots.length < 2) :
    ¬ m.getMinTime < m.getMaxTime := by
  rw [Mgr.knots, List.length_map] at h
  match hn : m.nodes, h with
  | [], _ => simp [Mgr.getMinTime, Mgr.getMaxTime, hn]
  | [a], _ => simp [Mgr.getMinTime, Mgr.getMaxTime, hn]

/-! ## C74 for `CubicHermiteE3Curve` -/

/-- A printer for the examples: every number as one digit. -/
def oneDigit (K : Type) : Lf K := ⟨fun _ => ['0'], by simp, by simp, by simp⟩

/-- Files for the examples: all writable, all absent. -/
def noFiles : FS := ⟨fun _ => none, fun _ => true⟩

namespace E3
variable {K V : Type} [Field K] [LinearOrder K] [IsStrictOrderedRing K] [AddCommGroup V] [Module K V]

/-- **C74 (partial), E3.** On every curve with at least two knots and a writable file, asking for
`m + 2` samples ends, returns `true`, changes no other file and leaves a header and `m + 1` lines: line `k` is
the time `min + k (max - min) / (m + 1)`, the value of the curve there and its first derivative there.
Missing: the last sample, at the end of the curve, see `C74_refuted`. -/
theorem C74_samples_partial {c : E3 K V} (hr : Reachable c) (h2 : 2 ≤ c.m.knots.length) (P : Lf K)
    (xyz : V → List K) (m turns : ℕ) (ht : m + 1 < turns) (fs : FS) (name : Str)
    (hw : fs.writable name = true) :
    ∃ (p v : K → V) (fs' : FS) (text : Str),
      (∀ t, c.getMinTime ≤ t → t ≤ c.getMaxTime →
        c.evaluate t = .ok (some (p t)) ∧ c.evaluateDerivative t 1 = .ok (some (v t))) ∧
      c.writeEvalToFile P xyz turns fs name (m + 2) = .ok (some (true, fs')) ∧
      (∀ n, n ≠ name → fs'.files n = fs.files n) ∧ fs'.files name = some text ∧
      fields text = names :: (List.range (m + 1)).map fun k : ℕ =>
        let t := c.getMinTime + k * ((c.getMaxTime - c.getMinTime) / (m + 1))
        (t :: xyz (p t) ++ xyz (v t)).map P.print := by
  have hne : c.m.knots ≠ [] := by rintro e; rw [e] at h2; simp at h2
  have hall : ∀ t, ∃ p v, c.getMinTime ≤ t → t ≤ c.getMaxTime →
      c.evaluate t = .ok (some p) ∧ c.evaluateDerivative t 1 = .ok (some v) := by
    intro t
    by_cases h : c.getMinTime ≤ t ∧ t ≤ c.getMaxTime
    · obtain ⟨⟨r, e, h'⟩, r', e', h''⟩ := C34_domain_partial hr t (Or.inl hne)
      obtain ⟨p, rfl⟩ := Option.isSome_iff_exists.1 (h'.2 ⟨hne, h.1, h.2⟩)
      obtain ⟨v, rfl⟩ := Option.isSome_iff_exists.1 (h''.2 ⟨hne, h.1, h.2⟩)
      exact ⟨p, v, fun _ _ => ⟨e, e'⟩⟩
    · exact ⟨0, 0, fun a b => absurd ⟨a, b⟩ h⟩
  choose p v hpv using hall
  obtain ⟨fs', e, h1, text, h3, h4⟩ := writeEval_spec P (E3.evalLine xyz c) c.getMinTime c.getMaxTime
    (min_lt_max hr.sorted h2) (fun t => t :: xyz (p t) ++ xyz (v t)) (fun t a b => by
      rw [evalLine, (hpv t a b).1]
      simp only [Outcome.ok_bind]
      rw [(hpv t a b).2]
      rfl) m turns ht fs name hw
  exact ⟨p, v, fs', text, hpv, e, h1, h3, h4⟩

/-- Three samples of the demo curve (times 1 to 4): two lines, at 1 and 2.5. -/
example : ∃ (v : ℚ) (fs' : FS) (text : Str),
    demo.evaluate (5 / 2) = .ok (some v) ∧
    demo.writeEvalToFile (oneDigit ℚ) (fun x => [x, 0, 0]) 9 noFiles ['f'] 3 = .ok (some (true, fs')) ∧
    fs'.files ['f'] = some text ∧ (fields text).length = 3 := by
  obtain ⟨p, v, fs', text, h, e, -, h1, h3⟩ := C74_samples_partial demo_reachable
    (by simp [demo, Mgr.knots]) (oneDigit ℚ) (fun x => [x, 0, 0]) 1 9 (by omega) noFiles ['f'] rfl
  refine ⟨p (5 / 2), fs', text, (h _ ?_ ?_).1, e, h1, by rw [h3]; rfl⟩ <;>
  · simp [demo, getMinTime, getMaxTime, Mgr.getMinTime, Mgr.getMaxTime]; norm_num

/-- **C74 is false of the code**, E3: whatever number of samples is asked for (at least two), the file has one
line less, and every time written lies before the end of the curve. -/
theorem C74_refuted {c : E3 K V} (hr : Reachable c) (h2 : 2 ≤ c.m.knots.length) (P : Lf K)
    (xyz : V → List K) (m turns : ℕ) (ht : m + 1 < turns) (fs fs' : FS) (name : Str)
    (hw : fs.writable name = true) (b : Bool)
    (h : c.writeEvalToFile P xyz turns fs name (m + 2) = .ok (some (b, fs'))) :
    ∃ text, fs'.files name = some text ∧ (fields text).length ≠ (m + 2) + 1 ∧
      ∀ l ∈ (fields text).tail, ∃ t, t < c.getMaxTime ∧ l.head? = some (P.print t) := by
  obtain ⟨p, v, fs'', text, -, e, -, h1, h3⟩ := C74_samples_partial hr h2 P xyz m turns ht fs name hw
  rw [e] at h; cases h
  refine ⟨text, h1, by rw [h3]; simp, fun l hl => ?_⟩
  rw [h3, List.tail_cons, List.mem_map] at hl
  obtain ⟨k, hk, rfl⟩ := hl
  refine ⟨_, ?_, rfl⟩
  have hlt := min_lt_max hr.sorted h2
  have hm : (0 : K) < m + 1 := by positivity
  have hk' : (k : K) < m + 1 := by exact_mod_cast List.mem_range.1 hk
  have hd : 0 < (c.getMaxTime - c.getMinTime) / (m + 1 : K) := div_pos (sub_pos.2 hlt) hm
  have := mul_lt_mul_of_pos_right hk' hd
  rw [mul_div_cancel₀ _ hm.ne'] at this
  linarith

example : ∃ (fs' : FS) (text : Str),
    demo.writeEvalToFile (oneDigit ℚ) (fun x => [x, 0, 0]) 9 noFiles ['f'] 5 = .ok (some (true, fs')) ∧
    fs'.files ['f'] = some text ∧ (fields text).length ≠ 6 := by
  obtain ⟨p, v, fs', text, -, e, -, h1, -⟩ := C74_samples_partial demo_reachable
    (by simp [demo, Mgr.knots]) (oneDigit ℚ) (fun x => [x, 0, 0]) 3 9 (by omega) noFiles ['f'] rfl
  obtain ⟨text', h1', h, -⟩ := C74_refuted demo_reachable (by simp [demo, Mgr.knots]) (oneDigit ℚ)
    (fun x => [x, 0, 0]) 3 9 (by omega) noFiles fs' ['f'] rfl true e
  exact ⟨fs', text', e, h1', h⟩

/-- **C74, E3, other numbers of samples.** One sample: the first time only. None or fewer: the same line is
written and `false` is returned. With fewer than two knots the file consists of the header. A file that
cannot be opened: `false` and nothing changes. -/
theorem C74_other {c : E3 K V} (hr : Reachable c) (P : Lf K) (xyz : V → List K) (turns : ℕ)
    (ht : 1 < turns) (fs : FS) (name : Str) (N : ℤ) :
    (fs.writable name = false → c.writeEvalToFile P xyz turns fs name N = .ok (some (false, fs))) ∧
    (fs.writable name = true → c.m.knots.length < 2 → ∃ fs' text,
      c.writeEvalToFile P xyz turns fs name N = .ok (some (true, fs')) ∧
      fs'.files name = some text ∧ fields text = [names]) ∧
    (fs.writable name = true → 2 ≤ c.m.knots.length → N ≤ 1 → ∃ fs' text p v,
      c.writeEvalToFile P xyz turns fs name N = .ok (some (decide (N = 1), fs')) ∧
      c.evaluate c.getMinTime = .ok (some p) ∧ c.evaluateDerivative c.getMinTime 1 = .ok (some v) ∧
      fs'.files name = some text ∧
      fields text = [names, (c.getMinTime :: xyz p ++ xyz v).map P.print]) := by
  refine ⟨fun h => ?_, fun hw h => ?_, fun hw h2 hN => ?_⟩
  · rw [writeEvalToFile, writeEval, if_neg (by simp [h])]
  · obtain ⟨fs', e, -, text, h1, h3⟩ := writeEval_flat P (E3.evalLine xyz c) c.getMinTime c.getMaxTime
      (flat_of_few h) N turns (by omega) fs name hw
    exact ⟨fs', text, e, h1, h3⟩
  · have hne : c.m.knots ≠ [] := by rintro e; rw [e] at h2; simp at h2
    have hlt := min_lt_max hr.sorted h2
    obtain ⟨⟨r, e, h'⟩, r', e', h''⟩ := C34_domain_partial hr c.getMinTime (Or.inl hne)
    obtain ⟨p, rfl⟩ := Option.isSome_iff_exists.1 (h'.2 ⟨hne, le_rfl, hlt.le⟩)
    obtain ⟨v, rfl⟩ := Option.isSome_iff_exists.1 (h''.2 ⟨hne, le_rfl, hlt.le⟩)
    have h0 : E3.evalLine xyz c c.getMinTime = .ok (some (c.getMinTime :: xyz p ++ xyz v)) := by
      rw [evalLine, e]; simp only [Outcome.ok_bind]; rw [e']; rfl
    rcases hN.lt_or_eq with hN | rfl
    · obtain ⟨fs', e1, -, text, h1, h3⟩ := writeEval_neg P (E3.evalLine xyz c) c.getMinTime c.getMaxTime
        hlt _ h0 (fun t ht => by
          obtain ⟨⟨r, e, h'⟩, -⟩ := C34_domain_partial hr t (Or.inl hne)
          have : r = none := by
            rw [← Option.not_isSome_iff_eq_none]
            exact fun x => absurd (h'.1 x).2.1 (not_le.2 ht)
          rw [evalLine, e, this]; rfl) N (by omega) turns ht fs name hw
      refine ⟨fs', text, p, v, ?_, e, e', h1, h3⟩
      rw [decide_eq_false (by omega)]; exact e1
    · obtain ⟨fs', e1, -, text, h1, h3⟩ := writeEval_one P (E3.evalLine xyz c) c.getMinTime c.getMaxTime
        hlt _ h0 turns (by omega) fs name hw
      exact ⟨fs', text, p, v, e1, e, e', h1, h3⟩

/-- No samples: one line and `false`. -/
example : ∃ (fs' : FS) (text : Str),
    demo.writeEvalToFile (oneDigit ℚ) (fun x => [x, 0, 0]) 9 noFiles ['f'] 0 = .ok (some (false, fs')) ∧
    fs'.files ['f'] = some text ∧ (fields text).length = 2 := by
  obtain ⟨fs', text, p, v, e, -, -, h1, h3⟩ := (C74_other demo_reachable (oneDigit ℚ)
    (fun x => [x, 0, 0]) 9 (by omega) noFiles ['f'] 0).2.2 rfl (by simp [demo, Mgr.knots]) (by omega)
  exact ⟨fs', text, e, h1, by rw [h3]; rfl⟩

/-- **C75 is false of the code**, E3: the header has 14 names and every line 7 numbers. -/
theorem C75_refuted {c : E3 K V} (hr : Reachable c) (h2 : 2 ≤ c.m.knots.length) (P : Lf K)
    (xyz : V → List K) (h3 : ∀ v, (xyz v).length = 3) (m turns : ℕ) (ht : m + 1 < turns) (fs fs' : FS)
    (name : Str) (hw : fs.writable name = true) (b : Bool)
    (h : c.writeEvalToFile P xyz turns fs name (m + 2) = .ok (some (b, fs'))) :
    ∃ text, fs'.files name = some text ∧
      ∃ hd rows, fields text = hd :: rows ∧ hd.length = 14 ∧ rows ≠ [] ∧ ∀ r ∈ rows, r.length = 7 := by
  obtain ⟨p, v, fs'', text, -, e, -, h1, h4⟩ := C74_samples_partial hr h2 P xyz m turns ht fs name hw
  rw [e] at h; cases h
  refine ⟨text, h1, names, _, h4, rfl, by simp, fun r hr => ?_⟩
  rw [List.mem_map] at hr
  obtain ⟨k, -, rfl⟩ := hr
  simp [h3]

example : ∃ (fs' : FS) (text : Str) (hd : List Str) (rows : List (List Str)),
    demo.writeEvalToFile (oneDigit ℚ) (fun x => [x, 0, 0]) 9 noFiles ['f'] 5 = .ok (some (true, fs')) ∧
    fs'.files ['f'] = some text ∧ fields text = hd :: rows ∧ hd.length = 14 ∧ ∀ r ∈ rows, r.length = 7 := by
  obtain ⟨p, v, fs', text, -, e, -, h1, -⟩ := C74_samples_partial demo_reachable
    (by simp [demo, Mgr.knots]) (oneDigit ℚ) (fun x => [x, 0, 0]) 3 9 (by omega) noFiles ['f'] rfl
  obtain ⟨text', h1', hd, rows, h, h14, -, h7⟩ := C75_refuted demo_reachable (by simp [demo, Mgr.knots])
    (oneDigit ℚ) (fun x => [x, 0, 0]) (fun _ => rfl) 3 9 (by omega) noFiles fs' ['f'] rfl true e
  exact ⟨fs', text', hd, rows, e, h1', h, h14, h7⟩

end E3

/-! ## C74 for `CubicHermiteSE3Curve` -/

namespace SE3

/-- Position, rotation, linear and angular velocity of a line, in the order of the header. -/
def numbers (t : ℝ) (p : Pose) (v : Twist) : List ℝ :=
  [t] ++ List.ofFn p.position ++
    [p.rotation.re, p.rotation.imI, p.rotation.imJ, p.rotation.imK] ++
    List.ofFn v.translationalVelocity ++ List.ofFn v.rotationalVelocity

/-- **C74 (partial), SE3.** On every curve with at least two knots and a writable file, asking for
`m + 2` samples ends, returns `true`, changes no other file and leaves a header and `m + 1` lines: line `k` is
the time `min + k (max - min) / (m + 1)`, the value of the curve there and its first derivative there.
Missing: the last sample, at the end of the curve, see `C74_refuted`. -/
theorem C74_samples_partial {L : LogMap} {c : SE3} (hr : Reachable L c) (h2 : 2 ≤ c.m.knots.length) (P : Lf ℝ)
    (m turns : ℕ) (ht : m + 1 < turns) (fs : FS) (name : Str)
    (hw : fs.writable name = true) :
    ∃ (p : ℝ → Pose) (v : ℝ → Twist) (fs' : FS) (text : Str),
      (∀ t, c.getMinTime ≤ t → t ≤ c.getMaxTime →
        c.evaluate L t = .ok (some (p t)) ∧ c.evaluateDerivative L t 1 = .ok (some (v t))) ∧
      c.writeEvalToFile P L turns fs name (m + 2) = .ok (some (true, fs')) ∧
      (∀ n, n ≠ name → fs'.files n = fs.files n) ∧ fs'.files name = some text ∧
      fields text = names :: (List.range (m + 1)).map fun k : ℕ =>
        let t := c.getMinTime + k * ((c.getMaxTime - c.getMinTime) / (m + 1))
        (numbers t (p t) (v t)).map P.print := by
  have hne : c.m.knots ≠ [] := by rintro e; rw [e] at h2; simp at h2
  have hall : ∀ t, ∃ p v, c.getMinTime ≤ t → t ≤ c.getMaxTime →
      c.evaluate L t = .ok (some p) ∧ c.evaluateDerivative L t 1 = .ok (some v) := by
    intro t
    by_cases h : c.getMinTime ≤ t ∧ t ≤ c.getMaxTime
    · obtain ⟨⟨r, e, h'⟩, r', e', h''⟩ := C34_domain_partial hr t (Or.inl hne)
      obtain ⟨p, rfl⟩ := Option.isSome_iff_exists.1 (h'.2 ⟨hne, h.1, h.2⟩)
      obtain ⟨v, rfl⟩ := Option.isSome_iff_exists.1 (h''.2 ⟨hne, h.1, h.2⟩)
      exact ⟨p, v, fun _ _ => ⟨e, e'⟩⟩
    · exact ⟨⟨0, 1⟩, Twist.zero, fun a b => absurd ⟨a, b⟩ h⟩
  choose p v hpv using hall
  obtain ⟨fs', e, h1, text, h3, h4⟩ := writeEval_spec P (SE3.evalLine L c) c.getMinTime c.getMaxTime
    (min_lt_max hr.good.1 h2) (fun t => numbers t (p t) (v t)) (fun t a b => by
      rw [evalLine, (hpv t a b).1]
      simp only [Outcome.ok_bind]
      rw [(hpv t a b).2]
      rfl) m turns ht fs name hw
  exact ⟨p, v, fs', text, hpv, e, h1, h3, h4⟩

/-- Three samples of the demo curve (times 1 to 4): two lines, at 1 and 2.5. -/
example (L : LogMap) : ∃ (v : Pose) (fs' : FS) (text : Str),
    demo.evaluate L (5 / 2) = .ok (some v) ∧
    demo.writeEvalToFile (oneDigit ℝ) L 9 noFiles ['f'] 3 = .ok (some (true, fs')) ∧
    fs'.files ['f'] = some text ∧ (fields text).length = 3 := by
  obtain ⟨p, v, fs', text, h, e, -, h1, h3⟩ := C74_samples_partial (demo_reachable L)
    (by simp [demo, Mgr.knots]) (oneDigit ℝ) 1 9 (by omega) noFiles ['f'] rfl
  refine ⟨p (5 / 2), fs', text, (h _ ?_ ?_).1, e, h1, by rw [h3]; rfl⟩ <;>
  · simp [demo, getMinTime, getMaxTime, Mgr.getMinTime, Mgr.getMaxTime]; try norm_num

/-- **C74 is false of the code**, SE3: whatever number of samples is asked for (at least two), the file has one
line less, and every time written lies before the end of the curve. -/
theorem C74_refuted {L : LogMap} {c : SE3} (hr : Reachable L c) (h2 : 2 ≤ c.m.knots.length) (P : Lf ℝ)
    (m turns : ℕ) (ht : m + 1 < turns) (fs fs' : FS) (name : Str)
    (hw : fs.writable name = true) (b : Bool)
    (h : c.writeEvalToFile P L turns fs name (m + 2) = .ok (some (b, fs'))) :
    ∃ text, fs'.files name = some text ∧ (fields text).length ≠ (m + 2) + 1 ∧
      ∀ l ∈ (fields text).tail, ∃ t, t < c.getMaxTime ∧ l.head? = some (P.print t) := by
  obtain ⟨p, v, fs'', text, -, e, -, h1, h3⟩ := C74_samples_partial hr h2 P m turns ht fs name hw
  rw [e] at h; cases h
  refine ⟨text, h1, by rw [h3]; simp, fun l hl => ?_⟩
  rw [h3, List.tail_cons, List.mem_map] at hl
  obtain ⟨k, hk, rfl⟩ := hl
  refine ⟨_, ?_, rfl⟩
  have hlt := min_lt_max hr.good.1 h2
  have hm : (0 : ℝ) < m + 1 := by positivity
  have hk' : (k : ℝ) < m + 1 := by exact_mod_cast List.mem_range.1 hk
  have hd : 0 < (c.getMaxTime - c.getMinTime) / (m + 1 : ℝ) := div_pos (sub_pos.2 hlt) hm
  have := mul_lt_mul_of_pos_right hk' hd
  rw [mul_div_cancel₀ _ hm.ne'] at this
  linarith

example (L : LogMap) : ∃ (fs' : FS) (text : Str),
    demo.writeEvalToFile (oneDigit ℝ) L 9 noFiles ['f'] 5 = .ok (some (true, fs')) ∧
    fs'.files ['f'] = some text ∧ (fields text).length ≠ 6 := by
  obtain ⟨p, v, fs', text, -, e, -, h1, -⟩ := C74_samples_partial (demo_reachable L)
    (by simp [demo, Mgr.knots]) (oneDigit ℝ) 3 9 (by omega) noFiles ['f'] rfl
  obtain ⟨text', h1', h, -⟩ := C74_refuted (demo_reachable L) (by simp [demo, Mgr.knots]) (oneDigit ℝ)
    3 9 (by omega) noFiles fs' ['f'] rfl true e
  exact ⟨fs', text', e, h1', h⟩

/-- **C74, SE3, other numbers of samples.** One sample: the first time only. None or fewer: the same line is
written and `false` is returned. With fewer than two knots the file consists of the header. A file that
cannot be opened: `false` and nothing changes. -/
theorem C74_other {L : LogMap} {c : SE3} (hr : Reachable L c) (P : Lf ℝ) (turns : ℕ)
    (ht : 1 < turns) (fs : FS) (name : Str) (N : ℤ) :
    (fs.writable name = false → c.writeEvalToFile P L turns fs name N = .ok (some (false, fs))) ∧
    (fs.writable name = true → c.m.knots.length < 2 → ∃ fs' text,
      c.writeEvalToFile P L turns fs name N = .ok (some (true, fs')) ∧
      fs'.files name = some text ∧ fields text = [names]) ∧
    (fs.writable name = true → 2 ≤ c.m.knots.length → N ≤ 1 → ∃ fs' text p v,
      c.writeEvalToFile P L turns fs name N = .ok (some (decide (N = 1), fs')) ∧
      c.evaluate L c.getMinTime = .ok (some p) ∧ c.evaluateDerivative L c.getMinTime 1 = .ok (some v) ∧
      fs'.files name = some text ∧
      fields text = [names, (numbers c.getMinTime p v).map P.print]) := by
  refine ⟨fun h => ?_, fun hw h => ?_, fun hw h2 hN => ?_⟩
  · rw [writeEvalToFile, writeEval, if_neg (by simp [h])]
  · obtain ⟨fs', e, -, text, h1, h3⟩ := writeEval_flat P (SE3.evalLine L c) c.getMinTime c.getMaxTime
      (flat_of_few h) N turns (by omega) fs name hw
    exact ⟨fs', text, e, h1, h3⟩
  · have hne : c.m.knots ≠ [] := by rintro e; rw [e] at h2; simp at h2
    have hlt := min_lt_max hr.good.1 h2
    obtain ⟨⟨r, e, h'⟩, r', e', h''⟩ := C34_domain_partial hr c.getMinTime (Or.inl hne)
    obtain ⟨p, rfl⟩ := Option.isSome_iff_exists.1 (h'.2 ⟨hne, le_rfl, hlt.le⟩)
    obtain ⟨v, rfl⟩ := Option.isSome_iff_exists.1 (h''.2 ⟨hne, le_rfl, hlt.le⟩)
    have h0 : SE3.evalLine L c c.getMinTime = .ok (some (numbers c.getMinTime p v)) := by
      rw [evalLine, e]; simp only [Outcome.ok_bind]; rw [e']; rfl
    rcases hN.lt_or_eq with hN | rfl
    · obtain ⟨fs', e1, -, text, h1, h3⟩ := writeEval_neg P (SE3.evalLine L c) c.getMinTime c.getMaxTime
        hlt _ h0 (fun t ht => by
          obtain ⟨⟨r, e, h'⟩, -⟩ := C34_domain_partial hr t (Or.inl hne)
          have : r = none := by
            rw [← Option.not_isSome_iff_eq_none]
            exact fun x => absurd (h'.1 x).2.1 (not_le.2 ht)
          rw [evalLine, e, this]; rfl) N (by omega) turns ht fs name hw
      refine ⟨fs', text, p, v, ?_, e, e', h1, h3⟩
      rw [decide_eq_false (by omega)]; exact e1
    · obtain ⟨fs', e1, -, text, h1, h3⟩ := writeEval_one P (SE3.evalLine L c) c.getMinTime c.getMaxTime
        hlt _ h0 turns (by omega) fs name hw
      exact ⟨fs', text, p, v, e1, e, e', h1, h3⟩

/-- No samples: one line and `false`. -/
example (L : LogMap) : ∃ (fs' : FS) (text : Str),
    demo.writeEvalToFile (oneDigit ℝ) L 9 noFiles ['f'] 0 = .ok (some (false, fs')) ∧
    fs'.files ['f'] = some text ∧ (fields text).length = 2 := by
  obtain ⟨fs', text, p, v, e, -, -, h1, h3⟩ := (C74_other (demo_reachable L) (oneDigit ℝ)
    9 (by omega) noFiles ['f'] 0).2.2 rfl (by simp [demo, Mgr.knots]) (by omega)
  exact ⟨fs', text, e, h1, by rw [h3]; rfl⟩

/-- **C75 (partial)**, SE3: every line has 14 numbers, one for each name in the header. Missing: E3, see
`C75_refuted`. -/
theorem C75_columns_partial {L : LogMap} {c : SE3} (hr : Reachable L c) (h2 : 2 ≤ c.m.knots.length) (P : Lf ℝ)
    (m turns : ℕ) (ht : m + 1 < turns) (fs fs' : FS)
    (name : Str) (hw : fs.writable name = true) (b : Bool)
    (h : c.writeEvalToFile P L turns fs name (m + 2) = .ok (some (b, fs'))) :
    ∃ text, fs'.files name = some text ∧
      ∃ hd rows, fields text = hd :: rows ∧ hd.length = 14 ∧ rows ≠ [] ∧ ∀ r ∈ rows, r.length = 14 := by
  obtain ⟨p, v, fs'', text, -, e, -, h1, h4⟩ := C74_samples_partial hr h2 P m turns ht fs name hw
  rw [e] at h; cases h
  refine ⟨text, h1, names, _, h4, rfl, by simp, fun r hr => ?_⟩
  rw [List.mem_map] at hr
  obtain ⟨k, -, rfl⟩ := hr
  simp [numbers]

example (L : LogMap) : ∃ (fs' : FS) (text : Str) (hd : List Str) (rows : List (List Str)),
    demo.writeEvalToFile (oneDigit ℝ) L 9 noFiles ['f'] 5 = .ok (some (true, fs')) ∧
    fs'.files ['f'] = some text ∧ fields text = hd :: rows ∧ hd.length = 14 ∧ ∀ r ∈ rows, r.length = 14 := by
  obtain ⟨p, v, fs', text, -, e, -, h1, -⟩ := C74_samples_partial (demo_reachable L)
    (by simp [demo, Mgr.knots]) (oneDigit ℝ) 3 9 (by omega) noFiles ['f'] rfl
  obtain ⟨text', h1', hd, rows, h, h14, -, h7⟩ := C75_columns_partial (demo_reachable L) (by simp [demo, Mgr.knots])
    (oneDigit ℝ) 3 9 (by omega) noFiles fs' ['f'] rfl true e
  exact ⟨fs', text', hd, rows, e, h1', h, h14, h7⟩

end SE3
end Verif.Hermite
