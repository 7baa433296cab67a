import Verif.Csv.Lemmas

/-!
# Properties of the CSV helpers

C45, C46, C62.
-/

set_option linter.unusedSectionVars false
set_option linter.dupNamespace false

namespace Verif.Csv

/-! ## C45 -/

/-- C45. A table without separators or newlines inside fields, in which every row has a field and the last
field of no row is empty, is read back as it was written; no other file changes. -/
theorem C45_roundtrip {fs : FS} {name : Str} {rows : List (List Str)} (hw : fs.writable name = true)
    (hne : rows ≠ []) (hrow : ∀ row ∈ rows, row ≠ []) (hcomma : ∀ row ∈ rows, ∀ f ∈ row, ',' ∉ f)
    (hline : ∀ row ∈ rows, ∀ f ∈ row, '\n' ∉ f) (hlast : ∀ row ∈ rows, row.getLast? ≠ some []) :
    ∃ fs', writeCSV fs name rows = .ok fs' ∧ loadCSV fs' name = .ok rows ∧
      ∀ n, n ≠ name → fs'.files n = fs.files n := by
  obtain ⟨fs', e, -, ho, hl⟩ := write_load hw hne
    fun r hr => ⟨hrow r hr, fun f hf => ⟨hcomma r hr f hf, hline r hr f hf⟩⟩
  refine ⟨fs', e, ?_, ho⟩
  rw [hl]
  congr 1
  exact (List.map_congr_left fun r hr => by rw [readBack, if_neg (hlast r hr)]; rfl).trans (List.map_id rows)

/-- C45, the condition on the last fields is exact: every row of such a table that ends in an empty field
comes back without that field. -/
theorem C45_exact {fs : FS} {name : Str} {rows : List (List Str)} (hw : fs.writable name = true)
    (hne : rows ≠ []) (hrow : ∀ row ∈ rows, row ≠ []) (hcomma : ∀ row ∈ rows, ∀ f ∈ row, ',' ∉ f)
    (hline : ∀ row ∈ rows, ∀ f ∈ row, '\n' ∉ f) :
    ∃ fs' back, writeCSV fs name rows = .ok fs' ∧ loadCSV fs' name = .ok back ∧
      back.length = rows.length ∧
      ∀ i (h : i < rows.length) (h' : i < back.length),
        (rows[i].getLast? = some [] → back[i] ++ [[]] = rows[i]) ∧
        (rows[i].getLast? ≠ some [] → back[i] = rows[i]) := by
  obtain ⟨fs', e, -, ho, hl⟩ := write_load hw hne
    fun r hr => ⟨hrow r hr, fun f hf => ⟨hcomma r hr f hf, hline r hr f hf⟩⟩
  refine ⟨fs', _, e, hl, by simp, fun i h h' => ⟨fun hh => ?_, fun hh => ?_⟩⟩
  · simp only [List.getElem_map, readBack, if_pos hh]
    have hd := List.dropLast_append_getLast (hrow _ (List.getElem_mem h))
    rw [List.getLast?_eq_some_getLast (hrow _ (List.getElem_mem h))] at hh
    rw [Option.some.inj hh] at hd
    exact hd
  · simp only [List.getElem_map, readBack, if_neg hh]

/-- C45, refusals: no rows, or a row without fields. -/
theorem C45_refuses (fs : FS) (name : Str) {rows : List (List Str)} (h : rows = [] ∨ [] ∈ rows) :
    writeCSV fs name rows = .abort := by
  rcases h with rfl | h
  · rfl
  · have hl : ¬ rows.length < 1 := by
      have := List.length_pos_of_mem h; omega
    have : writeRows rows = .abort := by
      clear hl
      induction rows with
      | nil => cases h
      | cons r rest ih =>
        rcases List.mem_cons.1 h with rfl | h
        · rfl
        · rw [writeRows]
          split
          · rfl
          · rw [ih h]; rfl
    rw [writeCSV, if_neg hl, this]; rfl

/-- C45, refuted for files that cannot be opened: writing returns normally, having done nothing. -/
theorem C45_unwritable_refuted {fs : FS} {name : Str} {rows : List (List Str)}
    (hw : fs.writable name = false) (hne : rows ≠ []) (hrow : ∀ row ∈ rows, row ≠ []) :
    writeCSV fs name rows = .ok fs := by
  have hl : ¬ rows.length < 1 := by
    have := List.length_pos_iff.2 hne; omega
  rw [writeCSV, if_neg hl, writeRows_ok hrow, Outcome.ok_bind, if_neg (by simp [hw])]

/-- C45, reading: a file that does not exist is refused by all three readers, and so is an empty one by
the two that read times, which also refuse a first row with too few fields for a time, or two, and a value. -/
theorem C45_missing {K : Type} (F : Fmt K) (fs : FS) (name : Str) :
    (fs.files name = none → loadCSV fs name = .abort) ∧
    (fs.files name = none ∨ fs.files name = some [] →
      loadTimeVectorCSV F fs name = .abort ∧ loadTimeTimeVectorCSV F fs name = .abort) ∧
    (∀ row0 rest, loadCSV fs name = .ok (row0 :: rest) →
      (row0.length < 2 → loadTimeVectorCSV F fs name = .abort) ∧
      (row0.length < 3 → loadTimeTimeVectorCSV F fs name = .abort)) := by
  refine ⟨fun h => by simp [loadCSV, h], ?_, fun row0 rest e => ⟨fun h => ?_, fun h => ?_⟩⟩
  on_goal 2 => rw [loadTimeVectorCSV, e, Outcome.ok_bind]; exact if_pos h
  on_goal 2 => rw [loadTimeTimeVectorCSV, e, Outcome.ok_bind]; exact if_pos h
  rintro (h | h) <;> simp [loadTimeVectorCSV, loadTimeTimeVectorCSV, loadCSV, h, getlines]

/-- An empty disk on which everything but `/x` can be written. -/
def disk : FS := ⟨fun _ => none, fun n => n ≠ "/x".toList⟩

example : (writeCSV disk "a".toList [["1".toList, "22".toList], ["".toList, "3".toList]] >>=
      fun fs => loadCSV fs "a".toList) = .ok [["1".toList, "22".toList], ["".toList, "3".toList]] ∧
    (writeCSV disk "a".toList [["1".toList, "".toList], ["".toList]] >>= fun fs =>
      loadCSV fs "a".toList) = .ok [["1".toList], []] ∧
    (writeCSV disk "/x".toList [["1".toList]] >>= fun fs => loadCSV fs "/x".toList) = .abort := by
  decide +kernel

example : disk.files "a".toList = none ∧
    ((writeCSV disk "a".toList [["".toList]] >>= fun fs => .ok (fs.files "b".toList)) = .ok none) := by
  decide +kernel

/-! ## C46 -/

variable {K : Type}

theorem readTime_table (F : Fmt K) {dim : Nat} (hd : 0 < dim) {times : List K} :
    ∀ {values : List (List K)}, times.length = values.length → (∀ v ∈ values, v.length = dim) →
    readTimeRows F dim (table F times values) =
      .ok (values.flatMap fun v => (v.take 1).map (F.parse ∘ F.print),
        values.map fun v => v.map (F.parse ∘ F.print)) := by
  induction times with
  | nil =>
    intro values hl h
    have : values = [] := List.length_eq_zero_iff.1 (by simpa using hl.symm)
    subst this
    rfl
  | cons t ts ih =>
    intro values hl h
    cases values with
    | nil => simp at hl
    | cons v vs =>
      have hv := h v (.head _)
      cases v with
      | nil => simp at hv; omega
      | cons x xs =>
        have h1 : readVec F (F.print t :: (x :: xs).map F.print) 1 0 dim =
            .ok ((x :: xs).map (F.parse ∘ F.print)) := by
          rw [readVec_spec F _ 1 dim 0 (by simp at hv ⊢; omega)]
          rw [show ((F.print t :: (x :: xs).map F.print).drop (0 + 1)) = (x :: xs).map F.print from rfl,
            List.take_of_length_le (by simp at hv ⊢; omega), List.map_map]
        have ih' := ih (values := vs) (by simpa using hl) fun v hv => h v (.tail _ hv)
        show readTimeRows F dim ((F.print t :: (x :: xs).map F.print) :: table F ts vs) = _
        rw [readTimeRows, h1, ih']
        simp [at']

/-- C46, what writing and loading does: the vectors come back component by component, printed and parsed.
What comes back in place of the times are the first components of the vectors. -/
theorem C46_loaded (F : Fmt K) {fs : FS} {name : Str} (hw : fs.writable name = true) {times : List K}
    {values : List (List K)} (hl : times.length = values.length) (hne : times ≠ []) {dim : Nat}
    (hd : 0 < dim) (hdim : ∀ v ∈ values, v.length = dim) :
    ∃ fs', writeTimeVectorCSV F fs name times values = .ok fs' ∧
      (∀ n, n ≠ name → fs'.files n = fs.files n) ∧
      loadTimeVectorCSV F fs' name =
        .ok (values.flatMap fun v => (v.take 1).map (F.parse ∘ F.print),
          values.map fun v => v.map (F.parse ∘ F.print)) := by
  cases times with
  | nil => exact absurd rfl hne
  | cons t ts =>
    cases values with
    | nil => simp at hl
    | cons v vs =>
      have hv := hdim v (.head _)
      obtain ⟨fs', e, -, ho, hld⟩ := write_load (rows := table F (t :: ts) (v :: vs)) hw
        (by simp [table]) (table_clean F _ _)
      refine ⟨fs', ?_, ho, ?_⟩
      · simp only [writeTimeVectorCSV, hl, ne_eq, not_true_eq_false, if_false]
        rw [hv, printRows_ok F hdim, Outcome.ok_bind, e]
      · rw [table_readBack] at hld
        have ht := readTime_table F hd hl hdim
        rw [loadTimeVectorCSV, hld, Outcome.ok_bind]
        show (if (F.print t :: v.map F.print).length < 2 then Outcome.abort else _) = _
        rw [if_neg (by simp [hv]; omega),
          show (F.print t :: v.map F.print).length - 1 = dim by simp [hv]]
        exact ht

/-- C46, partial: the vectors come back as written when their components survive printing and parsing.
Missing: the times, see `C46_refuted`; and components with more digits than are printed. -/
theorem C46_values_partial (F : Fmt K) {fs : FS} {name : Str} (hw : fs.writable name = true)
    {times : List K} {values : List (List K)} (hl : times.length = values.length) (hne : times ≠ [])
    {dim : Nat} (hd : 0 < dim) (hdim : ∀ v ∈ values, v.length = dim)
    (hx : ∀ v ∈ values, ∀ x ∈ v, F.parse (F.print x) = x) :
    ∃ fs' ts, writeTimeVectorCSV F fs name times values = .ok fs' ∧
      loadTimeVectorCSV F fs' name = .ok (ts, values) := by
  obtain ⟨fs', e, -, h⟩ := C46_loaded F hw hl hne hd hdim
  refine ⟨fs', values.flatMap fun v => (v.take 1).map (F.parse ∘ F.print), e, h.trans ?_⟩
  congr 2
  refine (List.map_congr_left fun v hv => ?_).trans (List.map_id values)
  exact (List.map_congr_left fun x h => by simpa using hx v hv x h).trans (List.map_id v)

theorem printRows_iff (F : Fmt K) (dim : Nat) : ∀ (ts : List K) (vs : List (List K)),
    ts.length = vs.length →
    ((∃ v ∈ vs, v.length ≠ dim) → printRows F dim ts vs = .abort) ∧
    ((∀ v ∈ vs, v.length = dim) → ∃ rows, printRows F dim ts vs = .ok rows ∧ rows.length = ts.length ∧
      ∀ r ∈ rows, r ≠ []) := by
  intro ts
  induction ts with
  | nil =>
    intro vs hl
    have : vs = [] := by simpa using hl.symm
    subst this
    exact ⟨by simp, fun _ => ⟨[], rfl, rfl, by simp⟩⟩
  | cons t ts ih =>
    intro vs hl
    cases vs with
    | nil => simp at hl
    | cons v vs =>
      obtain ⟨h1, h2⟩ := ih vs (by simpa using hl)
      constructor
      · rintro ⟨u, hu, hud⟩
        by_cases hv : v.length = dim
        · rcases List.mem_cons.1 hu with rfl | hu
          · exact absurd hv hud
          · simp [printRows, hv, h1 ⟨u, hu, hud⟩]
        · simp [printRows, hv]
      · intro h
        obtain ⟨rows, e, hlen, hne⟩ := h2 fun u hu => h u (List.mem_cons_of_mem _ hu)
        refine ⟨(F.print t :: v.map F.print) :: rows, ?_, by simp [hlen], ?_⟩
        · simp [printRows, h v (by simp), e]
        · intro r hr
          rcases List.mem_cons.1 hr with rfl | hr
          · simp
          · exact hne r hr

/-- C46, what is refused. Exactly three things are refused: lists of different lengths, no values at all,
and a value whose dimension differs from that of the first. Everything else is written. -/
theorem C46_refuses (F : Fmt K) (fs : FS) (name : Str) (times : List K) (values : List (List K)) :
    (times.length ≠ values.length ∨ values = [] ∨
        (∃ v ∈ values, ∀ v0, values.head? = some v0 → v.length ≠ v0.length) →
      writeTimeVectorCSV F fs name times values = .abort) ∧
    (times.length = values.length → values ≠ [] →
        (∀ v ∈ values, ∀ v0, values.head? = some v0 → v.length = v0.length) →
      ∃ fs', writeTimeVectorCSV F fs name times values = .ok fs') := by
  constructor
  · rintro (h | rfl | ⟨v, hv, h⟩)
    · simp [writeTimeVectorCSV, h]
    · by_cases hl : times.length = 0 <;> simp [writeTimeVectorCSV]
    · by_cases hl : times.length = values.length
      · cases values with
        | nil => simp at hv
        | cons v0 vs =>
          have := (printRows_iff F v0.length times (v0 :: vs) hl).1 ⟨v, hv, h v0 rfl⟩
          simp [writeTimeVectorCSV, hl, this]
      · simp [writeTimeVectorCSV, hl]
  · intro hl hne h
    cases values with
    | nil => exact absurd rfl hne
    | cons v0 vs =>
      obtain ⟨rows, e, hlen, hrows⟩ := (printRows_iff F v0.length times (v0 :: vs) hl).2
        fun v hv => h v hv v0 rfl
      have hr : ¬ rows.length < 1 := by rw [hlen, hl]; simp
      simp only [writeTimeVectorCSV, hl, ne_eq, not_true_eq_false, if_false, e, Outcome.ok_bind, writeCSV,
        hr, writeRows_ok hrows]
      exact ⟨_, rfl⟩

example (F : Fmt ℕ) : writeTimeVectorCSV F disk "a".toList [0, 1] [[1, 2], [3]] = .abort ∧
    ∃ fs', writeTimeVectorCSV F disk "a".toList [0, 1] [[1, 2], [3, 4]] = .ok fs' := by
  refine ⟨(C46_refuses F disk _ _ _).1 (.inr (.inr ⟨[3], by simp, by simp⟩)),
    (C46_refuses F disk _ _ _).2 rfl (by simp) (by simp)⟩

/-- C46, refuted. Even when every number survives printing and parsing, the times come back as written
exactly when each of them equals the first component of its vector. -/
theorem C46_refuted (F : Fmt K) {fs : FS} {name : Str} (hw : fs.writable name = true)
    {times : List K} {values : List (List K)} (hl : times.length = values.length) (hne : times ≠ [])
    {dim : Nat} (hd : 0 < dim) (hdim : ∀ v ∈ values, v.length = dim)
    (hx : ∀ x, F.parse (F.print x) = x) :
    ∃ fs' ts, writeTimeVectorCSV F fs name times values = .ok fs' ∧
      loadTimeVectorCSV F fs' name = .ok (ts, values) ∧
      (ts = times ↔ ∀ p ∈ times.zip values, p.2.head? = some p.1) := by
  obtain ⟨fs', e, -, h⟩ := C46_loaded F hw hl hne hd hdim
  have hid : F.parse ∘ F.print = id := funext hx
  rw [hid] at h
  simp only [List.map_id] at h
  rw [show (fun v : List K => v) = id from rfl, List.map_id] at h
  refine ⟨fs', _, e, h, ?_⟩
  clear h e
  have key : ∀ (ts : List K) (vs : List (List K)), ts.length = vs.length →
      (∀ v ∈ vs, v.length = dim) → ((vs.flatMap fun v => v.take 1) = ts ↔
        ∀ p ∈ ts.zip vs, p.2.head? = some p.1) := by
    intro ts
    induction ts with
    | nil =>
      intro vs hl _
      have : vs = [] := List.length_eq_zero_iff.1 (by simpa using hl.symm)
      subst this
      simp
    | cons t ts ih =>
      intro vs hl hdim
      cases vs with
      | nil => simp at hl
      | cons v vs =>
        have hv := hdim v (.head _)
        cases v with
        | nil => simp at hv; omega
        | cons x xs =>
          have := ih vs (by simpa using hl) fun v hv => hdim v (.tail _ hv)
          simp only [List.flatMap_cons, List.take_succ_cons, List.take_zero, List.singleton_append,
            List.cons.injEq, this, List.zip_cons_cons, List.forall_mem_cons, List.head?_cons,
            Option.some.injEq]
  exact key times values hl hdim

/-- C46, two time columns: from a table whose rows are two times and a vector, the loader returns the
vectors, but the second time in place of the first and the first component of the vector in place
of the second. -/
theorem C46_timetime_refuted (F : Fmt K) {fs : FS} {name : Str} (hw : fs.writable name = true)
    {rows : List (K × K × K × List K)} (hne : rows ≠ []) {dim : Nat}
    (hdim : ∀ r ∈ rows, r.2.2.2.length = dim) (hx : ∀ x, F.parse (F.print x) = x) :
    ∃ fs', writeCSV fs name (rows.map fun r => (r.1 :: r.2.1 :: r.2.2.1 :: r.2.2.2).map F.print) = .ok fs' ∧
      loadTimeTimeVectorCSV F fs' name =
        .ok (rows.map (·.2.1), rows.map (·.2.2.1), rows.map fun r => r.2.2.1 :: r.2.2.2) := by
  have hclean : Clean (rows.map fun r => (r.1 :: r.2.1 :: r.2.2.1 :: r.2.2.2).map F.print) := by
    intro row hr
    obtain ⟨p, -, rfl⟩ := List.mem_map.1 hr
    refine ⟨by simp, ?_⟩
    intro f hf
    obtain ⟨x, -, rfl⟩ := List.mem_map.1 hf
    exact ⟨F.print_comma _, F.print_newline _⟩
  obtain ⟨fs', e, -, -, hld⟩ := write_load hw (by simpa using hne) hclean
  refine ⟨fs', e, ?_⟩
  have hrb : (rows.map fun r => (r.1 :: r.2.1 :: r.2.2.1 :: r.2.2.2).map F.print).map readBack =
      rows.map fun r => (r.1 :: r.2.1 :: r.2.2.1 :: r.2.2.2).map F.print := by
    rw [List.map_map]
    exact List.map_congr_left fun r _ => readBack_printed F
  rw [hrb] at hld
  have key : ∀ l : List (K × K × K × List K), (∀ r ∈ l, r.2.2.2.length = dim) →
      readTimeTimeRows F (dim + 1) (l.map fun r => (r.1 :: r.2.1 :: r.2.2.1 :: r.2.2.2).map F.print) =
        .ok (l.map (·.2.1), l.map (·.2.2.1), l.map fun r => r.2.2.1 :: r.2.2.2) := by
    intro l
    induction l with
    | nil => intro _; rfl
    | cons r l ih =>
      intro h
      have hr := h r (.head _)
      rw [List.map_cons, readTimeTimeRows, readVec_spec F _ 2 (dim + 1) 0 (by simp; omega),
        ih fun r hr => h r (.tail _ hr)]
      simp only [List.map_cons, at', List.getElem?_cons_succ, List.getElem?_cons_zero, Outcome.ok_bind,
        hx, List.drop_succ_cons, List.drop_zero, Nat.zero_add, List.take_succ_cons]
      congr 3
      rw [List.take_of_length_le (by simp; omega), List.map_map]
      rw [show F.parse ∘ F.print = id from funext hx, List.map_id]
  cases rows with
  | nil => exact absurd rfl hne
  | cons r rest =>
    have hr := hdim r (.head _)
    rw [loadTimeTimeVectorCSV, hld, Outcome.ok_bind]
    show (if ((r.1 :: r.2.1 :: r.2.2.1 :: r.2.2.2).map F.print).length < 3 then Outcome.abort else _) = _
    rw [if_neg (by simp), show ((r.1 :: r.2.1 :: r.2.2.1 :: r.2.2.2).map F.print).length - 2 = dim + 1 by
      simp [hr]]
    exact key _ hdim

/-- Numbers written as strokes. -/
def strokes : Fmt Nat where
  print n := List.replicate (n + 1) 'I'
  parse s := s.length - 1
  print_ne n := by simp
  print_comma n := by simp
  print_newline n := by simp

example : (writeTimeVectorCSV strokes disk "a".toList [5, 6] [[1, 2], [3, 4]] >>= fun fs =>
      loadTimeVectorCSV strokes fs "a".toList) = .ok ([1, 3], [[1, 2], [3, 4]]) := by decide +kernel

example := C46_refuted strokes (fs := disk) (name := "a".toList) (times := [5, 6])
  (values := [[1, 2], [3, 4]]) (by decide) rfl (by simp) (dim := 2) (by simp) (by simp)
  (by simp [strokes])

example := C46_timetime_refuted strokes (fs := disk) (name := "a".toList)
  (rows := [(5, 6, 1, [2]), (7, 8, 3, [4])]) (by decide) (by simp) (dim := 1) (by simp)
  (by simp [strokes])

/-! ## C62: saving a curve -/

theorem collect_ok {G : Type} {eval : K → Outcome G} {toVec : G → List K} {times : List K} :
    ∀ {vals : List G}, times.map eval = vals.map .ok →
      saveAtTimes.collect eval toVec times = .ok (vals.map toVec) := by
  induction times with
  | nil => intro vals h; cases vals <;> simp_all [saveAtTimes.collect]
  | cons t ts ih =>
    intro vals h
    cases vals with
    | nil => simp at h
    | cons v vs =>
      simp only [List.map_cons, List.cons.injEq] at h
      simp [saveAtTimes.collect, h.1, ih h.2]

theorem collectH_eq {G : Type} {eval : K → Outcome (Option G)} {toVec : G → List K} {times : List K} :
    ∀ {init : G} {vals : List G}, times.map eval = vals.map (fun v => .ok (some v)) →
      saveAtTimesH.collect eval toVec init times = .ok (vals.map toVec) := by
  induction times with
  | nil => intro init vals h; cases vals <;> simp_all [saveAtTimesH.collect]
  | cons t ts ih =>
    intro init vals h
    cases vals with
    | nil => simp at h
    | cons v vs =>
      simp only [List.map_cons, List.cons.injEq] at h
      simp [saveAtTimesH.collect, h.1, ih h.2]

/-- Writing the values of a curve at some times. -/
theorem write_table {G : Type} (F : Fmt K) {toVec : G → List K} {dim : Nat}
    (hdim : ∀ g, (toVec g).length = dim) {fs : FS} {name : Str} (hw : fs.writable name = true)
    {times : List K} {vals : List G} (hne : times ≠ []) (hlen : times.length = vals.length) :
    ∃ fs', writeTimeVectorCSV F fs name times (vals.map toVec) = .ok fs' ∧ fs'.writable = fs.writable ∧
      (∀ n, n ≠ name → fs'.files n = fs.files n) ∧
      loadCSV fs' name = .ok ((times.zip vals).map fun p => (p.1 :: toVec p.2).map F.print) := by
  obtain ⟨fs', e, hwr, ho, hld⟩ := write_load (rows := table F times (vals.map toVec)) hw
    (by
      intro h0
      have := congrArg List.length h0
      simp only [table, List.length_map, List.length_zip, hlen, Nat.min_self, List.length_nil] at this
      exact hne (List.length_eq_zero_iff.1 (by omega))) (table_clean F _ _)
  refine ⟨fs', ?_, hwr, ho, ?_⟩
  · cases vals with
    | nil => exact absurd (List.length_eq_zero_iff.1 (by simpa using hlen)) hne
    | cons v vs =>
      unfold writeTimeVectorCSV
      rw [if_neg (by simp [hlen])]
      simp only [List.map_cons]
      rw [hdim, printRows_ok F (by
        intro x hx
        rw [← List.map_cons] at hx
        obtain ⟨g, -, rfl⟩ := List.mem_map.1 hx
        exact hdim g), Outcome.ok_bind]
      exact e
  · rw [hld, table_readBack, table, List.zip_map_right, List.map_map]
    rfl

/-- C62. Saving a curve at times at all of which it has a value produces a table with one row per time: the
time and the components of the value there. No other file changes. -/
theorem C62_saved {G : Type} (F : Fmt K) {eval : K → Outcome G} {toVec : G → List K} {dim : Nat}
    (hdim : ∀ g, (toVec g).length = dim) {fs : FS} {name : Str} (hw : fs.writable name = true)
    {times : List K} {vals : List G} (hne : times ≠ []) (h : times.map eval = vals.map .ok) :
    ∃ fs', saveAtTimes F eval toVec fs name times = .ok fs' ∧
      (∀ n, n ≠ name → fs'.files n = fs.files n) ∧
      loadCSV fs' name = .ok ((times.zip vals).map fun p => (p.1 :: toVec p.2).map F.print) := by
  obtain ⟨fs', e, -, ho, hl⟩ := write_table F hdim hw hne (by simpa using congrArg List.length h)
  exact ⟨fs', by rw [saveAtTimes, collect_ok h, Outcome.ok_bind, e], ho, hl⟩

/-- C62, refusal: at a time at which the curve has no value, or at no times at all, nothing is written. -/
theorem C62_refuses {G : Type} (F : Fmt K) {eval : K → Outcome G} {toVec : G → List K} (fs : FS)
    (name : Str) (times : List K) (h : times = [] ∨ ∃ t ∈ times, ∀ v, eval t ≠ .ok v) :
    ∀ fs', saveAtTimes F eval toVec fs name times ≠ .ok fs' := by
  intro fs' e0
  obtain ⟨vs, hc, e⟩ := Outcome.bind_eq_ok.1 e0
  clear e0
  rcases h with rfl | ⟨t, ht, hno⟩
  · simp only [saveAtTimes.collect, Outcome.ok.injEq] at hc
    subst hc
    simp [writeTimeVectorCSV] at e
  · clear e
    induction times generalizing vs with
    | nil => simp at ht
    | cons a l ih =>
      obtain ⟨v, h1, hc⟩ := Outcome.bind_eq_ok.1 hc
      obtain ⟨vs', h2, hc⟩ := Outcome.bind_eq_ok.1 hc
      rcases List.mem_cons.1 ht with rfl | ht
      · exact hno v h1
      · exact ih vs' h2 ht

example : ∃ fs', saveAtTimes strokes (fun t => .ok (t + 10)) (fun g => [g, 1]) disk "a".toList [2, 7] =
    .ok fs' ∧ fs'.files "b".toList = none := by
  obtain ⟨fs', e, h, -⟩ := C62_saved strokes (eval := fun t => .ok (t + 10)) (toVec := fun g => [g, 1])
    (fun _ => rfl) (fs := disk) (name := "a".toList) (by decide) (times := [2, 7]) (vals := [12, 17])
    (by simp) rfl
  exact ⟨fs', e, h _ (by decide)⟩

example : ∀ fs', saveAtTimes strokes (fun t => if t = 7 then .abort else .ok t) (fun g => [g]) disk
    "a".toList [2, 7] ≠ .ok fs' :=
  C62_refuses strokes disk _ _ (.inr ⟨7, by simp, by simp⟩)

/-- C62 for `CubicHermiteSE3Curve`, partial: the same when the curve has a value at all the times. Missing:
times outside the curve, see `C62_refuted`. -/
theorem C62_hermite_partial {G : Type} (F : Fmt K) {eval : K → Outcome (Option G)} {toVec : G → List K}
    {dim : Nat} (hdim : ∀ g, (toVec g).length = dim) (init : G) {fs : FS} {name : Str}
    (hw : fs.writable name = true) {times : List K} {vals : List G} (hne : times ≠ [])
    (h : times.map eval = vals.map fun v => .ok (some v)) :
    ∃ fs', saveAtTimesH F eval toVec init fs name times = .ok fs' ∧
      (∀ n, n ≠ name → fs'.files n = fs.files n) ∧
      loadCSV fs' name = .ok ((times.zip vals).map fun p => (p.1 :: toVec p.2).map F.print) := by
  have h' : times.map (fun t => match eval t with | .ok (some v) => Outcome.ok v | _ => .abort) =
      vals.map .ok := by
    have := congrArg (List.map fun o : Outcome (Option G) =>
      match o with | .ok (some v) => Outcome.ok v | _ => .abort) h
    simpa [List.map_map, Function.comp_def] using this
  obtain ⟨fs', e, hl⟩ := C62_saved F hdim hw hne h'
  refine ⟨fs', ?_, hl⟩
  rw [saveAtTimes, collect_ok h', Outcome.ok_bind] at e
  rw [saveAtTimesH, collectH_eq h, Outcome.ok_bind, e]

/-- C62, refuted for `CubicHermiteSE3Curve`: at a time outside the curve the row repeats the value of the
row before it (at the first time: whatever the default-constructed pose holds), without any sign. -/
theorem C62_refuted {G : Type} (F : Fmt K) {eval : K → Outcome (Option G)} {toVec : G → List K}
    {dim : Nat} (hdim : ∀ g, (toVec g).length = dim) (init : G) {fs : FS} {name : Str}
    (hw : fs.writable name = true) {t t' : K} {v : G} (h : eval t = .ok (some v)) (h' : eval t' = .ok none) :
    ∃ fs', saveAtTimesH F eval toVec init fs name [t', t, t'] = .ok fs' ∧
      loadCSV fs' name = .ok [(t' :: toVec init).map F.print, (t :: toVec v).map F.print,
        (t' :: toVec v).map F.print] := by
  have hc : saveAtTimesH.collect eval toVec init [t', t, t'] =
      .ok [toVec init, toVec v, toVec v] := by simp [saveAtTimesH.collect, h, h']
  rw [saveAtTimesH, hc, Outcome.ok_bind]
  obtain ⟨fs', e, -, -, hld⟩ := write_load
    (rows := table F [t', t, t'] [toVec init, toVec v, toVec v]) hw (by simp [table]) (table_clean F _ _)
  refine ⟨fs', ?_, ?_⟩
  · simp only [writeTimeVectorCSV, List.length_cons, List.length_nil, ne_eq, not_true_eq_false, if_false]
    rw [printRows_ok F (by simp [hdim]), Outcome.ok_bind, e]
  · rw [hld, table_readBack]; rfl

example : (saveAtTimesH strokes (fun t => .ok (if t ≤ 3 then some (t + 10) else none)) (fun g => [g, 1]) 0
      disk "a".toList [9, 2, 7] >>= fun fs => loadTimeVectorCSV strokes fs "a".toList) =
    .ok ([0, 12, 12], [[0, 1], [12, 1], [12, 1]]) := by decide +kernel

end Verif.Csv
