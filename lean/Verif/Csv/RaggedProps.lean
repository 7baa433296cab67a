import Verif.Csv.Props

/-!
# C145: tables whose rows have different lengths
-/

set_option linter.unusedSectionVars false
set_option linter.dupNamespace false

namespace Verif.Csv

variable {K : Type}

theorem readVec_short (F : Fmt K) (row : List Str) (offset : Nat) : ∀ (n i : Nat),
    i + offset ≤ row.length → row.length < i + offset + n → readVec F row offset i n = .throw := by
  intro n
  induction n with
  | zero => intro i h h'; omega
  | succ n ih =>
    intro i h h'
    rw [readVec, at']
    rcases Nat.lt_or_ge (i + offset) row.length with hi | hi
    · rw [List.getElem?_eq_getElem hi]
      simp only [Outcome.ok_bind]
      rw [ih (i + 1) (by omega) (by omega)]
      rfl
    · rw [List.getElem?_eq_none hi]
      rfl

theorem readTimeRows_spec (F : Fmt K) {dim : Nat} (hd : 0 < dim) : ∀ rows : List (List Str),
    ((∀ row ∈ rows, dim + 1 ≤ row.length) →
      readTimeRows F dim rows = .ok (rows.map fun row => F.parse (row.getD 1 []),
        rows.map fun row => ((row.drop 1).take dim).map F.parse)) ∧
    ((∃ row ∈ rows, row.length < dim + 1) → readTimeRows F dim rows = .throw) := by
  intro rows
  induction rows with
  | nil => exact ⟨fun _ => rfl, fun ⟨_, h, _⟩ => absurd h (by simp)⟩
  | cons row rest ih =>
    by_cases hl : dim + 1 ≤ row.length
    · have h1 : at' row 1 = .ok (row.getD 1 []) := by
        rw [at', List.getD, List.getElem?_eq_getElem (by omega)]; rfl
      have h2 : readVec F row 1 0 dim = .ok (((row.drop 1).take dim).map F.parse) :=
        readVec_spec F row 1 dim 0 (by omega)
      constructor
      · intro h
        rw [readTimeRows, h1, Outcome.ok_bind, h2, Outcome.ok_bind,
          ih.1 fun r hr => h r (List.mem_cons_of_mem _ hr), Outcome.ok_bind]
        rfl
      · rintro ⟨r, hr, hs⟩
        rcases List.mem_cons.1 hr with rfl | hr
        · omega
        · rw [readTimeRows, h1, Outcome.ok_bind, h2, Outcome.ok_bind, ih.2 ⟨r, hr, hs⟩]
          rfl
    · refine ⟨fun h => absurd (h row (.head _)) hl, fun _ => ?_⟩
      rw [readTimeRows]
      rcases Nat.lt_or_ge 1 row.length with h | h
      · rw [at', List.getElem?_eq_getElem h]
        simp only [Outcome.ok_bind]
        rw [readVec_short F row 1 dim 0 (by omega) (by omega)]
        rfl
      · rw [at', List.getElem?_eq_none h]
        rfl

/-- C145, one time column: the first row fixes the number of columns. Rows with more columns lose what is
beyond; one row with fewer columns, anywhere, makes the loader throw. -/
theorem C145_ragged (F : Fmt K) {fs : FS} {name : Str} {row0 : List Str} {rest : List (List Str)}
    (hl : loadCSV fs name = .ok (row0 :: rest)) (h2 : 2 ≤ row0.length) :
    ((∀ row ∈ rest, row0.length ≤ row.length) →
      loadTimeVectorCSV F fs name = .ok ((row0 :: rest).map fun row => F.parse (row.getD 1 []),
        (row0 :: rest).map fun row => ((row.drop 1).take (row0.length - 1)).map F.parse)) ∧
    ((∃ row ∈ rest, row.length < row0.length) → loadTimeVectorCSV F fs name = .throw) := by
  have e : loadTimeVectorCSV F fs name = readTimeRows F (row0.length - 1) (row0 :: rest) := by
    rw [loadTimeVectorCSV, hl, Outcome.ok_bind]
    exact if_neg (by omega)
  have hs := readTimeRows_spec F (dim := row0.length - 1) (by omega) (row0 :: rest)
  rw [show row0.length - 1 + 1 = row0.length by omega] at hs
  rw [e]
  refine ⟨fun h => hs.1 ?_, fun ⟨r, hr, h⟩ => hs.2 ⟨r, List.mem_cons_of_mem _ hr, h⟩⟩
  intro r hr
  rcases List.mem_cons.1 hr with rfl | hr
  · exact Nat.le_refl _
  · exact h r hr

theorem readTimeTimeRows_spec (F : Fmt K) {dim : Nat} (hd : 0 < dim) : ∀ rows : List (List Str),
    ((∀ row ∈ rows, dim + 2 ≤ row.length) →
      readTimeTimeRows F dim rows = .ok (rows.map fun row => F.parse (row.getD 1 []),
        rows.map fun row => F.parse (row.getD 2 []),
        rows.map fun row => ((row.drop 2).take dim).map F.parse)) ∧
    ((∃ row ∈ rows, row.length < dim + 2) → readTimeTimeRows F dim rows = .throw) := by
  intro rows
  induction rows with
  | nil => exact ⟨fun _ => rfl, fun ⟨_, h, _⟩ => absurd h (by simp)⟩
  | cons row rest ih =>
    have h1 : ∀ i, i < row.length → at' row i = .ok (row.getD i []) := fun i h => by
      rw [at', List.getD, List.getElem?_eq_getElem h]; rfl
    have h0 : ∀ i, row.length ≤ i → at' row i = .throw := fun i h => by
      rw [at', List.getElem?_eq_none h]
    by_cases hl : dim + 2 ≤ row.length
    · have h2 : readVec F row 2 0 dim = .ok (((row.drop 2).take dim).map F.parse) :=
        readVec_spec F row 2 dim 0 (by omega)
      constructor
      · intro h
        rw [readTimeTimeRows, h1 1 (by omega), Outcome.ok_bind, h1 2 (by omega), Outcome.ok_bind, h2,
          Outcome.ok_bind, ih.1 fun r hr => h r (List.mem_cons_of_mem _ hr), Outcome.ok_bind]
        rfl
      · rintro ⟨r, hr, hs⟩
        rcases List.mem_cons.1 hr with rfl | hr
        · omega
        · rw [readTimeTimeRows, h1 1 (by omega), Outcome.ok_bind, h1 2 (by omega), Outcome.ok_bind, h2,
            Outcome.ok_bind, ih.2 ⟨r, hr, hs⟩]
          rfl
    · refine ⟨fun h => absurd (h row (.head _)) hl, fun _ => ?_⟩
      rw [readTimeTimeRows]
      rcases Nat.lt_or_ge 1 row.length with h | h
      · rw [h1 1 h, Outcome.ok_bind]
        rcases Nat.lt_or_ge 2 row.length with h' | h'
        · rw [h1 2 h', Outcome.ok_bind, readVec_short F row 2 dim 0 (by omega) (by omega)]
          rfl
        · rw [h0 2 h']
          rfl
      · rw [h0 1 h]
        rfl

/-- C145, two time columns. -/
theorem C145_ragged_timetime (F : Fmt K) {fs : FS} {name : Str} {row0 : List Str} {rest : List (List Str)}
    (hl : loadCSV fs name = .ok (row0 :: rest)) (h3 : 3 ≤ row0.length) :
    ((∀ row ∈ rest, row0.length ≤ row.length) →
      loadTimeTimeVectorCSV F fs name = .ok ((row0 :: rest).map fun row => F.parse (row.getD 1 []),
        (row0 :: rest).map fun row => F.parse (row.getD 2 []),
        (row0 :: rest).map fun row => ((row.drop 2).take (row0.length - 2)).map F.parse)) ∧
    ((∃ row ∈ rest, row.length < row0.length) → loadTimeTimeVectorCSV F fs name = .throw) := by
  have e : loadTimeTimeVectorCSV F fs name = readTimeTimeRows F (row0.length - 2) (row0 :: rest) := by
    rw [loadTimeTimeVectorCSV, hl, Outcome.ok_bind]
    exact if_neg (by omega)
  have hs := readTimeTimeRows_spec F (dim := row0.length - 2) (by omega) (row0 :: rest)
  rw [show row0.length - 2 + 2 = row0.length by omega] at hs
  rw [e]
  refine ⟨fun h => hs.1 ?_, fun ⟨r, hr, h⟩ => hs.2 ⟨r, List.mem_cons_of_mem _ hr, h⟩⟩
  intro r hr
  rcases List.mem_cons.1 hr with rfl | hr
  · exact Nat.le_refl _
  · exact h r hr

/-- C145, an empty line after the table, which a text editor may leave behind: the loader throws. -/
theorem C145_blank_line (F : Fmt K) {fs fs' : FS} {name text : Str} {row0 : List Str} {rest : List (List Str)}
    (hf : fs.files name = some (text ++ ['\n'])) (hl : loadCSV fs name = .ok (row0 :: rest)) (h2 : 2 ≤ row0.length)
    (hf' : fs'.files name = some (text ++ ['\n', '\n'])) : loadTimeVectorCSV F fs' name = .throw := by
  have key : ∀ (s : Str) (o : Option Str), getlines '\n' o (s ++ ['\n', '\n']) =
      getlines '\n' o (s ++ ['\n']) ++ [[]] := by
    intro s
    induction s with
    | nil => intro o; cases o <;> simp [getlines]
    | cons c s ih =>
      intro o
      rw [List.cons_append, List.cons_append, getlines, getlines]
      split
      · rw [ih, List.cons_append]
      · rw [ih]
  have hc : loadCSV fs' name = .ok (row0 :: (rest ++ [[]])) := by
    rw [loadCSV, hf] at hl
    rw [loadCSV, hf']
    dsimp only at hl ⊢
    have := Outcome.ok.inj hl
    rw [key, List.map_append, this]
    rfl
  exact (C145_ragged F hc h2).2 ⟨[], by simp, by simp; omega⟩

example : (writeCSV disk "a".toList [["I".toList, "II".toList], ["II".toList, "III".toList, "I".toList]] >>= fun fs =>
      loadTimeVectorCSV strokes fs "a".toList) = .ok ([1, 2], [[1], [2]]) ∧
    (writeCSV disk "a".toList [["I".toList, "II".toList], ["II".toList]] >>= fun fs =>
      loadTimeVectorCSV strokes fs "a".toList) = .throw := by decide +kernel

example := C145_ragged strokes (fs := ⟨fun _ => some "I,II\nII\n".toList, fun _ => true⟩) (name := "a".toList)
  (row0 := ["I".toList, "II".toList]) (rest := [["II".toList]]) (by decide +kernel) (by decide)

example := C145_ragged_timetime strokes (fs := ⟨fun _ => some "I,II,I\nII,I,I,I\n".toList, fun _ => true⟩)
  (name := "a".toList) (row0 := ["I".toList, "II".toList, "I".toList])
  (rest := [["II".toList, "I".toList, "I".toList, "I".toList]]) (by decide +kernel) (by decide)

example := C145_blank_line strokes (fs := ⟨fun _ => some "I,II\n".toList, fun _ => true⟩)
  (fs' := ⟨fun _ => some "I,II\n\n".toList, fun _ => true⟩) (name := "a".toList)
  (text := "I,II".toList) (row0 := ["I".toList, "II".toList]) (rest := []) (by decide +kernel) (by decide +kernel)
  (by decide) (by decide +kernel)

end Verif.Csv
