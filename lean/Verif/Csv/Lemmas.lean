import Verif.Csv.Model
import Mathlib.Tactic.Push
import Mathlib.Data.List.Basic

/-!
# Lemmas about the CSV model
-/

set_option linter.unusedSectionVars false
set_option linter.dupNamespace false

namespace Verif.Csv

theorem getlines_sep {d : Char} {s rest : Str} : ∀ {o : Option Str}, d ∉ s →
    getlines d o (s ++ d :: rest) = (o.getD [] ++ s) :: getlines d none rest := by
  induction s with
  | nil => intro o _; cases o <;> simp [getlines]
  | cons c cs ih =>
    intro o h
    simp only [List.mem_cons, not_or] at h
    have hc : c ≠ d := fun e => h.1 e.symm
    cases o <;> simp [getlines, hc, ih h.2]

theorem getlines_last {d : Char} {s : Str} : ∀ {a : Str}, d ∉ s → getlines d (some a) s = [a ++ s] := by
  induction s with
  | nil => intro a _; simp [getlines]
  | cons c cs ih =>
    intro a h
    simp only [List.mem_cons, not_or] at h
    have hc : c ≠ d := fun e => h.1 e.symm
    simp [getlines, hc, ih h.2]

theorem getlines_none {d : Char} {s : Str} (h : d ∉ s) (hne : s ≠ []) : getlines d none s = [s] := by
  cases s with
  | nil => exact absurd rfl hne
  | cons c cs =>
    simp only [List.mem_cons, not_or] at h
    have hc : c ≠ d := fun e => h.1 e.symm
    simp [getlines, hc, getlines_last h.2]

/-- What is read back of one row: an empty last field is lost. -/
def readBack (row : List Str) : List Str := if row.getLast? = some [] then row.dropLast else row

theorem getlines_join {row : List Str} (h : ∀ f ∈ row, ',' ∉ f) :
    getlines ',' none (joinRow row) = readBack row := by
  induction row with
  | nil => simp [joinRow, getlines, readBack]
  | cons f rest ih =>
    cases rest with
    | nil =>
      by_cases hf : f = []
      · simp [joinRow, hf, getlines, readBack]
      · simp [joinRow, getlines_none (h f (by simp)) hf, readBack, hf]
    | cons g rest =>
      rw [joinRow, getlines_sep (h f (by simp)), ih fun x hx => h x (.tail _ hx)]
      · simp only [readBack, List.getLast?_cons_cons, List.dropLast_cons_cons, Option.getD_none,
          List.nil_append]
        split <;> rfl
      · simp

theorem join_newline {row : List Str} (h : ∀ f ∈ row, '\n' ∉ f) : '\n' ∉ joinRow row := by
  induction row with
  | nil => simp [joinRow]
  | cons f rest ih =>
    cases rest with
    | nil => simpa [joinRow] using h f (by simp)
    | cons g rest =>
      rw [joinRow]
      · simp only [List.mem_append, List.mem_cons, not_or]
        exact ⟨h f (by simp), by decide, ih fun x hx => h x (.tail _ hx)⟩
      · simp

theorem writeRows_ok {rows : List (List Str)} (h : ∀ row ∈ rows, row ≠ []) :
    writeRows rows = .ok (rows.flatMap fun row => joinRow row ++ ['\n']) := by
  induction rows with
  | nil => rfl
  | cons row rest ih =>
    have hl : ¬ row.length < 1 := by
      have := List.length_pos_iff.2 (h row (.head _)); omega
    rw [writeRows, if_neg hl, ih fun x hx => h x (.tail _ hx)]
    simp

theorem lines_read {rows : List (List Str)} (h : ∀ row ∈ rows, ∀ f ∈ row, '\n' ∉ f) :
    getlines '\n' none (rows.flatMap fun row => joinRow row ++ ['\n']) = rows.map joinRow := by
  induction rows with
  | nil => rfl
  | cons row rest ih =>
    simp only [List.flatMap_cons, List.append_assoc, List.singleton_append, List.map_cons]
    rw [getlines_sep (join_newline (h row (.head _))), ih fun x hx => h x (.tail _ hx)]
    rfl

/-- Fields contain no separators, rows are not empty. -/
def Clean (rows : List (List Str)) : Prop :=
  ∀ row ∈ rows, row ≠ [] ∧ ∀ f ∈ row, ',' ∉ f ∧ '\n' ∉ f

theorem write_load {fs : FS} {name : Str} {rows : List (List Str)} (hw : fs.writable name = true)
    (hne : rows ≠ []) (h : Clean rows) :
    ∃ fs', writeCSV fs name rows = .ok fs' ∧ fs'.writable = fs.writable ∧
      (∀ n, n ≠ name → fs'.files n = fs.files n) ∧ loadCSV fs' name = .ok (rows.map readBack) := by
  have hl : ¬ rows.length < 1 := by
    have := List.length_pos_iff.2 hne; omega
  refine ⟨⟨fun n => if n = name then some (rows.flatMap fun row => joinRow row ++ ['\n'])
      else fs.files n, fs.writable⟩,
    by rw [writeCSV, if_neg hl, writeRows_ok fun r hr => (h r hr).1, Outcome.ok_bind, if_pos hw],
    rfl, fun n hn => by simp [hn], ?_⟩
  simp only [loadCSV, if_true]
  rw [lines_read fun r hr f hf => ((h r hr).2 f hf).2, List.map_map]
  congr 1
  refine List.map_congr_left fun r hr => ?_
  exact getlines_join fun f hf => ((h r hr).2 f hf).1

variable {K : Type}

theorem readVec_spec (F : Fmt K) (row : List Str) (offset : Nat) : ∀ (n i : Nat),
    i + offset + n ≤ row.length →
    readVec F row offset i n = .ok (((row.drop (i + offset)).take n).map F.parse) := by
  intro n
  induction n with
  | zero => intro i _; simp [readVec]
  | succ n ih =>
    intro i h
    have hi : i + offset < row.length := by omega
    rw [readVec, at', List.getElem?_eq_getElem hi]
    simp only [Outcome.ok_bind]
    rw [ih (i + 1) (by omega), Outcome.ok_bind, List.drop_eq_getElem_cons hi, List.take_succ_cons,
      List.map_cons, show i + 1 + offset = i + offset + 1 by omega]

/-- The table `writeTimeVectorCSV` hands to `writeCSV`. -/
def table (F : Fmt K) (times : List K) (values : List (List K)) : List (List Str) :=
  (times.zip values).map fun p => F.print p.1 :: p.2.map F.print

theorem printRows_ok (F : Fmt K) {dim : Nat} {times : List K} : ∀ {values : List (List K)},
    (∀ v ∈ values, v.length = dim) → printRows F dim times values = .ok (table F times values) := by
  induction times with
  | nil => intro values _; cases values <;> rfl
  | cons t ts ih =>
    intro values h
    cases values with
    | nil => rfl
    | cons v vs =>
      rw [printRows, if_neg (by simp [h v (.head _)]), ih fun x hx => h x (.tail _ hx)]
      simp [table]

theorem table_clean (F : Fmt K) (times : List K) (values : List (List K)) :
    Clean (table F times values) := by
  intro row hr
  obtain ⟨p, -, rfl⟩ := List.mem_map.1 hr
  refine ⟨by simp, ?_⟩
  intro f hf
  rcases List.mem_cons.1 hf with rfl | hf
  · exact ⟨F.print_comma _, F.print_newline _⟩
  · obtain ⟨x, -, rfl⟩ := List.mem_map.1 hf
    exact ⟨F.print_comma _, F.print_newline _⟩

theorem readBack_printed (F : Fmt K) {l : List K} : readBack (l.map F.print) = l.map F.print := by
  rw [readBack, if_neg]
  intro h
  have := List.mem_of_getLast? h
  obtain ⟨x, -, e⟩ := List.mem_map.1 this
  exact F.print_ne x e

theorem table_readBack (F : Fmt K) (times : List K) (values : List (List K)) :
    (table F times values).map readBack = table F times values := by
  simp only [table, List.map_map]
  refine List.map_congr_left fun p _ => ?_
  exact readBack_printed F (l := p.1 :: p.2)

end Verif.Csv
