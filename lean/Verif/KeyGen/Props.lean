import Verif.KeyGen.Model
import Mathlib.Data.List.Range
import Mathlib.Tactic.Push
import Mathlib.Data.List.Nodup

/-!
# C07: keys are globally unique under concurrency
-/

namespace Verif.KeyGen

variable {Tid : Type} [DecidableEq Tid]

/-- The keys handed out after `n` calls, in order of return: `1, 2, ..., n`, modulo `2^64`. -/
def expected (n : Nat) : List Nat := (List.range n).map fun i => (i + 1) % 2 ^ 64

theorem expected_succ (n : Nat) : expected (n + 1) = expected n ++ [(n + 1) % 2 ^ 64] := by
  simp [expected, List.range_succ]

/-- Invariant: the log is `expected`, and the position of the mutex owner determines `key`. -/
structure Inv (s : St Tid) : Prop where
  log : s.log.map Prod.snd = expected s.log.length
  free : s.owner = none → s.key = s.log.length % 2 ^ 64
  excl : ∀ t, s.owner ≠ some t → s.pc t = .idle ∨ s.pc t = .waiting
  held : ∀ t, s.owner = some t →
    (s.pc t = .locked ∧ s.key = s.log.length % 2 ^ 64) ∨
    (s.pc t = .loaded (s.log.length % 2 ^ 64) ∧ s.key = s.log.length % 2 ^ 64) ∨
    (s.pc t = .stored ∧ s.key = (s.log.length + 1) % 2 ^ 64) ∨
    (s.pc t = .done ((s.log.length + 1) % 2 ^ 64) ∧ s.key = (s.log.length + 1) % 2 ^ 64)

theorem Inv.init : Inv (init Tid) := by
  constructor <;> simp [KeyGen.init, expected]

theorem Inv.step {s s' : St Tid} (h : Inv s) {t : Tid} (e : step s t = some s') : Inv s' := by
  unfold KeyGen.step at e
  by_cases ho : s.owner = some t
  · rcases h.held t ho with ⟨hp, hk⟩ | ⟨hp, hk⟩ | ⟨hp, hk⟩ | ⟨hp, hk⟩ <;>
      simp only [hp, Option.some.injEq] at e <;> subst e
    · refine ⟨h.log, h.free, fun u hu => ?_, fun u hu => ?_⟩
      · have : u ≠ t := by rintro rfl; exact hu ho
        simpa [this] using h.excl u hu
      · have : u = t := by rw [ho] at hu; exact (Option.some.inj hu).symm
        subst this
        simp [hk]
    · refine ⟨h.log, fun hn => ?_, fun u hu => ?_, fun u hu => ?_⟩
      · simp [ho] at hn
      · have : u ≠ t := by rintro rfl; exact hu ho
        simpa [this] using h.excl u hu
      · have : u = t := by rw [ho] at hu; exact (Option.some.inj hu).symm
        subst this
        simp
    · refine ⟨h.log, fun hn => ?_, fun u hu => ?_, fun u hu => ?_⟩
      · simp [ho] at hn
      · have : u ≠ t := by rintro rfl; exact hu ho
        simpa [this] using h.excl u hu
      · have : u = t := by rw [ho] at hu; exact (Option.some.inj hu).symm
        subst this
        simp [hk]
    · refine ⟨?_, fun _ => ?_, fun u _ => ?_, fun u hu => ?_⟩
      · simp [h.log, expected_succ]
      · simpa using hk
      · by_cases hut : u = t
        · simp [hut]
        · have : s.owner ≠ some u := by rw [ho]; intro e; exact hut (Option.some.inj e).symm
          simpa [hut] using h.excl u this
      · simp at hu
  · rcases h.excl t ho with hp | hp
    · simp only [hp, Option.some.injEq] at e
      subst e
      refine ⟨h.log, h.free, fun u hu => ?_, fun u hu => ?_⟩
      · by_cases hut : u = t
        · simp [hut]
        · simpa [hut] using h.excl u hu
      · have : u ≠ t := by rintro rfl; exact ho hu
        simpa [this] using h.held u hu
    · simp only [hp] at e
      split at e
      · cases e
      · next hn =>
        simp only [Option.some.injEq] at e
        subst e
        refine ⟨h.log, fun h0 => by simp at h0, fun u hu => ?_, fun u hu => ?_⟩
        · have : u ≠ t := by rintro rfl; exact hu rfl
          have hn' : s.owner ≠ some u := by rw [hn]; simp
          simpa [this] using h.excl u hn'
        · have : u = t := (Option.some.inj hu).symm
          subst this
          simp [h.free hn]

theorem Inv.run {s : St Tid} (h : Inv s) (sched : List Tid) : Inv (run s sched) := by
  induction sched generalizing s with
  | nil => exact h
  | cons t rest ih =>
    simp only [KeyGen.run]
    apply ih
    cases e : KeyGen.step s t with
    | none => exact h
    | some s' => exact h.step e

/-- C07. Whatever the number of threads and whatever the schedule, the keys returned so far, in the
order in which the calls returned, are `1, 2, ..., n` modulo `2^64`. -/
theorem C07_keys_in_order (sched : List Tid) :
    let s := run (init Tid) sched
    s.log.map Prod.snd = (List.range s.log.length).map fun i => (i + 1) % 2 ^ 64 :=
  (Inv.init.run sched).log

/-- C07. Until `2^64` calls have returned, all keys handed out are pairwise different and are exactly
the numbers `1..n`; in particular no key is `0`. -/
theorem C07_keys_unique (sched : List Tid) (hn : (run (init Tid) sched).log.length < 2 ^ 64) :
    ((run (init Tid) sched).log.map Prod.snd).Nodup ∧
    ∀ k, k ∈ (run (init Tid) sched).log.map Prod.snd ↔
      1 ≤ k ∧ k ≤ (run (init Tid) sched).log.length := by
  have h := C07_keys_in_order sched
  simp only at h
  rw [h]
  constructor
  · refine List.Nodup.map_on (fun i hi j hj e => ?_) List.nodup_range
    rw [List.mem_range] at hi hj
    rw [Nat.mod_eq_of_lt (by omega), Nat.mod_eq_of_lt (by omega)] at e
    omega
  · intro k
    simp only [List.mem_map, List.mem_range]
    constructor
    · rintro ⟨i, hi, rfl⟩
      rw [Nat.mod_eq_of_lt (by omega)]
      omega
    · rintro ⟨h1, h2⟩
      exact ⟨k - 1, by omega, by rw [Nat.mod_eq_of_lt (by omega)]; omega⟩

/-- C07, after wrap-around: the `2^64`-th call returns `0`, and every later call repeats the key of
the call `2^64` earlier (the keys are no longer unique). -/
theorem C07_wraps (sched : List Tid) (i : Nat) (hi : i < (run (init Tid) sched).log.length) :
    (i + 1 = 2 ^ 64 → ((run (init Tid) sched).log[i]).2 = 0) ∧
    (∀ h : i + 2 ^ 64 < (run (init Tid) sched).log.length,
      ((run (init Tid) sched).log[i + 2 ^ 64]).2 = ((run (init Tid) sched).log[i]).2) := by
  have h := C07_keys_in_order sched
  simp only at h
  have key : ∀ j (hj : j < (run (init Tid) sched).log.length),
      ((run (init Tid) sched).log[j]).2 = (j + 1) % 2 ^ 64 := by
    intro j hj
    have h2 : ((run (init Tid) sched).log.map Prod.snd)[j]'(by simpa using hj) =
        (((List.range (run (init Tid) sched).log.length).map fun i => (i + 1) % 2 ^ 64))[j]'(by
          simpa using hj) := by simp only [h]
    simpa using h2
  constructor
  · intro hw; rw [key i hi, hw, Nat.mod_self]
  · intro hj
    rw [key _ hj, key i hi]
    omega

/-- Each thread sees strictly increasing keys (before wrap-around). -/
theorem C07_per_thread_increasing (sched : List Tid) (t : Tid)
    (hn : (run (init Tid) sched).log.length < 2 ^ 64) :
    (((run (init Tid) sched).log.filter fun p => p.1 = t).map Prod.snd).Pairwise (· < ·) := by
  have h := C07_keys_in_order sched
  simp only at h
  have hall : ((run (init Tid) sched).log.map Prod.snd).Pairwise (· < ·) := by
    rw [h, List.pairwise_map]
    refine List.pairwise_lt_range.imp_of_mem fun {i j} hi hj hij => ?_
    rw [List.mem_range] at hi hj
    rw [Nat.mod_eq_of_lt (by omega), Nat.mod_eq_of_lt (by omega)]
    omega
  exact hall.sublist (List.filter_sublist.map _)

/-- No schedule deadlocks: in every reachable state, if there is a thread at all, some thread can
make a step. -/
theorem C07_no_deadlock (sched : List Tid) (t : Tid) :
    ∃ u, (step (run (init Tid) sched) u).isSome := by
  have h := (Inv.init (Tid := Tid)).run sched
  cases ho : (run (init Tid) sched).owner with
  | none =>
    refine ⟨t, ?_⟩
    rcases h.excl t (by simp [ho]) with hp | hp <;> simp [step, hp, ho]
  | some u =>
    refine ⟨u, ?_⟩
    rcases h.held u ho with ⟨hp, _⟩ | ⟨hp, _⟩ | ⟨hp, _⟩ | ⟨hp, _⟩ <;> simp [step, hp]

/-- At most one thread at a time is between locking and unlocking. -/
theorem C07_mutual_exclusion (sched : List Tid) (t u : Tid)
    (ht : (run (init Tid) sched).pc t ≠ .idle ∧ (run (init Tid) sched).pc t ≠ .waiting)
    (hu : (run (init Tid) sched).pc u ≠ .idle ∧ (run (init Tid) sched).pc u ≠ .waiting) : t = u := by
  have h := (Inv.init (Tid := Tid)).run sched
  have key : ∀ v : Tid, (run (init Tid) sched).pc v ≠ .idle ∧
      (run (init Tid) sched).pc v ≠ .waiting → (run (init Tid) sched).owner = some v := by
    intro v hv
    by_contra hne
    rcases h.excl v hne with hp | hp
    · exact hv.1 hp
    · exact hv.2 hp
  have h1 := key t ht
  rw [key u hu] at h1
  exact (Option.some.inj h1).symm

/-- Two threads interleaving their calls: both enter, one waits for the other. -/
example : (run (init Nat) [0, 1, 0, 1, 0, 0, 1, 0, 0, 1, 0, 1, 1, 0, 1, 1, 0, 0, 0, 0, 0, 0]).log =
    [(0, 1), (1, 2), (0, 3)] := by decide

end Verif.KeyGen
