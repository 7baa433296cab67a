import Verif.Manager.RefineProps

/-!
# Many curves in one process

C120.  All managers of a process draw their keys from the one generator; their coefficient types may
differ.
-/

set_option linter.unusedSectionVars false

namespace Verif.Manager

variable {I T : Type} {C : I → Type} [DecidableEq I] [LinearOrder T] [Zero T]

/-- A process with one manager for every index (`curves/include/curves/*Curve.hpp`, members `manager_`), all
drawing keys from the same generator (`curves/src/KeyGenerator.cpp` 13-18). -/
structure Proc (I T : Type) (C : I → Type) where
  w : World
  ms : ∀ i, Mgr T (C i)

/-- All managers as constructed, at any point of the life of the process. -/
def Proc.init (w : World) : Proc I T C := ⟨w, fun _ => Mgr.empty⟩

/-- A call on one of the managers. -/
def Proc.step (p : Proc I T C) (x : Σ i, Op T (C i)) : Outcome (Proc I T C) :=
  Manager.step ⟨p.w, p.ms x.1⟩ x.2 >>= fun s => .ok ⟨s.w, Function.update p.ms x.1 s.m⟩

/-- Calls on the managers, interleaved in any way. -/
def Proc.run (p : Proc I T C) : List (Σ i, Op T (C i)) → Outcome (Proc I T C)
  | [] => .ok p
  | x :: rest => p.step x >>= fun p' => p'.run rest

/-- No call moves a knot to a time that holds one (compare `SafeRun`). -/
def Proc.Safe (p : Proc I T C) : List (Σ i, Op T (C i)) → Prop
  | [] => True
  | x :: rest => SafeOp ⟨p.w, p.ms x.1⟩ x.2 ∧ ∀ p', p.step x = .ok p' → p'.Safe rest

theorem Proc.step_ok {p p' : Proc I T C} {x : Σ i, Op T (C i)} (e : p.step x = .ok p') :
    ∃ s, Manager.step ⟨p.w, p.ms x.1⟩ x.2 = .ok s ∧ p'.w = s.w ∧ p'.ms x.1 = s.m ∧
      ∀ j, j ≠ x.1 → p'.ms j = p.ms j := by
  obtain ⟨s, h1, h2⟩ := Outcome.bind_eq_ok.1 e
  cases h2
  exact ⟨s, h1, rfl, by simp, fun j hj => by simp [hj]⟩

theorem step_nextAddr_mono {C : Type} {s s' : St T C} {op : Op T C} (e : step s op = .ok s') :
    s.w.nextAddr ≤ s'.w.nextAddr := by
  cases op with
  | insert t c =>
    obtain ⟨⟨w', m', k⟩, h1, h2⟩ := Outcome.bind_eq_ok.1 e
    cases h2
    exact (insert_calls_mono h1).2
  | insertMany ts cs =>
    obtain ⟨⟨w', m', ks⟩, h1, h2⟩ := Outcome.bind_eq_ok.1 e
    cases h2
    exact (insertLoop_calls_mono (insertCoefficients_ok h1).2).2
  | addEnd t c =>
    obtain ⟨⟨w', m', k⟩, h1, h2⟩ := Outcome.bind_eq_ok.1 e
    cases h2
    unfold Mgr.addCoefficientAtEnd at h1
    split at h1
    · split at h1
      · cases h1
      · cases h1; simp
    · cases h1
  | removeAt t => obtain ⟨m', h1, h2⟩ := Outcome.bind_eq_ok.1 e; cases h2; exact le_rfl
  | updKey k c => obtain ⟨m', h1, h2⟩ := Outcome.bind_eq_ok.1 e; cases h2; exact le_rfl
  | updKeys l => obtain ⟨m', h1, h2⟩ := Outcome.bind_eq_ok.1 e; cases h2; exact le_rfl
  | modBatch ts cs => obtain ⟨m', h1, h2⟩ := Outcome.bind_eq_ok.1 e; cases h2; exact le_rfl
  | move it t c =>
    obtain ⟨⟨w', m'⟩, h1, h2⟩ := Outcome.bind_eq_ok.1 e
    cases h2
    unfold Mgr.modifyCoefficient at h1
    split at h1
    · cases h1
    · cases h1; simp
  | clear => simp only [step] at e; cases e; exact le_rfl
  | others k a => simp only [step] at e; cases e; simp

/-- The invariant of a process: every manager is well formed, and no key is held by two of them. -/
structure Proc.Inv (p : Proc I T C) : Prop where
  wf : ∀ i, WF p.w (p.ms i)
  apart : ∀ i j k, i ≠ j → k ∈ (p.ms i).contents.map (·.2.1) → k ∉ (p.ms j).contents.map (·.2.1)

theorem WF.key_le {C : Type} {w : World} {m : Mgr T C} (h : WF w m) {k : Key}
    (hk : k ∈ m.contents.map (·.2.1)) : k ≤ w.calls := by
  obtain ⟨t, c, hm⟩ := mem_key_iff.1 hk
  obtain ⟨n, hn, -, rfl, -⟩ := mem_contents.1 hm
  exact h.keyLe n hn

theorem Proc.step_calls {p p' : Proc I T C} {x : Σ i, Op T (C i)} (e : p.step x = .ok p') :
    p.w.calls ≤ p'.w.calls := by
  obtain ⟨s, h1, h2, -⟩ := Proc.step_ok e
  rw [h2]
  exact step_calls_mono h1

theorem Proc.run_calls {p p' : Proc I T C} {xs : List (Σ i, Op T (C i))} (e : p.run xs = .ok p') :
    p.w.calls ≤ p'.w.calls := by
  induction xs generalizing p with
  | nil => cases e; exact le_rfl
  | cons x xs ih =>
    obtain ⟨p1, h1, h2⟩ := Outcome.bind_eq_ok.1 e
    exact (Proc.step_calls h1).trans (ih h2)

/-- One call keeps the invariant; the keys a manager has afterwards it had before, or they are new. -/
theorem Proc.Inv.step {p p' : Proc I T C} (h : p.Inv) {x : Σ i, Op T (C i)}
    (hs : SafeOp ⟨p.w, p.ms x.1⟩ x.2) (e : p.step x = .ok p') (hc : p'.w.calls + 1 < 2 ^ 64) :
    p'.Inv ∧ ∀ i k, k ∈ (p'.ms i).contents.map (·.2.1) →
      k ∈ (p.ms i).contents.map (·.2.1) ∨ p.w.calls < k := by
  obtain ⟨s, h1, h2, h3, h4⟩ := Proc.step_ok e
  rw [h2] at hc
  obtain ⟨hwf, hold⟩ := step_WF (h.wf x.1) hs h1 hc
  have hkeys : ∀ i k, k ∈ (p'.ms i).contents.map (·.2.1) →
      k ∈ (p.ms i).contents.map (·.2.1) ∨ p.w.calls < k := by
    intro i k hk
    by_cases hi : i = x.1
    · subst hi
      rw [h3] at hk
      obtain ⟨t, c, hm⟩ := mem_key_iff.1 hk
      exact (hold t k c hm).imp (fun ⟨t0, c0, h0⟩ => mem_key_iff.2 ⟨t0, c0, h0⟩) id
    · rw [h4 i hi] at hk
      exact .inl hk
  refine ⟨⟨fun i => ?_, fun i j k hij hi hj => ?_⟩, hkeys⟩
  · by_cases hi : i = x.1
    · subst hi
      rw [h2, h3]
      exact hwf
    · rw [h4 i hi, h2]
      exact (h.wf i).mono (step_calls_mono h1) (step_nextAddr_mono h1)
  · rcases hkeys i k hi with hi' | hi'
    · rcases hkeys j k hj with hj' | hj'
      · exact h.apart i j k hij hi' hj'
      · exact absurd ((h.wf i).key_le hi') (by omega)
    · rcases hkeys j k hj with hj' | hj'
      · exact absurd ((h.wf j).key_le hj') (by omega)
      · by_cases hxi : i = x.1
        · have hxj : j ≠ x.1 := fun e => hij (hxi.trans e.symm)
          rw [h4 j hxj] at hj
          exact absurd ((h.wf j).key_le hj) (by omega)
        · rw [h4 i hxi] at hi
          exact absurd ((h.wf i).key_le hi) (by omega)

theorem Proc.Inv.run {p p' : Proc I T C} (h : p.Inv) {xs : List (Σ i, Op T (C i))} (hs : p.Safe xs)
    (e : p.run xs = .ok p') (hc : p'.w.calls + 1 < 2 ^ 64) :
    p'.Inv ∧ ∀ i k, k ∈ (p'.ms i).contents.map (·.2.1) →
      k ∈ (p.ms i).contents.map (·.2.1) ∨ p.w.calls < k := by
  induction xs generalizing p with
  | nil => cases e; exact ⟨h, fun i k hk => .inl hk⟩
  | cons x xs ih =>
    obtain ⟨p1, h1, h2⟩ := Outcome.bind_eq_ok.1 e
    have hm := Proc.run_calls h2
    have hm1 := Proc.step_calls h1
    obtain ⟨hi1, hk1⟩ := h.step hs.1 h1 (by omega)
    obtain ⟨hi2, hk2⟩ := ih hi1 (hs.2 _ h1) h2
    refine ⟨hi2, fun i k hk => ?_⟩
    rcases hk2 i k hk with h' | h'
    · exact hk1 i k h'
    · exact .inr (by omega)

theorem Proc.Inv.init (w : World) : (Proc.init w : Proc I T C).Inv :=
  ⟨fun _ => WF.empty w, fun i j k _ hk => by simp [Proc.init, Mgr.empty, Mgr.contents] at hk⟩

/-- C120. Whatever calls are made on whichever curves of a process in whatever order: a key handed out by one
curve never belongs to another, neither now nor after any further calls, even when it has since been removed
from the curve it came from; on every other curve looking it up or updating through it aborts. -/
theorem C120_keys_apart {w : World} {xs ys : List (Σ i, Op T (C i))} {p p' : Proc I T C}
    (hs : (Proc.init w : Proc I T C).Safe xs) (e : (Proc.init w : Proc I T C).run xs = .ok p)
    (hs' : p.Safe ys) (e' : p.run ys = .ok p') (hc : p'.w.calls + 1 < 2 ^ 64) {i j : I} (hij : i ≠ j) {k : Key}
    (o : List Key) (hk : k ∈ (p.ms i).getKeys o) (v : C j) :
    k ∉ (p'.ms j).getKeys o ∧ (p'.ms j).getCoefficientByKey k = .abort ∧
      (p'.ms j).getCoefficientTimeByKey k = .abort ∧ (p'.ms j).updateCoefficientByKey k v = .abort := by
  have hkeys : ∀ {C : Type} (m : Mgr T C), m.getKeys o = m.contents.map (·.2.1) := fun m => by
    simp [Mgr.getKeys, Mgr.appendKeys, Mgr.contents]
  have hm := Proc.run_calls e'
  obtain ⟨hi, -⟩ := (Proc.Inv.init w).run hs e (by omega)
  obtain ⟨hi', hold⟩ := hi.run hs' e' hc
  rw [hkeys] at hk
  have hno : k ∉ (p'.ms j).contents.map (·.2.1) := by
    intro hj
    rcases hold j k hj with h1 | h1
    · exact hi.apart i j k hij hk h1
    · exact absurd ((hi.wf i).key_le hk) (by omega)
  have hno' : ∀ t c, (t, k, c) ∉ (p'.ms j).contents := fun t c hx => hno (mem_key_iff.2 ⟨t, c, hx⟩)
  rw [hkeys]
  refine ⟨hno, (getByKey_abort (hi'.wf j) hno').1, (getByKey_abort (hi'.wf j) hno').2, ?_⟩
  rcases table_updKey (hi'.wf j) k v with ⟨-, h⟩ | ⟨m', h, -⟩
  · exact h
  · exact absurd h hno

/-- C120, calls on one curve leave the others as they are: in every interleaving each curve goes through exactly
the calls made on it, the calls on the others showing only as keys drawn meanwhile. -/
theorem C120_alone {w : World} {xs : List (Σ i, Op T (C i))} {p : Proc I T C}
    (hs : (Proc.init w : Proc I T C).Safe xs) (e : (Proc.init w : Proc I T C).run xs = .ok p) (i : I) :
    ∃ ops : List (Op T (C i)), SafeRun ⟨w, Mgr.empty⟩ ops ∧
      run ⟨w, Mgr.empty⟩ ops = .ok ⟨p.w, p.ms i⟩ ∧
      ops.filter (fun o => match o with | .others _ _ => false | _ => true) =
        (xs.filterMap fun x => if h : x.1 = i then some (h ▸ x.2) else none).filter
          (fun o => match o with | .others _ _ => false | _ => true) := by
  suffices H : ∀ (q : Proc I T C), q.Safe xs → q.run xs = .ok p →
      ∃ ops : List (Op T (C i)), SafeRun ⟨q.w, q.ms i⟩ ops ∧ run ⟨q.w, q.ms i⟩ ops = .ok ⟨p.w, p.ms i⟩ ∧
      ops.filter (fun o => match o with | .others _ _ => false | _ => true) =
        (xs.filterMap fun x => if h : x.1 = i then some (h ▸ x.2) else none).filter
          (fun o => match o with | .others _ _ => false | _ => true) from H _ hs e
  clear hs e
  induction xs with
  | nil => intro q _ e; cases e; exact ⟨[], trivial, rfl, rfl⟩
  | cons x xs ih =>
    intro q hs e
    obtain ⟨q1, h1, h2⟩ := Outcome.bind_eq_ok.1 e
    obtain ⟨ops, hsafe, hrun, hops⟩ := ih q1 (hs.2 _ h1) h2
    obtain ⟨s, hst, hw, hx, hoth⟩ := Proc.step_ok h1
    by_cases hi : x.1 = i
    · subst hi
      have hq : (⟨q1.w, q1.ms x.1⟩ : St T (C x.1)) = s := by rw [hw, hx]
      rw [hq] at hsafe hrun
      refine ⟨x.2 :: ops, ⟨hs.1, fun s' e' => ?_⟩, by simp [run, hst, hrun], ?_⟩
      · rw [hst] at e'; cases e'; exact hsafe
      · simp [List.filter_cons, hops]
    · have hq : q1.ms i = q.ms i := hoth i (Ne.symm hi)
      refine ⟨.others (q1.w.calls - q.w.calls) (q1.w.nextAddr - q.w.nextAddr) :: ops, ⟨trivial, fun s' e' => ?_⟩,
        ?_, ?_⟩
      all_goals
        have hst' : Manager.step (⟨q.w, q.ms i⟩ : St T (C i))
            (.others (q1.w.calls - q.w.calls) (q1.w.nextAddr - q.w.nextAddr)) = .ok ⟨q1.w, q1.ms i⟩ := by
          have hc := Proc.step_calls h1
          have ha := step_nextAddr_mono hst
          rw [← hw] at ha
          simp only [Manager.step, hq, Outcome.ok.injEq, St.mk.injEq, and_true]
          simp only at ha
          cases hq1 : q1.w
          simp only [hq1] at hc ha
          simp only [World.mk.injEq]
          omega
      · rw [hst'] at e'; cases e'; exact hsafe
      · simp [run, hst', hrun]
      · simp [hops, hi]

/-- Two curves; the second draws a key between two insertions into the first, and the first removes a knot. -/
def twoCurves : List (Σ _ : Bool, Op Nat Nat) :=
  [⟨true, .insert 1 10⟩, ⟨false, .insertMany [5, 4] [50, 40]⟩, ⟨true, .insert 0 20⟩, ⟨true, .removeAt 1⟩]

example : (Proc.run (C := fun _ : Bool => Nat) (.init ⟨7, 0⟩) twoCurves >>= fun p =>
      .ok ((p.ms true).contents, (p.ms false).contents)) =
      .ok ([(0, 11, 20)], [(4, 10, 40), (5, 9, 50)]) ∧
    (Proc.run (C := fun _ : Bool => Nat) (.init ⟨7, 0⟩) twoCurves >>= fun p =>
      (p.ms false).getCoefficientByKey 8) = .abort := by decide

example : (Proc.init ⟨7, 0⟩ : Proc Bool Nat fun _ => Nat).Safe twoCurves :=
  ⟨trivial, fun _ _ => ⟨trivial, fun _ _ => ⟨trivial, fun _ _ => ⟨trivial, fun _ _ => trivial⟩⟩⟩⟩

end Verif.Manager
