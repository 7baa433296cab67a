import Verif.Policy.Model
import Verif.Manager.HistoryLemmas
import Mathlib.Data.List.Sort
import Mathlib.Data.List.Induction
import Mathlib.Data.Nat.Basic
import Mathlib.Tactic.Push

/-!
# Lemmas about the sampling policy
-/

set_option linter.unusedSectionVars false

namespace Verif.Policy

open Verif.Manager

variable {T C : Type} [LinearOrder T]

/-- Two lists of knots with strictly increasing times and the same members are equal. -/
theorem eq_of_mem_iff {X : Type} {l1 l2 : List (T × X)} (h1 : l1.Pairwise fun a b => a.1 < b.1)
    (h2 : l2.Pairwise fun a b => a.1 < b.1) (h : ∀ x, x ∈ l1 ↔ x ∈ l2) : l1 = l2 := by
  have n1 : l1.Nodup := h1.imp fun {a b} hab e => by subst e; exact lt_irrefl _ hab
  have n2 : l2.Nodup := h2.imp fun {a b} hab e => by subst e; exact lt_irrefl _ hab
  have hp : l1.Perm l2 := (List.perm_ext_iff_of_nodup n1 n2).2 h
  exact hp.eq_of_pairwise (fun a b _ _ hab hba => absurd (hab.trans hba) (lt_irrefl _)) h1 h2

theorem contents_sorted {w : World} {m : Mgr T C} (h : WF w m) :
    m.contents.Pairwise fun a b => a.1 < b.1 := by
  simp only [Mgr.contents, List.pairwise_map]
  exact h.sorted

/-- Inserting after all existing knots appends. -/
theorem insert_append {w : World} {m : Mgr T C} (h : WF w m) (hw : w.calls + 1 < 2 ^ 64) {t : T}
    (v : C) (ht : ∀ x ∈ m.contents, x.1 < t) :
    ∃ w' m' k, m.insertCoefficient w t v = .ok (w', m', k) ∧ WF w' m' ∧
      w'.calls = w.calls + 1 ∧ m'.contents = m.contents ++ [(t, k, v)] := by
  obtain ⟨w', m', k, e, hwf, hcont, hcase⟩ := insert_spec h hw t v
  refine ⟨w', m', k, e, hwf, ?_, ?_⟩
  · rcases hcase with ⟨_, ⟨c0, h0⟩, _⟩ | ⟨h1, _⟩
    · exact absurd (ht _ h0) (lt_irrefl _)
    · exact h1
  · apply eq_of_mem_iff (contents_sorted hwf)
    · rw [List.pairwise_append]
      exact ⟨contents_sorted h, by simp, by simpa using fun a b c hx => ht _ hx⟩
    · rintro ⟨t', k', v'⟩
      rw [hcont]
      simp only [List.mem_append, List.mem_singleton, Prod.mk.injEq]
      constructor
      · rintro (hx | ⟨_, hx⟩)
        · exact .inr hx
        · exact .inl hx
      · rintro (hx | hx)
        · exact .inr ⟨(ht _ hx).ne, hx⟩
        · exact .inl hx

/-- Appending at the end, on listings of knots. -/
theorem addEnd_append [Zero T] {w : World} {m : Mgr T C} (h : WF w m) (hw : w.calls + 1 < 2 ^ 64)
    (hne : m.contents ≠ []) {t : T} (v : C) (ht : ∀ x ∈ m.contents, x.1 < t) :
    ∃ w' m' k, m.addCoefficientAtEnd w t v = .ok (w', m', k) ∧ WF w' m' ∧
      w'.calls = w.calls + 1 ∧ m'.contents = m.contents ++ [(t, k, v)] := by
  have hne' : m.nodes ≠ [] := by intro e; simp [Mgr.contents, e] at hne
  rcases addEnd_spec h hw hne' t v with ⟨hle, _⟩ | ⟨w', m', _, e, hc, _, hwf, hn, _⟩
  · exfalso
    cases hl : m.nodes.getLast? with
    | none => exact hne' (List.getLast?_eq_none_iff.1 hl)
    | some l =>
      have hm := (getLast?_max h.sorted hl).1
      have := ht (l.time, l.key, l.coef) (mem_contents.2 ⟨l, hm, rfl, rfl, rfl⟩)
      simp only [Mgr.getMaxTime, hl] at hle
      exact absurd this (not_lt.2 hle)
  · exact ⟨w', m', _, e, hwf, hc, by simp [Mgr.contents, hn]⟩

/-- Moving the last knot to a later time, on listings of knots. -/
theorem moveLast {w : World} {m : Mgr T C} (h : WF w m) {pre : List (T × Key × C)}
    {last : T × Key × C} (hm : m.contents = pre ++ [last]) {t : T} (v : C)
    (ht : ∀ x ∈ m.contents, x.1 < t) :
    ∃ n w' m', m.nodes.getLast? = some n ∧ m.modifyCoefficient w n.addr t v = .ok (w', m') ∧
      WF w' m' ∧ w'.calls = w.calls ∧ m'.contents = pre ++ [(t, last.2.1, v)] := by
  simp only [Mgr.contents] at hm
  obtain ⟨npre, nl, hx, hp, hl⟩ := List.map_eq_append_iff.1 hm
  obtain ⟨n, rest, rfl, hn, hr⟩ := List.map_eq_cons_iff.1 hl
  rw [List.map_eq_nil_iff] at hr
  subst hr hn hp
  have hlast : m.nodes.getLast? = some n := by simp [hx]
  have hmem : n ∈ m.nodes := by simp [hx]
  obtain ⟨w', m', e, hc, _, hwf, hcont⟩ := move_spec h hmem t v (fun x hx' =>
    (ht (x.time, x.key, x.coef) (mem_contents.2 ⟨x, hx', rfl, rfl, rfl⟩)).ne)
  refine ⟨n, w', m', hlast, e, hwf, hc, ?_⟩
  have hs := contents_sorted h
  have hcm : m.contents = npre.map (fun n => (n.time, n.key, n.coef)) ++ [(n.time, n.key, n.coef)] := by
    simp [Mgr.contents, hx]
  rw [hcm] at hs
  rw [List.pairwise_append] at hs
  apply eq_of_mem_iff (contents_sorted hwf)
  · rw [List.pairwise_append]
    refine ⟨hs.1, by simp, fun a ha b hb => ?_⟩
    simp only [List.mem_singleton] at hb
    subst hb
    exact ht a (by rw [hcm]; exact List.mem_append_left _ ha)
  · rintro ⟨t', k', v'⟩
    rw [hcont, hcm]
    simp only [List.mem_append, List.mem_singleton, Prod.mk.injEq]
    constructor
    · rintro (hx | ⟨hne, hx | hx⟩)
      · exact .inr hx
      · exact .inl hx
      · exact absurd hx.1 hne
    · rintro (hx | hx)
      · right
        refine ⟨?_, .inl hx⟩
        exact (hs.2.2 _ hx _ (List.mem_singleton_self _)).ne
      · exact .inl hx

variable [Zero T]

theorem feed_append (w : World) (c : Curve T C) (xs ys : List (T × C)) :
    c.feed w (xs ++ ys) = (c.feed w xs >>= fun r => r.2.feed r.1 ys) := by
  induction xs generalizing w c with
  | nil => simp [Curve.feed]
  | cons x xs ih =>
    obtain ⟨t, v⟩ := x
    simp only [List.cons_append, Curve.feed]
    cases e : c.extend w [t] [v] with
    | ok r => simp [ih]
    | abort => rfl
    | throw => rfl
    | ub => rfl

theorem succ_mod (a m : Nat) (hm : 0 < m) :
    (a + 1) % m = if a % m + 1 = m then 0 else a % m + 1 := by
  have hlt := Nat.mod_lt a hm
  rw [Nat.add_mod]
  by_cases h1 : m = 1
  · subst h1; simp [Nat.mod_one]
  · rw [Nat.mod_eq_of_lt (a := 1) (by omega)]
    split
    · next h => rw [h, Nat.mod_self]
    · exact Nat.mod_eq_of_lt (by omega)

/-- The `i`-th measurement (counting from 0) closes a group, when the counter was `c` at the start. -/
def closes (c m i : Nat) : Bool := i == 0 || (c + (i - 1)) % m == 0

/-- Measurements that close a group. -/
def keptL (c m : Nat) (xs : List (T × C)) : List (T × C) :=
  (xs.zipIdx.filter fun p => closes c m p.2).map Prod.fst

theorem keptL_snoc (c m : Nat) (xs : List (T × C)) (x : T × C) :
    keptL c m (xs ++ [x]) = keptL c m xs ++ if closes c m xs.length then [x] else [] := by
  simp only [keptL, List.zipIdx_append, List.filter_append, List.map_append]
  congr 1
  simp only [List.zipIdx_singleton, List.filter_cons, List.filter_nil, Nat.zero_add]
  split <;> rfl

theorem keptL_subset (c m : Nat) (xs : List (T × C)) : ∀ x ∈ keptL c m xs, x ∈ xs := by
  intro x hx
  simp only [keptL, List.mem_map, List.mem_filter] at hx
  obtain ⟨p, ⟨hp, _⟩, rfl⟩ := hx
  exact List.fst_mem_of_mem_zipIdx hp

/-- What the curve looks like after feeding `xs`: see `feed_inv`. -/
structure FeedInv (w0 : World) (c m : Nat) (xs : List (T × C)) (w : World) (cv : Curve T C) :
    Prop where
  wf : WF w cv.mgr
  calls : w.calls ≤ w0.calls + xs.length
  ratio : cv.pol.minMeas = m
  since : cv.pol.since = if xs.length < 2 then (c : Int) else (((c + (xs.length - 2)) % m : Nat) : Int)
  knots : cv.knots = keptL c m xs ++
    if closes c m (xs.length - 1) then [] else xs.getLast?.toList

theorem knots_eq_map {cv : Curve T C} {l : List (T × Key × C)} (h : cv.mgr.contents = l) :
    cv.knots = l.map fun x => (x.1, x.2.2) := by simp [Curve.knots, h]

theorem knots_subset {w0 w : World} {c m : Nat} {xs : List (T × C)} {cv : Curve T C}
    (h : FeedInv w0 c m xs w cv) : ∀ x ∈ cv.mgr.contents, (x.1, x.2.2) ∈ xs := by
  intro x hx
  have h1 : (x.1, x.2.2) ∈ cv.knots := List.mem_map_of_mem (f := fun x => (x.1, x.2.2)) hx
  rw [h.knots, List.mem_append] at h1
  rcases h1 with h1 | h1
  · exact keptL_subset _ _ _ _ h1
  · split at h1
    · simp at h1
    · simp only [Option.mem_toList] at h1
      exact List.mem_of_getLast? h1

theorem keptL_length_two {c m : Nat} {xs : List (T × C)} (h : 2 ≤ xs.length) :
    1 ≤ (keptL c m xs).length := by
  match xs, h with
  | a :: b :: r, _ => simp [keptL, closes]

/-- One more measurement. -/
theorem feed_step {w0 w : World} {c m : Nat} {xs : List (T × C)} {cv : Curve T C}
    (h : FeedInv w0 c m xs w cv) (hm : 0 < m) (hm31 : m < 2 ^ 31) (hcm : c < m) {t : T} {v : C}
    (ht : ∀ x ∈ xs, x.1 < t) (hw : w0.calls + xs.length + 1 < 2 ^ 64) :
    ∃ w' cv' ks, cv.extend w [t] [v] = .ok (w', cv', ks) ∧ FeedInv w0 c m (xs ++ [(t, v)]) w' cv' := by
  have hwc : w.calls + 1 < 2 ^ 64 := by have := h.calls; omega
  have htc : ∀ x ∈ cv.mgr.contents, x.1 < t := fun x hx => ht _ (knots_subset h x hx)
  have hlenk : cv.mgr.size = cv.knots.length := by simp [Mgr.size, Curve.knots, Mgr.contents]
  by_cases hsmall : xs.length < 2
  · -- the first two measurements are inserted
    obtain ⟨w', m', k, e, hwf, hc, hcont⟩ := insert_append h.wf hwc v htc
    have hk := h.knots
    have hsz : cv.mgr.isEmpty ∨ cv.mgr.size = 1 := by
      match xs, hsmall with
      | [], _ =>
        left
        simp [keptL] at hk
        simp [Mgr.isEmpty]
        simpa [Curve.knots, Mgr.contents] using hk
      | [a], _ =>
        right
        rw [hlenk, hk]
        simp [keptL, closes]
    refine ⟨w', ⟨m', cv.pol⟩, [k], ?_, hwf, ?_, h.ratio, ?_, ?_⟩
    · simp [Curve.extend, hsz, Mgr.insertCoefficients, Mgr.insertLoop, e]
    · have := h.calls; simp; omega
    · rw [h.since, if_pos hsmall]
      split
      · rfl
      · next hn =>
        simp only [List.length_append, List.length_cons, List.length_nil] at hn ⊢
        have : xs.length + 1 - 2 = 0 := by omega
        simp only [Nat.zero_add, this, Nat.add_zero, Nat.mod_eq_of_lt hcm]
    · rw [knots_eq_map (cv := ⟨m', cv.pol⟩) hcont, List.map_append]
      have : List.map (fun x => (x.1, x.2.2)) cv.mgr.contents = cv.knots := rfl
      rw [this, hk, keptL_snoc]
      match xs, hsmall with
      | [], _ => simp [keptL, closes]
      | [a], _ =>
        simp [keptL, closes]
        split <;> simp_all
  · have hn2 : 2 ≤ xs.length := by omega
    have hk := h.knots
    have hsize : 2 ≤ cv.mgr.size := by
      rw [hlenk, hk]
      have h1 : 1 ≤ (keptL c m xs).length := keptL_length_two hn2
      obtain ⟨ys, y, rfl⟩ : ∃ ys y, xs = ys ++ [y] := by
        refine ⟨xs.dropLast, xs.getLast (by intro e; simp [e] at hn2), ?_⟩
        rw [List.dropLast_append_getLast]
      rw [keptL_snoc]
      simp only [List.length_append, List.length_cons, List.length_nil, Nat.add_sub_cancel,
        Nat.zero_add]
      have h2 : 1 ≤ (keptL c m ys).length := by
        match ys, hn2 with
        | a :: r, _ => simp [keptL, closes]
      split
      · simp; omega
      · simp; omega
    have hne : cv.mgr.contents ≠ [] := by
      intro e; rw [Mgr.size] at hsize; simp [Mgr.contents] at e; simp [e] at hsize
    have hnotsmall : ¬ (cv.mgr.isEmpty ∨ cv.mgr.size = 1) := by
      rintro (he | he)
      · simp [Mgr.isEmpty] at he; simp [Mgr.contents, he] at hne
      · omega
    have hsince : cv.pol.since = (((c + (xs.length - 2)) % m : Nat) : Int) := by
      rw [h.since, if_neg hsmall]
    have hcl : closes c m (xs.length - 1) = decide ((c + (xs.length - 2)) % m = 0) := by
      simp only [closes]
      have h0 : xs.length - 1 ≠ 0 := by omega
      have h1 : xs.length - 1 - 1 = xs.length - 2 := by omega
      simp [h0, h1, Bool.beq_eq_decide_eq]
    have hcl' : closes c m xs.length = decide ((c + (xs.length - 2) + 1) % m = 0) := by
      simp only [closes]
      have h0 : xs.length ≠ 0 := by omega
      have h1 : c + (xs.length - 1) = c + (xs.length - 2) + 1 := by omega
      simp [h0, h1, Bool.beq_eq_decide_eq]
    have hsuc := succ_mod (c + (xs.length - 2)) m hm
    have hrlt := Nat.mod_lt (c + (xs.length - 2)) hm
    have hlen' : ¬ (xs ++ [(t, v)]).length < 2 := by simp; omega
    have hlen2 : c + ((xs ++ [(t, v)]).length - 2) = c + (xs.length - 2) + 1 := by simp; omega
    have hlen3 : (xs ++ [(t, v)]).length - 1 = xs.length := by simp
    generalize (c + (xs.length - 2)) % m = r at *
    by_cases hm1 : m = 1
    · -- ratio 1: always append
      obtain ⟨w', m', k, e, hwf, hc, hcont⟩ := addEnd_append h.wf hwc hne v htc
      have hr0 : r = 0 := by omega
      refine ⟨w', ⟨m', cv.pol⟩, [k], ?_, hwf, ?_, h.ratio, ?_, ?_⟩
      · have : cv.pol.minMeas = 1 := by rw [h.ratio, hm1]; rfl
        simp [Curve.extend, hnotsmall, this, e]
      · have := h.calls; simp; omega
      · rw [if_neg hlen', hlen2, hsuc, hsince]
        simp [hr0, hm1]
      · rw [knots_eq_map (cv := ⟨m', cv.pol⟩) hcont, List.map_append]
        have : List.map (fun x => (x.1, x.2.2)) cv.mgr.contents = cv.knots := rfl
        rw [this, hk, keptL_snoc, hlen3, hcl, hcl', hsuc]
        simp [hr0, hm1]
    · have hmm : cv.pol.minMeas ≠ 1 := by rw [h.ratio]; omega
      have hov : cv.pol.since ≠ 2 ^ 31 - 1 := by rw [hsince]; omega
      have hsince' : (if cv.pol.since + 1 = cv.pol.minMeas then 0 else cv.pol.since + 1) =
          (((c + (xs.length - 2) + 1) % m : Nat) : Int) := by
        rw [hsuc, hsince, h.ratio]
        by_cases hrm : r + 1 = m
        · have : (r : Int) + 1 = m := by omega
          simp [hrm, this]
        · have : ¬ (r : Int) + 1 = m := by omega
          simp [hrm, this]
      by_cases hr0 : r = 0
      · -- append
        obtain ⟨w', m', k, e, hwf, hc, hcont⟩ := addEnd_append h.wf hwc hne v htc
        have h1 : cv.pol.since + 1 = 1 := by rw [hsince, hr0]; rfl
        refine ⟨w', ⟨m', { cv.pol with since := if cv.pol.since + 1 = cv.pol.minMeas then 0
            else cv.pol.since + 1 }⟩, [k], ?_, hwf, ?_, h.ratio, ?_, ?_⟩
        · simp only [Curve.extend, hnotsmall, hmm, hov, addOrMove, h1, e]
          simp
        · have := h.calls; simp; omega
        · rw [if_neg hlen', hlen2]; exact hsince'
        · rw [knots_eq_map hcont, List.map_append]
          have : List.map (fun x => (x.1, x.2.2)) cv.mgr.contents = cv.knots := rfl
          rw [this, hk, keptL_snoc, hlen3, hcl, hcl', hsuc]
          simp only [hr0, decide_true, if_true, List.append_nil]
          by_cases hc2 : (if 0 + 1 = m then 0 else 0 + 1) = 0
          · simp [hc2]
          · simp [hc2]
      · -- move the last knot
        have hkn : cv.knots = keptL c m xs ++ xs.getLast?.toList := by
          rw [hk, hcl]; simp [hr0]
        obtain ⟨ys, y, rfl⟩ : ∃ ys y, xs = ys ++ [y] := by
          refine ⟨xs.dropLast, xs.getLast (by intro e; simp [e] at hn2), ?_⟩
          rw [List.dropLast_append_getLast]
        simp only [List.getLast?_append, List.getLast?_singleton, Option.or_some,
          Option.toList_some] at hkn
        have hkn' : cv.mgr.contents.map (fun x => (x.1, x.2.2)) = keptL c m (ys ++ [y]) ++ [y] := hkn
        obtain ⟨pre, lst, hpl, hpre, hl⟩ := List.map_eq_append_iff.1 hkn'
        obtain ⟨last, rest, rfl, _, hrest⟩ := List.map_eq_cons_iff.1 hl
        rw [List.map_eq_nil_iff] at hrest
        subst hrest
        obtain ⟨n, w', m', hgl, e, hwf, hc, hcont⟩ := moveLast (w := w) h.wf hpl v htc
        have h1 : cv.pol.since + 1 ≠ 1 := by rw [hsince]; omega
        refine ⟨w', ⟨m', { cv.pol with since := if cv.pol.since + 1 = cv.pol.minMeas then 0
            else cv.pol.since + 1 }⟩, [], ?_, hwf, ?_, h.ratio, ?_, ?_⟩
        · simp only [Curve.extend, hnotsmall, hmm, hov, addOrMove, h1, hgl, e]
          simp
        · have := h.calls; simp at this ⊢; omega
        · rw [if_neg hlen', hlen2]; exact hsince'
        · rw [knots_eq_map hcont, List.map_append, hpre, keptL_snoc c m (ys ++ [y]), hlen3]
          cases hcc : closes c m (ys ++ [y]).length <;> simp

/-- Feeding any strictly increasing stream never fails, and leaves exactly the expected knots. -/
theorem feed_inv (w : World) (cv : Curve T C) (c m : Nat) (h0 : cv.mgr = Mgr.empty)
    (hs : cv.pol.since = c) (hr : cv.pol.minMeas = m) (hm : 0 < m) (hm31 : m < 2 ^ 31)
    (hcm : c < m) (xs : List (T × C)) (hinc : xs.Pairwise fun a b => a.1 < b.1)
    (hw : w.calls + xs.length < 2 ^ 64) :
    ∃ w' cv', cv.feed w xs = .ok (w', cv') ∧ FeedInv w c m xs w' cv' := by
  induction xs using List.reverseRecOn with
  | nil =>
    refine ⟨w, cv, rfl, ?_, by simp, hr, by simpa using hs, ?_⟩
    · rw [h0]; exact WF.empty w
    · simp [Curve.knots, h0, Mgr.empty, Mgr.contents, keptL]
  | append_singleton xs x ih =>
    obtain ⟨t, v⟩ := x
    rw [List.pairwise_append] at hinc
    simp only [List.length_append, List.length_cons, List.length_nil] at hw
    obtain ⟨w1, cv1, e1, h1⟩ := ih hinc.1 (by omega)
    obtain ⟨w2, cv2, ks, e2, h2⟩ := feed_step (v := v) h1 hm hm31 hcm (t := t)
      (fun x hx => hinc.2.2 x hx (t, v) (by simp)) (by omega)
    refine ⟨w2, cv2, ?_, h2⟩
    rw [feed_append, e1]
    simp [Curve.feed, e2]

end Verif.Policy
