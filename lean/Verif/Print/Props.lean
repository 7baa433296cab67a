import Verif.Print.Model
import Verif.Composition.OutcomeProps
import Verif.Hermite.OutcomeProps
import Verif.Hermite.SE3Props
import Verif.PolyCurve.OutcomeProps

/-!
# C133: what `print` shows, and when it fails
-/

set_option linter.unusedSectionVars false
set_option linter.dupNamespace false

namespace Verif.Print

open Verif.Manager Verif.Policy Verif.Discrete

/-! ### Specification -/

/-- What is shown besides fixed texts, in the order of the output. -/
def data {K G : Type} : List (Tok K G) → List (Tok K G)
  | [] => []
  | .text _ :: rest => data rest
  | x :: rest => x :: data rest

/-- The length of the way from knot to knot. -/
def way {K G : Type} [Add K] [Zero K] (d : G → G → K) : List G → K
  | a :: b :: rest => d a b + way d (b :: rest)
  | _ => 0

/-- The time of the first knot, zero if there is none. -/
def firstTime {K C : Type} [Zero K] (l : List (K × Key × C)) : K := (l.head?.map (·.1)).getD 0

/-- The time of the last knot, zero if there is none. -/
def lastTime {K C : Type} [Zero K] (l : List (K × Key × C)) : K := (l.getLast?.map (·.1)).getD 0

/-! ### Lemmas -/

theorem data_append {K G : Type} (a b : List (Tok K G)) : data (a ++ b) = data a ++ data b := by
  induction a with
  | nil => rfl
  | cons x a ih => cases x <;> simp [data, ih]

section discrete

variable {K G V : Type} [Field K] [LinearOrder K] [IsStrictOrderedRing K] [Group G] [AddCommGroup V] [Module K V]

theorem first_eq {C : Type} (m : Mgr K C) : firstTime m.contents = m.getMinTime := by
  unfold firstTime Mgr.contents Mgr.getMinTime
  cases m.nodes <;> simp

theorem last_eq {C : Type} (m : Mgr K C) : lastTime m.contents = m.getMaxTime := by
  unfold lastTime Mgr.contents Mgr.getMaxTime
  rw [List.getLast?_map]
  cases m.nodes.getLast? <;> simp

theorem size_eq {C : Type} (m : Mgr K C) : m.size = m.contents.length := by simp [Mgr.size, Mgr.contents]

theorem sumLoop_eq (L : ExpLog K G V) {kind : Kind} (hk : kind ≠ .slerpSE3) (d : G → G → K) {m : Mgr K G}
    (hs : Sorted m.nodes) : ∀ (post : List (Node K G)) (n : Node K G) (pre : List (Node K G)) (sum : K),
    m.nodes = pre ++ n :: post →
    sumLoop L kind d m (m.getTimes []) post.length pre.length sum = .ok (sum + way d ((n :: post).map (·.coef))) := by
  have hev : ∀ n ∈ m.nodes, evaluate L kind n.time m = .ok n.coef := fun n hn =>
    evaluate_knot L hk hs (List.mem_map.2 ⟨n, hn, rfl⟩)
  intro post
  induction post with
  | nil => intro n pre sum _; simp [sumLoop, way]
  | cons n' post ih =>
    intro n pre sum e
    have h1 : (m.getTimes [])[pre.length]? = some n.time := by simp [Mgr.getTimes, e]
    have h2 : (m.getTimes [])[pre.length + 1]? = some n'.time := by simp [Mgr.getTimes, e]
    have := ih n' (pre ++ [n]) (sum + d n.coef n'.coef) (by simp [e])
    simp only [List.length_append, List.length_cons, List.length_nil] at this
    simp only [List.length_cons, sumLoop, h1, h2, Outcome.deref_some, Outcome.ok_bind,
      hev n (by simp [e]), hev n' (by simp [e])]
    rw [this]
    simp [way, add_assoc]

theorem knotLoop_eq {kind : Kind} {w : World} {m : Mgr K G} (hw : WF w m) (hk : kind ≠ .slerpSE3) :
    ∀ (post pre : List (Node K G)), m.nodes = pre ++ post →
    ∃ out, knotLoop kind m (m.getKeys []) (m.getTimes []) post.length pre.length = .ok out ∧
      data out = post.flatMap fun n => [.count n.key, .value n.coef, .num n.time] := by
  intro post
  induction post with
  | nil => intro pre _; exact ⟨[], rfl, rfl⟩
  | cons n post ih =>
    intro pre e
    have h1 : (m.getTimes [])[pre.length]? = some n.time := by simp [Mgr.getTimes, e]
    have h2 : (m.getKeys [])[pre.length]? = some n.key := by simp [Mgr.getKeys, Mgr.appendKeys, e]
    have h3 := (getByKey_spec hw (t := n.time) (k := n.key) (c := n.coef)
      (mem_contents.2 ⟨n, by simp [e], rfl, rfl, rfl⟩)).1
    obtain ⟨out, e', hd⟩ := ih (pre ++ [n]) (by simp [e])
    simp only [List.length_append, List.length_cons, List.length_nil] at e'
    refine ⟨_, by
      simp only [List.length_cons, knotLoop, h1, h2, h3, Outcome.deref_some, Outcome.ok_bind, if_neg hk, e']
      rfl, ?_⟩
    rw [data_append, data_append, hd]
    rfl

/-- The loop over the knots of a `SlerpSE3Curve` shows the times only. -/
theorem knotLoop_slerp {m : Mgr K G} : ∀ (post pre : List (Node K G)), m.nodes = pre ++ post →
    ∃ out, knotLoop .slerpSE3 m (m.getKeys []) (m.getTimes []) post.length pre.length = .ok out ∧
      data out = post.map fun n => .num n.time := by
  intro post
  induction post with
  | nil => intro pre _; exact ⟨[], rfl, rfl⟩
  | cons n post ih =>
    intro pre e
    have h1 : (m.getTimes [])[pre.length]? = some n.time := by simp [Mgr.getTimes, e]
    have h2 : (m.getKeys [])[pre.length]? = some n.key := by simp [Mgr.getKeys, Mgr.appendKeys, e]
    obtain ⟨out, e', hd⟩ := ih (pre ++ [n]) (by simp [e])
    simp only [List.length_append, List.length_cons, List.length_nil] at e'
    refine ⟨_, by
      simp only [List.length_cons, knotLoop, h1, h2, Outcome.deref_some, Outcome.ok_bind, if_true, e']
      rfl, ?_⟩
    rw [data_append, data_append, hd]
    rfl

theorem print_full (L : ExpLog K G V) {kind : Kind} (hk : kind ≠ .slerpSE3) {w : World} {m : Mgr K G} (hw : WF w m)
    (d : G → G → K) (title : String) (dim : Nat) (str : String) (hne : m.contents ≠ []) :
    ∃ out, print L kind d title dim str m = .ok out ∧ .text title ∈ out ∧ .text str ∈ out ∧
      data out = [.count m.contents.length, .count dim, .num (firstTime m.contents), .num (lastTime m.contents),
        .quot (lastTime m.contents - firstTime m.contents) (m.contents.length - 1),
        .quot (way d (m.contents.map (·.2.2))) (m.contents.length - 1)] ++
        m.contents.flatMap fun x => [.count x.2.1, .value x.2.2, .num x.1] := by
  obtain ⟨n, post, e⟩ : ∃ n post, m.nodes = n :: post := by
    cases h : m.nodes with
    | nil => exact absurd (by simp [Mgr.contents, h]) hne
    | cons n post => exact ⟨n, post, rfl⟩
  have h1 := sumLoop_eq L hk d hw.sorted post n [] 0 (by simp [e])
  obtain ⟨out, h2, h3⟩ := knotLoop_eq hw hk m.nodes [] rfl
  have hl : (m.getTimes []).length = post.length + 1 := by simp [Mgr.getTimes, e]
  have hm : Container.Container.sizeMinus1 (m.getTimes []).length = post.length := by
    rw [hl]; simp [Container.Container.sizeMinus1]
  have hc : m.contents.length - 1 = post.length := by simp [Mgr.contents, e]
  have hs : m.size = m.nodes.length := rfl
  refine ⟨_, by
    simp only [print, hm, hs]
    rw [show (0 : ℕ) = ([] : List (Node K G)).length from rfl, h1, h2]
    simp only [Outcome.ok_bind]
    rfl, ?_, ?_, ?_⟩
  · simp [header]
  · simp [header]
  · rw [first_eq, last_eq, hc]
    simp only [data_append, h3]
    simp only [data, header, bar, zero_add, List.nil_append, List.append_nil, List.cons_append]
    rw [← size_eq]
    have hv : m.contents.map (·.2.2) = (n :: post).map (·.coef) := by simp [Mgr.contents, e]
    have hf : (m.contents.flatMap fun x => ([.count x.2.1, .value x.2.2, .num x.1] : List (Tok K G))) =
        m.nodes.flatMap fun n => [.count n.key, .value n.coef, .num n.time] := by
      simp [Mgr.contents, List.flatMap_map]
    rw [hv, hf]

theorem print_none (L : ExpLog K G V) (kind : Kind) (d : G → G → K) (title : String) (dim : Nat) (str : String)
    {m : Mgr K G} (h : m.contents = []) : print L kind d title dim str m = .ub := by
  have : m.nodes = [] := by simpa [Mgr.contents] using h
  have h1 : Container.Container.sizeMinus1 (m.getTimes []).length = 2 ^ 64 - 2 + 1 := by
    simp [Mgr.getTimes, this, Container.Container.sizeMinus1]
  have h2 : (m.getTimes [])[0]? = none := by simp [Mgr.getTimes, this]
  rw [print, h1, sumLoop, h2]
  rfl

theorem print_slerp (L : ExpLog K G V) (d : G → G → K) (title : String) (dim : Nat) (str : String) {m : Mgr K G}
    (h : 2 ≤ m.contents.length) : print L .slerpSE3 d title dim str m = .abort := by
  obtain ⟨a, b, post, e⟩ : ∃ a b post, m.nodes = a :: b :: post := by
    have : 2 ≤ m.nodes.length := by simpa [Mgr.contents] using h
    match hm : m.nodes, this with
    | a :: b :: post, _ => exact ⟨a, b, post, rfl⟩
  simp [print, Mgr.getTimes, e, Container.Container.sizeMinus1, sumLoop, evaluate]

theorem print_slerp_one (L : ExpLog K G V) (d : G → G → K) (title : String) (dim : Nat) (str : String) {m : Mgr K G}
    {t : K} {k : Key} {v : G} (h : m.contents = [(t, k, v)]) :
    ∃ out, print L .slerpSE3 d title dim str m = .ok out ∧
      data out = [.count 1, .count dim, .num t, .num t, .quot 0 0, .quot 0 0, .num t] := by
  obtain ⟨n, e, ht⟩ : ∃ n, m.nodes = [n] ∧ n.time = t := by
    have h0 : m.nodes.length = 1 := by simpa [Mgr.contents] using congrArg List.length h
    obtain ⟨n, e⟩ := List.length_eq_one_iff.1 h0
    refine ⟨n, e, ?_⟩
    have : [(n.time, n.key, n.coef)] = [(t, k, v)] := by simpa [Mgr.contents, e] using h
    simpa using congrArg Prod.fst (List.head_eq_of_cons_eq this)
  obtain ⟨out, h2, h3⟩ := knotLoop_slerp m.nodes [] rfl
  have hs : m.size = m.nodes.length := rfl
  have hl : Container.Container.sizeMinus1 (m.getTimes []).length = 0 := by
    simp [Mgr.getTimes, e, Container.Container.sizeMinus1]
  refine ⟨_, by
    simp only [print, hl, hs, sumLoop]
    rw [show (0 : ℕ) = ([] : List (Node K G)).length from rfl, Outcome.ok_bind, h2]
    simp only [Outcome.ok_bind]
    rfl, ?_⟩
  simp only [data_append, h3]
  simp [data, header, bar, e, ht, Mgr.size, Mgr.getMinTime, Mgr.getMaxTime]

/-- Exactly how a call of `print` ends. -/
theorem print_ends (L : ExpLog K G V) (kind : Kind) {w : World} {m : Mgr K G} (hw : WF w m) (d : G → G → K)
    (title : String) (dim : Nat) (str : String) :
    Ends (print L kind d title dim str m) (m.contents ≠ [] ∧ (kind = .slerpSE3 → m.contents.length = 1))
      (m.contents = []) := by
  refine ends_intro (fun h => ?_) (print_none L kind d title dim str) (fun h h' => ?_) (fun h h' => h.1 h')
  · by_cases hk : kind = .slerpSE3
    · obtain ⟨⟨t, k, v⟩, e⟩ := List.length_eq_one_iff.1 (h.2 hk)
      subst hk
      obtain ⟨out, e, -⟩ := print_slerp_one L d title dim str e
      exact ⟨out, e⟩
    · obtain ⟨out, e, -⟩ := print_full L hk hw d title dim str h.1
      exact ⟨out, e⟩
  · have h2 : kind = .slerpSE3 ∧ m.contents.length ≠ 1 := by
      by_contra hcon
      exact h ⟨h', fun hk => by by_contra h1; exact hcon ⟨hk, h1⟩⟩
    obtain ⟨rfl, h1⟩ := h2
    refine print_slerp L d title dim str ?_
    have : m.contents.length ≠ 0 := fun h0 => h' (List.length_eq_zero_iff.1 h0)
    omega

/-! ### The theorems -/

/-- C133 (partial). Printing a reachable discrete, semi-discrete or plane slerp curve that has a knot returns. It shows the
number of knots, the dimension, the first and the last time, their difference and the length of the way from knot to knot
divided by the number of gaps, and then every knot in order: its key, its value, its time. Missing: the other cases, see
`C133_refuted`. -/
theorem C133_shows_partial (L : ExpLog K G V) {kind : Kind} (hk : kind ≠ .slerpSE3) {s : Discrete.St K G}
    (hr : Discrete.Reachable L kind s) (hc : s.w.calls + 1 < 2 ^ 64) (d : G → G → K) (title : String) (dim : Nat)
    (str : String) (hne : s.c.mgr.contents ≠ []) :
    ∃ out, print L kind d title dim str s.c.mgr = .ok out ∧ .text title ∈ out ∧ .text str ∈ out ∧
      data out = [.count s.c.mgr.contents.length, .count dim, .num (firstTime s.c.mgr.contents),
        .num (lastTime s.c.mgr.contents),
        .quot (lastTime s.c.mgr.contents - firstTime s.c.mgr.contents) (s.c.mgr.contents.length - 1),
        .quot (way d (s.c.mgr.contents.map (·.2.2))) (s.c.mgr.contents.length - 1)] ++
        s.c.mgr.contents.flatMap fun x => [.count x.2.1, .value x.2.2, .num x.1] :=
  print_full L hk (hr.WF hc) d title dim str hne

/-- C133, refuted. Printing a curve without knots is undefined behaviour, whatever its class. Printing a `SlerpSE3Curve`
with two or more knots aborts; with one knot it shows neither the key nor the value. -/
theorem C133_refuted (L : ExpLog K G V) (d : G → G → K) (title : String) (dim : Nat) (str : String) (m : Mgr K G) :
    (∀ kind, m.contents = [] → print L kind d title dim str m = .ub) ∧
    (2 ≤ m.contents.length → print L .slerpSE3 d title dim str m = .abort) ∧
    ∀ t k v, m.contents = [(t, k, v)] → ∃ out, print L .slerpSE3 d title dim str m = .ok out ∧
      data out = [.count 1, .count dim, .num t, .num t, .quot 0 0, .quot 0 0, .num t] :=
  ⟨fun kind => print_none L kind d title dim str, print_slerp L d title dim str,
    fun _ _ _ => print_slerp_one L d title dim str⟩

/-- C133, exactly how printing a reachable curve ends. -/
theorem C133_ends (L : ExpLog K G V) {kind : Kind} {s : Discrete.St K G} (hr : Discrete.Reachable L kind s)
    (hc : s.w.calls + 1 < 2 ^ 64) (d : G → G → K) (title : String) (dim : Nat) (str : String) :
    Ends (print L kind d title dim str s.c.mgr)
      (s.c.mgr.contents ≠ [] ∧ (kind = .slerpSE3 → s.c.mgr.contents.length = 1)) (s.c.mgr.contents = []) :=
  print_ends L kind (hr.WF hc) d title dim str

example : ∃ out, print (lineMaps ℚ) .slerp (fun a b => |a.toAdd - b.toAdd|) "curve" 3 "now" demo.c.mgr = .ok out ∧
    data out = [.count 4, .count 3, .num 0, .num 6, .quot 6 3, .quot 8 3, .count 102, .value (.ofAdd 1), .num 0,
      .count 103, .value (.ofAdd 3), .num 1, .count 101, .value (.ofAdd 7), .num 4, .count 104, .value (.ofAdd 5),
      .num 6] := by
  obtain ⟨out, e, -, -, h⟩ := C133_shows_partial (lineMaps ℚ) (kind := .slerp) (by decide) (demo_reachable _) demo_calls
    (fun a b => |a.toAdd - b.toAdd|) "curve" 3 "now" (by decide)
  exact ⟨out, e, h.trans (by decide +kernel)⟩

example : print (lineMaps ℚ) .slerpSE3 (fun a b => |a.toAdd - b.toAdd|) "curve" 6 "now" demo.c.mgr = .abort :=
  (C133_refuted (lineMaps ℚ) _ "curve" 6 "now" demo.c.mgr).2.1 (by decide)

/-- C133, composition curves. Printing prints the base, then the correction: it returns exactly when both do, it is
undefined behaviour exactly when the base has no knots, or the base can be printed and the correction has no knots. -/
theorem C133_composition (L : ExpLog K G V) {kb kc : Kind} {s : Composition.Comp K G}
    (hr : Composition.Reachable L kb kc s) (hc : s.w.calls + 1 < 2 ^ 64) (d : G → G → K) (tb tc str : String) :
    Ends (printComposition L kb kc d tb tc str s)
      ((s.base.mgr.contents ≠ [] ∧ (kb = .slerpSE3 → s.base.mgr.contents.length = 1)) ∧
        s.corr.mgr.contents ≠ [] ∧ (kc = .slerpSE3 → s.corr.mgr.contents.length = 1))
      (s.base.mgr.contents = [] ∨
        (s.base.mgr.contents ≠ [] ∧ (kb = .slerpSE3 → s.base.mgr.contents.length = 1)) ∧ s.corr.mgr.contents = []) ∧
    ∀ out, printComposition L kb kc d tb tc str s = .ok out → ∃ a b,
      print L kb d tb 6 "Base curve" s.base.mgr = .ok a ∧ print L kc d tc 6 "Correction curve" s.corr.mgr = .ok b ∧
      data out = data a ++ data b := by
  obtain ⟨hb, hq⟩ := (hr.inv hc).wf hc
  constructor
  · refine Composition.ends_seq (print_ends L kb hb d tb 6 _) fun a _ => ?_
    exact Composition.ends_congr (Composition.ends_seq (print_ends L kc hq d tc 6 _) fun b _ => Composition.ends_ok _)
      (by simp) (by simp)
  · intro out e
    obtain ⟨a, ea, e⟩ := Outcome.bind_eq_ok.1 e
    obtain ⟨b, eb, e⟩ := Outcome.bind_eq_ok.1 e
    cases e
    exact ⟨a, b, ea, eb, by simp only [data_append]; simp [data, bar]⟩

example : Ends (printComposition (lineMaps ℚ) .slerp .slerp (fun a b => |a.toAdd - b.toAdd|) "base" "correction" "now"
    Composition.demo) True False :=
  Composition.ends_congr (C133_composition (lineMaps ℚ) Composition.demo_reachable (by decide) _ _ _ _).1
    (by decide +kernel) (by decide +kernel)

end discrete

section hermite

variable {K V : Type} [Field K] [LinearOrder K] [IsStrictOrderedRing K] [AddCommGroup V] [Module K V]

theorem e3Loop_eq {w : World} {m : Mgr K (Hermite.Knot V)} (hw : WF w m) :
    ∀ (post pre : List (Node K (Hermite.Knot V))), m.nodes = pre ++ post →
    ∃ out, e3Loop m (m.getKeys []) (m.getTimes []) post.length pre.length = .ok out ∧
      data out = post.flatMap fun n => [.count n.key, .value n.coef.position, .num n.time] := by
  intro post
  induction post with
  | nil => intro pre _; exact ⟨[], rfl, rfl⟩
  | cons n post ih =>
    intro pre e
    have h1 : (m.getTimes [])[pre.length]? = some n.time := by simp [Mgr.getTimes, e]
    have h2 : (m.getKeys [])[pre.length]? = some n.key := by simp [Mgr.getKeys, Mgr.appendKeys, e]
    have h3 := (getByKey_spec hw (t := n.time) (k := n.key) (c := n.coef)
      (mem_contents.2 ⟨n, by simp [e], rfl, rfl, rfl⟩)).1
    obtain ⟨out, e', hd⟩ := ih (pre ++ [n]) (by simp [e])
    simp only [List.length_append, List.length_cons, List.length_nil] at e'
    refine ⟨_, by
      simp only [List.length_cons, e3Loop, h1, h2, h3, Outcome.deref_some, Outcome.ok_bind, e']
      rfl, ?_⟩
    rw [data_append, hd]
    rfl

/-- C133, `CubicHermiteE3Curve`. Printing a reachable curve returns. It shows the number of knots, a dimension of six, the
first and the last time (zero for an empty curve), and every knot in order: key, position, time. -/
theorem C133_hermite {c : Hermite.E3 K V} (hr : Hermite.E3.Reachable c) (hc : c.w.calls + 1 < 2 ^ 64) (str : String) :
    ∃ out, printE3 str c = .ok out ∧ .text str ∈ out ∧
      data out = [.count c.m.contents.length, .count 6, .num (firstTime c.m.contents), .num (lastTime c.m.contents)] ++
        c.m.contents.flatMap fun x => [.count x.2.1, .value x.2.2.position, .num x.1] := by
  have hw := hr.manager.WF hc
  obtain ⟨out, h2, h3⟩ := e3Loop_eq hw c.m.nodes [] rfl
  have hs : c.m.size = c.m.nodes.length := rfl
  refine ⟨_, by
    simp only [printE3, hs]
    rw [show (0 : ℕ) = ([] : List (Node K (Hermite.Knot V))).length from rfl, h2]
    simp only [Outcome.ok_bind]
    rfl, ?_, ?_⟩
  · simp
  · simp only [data_append, h3]
    rw [first_eq, last_eq]
    simp [data, bar, Mgr.contents, List.flatMap_map]

theorem ssLoop_ok {w : World} {m : Mgr ℝ Hermite.HKnot} (hw : WF w m) :
    ∀ (post pre : List (Node ℝ Hermite.HKnot)), m.nodes = pre ++ post →
    ∃ out, ssLoop m (m.getKeys []) (m.getTimes []) post.length pre.length [] = .ok out := by
  intro post
  induction post with
  | nil => intro pre _; exact ⟨[], rfl⟩
  | cons n post ih =>
    intro pre e
    have h1 : (m.getTimes [])[pre.length]? = some n.time := by simp [Mgr.getTimes, e]
    have h2 : (m.getKeys [])[pre.length]? = some n.key := by simp [Mgr.getKeys, Mgr.appendKeys, e]
    have h3 := (getByKey_spec hw (t := n.time) (k := n.key) (c := n.coef)
      (mem_contents.2 ⟨n, by simp [e], rfl, rfl, rfl⟩)).1
    obtain ⟨out, e'⟩ := ih (pre ++ [n]) (by simp [e])
    simp only [List.length_append, List.length_cons, List.length_nil] at e'
    exact ⟨out, by simp only [List.length_cons, ssLoop, h1, h2, h3, Outcome.deref_some, Outcome.ok_bind, e']⟩

/-- C133, `CubicHermiteSE3Curve`. Printing a reachable curve returns, and shows nothing but the number of knots, a dimension
of six and the first and the last time. -/
theorem C133_pose_hermite {L : Kindr.LogMap} {c : Hermite.SE3} (hr : Hermite.SE3.Reachable L c)
    (hc : c.w.calls + 1 < 2 ^ 64) (str : String) :
    ∃ out, printSE3 str c = .ok out ∧ .text str ∈ out ∧
      data out = [.count c.m.contents.length, .count 6, .num (firstTime c.m.contents), .num (lastTime c.m.contents)] := by
  have hw := (Hermite.SE3.Reachable.manager hr).WF hc
  obtain ⟨out, h2⟩ := ssLoop_ok hw c.m.nodes [] rfl
  have hs : c.m.size = c.m.nodes.length := rfl
  refine ⟨_, by
    simp only [printSE3, hs]
    rw [show (0 : ℕ) = ([] : List (Node ℝ Hermite.HKnot)).length from rfl, h2]
    simp only [Outcome.ok_bind]
    rfl, ?_, ?_⟩
  · simp
  · simp only [data_append]
    rw [first_eq, last_eq]
    simp [data, bar, Mgr.contents]

/-- C133, refuted. Two reachable `CubicHermiteSE3Curve`s with as many knots, the same first and the same last time print the
same, whatever their poses, velocities, keys and inner times are. -/
theorem C133_blind_refuted {L : Kindr.LogMap} {c c' : Hermite.SE3} (hr : Hermite.SE3.Reachable L c)
    (hr' : Hermite.SE3.Reachable L c') (hc : c.w.calls + 1 < 2 ^ 64) (hc' : c'.w.calls + 1 < 2 ^ 64)
    (hn : c.m.contents.length = c'.m.contents.length) (h0 : firstTime c.m.contents = firstTime c'.m.contents)
    (h1 : lastTime c.m.contents = lastTime c'.m.contents) (str : String) : printSE3 str c = printSE3 str c' := by
  obtain ⟨out, e⟩ := ssLoop_ok ((Hermite.SE3.Reachable.manager hr).WF hc) c.m.nodes [] rfl
  obtain ⟨out', e'⟩ := ssLoop_ok ((Hermite.SE3.Reachable.manager hr').WF hc') c'.m.nodes [] rfl
  rw [first_eq, first_eq] at h0
  rw [last_eq, last_eq] at h1
  rw [← size_eq, ← size_eq] at hn
  have hs : c.m.size = c.m.nodes.length := rfl
  have hs' : c'.m.size = c'.m.nodes.length := rfl
  simp only [List.length_nil] at e e'
  rw [← hs] at e
  rw [← hs'] at e'
  simp only [printSE3, e, e', Outcome.ok_bind]
  rw [hn, h0, h1]

/-- A curve that differs from `Hermite.SE3.demo` in its first position. -/
noncomputable def moved : Hermite.SE3 :=
  ⟨⟨2, 2⟩, ⟨[⟨0, 1, 1, ⟨⟨![8, 8, 8], 1⟩, ⟨0, ![1, 0, 2]⟩⟩⟩,
    ⟨1, 4, 2, ⟨⟨![7, 1, 0], Kindr.quat 0 ![1, 0, 0]⟩, Kindr.Twist.zero⟩⟩], [(1, 0), (2, 1)]⟩⟩

open Hermite Hermite.SE3 in
theorem moved_reachable (L : Kindr.LogMap) : Hermite.SE3.Reachable L moved := by
  refine ⟨⟨0, 0⟩, [.fitDerivatives [1, 4] [⟨![8, 8, 8], 1⟩, ⟨![7, 1, 0], Kindr.quat 0 ![1, 0, 0]⟩]
    ⟨0, ![1, 0, 2]⟩ Kindr.Twist.zero], ?_, ?_⟩
  · simp [Op.UnitRotations, half_turn_unit]
  · simp [SE3.run, SE3.step, SE3.fitCurveWithDerivatives, SE3.fitLoop, SE3.knotDerivative, SE3.fresh, SE3.clear, Mgr.clear,
      Mgr.insertCoefficients, Mgr.insertLoop, Mgr.insertCoefficient, Mgr.empty, scanAtTime, getNextKey,
      newAddr, mapInsert, kmSet, moved]

example (L : Kindr.LogMap) : printSE3 "now" Hermite.SE3.demo = printSE3 "now" moved ∧
    Hermite.SE3.demo.m.contents ≠ moved.m.contents :=
  ⟨C133_blind_refuted (Hermite.SE3.demo_reachable L) (moved_reachable L) (by simp [Hermite.SE3.demo]) (by simp [moved])
    (by simp [Hermite.SE3.demo, moved, Mgr.contents]) (by simp [Hermite.SE3.demo, moved, Mgr.contents, firstTime])
    (by simp [Hermite.SE3.demo, moved, Mgr.contents, lastTime]) "now", by
    simp [Hermite.SE3.demo, moved, Mgr.contents]⟩

example (L : Kindr.LogMap) : ∃ out, printSE3 "now" Hermite.SE3.demo = .ok out ∧
    data out = [.count 2, .count 6, .num 1, .num 4] := by
  obtain ⟨out, e, -, h⟩ := C133_pose_hermite (Hermite.SE3.demo_reachable L) (by simp [Hermite.SE3.demo]) "now"
  exact ⟨out, e, by simpa [Hermite.SE3.demo, Mgr.contents, firstTime, lastTime] using h⟩

example : ∃ out, printE3 "now" Hermite.E3.demo = .ok out ∧ data out = [.count 3, .count 6, .num 1, .num 4,
    .count 1, .value 5, .num 1, .count 2, .value 7, .num 2, .count 3, .value 6, .num 4] := by
  obtain ⟨out, e, -, h⟩ := C133_hermite Hermite.E3.demo_reachable (by decide) "now"
  exact ⟨out, e, h.trans (by decide +kernel)⟩

end hermite

section scalar

variable {K : Type} [Field K] [LinearOrder K] [IsStrictOrderedRing K] {o : Spline.Order}

theorem scalarLoop_eq (dt : K) (c : PolyCurve.ScalarCurve o K) (x v a : K → K)
    (hx : ∀ t, c.evaluate t = .ok (x t)) (hv : ∀ t, c.evaluateDerivative t 1 = .ok (some (v t)))
    (ha : ∀ t, c.evaluateDerivative t 2 = .ok (some (a t))) : ∀ (k : Nat) (t : K),
    ∃ out, scalarLoop dt c k t = .ok out ∧ data out = (List.range k).flatMap fun i =>
      [.num (t + i * dt), .num (x (t + i * dt)), .num (v (t + i * dt)), .num (a (t + i * dt))] := by
  intro k
  induction k with
  | zero => intro t; exact ⟨[], rfl, rfl⟩
  | succ k ih =>
    intro t
    obtain ⟨out, e, hd⟩ := ih (t + dt)
    refine ⟨_, by
      simp only [scalarLoop, hx, hv, ha, Outcome.ok_bind, Outcome.deref_some, e]
      rfl, ?_⟩
    rw [data_append, hd, List.range_succ_eq_map]
    simp only [List.flatMap_cons, List.flatMap_map, Nat.cast_zero, zero_mul, add_zero, data, List.cons_append,
      List.nil_append, Nat.cast_succ]
    have : ∀ i : ℕ, t + dt + (i : K) * dt = t + ((i : K) + 1) * dt := fun i => by ring
    simp only [this]

/-- C133, scalar polynomial curves. Printing returns for every curve, and shows fifteen lines: evenly spaced times, the
first the beginning and the last the end of the curve, each with the value and the first and second derivative that the
curve has there. -/
theorem C133_scalar (c : PolyCurve.ScalarCurve o K) :
    ∃ (out : List (Tok K Empty)) (t x v a : ℕ → K), printScalar c = .ok out ∧ t 0 = c.getMinTime ∧ t 14 = c.getMaxTime ∧
      (∀ i, t (i + 1) - t i = t 1 - t 0) ∧
      (∀ i, c.evaluate (t i) = .ok (x i) ∧ c.evaluateDerivative (t i) 1 = .ok (some (v i)) ∧
        c.evaluateDerivative (t i) 2 = .ok (some (a i))) ∧
      data out = (List.range 15).flatMap fun i => [.num (t i), .num (x i), .num (v i), .num (a i)] := by
  have hx : ∀ t, ∃ y, c.evaluate t = .ok y := fun t => PolyCurve.read_ok c.container .position _
  have hv : ∀ t, ∃ y, c.evaluateDerivative t 1 = .ok (some y) := fun t => by
    obtain ⟨y, e⟩ := PolyCurve.read_ok c.container .velocity (t - c.minTime)
    exact ⟨y, by
      have e : c.container.getVelocityAtTime (t - c.minTime) = .ok y := e
      simp [PolyCurve.ScalarCurve.evaluateDerivative, e]⟩
  have ha : ∀ t, ∃ y, c.evaluateDerivative t 2 = .ok (some y) := fun t => by
    obtain ⟨y, e⟩ := PolyCurve.read_ok c.container .acceleration (t - c.minTime)
    exact ⟨y, by
      have e : c.container.getAccelerationAtTime (t - c.minTime) = .ok y := e
      simp [PolyCurve.ScalarCurve.evaluateDerivative, e]⟩
  choose x hx using hx
  choose v hv using hv
  choose a ha using ha
  obtain ⟨out, e, hd⟩ := scalarLoop_eq ((c.getMaxTime - c.getMinTime) / (15 - 1)) c x v a hx hv ha 15 c.getMinTime
  refine ⟨out, fun i => c.getMinTime + i * ((c.getMaxTime - c.getMinTime) / (15 - 1)), fun i => x _, fun i => v _,
    fun i => a _, e, by simp, ?_, fun i => ?_, fun i => ⟨hx _, hv _, ha _⟩, hd⟩
  · show c.getMinTime + ((14 : ℕ) : K) * ((c.getMaxTime - c.getMinTime) / (15 - 1)) = c.getMaxTime
    rw [show ((15 : K) - 1) = 14 by norm_num, Nat.cast_ofNat]
    field_simp
    ring
  · push_cast
    ring

example : (printScalar (K := ℚ) (o := .o5) ⟨⟨[⟨![0, 0, 0, 0, 2, 1], 7⟩], 0, 0, 7, 0⟩, 3⟩ >>= fun out =>
    .ok ((data out).take 8, (data out).drop 56)) = .ok ([.num 3, .num 1, .num 2, .num 0, .num (7 / 2), .num 2, .num 2, .num 0],
      [.num 10, .num 15, .num 2, .num 0]) := by decide +kernel

end scalar

end Verif.Print
