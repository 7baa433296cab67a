import Verif.Container.LinearProps

/-!
# Fits with a solver that is linear in the right-hand side

The equations of `setData` have a matrix that depends on the times only and a right-hand side that is
linear in the positions and end derivatives.
-/

set_option linter.unusedSectionVars false
set_option linter.dupNamespace false

namespace Verif.Qr

open Verif.Spline Verif.Container Verif.Container.Container

variable {K : Type} [Field K] [LinearOrder K] [IsStrictOrderedRing K] {o : Order}

/-- Contract of a solver: for a given matrix the result is linear in the right-hand side. -/
def Superposes (S : RawSolver K) : Prop :=
  ∀ (rows cols : ℕ) (A : ℕ → ℕ → K) (b b' : ℕ → K) (r s : K),
    S.solve rows cols A (fun i => r * b i + s * b' i) =
      fun q => r * S.solve rows cols A b q + s * S.solve rows cols A b' q

/-- If the first two calls succeed, so does the third, with related results. -/
def Lift {α : Type} (P : α → α → α → Prop) (X Y Z : Outcome α) : Prop :=
  ∀ x y, X = .ok x → Y = .ok y → ∃ z, Z = .ok z ∧ P x y z

theorem Lift.bind {α β : Type} {P : α → α → α → Prop} {Q : β → β → β → Prop} {X Y Z : Outcome α}
    {f g h : α → Outcome β} (a : Lift P X Y Z) (b : ∀ x y z, P x y z → Lift Q (f x) (g y) (h z)) :
    Lift Q (X >>= f) (Y >>= g) (Z >>= h) := by
  intro u v hu hv
  obtain ⟨x, hx, hfx⟩ := Outcome.bind_eq_ok.1 hu
  obtain ⟨y, hy, hgy⟩ := Outcome.bind_eq_ok.1 hv
  obtain ⟨z, hz, hp⟩ := a x y hx hy
  obtain ⟨w, hw, hq⟩ := b x y z hp u v hfx hgy
  exact ⟨w, by rw [hz]; exact hw, hq⟩

theorem Lift.ok {α : Type} {P : α → α → α → Prop} {x y z : α} (h : P x y z) :
    Lift P (.ok x) (.ok y) (.ok z) := by
  intro u v hu hv
  cases hu; cases hv
  exact ⟨z, rfl, h⟩

/-- The third system has the matrix of the other two and the mixture of their right-hand sides. -/
def Mixed (r s : K) (x y z : Sys K) : Prop :=
  ∃ (R C : ℕ) (A : ℕ → ℕ → K) (b b' : ℕ → K) (n : ℕ), x = ⟨R, C, A, b, n⟩ ∧ y = ⟨R, C, A, b', n⟩ ∧
    z = ⟨R, C, A, fun i => r * b i + s * b' i, n⟩

/-- The third number is the mixture of the other two. -/
def MixedNum (r s x y z : K) : Prop := z = r * x + s * y

theorem deref_num {r s : K} {p q w : Option K} (h : ∀ x y, p = some x → q = some y → w = some (r * x + s * y)) :
    Lift (MixedNum r s) (Outcome.deref p) (Outcome.deref q) (Outcome.deref w) := by
  intro x y hx hy
  cases hp : p with
  | none => rw [hp] at hx; cases hx
  | some a =>
    cases hq : q with
    | none => rw [hq] at hy; cases hy
    | some b =>
      rw [hp] at hx; rw [hq] at hy
      cases hx; cases hy
      rw [h _ _ hp hq]
      exact ⟨_, rfl, rfl⟩

theorem mix_some {r s : K} {a b : List K} {j : ℕ} {x y : K} (hx : a[j]? = some x) (hy : b[j]? = some y) :
    (mix r s a b)[j]? = some (r * x + s * y) := by
  simp [mix, List.getElem?_zipWith, hx, hy]

theorem block_mixed {r s : K} {x y z : Sys K} (h : Mixed r s x y z) (col : ℕ) (v : Vec o K) :
    Lift (Mixed r s) (x.block col v) (y.block col v) (z.block col v) := by
  obtain ⟨R, C, A, b, b', n, rfl, rfl, rfl⟩ := h
  unfold Sys.block
  simp only
  split
  · exact Lift.ok ⟨R, C, _, b, b', n, rfl, rfl, rfl⟩
  · intro u v hu; cases hu

theorem target_mixed {r s : K} {x y z : Sys K} (h : Mixed r s x y z) {p q w : K} (hw : MixedNum r s p q w) :
    Lift (Mixed r s) (x.target p) (y.target q) (z.target w) := by
  obtain ⟨R, C, A, b, b', n, rfl, rfl, rfl⟩ := h
  unfold Sys.target
  simp only
  split
  · refine Lift.ok ⟨R, C, A, _, _, n + 1, rfl, rfl, ?_⟩
    congr 1
    funext i
    split
    · exact hw
    · rfl
  · intro u v hu; cases hu

theorem condition_mixed {r s : K} {x y z : Sys K} (h : Mixed r s x y z) (col : ℕ) (v : Vec o K)
    {l l' : List K} (hl : l.length = l'.length) (j : ℕ) :
    Lift (Mixed r s) (x.condition col v l[j]?) (y.condition col v l'[j]?)
      (z.condition col v (mix r s l l')[j]?) := by
  by_cases hj : j < l.length
  · have e1 := List.getElem?_eq_getElem hj
    have e2 := List.getElem?_eq_getElem (show j < l'.length by omega)
    rw [e1, e2, mix_some e1 e2]
    exact (block_mixed h col v).bind fun _ _ _ h' => target_mixed h' rfl
  · have e1 : l[j]? = none := List.getElem?_eq_none (by omega)
    have e2 : l'[j]? = none := List.getElem?_eq_none (by omega)
    have e3 : (mix r s l l')[j]? = none := by simp [mix, List.getElem?_zipWith, e1]
    rw [e1, e2, e3]
    exact Lift.ok h

theorem initial_mixed {r s : K} {x y z : Sys K} (h : Mixed r s x y z) {l l' : List K}
    (hl : l.length = l'.length) :
    Lift (Mixed r s) (x.addInitialConditions o l) (y.addInitialConditions o l')
      (z.addInitialConditions o (mix r s l l')) :=
  (condition_mixed h _ _ hl 0).bind fun _ _ _ h =>
    (condition_mixed h _ _ hl 1).bind fun _ _ _ h => condition_mixed h _ _ hl 2

theorem final_mixed {r s : K} {x y z : Sys K} (h : Mixed r s x y z) {l l' : List K}
    (hl : l.length = l'.length) (d : K) (last : ℕ) :
    Lift (Mixed r s) (x.addFinalConditions o l d last) (y.addFinalConditions o l' d last)
      (z.addFinalConditions o (mix r s l l') d last) :=
  (condition_mixed h _ _ hl 0).bind fun _ _ _ h =>
    (condition_mixed h _ _ hl 1).bind fun _ _ _ h => condition_mixed h _ _ hl 2

theorem zero_mixed (r s : K) : MixedNum r s 0 0 0 := by simp [MixedNum]

theorem same_bind {α β : Type} {Q : β → β → β → Prop} (X : Outcome α) {f g h : α → Outcome β}
    (b : ∀ x, Lift Q (f x) (g x) (h x)) : Lift Q (X >>= f) (X >>= g) (X >>= h) := by
  cases X with
  | ok x => exact b x
  | abort => intro u v hu; cases hu
  | throw => intro u v hu; cases hu
  | ub => intro u v hu; cases hu

theorem junction_mixed {r s : K} {x y z : Sys K} (h : Mixed r s x y z) (ds : List K) (ps qs : List K)
    (j : ℕ) :
    Lift (Mixed r s) (x.addJunction o ds ps j) (y.addJunction o ds qs j)
      (z.addJunction o ds (mix r s ps qs) j) :=
  same_bind _ fun _ =>
    (block_mixed h _ _).bind fun _ _ _ h =>
    (deref_num fun _ _ hx hy => mix_some hx hy).bind fun _ _ _ hp =>
    (target_mixed h hp).bind fun _ _ _ h => (block_mixed h _ _).bind fun _ _ _ h =>
    (target_mixed h hp).bind fun _ _ _ h => (block_mixed h _ _).bind fun _ _ _ h =>
    (block_mixed h _ _).bind fun _ _ _ h => (target_mixed h (zero_mixed r s)).bind fun _ _ _ h =>
    (block_mixed h _ _).bind fun _ _ _ h => (block_mixed h _ _).bind fun _ _ _ h =>
    target_mixed h (zero_mixed r s)

theorem junctions_mixed {r s : K} (ds : List K) (ps qs : List K) : ∀ (k j : ℕ) (x y z : Sys K),
    Mixed r s x y z → Lift (Mixed r s) (x.addJunctions o ds ps k j) (y.addJunctions o ds qs k j)
      (z.addJunctions o ds (mix r s ps qs) k j)
  | 0, _, _, _, _, h => Lift.ok h
  | k + 1, j, _, _, _, h =>
    (junction_mixed h ds ps qs j).bind fun x y z h => junctions_mixed ds ps qs k (j + 1) x y z h

theorem mix_head {r s : K} {a b : List K} {x y : K} (hx : a.head? = some x) (hy : b.head? = some y) :
    (mix r s a b).head? = some (r * x + s * y) := by
  rw [List.head?_eq_getElem?] at *
  exact mix_some hx hy

theorem mix_last {r s : K} {a b : List K} {x y : K} (hl : a.length = b.length)
    (hx : a.getLast? = some x) (hy : b.getLast? = some y) :
    (mix r s a b).getLast? = some (r * x + s * y) := by
  rw [List.getLast?_eq_getElem?] at *
  have : (mix r s a b).length = a.length := by simp [mix, hl]
  rw [this]
  exact mix_some hx (by rw [hl]; exact hy)

theorem assemble_mixed {r s : K} (rows cols nj : ℕ) (ds : List K) {ps qs ini ini' fin fin' : List K}
    (hp : ps.length = qs.length) (hi : ini.length = ini'.length) (hf : fin.length = fin'.length) :
    Lift (Mixed r s) (assembleWith o rows cols nj ps ds ini fin)
      (assembleWith o rows cols nj qs ds ini' fin')
      (assembleWith o rows cols nj (mix r s ps qs) ds (mix r s ini ini') (mix r s fin fin')) := by
  have h0 : Mixed r s (Sys.zero rows cols) (Sys.zero rows cols) (Sys.zero rows cols) :=
    ⟨rows, cols, fun _ _ => 0, fun _ => 0, fun _ => 0, 0, rfl, rfl, by simp [Sys.zero]⟩
  refine (deref_num fun _ _ hx hy => mix_head hx hy).bind fun p q w hw => ?_
  have e : w :: mix r s ini ini' = mix r s (p :: ini) (q :: ini') := by
    rw [show w = r * p + s * q from hw]; rfl
  rw [e]
  refine (initial_mixed h0 (by simp [hi])).bind fun _ _ _ h => ?_
  refine (deref_num fun _ _ hx hy => mix_last hp hx hy).bind fun p q w hw => ?_
  refine same_bind _ fun d => ?_
  have e : w :: mix r s fin fin' = mix r s (p :: fin) (q :: fin') := by
    rw [show w = r * p + s * q from hw]; rfl
  rw [e]
  refine (final_mixed h (by simp [hf]) d nj).bind fun _ _ _ h => ?_
  exact junctions_mixed ds ps qs nj 0 _ _ _ h

/-- The three containers have the same durations, and the segments of the third are the mixtures. -/
def MixedFit (r s : K) (x y z : Bool × Container o K) : Prop :=
  x.1 = true → y.1 = true → z.1 = true ∧
    x.2.splines.map (·.duration) = y.2.splines.map (·.duration) ∧
    z.2.splines = mixSegs r s x.2.splines y.2.splines

theorem extract_mixed (r s : K) (u v : ℕ → K) : ∀ (ds : List K) (j : ℕ) (c d e : Container o K),
    c.splines.map (·.duration) = d.splines.map (·.duration) →
    e.splines = mixSegs r s c.splines d.splines →
    (extract u ds j c).splines.map (·.duration) = (extract v ds j d).splines.map (·.duration) ∧
    (extract (fun q => r * u q + s * v q) ds j e).splines =
      mixSegs r s (extract u ds j c).splines (extract v ds j d).splines
  | [], _, _, _, _, h1, h2 => ⟨h1, h2⟩
  | t :: ds, j, c, d, e, h1, h2 => by
    simp only [extract]
    have hl : c.splines.length = d.splines.length := by simpa using congrArg List.length h1
    refine extract_mixed r s u v ds (j + 1) _ _ _ ?_ ?_
    · simp only [addSpline, List.map_append, h1, List.map_cons, List.map_nil]
    · simp only [addSpline, h2, mixSegs]
      rw [List.zipWith_append hl]
      rfl

theorem fit_mixed {S : RawSolver K} (hS : Superposes S) {r s : K} (e : ℕ) (ts : List K)
    {ps qs ini ini' fin fin' : List K} (hp : ps.length = qs.length) (hi : ini.length = ini'.length)
    (hf : fin.length = fin'.length) (c d f : Container o K) (hc : c.splines = []) (hd : d.splines = [])
    (hf' : f.splines = []) :
    Lift (MixedFit r s) (fit S e ts ps ini fin c) (fit S e ts qs ini' fin' d)
      (fit S e ts (mix r s ps qs) (mix r s ini ini') (mix r s fin fin') f) := by
  unfold fit fitWith
  refine same_bind _ fun ds => ?_
  cases ds with
  | none => exact Lift.ok fun h => by cases h
  | some ds =>
    refine (assemble_mixed _ _ _ ds hp hi hf).bind fun x y z h => ?_
    obtain ⟨R, C, A, b, b', n, rfl, rfl, rfl⟩ := h
    simp only
    split
    · refine Lift.ok fun _ _ => ⟨rfl, ?_⟩
      simp only
      rw [hS R C A b b' r s]
      exact extract_mixed r s _ _ ds 0 c d f (by rw [hc, hd]) (by rw [hc, hd, hf']; rfl)
    · exact Lift.ok fun h => by cases h

end Verif.Qr
