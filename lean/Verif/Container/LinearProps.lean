import Verif.Container.UniqueProps

/-!
# C89: the fit depends linearly on the data

Scaling and adding positions and end derivatives scales and adds the fitted curve, its velocity and its
acceleration, at every time.
-/

set_option linter.unusedSectionVars false
set_option linter.dupNamespace false

namespace Verif.Container

open Verif.Spline Container

variable {K : Type} [Field K] [LinearOrder K] [IsStrictOrderedRing K] {o : Order}

/-- `r a + s b` entry by entry. -/
def mix (r s : K) (a b : List K) : List K := List.zipWith (fun x y => r * x + s * y) a b

/-- `r a + s b` segment by segment, with the durations of `a`. -/
def mixSegs (r s : K) (a b : List (Spline o K)) : List (Spline o K) :=
  List.zipWith (fun x y => ⟨fun i => r * x.coeffs i + s * y.coeffs i, x.duration⟩) a b

/-- Evaluations that are linear in the coefficients. -/
def Linear (f : Spline o K → K → K) : Prop :=
  ∀ (r s : K) (x y : Spline o K) (u : K), x.duration = y.duration →
    f ⟨fun i => r * x.coeffs i + s * y.coeffs i, x.duration⟩ u = r * f x u + s * f y u

theorem linear_pos : Linear (Spline.getPositionAtTime (o := o) (K := K)) := by
  intro r s x y u h
  simp only [Spline.getPositionAtTime, inner_lin_left, h]
theorem linear_vel : Linear (Spline.getVelocityAtTime (o := o) (K := K)) := by
  intro r s x y u h
  simp only [Spline.getVelocityAtTime, inner_lin_left, h]
theorem linear_acc : Linear (Spline.getAccelerationAtTime (o := o) (K := K)) := by
  intro r s x y u h
  simp only [Spline.getAccelerationAtTime, inner_lin_left, h]

theorem mix_get {r s : K} {a b : List K} {j : ℕ} {z : K} (h : (mix r s a b)[j]? = some z) :
    ∃ x y, a[j]? = some x ∧ b[j]? = some y ∧ z = r * x + s * y := by
  simp only [mix, List.getElem?_zipWith] at h
  cases ha : a[j]? <;> cases hb : b[j]? <;> simp [ha, hb] at h
  exact ⟨_, _, rfl, rfl, h.symm⟩

theorem mixSegs_get {r s : K} {a b : List (Spline o K)} {j : ℕ} {z : Spline o K}
    (h : (mixSegs r s a b)[j]? = some z) :
    ∃ x y, a[j]? = some x ∧ b[j]? = some y ∧
      z = ⟨fun i => r * x.coeffs i + s * y.coeffs i, x.duration⟩ := by
  simp only [mixSegs, List.getElem?_zipWith] at h
  cases ha : a[j]? <;> cases hb : b[j]? <;> simp [ha, hb] at h
  exact ⟨_, _, rfl, rfl, h.symm⟩

/-- The requirements are linear. -/
theorem Fulfils.mix {ts ps qs : List K} {v0 vT w0 wT : K} {a b : List (Spline o K)}
    (ha : Fulfils ts ps v0 vT a) (hb : Fulfils ts qs w0 wT b) (hp : ps.length = ts.length)
    (hq : qs.length = ts.length) (r s : K) :
    Fulfils ts (mix r s ps qs) (r * v0 + s * w0) (r * vT + s * wT) (mixSegs r s a b) := by
  have hd : ∀ (j : ℕ) (x y : Spline o K), a[j]? = some x → b[j]? = some y → x.duration = y.duration := by
    intro j x y hx hy
    obtain ⟨hj, rfl⟩ := List.getElem?_eq_some_iff.1 hx
    obtain ⟨hj', rfl⟩ := List.getElem?_eq_some_iff.1 hy
    rw [(ha.over hp hj).1, (hb.over hq hj').1]
  have hl : a.length = b.length := by have := ha.count; have := hb.count; omega
  have hlm : (mixSegs r s a b).length = a.length := by simp [mixSegs, hl]
  refine ⟨by rw [hlm]; exact ha.count, ?_, ?_, ?_, ?_⟩
  · intro j z hz t t' p q ht ht' hpj hqj
    obtain ⟨x, y, hx, hy, rfl⟩ := mixSegs_get hz
    obtain ⟨p1, q1, e1, e2, rfl⟩ := mix_get hpj
    obtain ⟨p2, q2, e3, e4, rfl⟩ := mix_get hqj
    obtain ⟨a1, a2, a3⟩ := ha.segment j x hx t t' p1 p2 ht ht' e1 e3
    obtain ⟨b1, b2, b3⟩ := hb.segment j y hy t t' q1 q2 ht ht' e2 e4
    refine ⟨a1, ?_, ?_⟩
    · rw [linear_pos r s x y _ (hd j x y hx hy), a2, b2]
    · rw [linear_pos r s x y _ (hd j x y hx hy), a3, b3]
  · intro j z z' hz hz'
    obtain ⟨x, y, hx, hy, rfl⟩ := mixSegs_get hz
    obtain ⟨x', y', hx', hy', rfl⟩ := mixSegs_get hz'
    have d := hd j x y hx hy
    have d' := hd _ x' y' hx' hy'
    obtain ⟨a1, a2⟩ := ha.joint j x x' hx hx'
    obtain ⟨b1, b2⟩ := hb.joint j y y' hy hy'
    rw [← d] at b1 b2
    constructor
    · rw [linear_vel r s x y _ d, linear_vel r s x' y' _ d']
      simp only
      rw [a1, b1]
    · rw [linear_acc r s x y _ d, linear_acc r s x' y' _ d']
      simp only
      rw [a2, b2]
  · intro z hz
    rw [List.head?_eq_getElem?] at hz
    obtain ⟨x, y, hx, hy, rfl⟩ := mixSegs_get hz
    rw [linear_vel r s x y _ (hd 0 x y hx hy), ha.first x (by rw [List.head?_eq_getElem?]; exact hx),
      hb.first y (by rw [List.head?_eq_getElem?]; exact hy)]
  · intro z hz
    rw [List.getLast?_eq_getElem?, hlm] at hz
    obtain ⟨x, y, hx, hy, rfl⟩ := mixSegs_get hz
    have d := hd _ x y hx hy
    rw [linear_vel r s x y _ d]
    simp only
    rw [ha.last x (by rw [List.getLast?_eq_getElem?]; exact hx), d,
      hb.last y (by rw [List.getLast?_eq_getElem?, ← hl]; exact hy)]

theorem EndAccelerations.mix {a0 aT b0 bT : K} {a b : List (Spline o K)}
    (ha : EndAccelerations a0 aT a) (hb : EndAccelerations b0 bT b) (hl : a.length = b.length)
    (hd : ∀ (j : ℕ) (x y : Spline o K), a[j]? = some x → b[j]? = some y → x.duration = y.duration) (r s : K) :
    EndAccelerations (r * a0 + s * b0) (r * aT + s * bT) (mixSegs r s a b) := by
  constructor
  · intro z hz
    rw [List.head?_eq_getElem?] at hz
    obtain ⟨x, y, hx, hy, rfl⟩ := mixSegs_get hz
    rw [linear_acc r s x y _ (hd 0 x y hx hy), ha.first x (by rw [List.head?_eq_getElem?]; exact hx),
      hb.first y (by rw [List.head?_eq_getElem?]; exact hy)]
  · intro z hz
    rw [List.getLast?_eq_getElem?] at hz
    have hlm : (mixSegs r s a b).length = a.length := by simp [mixSegs, hl]
    rw [hlm] at hz
    obtain ⟨x, y, hx, hy, rfl⟩ := mixSegs_get hz
    have d := hd _ x y hx hy
    rw [linear_acc r s x y _ d]
    simp only
    rw [ha.last x (by rw [List.getLast?_eq_getElem?]; exact hx), d,
      hb.last y (by rw [List.getLast?_eq_getElem?, ← hl]; exact hy)]

/-! ## Evaluating a mixture -/

/-- The search for the segment looks at the durations only. -/
theorem findLoop_mix (r s : K) (t : K) : ∀ (a b : List (Spline o K)) (i : ℕ) (off : K),
    a.map (·.duration) = b.map (·.duration) →
    findLoop t (mixSegs r s a b) i off = findLoop t a i off ∧ findLoop t b i off = findLoop t a i off
  | [], [], i, off, _ => ⟨rfl, rfl⟩
  | [], y :: b, i, off, h => by simp at h
  | x :: a, [], i, off, h => by simp at h
  | x :: a, y :: b, i, off, h => by
    simp only [List.map_cons, List.cons.injEq] at h
    have he : (mixSegs r s a b).isEmpty = a.isEmpty ∧ b.isEmpty = a.isEmpty := by
      have := congrArg List.length h.2
      cases a <;> cases b <;> simp [mixSegs] at this ⊢
    have e : mixSegs r s (x :: a) (y :: b) =
        ⟨fun i => r * x.coeffs i + s * y.coeffs i, x.duration⟩ :: mixSegs r s a b := rfl
    rw [e]
    simp only [findLoop, he.1, he.2, ← h.1]
    split
    · exact ⟨rfl, rfl⟩
    · exact findLoop_mix r s t a b _ _ h.2

/-- Evaluation of a mixture is the mixture of the evaluations. -/
theorem atTime_mix (f : Spline o K → K → K) (hf : Linear f) (r s t : K) (x y z : Container o K)
    (hd : x.splines.map (·.duration) = y.splines.map (·.duration))
    (hz : z.splines = mixSegs r s x.splines y.splines) (hne : x.splines ≠ []) :
    ∃ p q, x.atTime f t = .ok p ∧ y.atTime f t = .ok q ∧ z.atTime f t = .ok (r * p + s * q) := by
  have hl : x.splines.length = y.splines.length := by simpa using congrArg List.length hd
  have hne' : y.splines ≠ [] := by
    intro h; apply hne; rw [h] at hl; exact List.length_eq_zero_iff.1 (by simpa using hl)
  have hlz : z.splines.length = x.splines.length := by simp [hz, mixSegs, hl]
  have hnez : z.splines ≠ [] := by
    intro h; apply hne; rw [h] at hlz; exact List.length_eq_zero_iff.1 (by simpa using hlz.symm)
  obtain ⟨k, hk, hfind, -⟩ := findLoop_cases t x.splines hne
  obtain ⟨m1, m2⟩ := findLoop_mix r s t x.splines y.splines 0 0 hd
  rw [hfind] at m1 m2
  rw [← hz] at m1
  have gx := List.getElem?_eq_getElem hk
  have gy := List.getElem?_eq_getElem (show k < y.splines.length by omega)
  have gz := List.getElem?_eq_getElem (show k < z.splines.length by omega)
  refine ⟨_, _, atTime_of_find f t x k _ _ gx hfind, atTime_of_find f t y k _ _ gy m2, ?_⟩
  rw [atTime_of_find f t z k _ _ gz m1]
  obtain ⟨x', y', hx', hy', e⟩ := mixSegs_get (r := r) (s := s) (a := x.splines)
    (b := y.splines) (j := k) (z := z.splines[k]) (by rw [← gz, hz])
  rw [gx] at hx'; rw [gy] at hy'
  cases hx'; cases hy'
  rw [e, hf r s]
  have h1 := congrArg (fun l : List K => l[k]?) hd
  simpa [hk, show k < y.splines.length by omega] using h1

/-- Specification: position, velocity and acceleration of `z` are `r` times those of `x` plus `s` times
those of `y`, at every time. -/
def Superposed (r s : K) (x y z : Container o K) : Prop :=
  (∀ t, ∃ p q, x.getPositionAtTime t = .ok p ∧ y.getPositionAtTime t = .ok q ∧
    z.getPositionAtTime t = .ok (r * p + s * q)) ∧
  (∀ t, ∃ p q, x.getVelocityAtTime t = .ok p ∧ y.getVelocityAtTime t = .ok q ∧
    z.getVelocityAtTime t = .ok (r * p + s * q)) ∧
  (∀ t, ∃ p q, x.getAccelerationAtTime t = .ok p ∧ y.getAccelerationAtTime t = .ok q ∧
    z.getAccelerationAtTime t = .ok (r * p + s * q))

theorem superposed_of_segs {r s : K} {x y z : Container o K}
    (hd : x.splines.map (·.duration) = y.splines.map (·.duration))
    (hz : z.splines = mixSegs r s x.splines y.splines) (hne : x.splines ≠ []) :
    Superposed r s x y z :=
  ⟨fun t => atTime_mix _ linear_pos r s t x y z hd hz hne,
    fun t => atTime_mix _ linear_vel r s t x y z hd hz hne,
    fun t => atTime_mix _ linear_acc r s t x y z hd hz hne⟩

/-- Straight segments mix. -/
theorem line_mix (r s p q p' q' d : K) :
    line o (r * p + s * p') (r * q + s * q') d =
      ⟨fun i => r * (line o p q d).coeffs i + s * (line o p' q' d).coeffs i, d⟩ := by
  simp only [line]
  congr 1
  funext i
  split
  · rfl
  · split
    · ring
    · ring

/-- **C89.** In the determined cases of C88 and for the orders 1 and 2: the fit of `r` times one set of
data plus `s` times another, over the same times and with any solvers, is `r` times the one fit plus `s`
times the other, at every time, together with its velocity and acceleration. Missing: order 5 with three
or more knots, order 4 with two knots or with four and more, see `C89_refuted`. -/
theorem C89_superposition_partial (S S' S'' : Solver K) (ts ps qs : List K) (h2 : 2 ≤ ts.length)
    (hb : ts.length ≤ 2 ^ 28) (hp : ps.length = ts.length) (hq : qs.length = ts.length)
    (hinc : ts.Pairwise (· < ·))
    (ho : o = .o1 ∨ o = .o2 ∨ o = .o3 ∨ o = .o4 ∧ ts.length = 3 ∨ o = .o5 ∧ ts.length = 2)
    (v0 a0 vT aT w0 b0 wT bT r s : K) (c d e : Container o K) :
    ∃ x y z, setDataAcc S ts ps v0 a0 vT aT c = .ok (true, x) ∧
      setDataAcc S' ts qs w0 b0 wT bT d = .ok (true, y) ∧
      setDataAcc S'' ts (mix r s ps qs) (r * v0 + s * w0) (r * a0 + s * b0) (r * vT + s * wT)
        (r * aT + s * bT) e = .ok (true, z) ∧ Superposed r s x y z := by
  obtain ⟨n, hn⟩ : ∃ n, ts.length = n + 1 := ⟨ts.length - 1, by omega⟩
  have hm : (mix r s ps qs).length = ts.length := by simp [mix, hp, hq]
  by_cases h12 : o.deg ≤ 2
  · rw [setDataAcc_vel S ts ps v0 a0 vT aT c n (by omega) (by omega) hn (Or.inl (by omega)),
      setDataVel_linear S ts ps v0 vT c n (by omega) (by omega) hn h12,
      setDataAcc_vel S' ts qs w0 b0 wT bT d n (by omega) (by omega) hn (Or.inl (by omega)),
      setDataVel_linear S' ts qs w0 wT d n (by omega) (by omega) hn h12,
      setDataAcc_vel S'' ts (mix r s ps qs) _ _ _ _ e n (by omega) (by omega) hn (Or.inl (by omega)),
      setDataVel_linear S'' ts (mix r s ps qs) _ _ e n (by omega) (by omega) hn h12]
    obtain ⟨x, q1, -, r1⟩ := linear_through ts ps n (by omega) hn (by omega) hinc c
    obtain ⟨y, q2, -, r2⟩ := linear_through ts qs n (by omega) hn (by omega) hinc d
    obtain ⟨z, q3, -, r3⟩ := linear_through ts (mix r s ps qs) n (by omega) hn (by omega) hinc e
    refine ⟨x, y, z, q1, q2, q3, superposed_of_segs ?_ ?_ ?_⟩
    · rw [r1, r2]; simp [line]
    · have hk : ∀ j < ts.length, knot (mix r s ps qs) j = r * knot ps j + s * knot qs j := by
        intro j hj
        obtain ⟨a, b, ea, eb, h⟩ := mix_get (getElem?_knot (l := mix r s ps qs) (j := j) (by omega))
        rw [h, knot, knot, ea, eb]; rfl
      rw [r1, r2, r3, mixSegs, List.zipWith_map_left, List.zipWith_map_right, List.zipWith_self]
      refine List.map_congr_left fun j hj => ?_
      have hj' := List.mem_range.1 hj
      rw [hk j (by omega), hk (j + 1) (by omega)]
      exact line_mix r s _ _ _ _ _
    · rw [r1]; simp; omega
  · have ho' : o = .o3 ∨ o = .o4 ∧ ts.length = 3 ∨ o = .o5 ∧ ts.length = 2 := by
      rcases ho with rfl | rfl | h
      · simp [Order.deg] at h12
      · simp [Order.deg] at h12
      · exact h
    obtain ⟨x, q1, f1, a1, -⟩ := C88_determined_partial S ts ps h2 hb hp hinc ho' v0 a0 vT aT c
    obtain ⟨y, q2, f2, a2, -⟩ := C88_determined_partial S' ts qs h2 hb hq hinc ho' w0 b0 wT bT d
    obtain ⟨z, q3, f3, a3, u3⟩ := C88_determined_partial S'' ts (mix r s ps qs) h2 hb hm hinc ho'
      (r * v0 + s * w0) (r * a0 + s * b0) (r * vT + s * wT) (r * aT + s * bT) e
    have hl : x.splines.length = y.splines.length := by
      have := f1.count; have := f2.count; omega
    have hd : ∀ (j : ℕ) (u v : Spline o K), x.splines[j]? = some u → y.splines[j]? = some v → u.duration = v.duration := by
      intro j u v hu hv
      obtain ⟨hj, rfl⟩ := List.getElem?_eq_some_iff.1 hu
      obtain ⟨hj', rfl⟩ := List.getElem?_eq_some_iff.1 hv
      rw [(f1.over hp hj).1, (f2.over hq hj').1]
    have hz := u3 _ (f1.mix f2 hp hq r s) (fun h => (a1 h).mix (a2 h) hl hd r s)
    refine ⟨x, y, z, q1, q2, q3, superposed_of_segs ?_ hz.symm ?_⟩
    · refine List.ext_getElem (by simpa using hl) fun j h1 h2 => ?_
      simp only [List.length_map] at h1 h2
      simp only [List.getElem_map]
      exact hd j _ _ (List.getElem?_eq_getElem h1) (List.getElem?_eq_getElem h2)
    · intro h
      have := f1.count
      rw [h] at this
      simp at this
      omega

/-- **C89** is false in the cases left to the solver: twice all-zero data is all-zero data, but there are
solvers for which its fit is 1 somewhere between the knots, and twice 1 is not 1. -/
theorem C89_refuted (ts : List K) (h2 : 2 ≤ ts.length) (hb : ts.length ≤ 2 ^ 28)
    (hinc : ts.Pairwise (· < ·))
    (ho : o = .o5 ∧ 3 ≤ ts.length ∨ o = .o4 ∧ ts.length ≠ 3) (c : Container o K) :
    ∃ S : Solver K, ∃ x, setDataAcc S ts (ts.map fun _ => 0) 0 0 0 0 c = .ok (true, x) ∧
      mix 2 0 (ts.map fun _ => (0 : K)) (ts.map fun _ => 0) = ts.map (fun _ => 0) ∧
      ¬ Superposed 2 0 x x x := by
  have hm : mix 2 0 (ts.map fun _ => (0 : K)) (ts.map fun _ => 0) = ts.map (fun _ => 0) := by
    simp [mix]
  obtain ⟨t, ht⟩ : ∃ t, Arbitrary t fun S => setDataAcc S ts (ts.map fun _ => (0 : K)) 0 0 0 0 c := by
    rcases ho with ⟨rfl, h3⟩ | ⟨rfl, h3⟩
    · have hlt := List.pairwise_iff_getElem.1 hinc 0 1 (by omega) (by omega) (by omega)
      exact ⟨_, C88_quintic_refuted ts _ h3 hb (by simp) hinc 0 0 0 0 c 0 (by omega)
        ((ts[0] + ts[1]) / 2) (by linarith) (by simp only [zero_add]; linarith)⟩
    · obtain ⟨j, hj, t, -, -, ha⟩ := C88_refuted ts (ts.map fun _ => (0 : K)) h2 hb (by simp) hinc 0 0 0 0
        c _ (Or.inl ⟨rfl, h3, rfl⟩)
      exact ⟨_, ha⟩
  obtain ⟨S, x, e, hx⟩ := ht 1
  refine ⟨S, x, e, hm, fun h => ?_⟩
  obtain ⟨p, q, h1, h2, h3⟩ := h.1 t
  rw [hx] at h1 h3
  simp only [Outcome.ok.injEq] at h1 h3
  rw [← h1] at h3
  norm_num at h3

/-- An instance of C89: twice a cubic through three points plus three times another. -/
example (S : Solver ℚ) : ∃ x y z : Container .o3 ℚ,
    setDataAcc S [0, 1, 3] [5, -1, 2] 1 0 3 0 fresh = .ok (true, x) ∧
    setDataAcc S [0, 1, 3] [1, 1, 4] 0 0 1 0 fresh = .ok (true, y) ∧
    setDataAcc S [0, 1, 3] [13, 1, 16] 2 0 9 0 fresh = .ok (true, z) ∧ Superposed 2 3 x y z := by
  have h := C89_superposition_partial (o := .o3) S S S [0, 1, 3] [5, -1, 2] [1, 1, 4] (by simp) (by simp)
    rfl rfl (by norm_num) (Or.inr (Or.inr (Or.inl rfl))) 1 0 3 0 0 0 1 0 2 3 fresh fresh fresh
  norm_num [mix] at h
  obtain ⟨x, hx, y, hy, z, hz, h⟩ := h
  exact ⟨x, y, z, hx, hy, hz, h⟩

end Verif.Container
