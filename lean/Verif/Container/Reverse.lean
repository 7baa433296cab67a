import Verif.Container.Rescale

/-!
# Fits of data played backwards

The segments of a fit, each played backwards and in the opposite order, are the segments of the fit of the
positions in the opposite order at the mirrored times.
-/

set_option linter.unusedSectionVars false
set_option linter.dupNamespace false

namespace Verif.Container

open Verif.Spline Container Polynomial

variable {K : Type} [Field K] [LinearOrder K] [IsStrictOrderedRing K] {o : Order}

/-- The polynomial of a segment played backwards. -/
noncomputable def mirror (s : Spline o K) : K[X] := (toPoly s.coeffs).comp (C s.duration - X)

/-- The segment played backwards. -/
noncomputable def back (s : Spline o K) : Spline o K := ⟨vecOf o (mirror s), s.duration⟩

theorem natDegree_toPoly (c : Vec o K) : (toPoly c).natDegree ≤ o.deg := by
  unfold toPoly
  refine natDegree_sum_le_of_forall_le _ _ fun i _ => ?_
  exact (natDegree_C_mul_X_pow_le _ _).trans (Nat.sub_le _ _)

theorem natDegree_mirror (s : Spline o K) : (mirror s).natDegree ≤ o.deg := by
  refine natDegree_comp_le.trans ?_
  have h : (C s.duration - X : K[X]).natDegree ≤ 1 := by
    refine (natDegree_sub_le _ _).trans ?_
    simp
  calc (toPoly s.coeffs).natDegree * (C s.duration - X : K[X]).natDegree
      ≤ o.deg * 1 := Nat.mul_le_mul (natDegree_toPoly _) h
    _ = o.deg := mul_one _

theorem clamp_mirror {d : K} (hd : 0 ≤ d) (t : K) : clamp (d - t) d = d - clamp t d := by
  dsimp only [clamp]
  split_ifs <;> linarith

theorem back_read (s : Spline o K) (hd : 0 ≤ s.duration) (t : K) :
    (back s).getPositionAtTime (s.duration - t) = s.getPositionAtTime t ∧
    (back s).getVelocityAtTime (s.duration - t) = -s.getVelocityAtTime t ∧
    (back s).getAccelerationAtTime (s.duration - t) = s.getAccelerationAtTime t := by
  simp only [Spline.getPositionAtTime, Spline.getVelocityAtTime, Spline.getAccelerationAtTime]
  have e : (back s).duration = s.duration := rfl
  rw [e, clamp_mirror hd]
  generalize clamp t s.duration = u
  obtain ⟨h1, h2, h3⟩ := eval_vec (mirror s) (natDegree_mirror s) (s.duration - u)
  refine ⟨?_, ?_, ?_⟩
  · refine h1.trans ?_
    rw [mirror, eval_comp, ← eval_toPoly]; simp
  · refine h2.trans ?_
    rw [mirror, derivative_comp, ← eval_toPoly']; simp [eval_comp]
  · refine h3.trans ?_
    rw [mirror, derivative_comp, ← eval_toPoly'']; simp [eval_comp, derivative_comp]

theorem back_zero (s : Spline o K) (hd : 0 ≤ s.duration) :
    (back s).getPositionAtTime 0 = s.getPositionAtTime s.duration ∧
    (back s).getVelocityAtTime 0 = -s.getVelocityAtTime s.duration ∧
    (back s).getAccelerationAtTime 0 = s.getAccelerationAtTime s.duration := by
  have := back_read s hd s.duration
  rwa [sub_self] at this

theorem back_end (s : Spline o K) (hd : 0 ≤ s.duration) :
    (back s).getPositionAtTime s.duration = s.getPositionAtTime 0 ∧
    (back s).getVelocityAtTime s.duration = -s.getVelocityAtTime 0 ∧
    (back s).getAccelerationAtTime s.duration = s.getAccelerationAtTime 0 := by
  have := back_read s hd 0
  rwa [sub_zero] at this

/-- The list of the segments played backwards. -/
noncomputable def backs (l : List (Spline o K)) : List (Spline o K) := (l.map back).reverse

theorem backs_getElem? {l : List (Spline o K)} {j : ℕ} {z : Spline o K} (h : (backs l)[j]? = some z) :
    ∃ s, l[l.length - 1 - j]? = some s ∧ j < l.length ∧ z = back s := by
  have hj : j < l.length := by
    by_contra hcon
    rw [backs, List.getElem?_eq_none (by simpa using hcon)] at h
    simp at h
  rw [backs, List.getElem?_reverse (by simpa using hj), List.length_map, List.getElem?_map,
    Option.map_eq_some_iff] at h
  obtain ⟨s, hs, rfl⟩ := h
  exact ⟨s, hs, hj, rfl⟩

theorem backs_at {l : List (Spline o K)} {j : ℕ} {s : Spline o K} (h : l[j]? = some s) :
    (backs l)[l.length - 1 - j]? = some (back s) := by
  have hj : j < l.length := by
    by_contra hcon
    rw [List.getElem?_eq_none (by omega)] at h
    simp at h
  rw [backs, List.getElem?_reverse (by simp; omega), List.length_map, List.getElem?_map,
    show l.length - 1 - (l.length - 1 - j) = j by omega, h]
  rfl

theorem total_backs (l : List (Spline o K)) : total (backs l) = total l := by
  simp [total, backs, List.map_reverse, Function.comp_def, back, List.sum_reverse]

theorem start_backs (l : List (Spline o K)) (k : ℕ) (hk : k ≤ l.length) :
    start (backs l) (l.length - k) = total l - start l k := by
  have h : (backs l).take (l.length - k) = backs (l.drop k) := by
    rw [backs, List.take_reverse, List.length_map, show l.length - (l.length - k) = k by omega, backs, List.map_drop]
  rw [start, h, total_backs, start, eq_sub_iff_add_eq]
  rw [add_comm, ← total_append, List.take_append_drop]

theorem mem_backs {l : List (Spline o K)} (hpos : ∀ s ∈ l, 0 < s.duration) : ∀ s ∈ backs l, 0 < s.duration := by
  intro s hs
  rw [backs, List.mem_reverse, List.mem_map] at hs
  obtain ⟨s, hs, rfl⟩ := hs
  exact hpos s hs

theorem atTime_before (f : Spline o K → K → K) (c : Container o K) (s : Spline o K) (hs : c.splines[0]? = some s)
    (t : K) (h : t < s.duration) : c.atTime f t = .ok (f s t) := by
  have hne : c.splines ≠ [] := by rintro e; rw [e] at hs; simp at hs
  obtain ⟨k, hk, e, h2, -⟩ := findLoop_cases t c.splines hne
  have hk0 : k = 0 := by
    by_contra hcon
    have := h2 0 (by omega)
    rw [start_succ _ _ _ hs, start_zero] at this
    linarith
  subst hk0
  rw [atTime_of_find f t c 0 _ s hs e, start_zero, sub_zero]

/-- Reading a container of segments played backwards. -/
theorem read_backs (f : Spline o K → K → K) (σ : K)
    (hf : ∀ s : Spline o K, 0 ≤ s.duration → ∀ t, f (back s) (s.duration - t) = σ * f s t)
    {x z : Container o K} (hz : z.splines = backs x.splines) (hpos : ∀ s ∈ x.splines, 0 < s.duration)
    (hj : ∀ j s s', x.splines[j]? = some s → x.splines[j + 1]? = some s' → f s s.duration = f s' 0) (t : K) :
    z.atTime f (total x.splines - t) = (x.atTime f t >>= fun v => .ok (σ * v)) := by
  have hposz : ∀ s ∈ z.splines, 0 < s.duration := by rw [hz]; exact mem_backs hpos
  have hlz : z.splines.length = x.splines.length := by rw [hz]; simp [backs]
  have hst := fun k hk => start_backs x.splines k hk
  rw [← hz] at hst
  by_cases hne : x.splines = []
  · have hne' : z.splines = [] := by rw [hz, hne]; rfl
    rw [atTime_empty _ _ _ hne, atTime_empty _ _ _ hne', Outcome.ok_bind, mul_zero]
  have hlen : 0 < x.splines.length := List.length_pos_iff.2 hne
  rcases lt_or_ge t 0 with h0 | h0
  · have e0 := List.getElem?_eq_getElem hlen
    have hp := hpos _ (List.getElem_mem hlen)
    have ez := backs_at e0
    rw [← hz] at ez
    rw [atTime_before f x _ e0 t (by linarith), Outcome.ok_bind, ← hf _ hp.le]
    rw [atTime_beyond f z (fun s hs => (hposz s hs).le) (back x.splines[0])
      (by rw [List.getLast?_eq_getElem?, hlz]; exact ez) _ (by rw [hz, total_backs]; linarith)]
    congr 2
    rw [hlz, hst 1 (by omega), start_succ _ _ _ e0, start_zero]
    ring
  rcases lt_or_ge t (total x.splines) with h1 | h1
  · obtain ⟨k, s, hs, h2, h3⟩ := exists_segment x.splines t h0 h1
    have hk : k < x.splines.length := (List.getElem?_eq_some_iff.1 hs).1
    have hp := hpos s (List.mem_of_getElem? hs)
    have ez := backs_at hs
    rw [← hz] at ez
    have hsz : start z.splines (x.splines.length - 1 - k) = total x.splines - (start x.splines k + s.duration) := by
      rw [← start_succ _ _ _ hs, ← hst (k + 1) (by omega)]
      congr 1
      omega
    rw [atTime_half_open f x (fun s hs => (hpos s hs).le) k s hs t h2 h3, Outcome.ok_bind, ← hf s hp.le]
    rw [atTime_closed f z hposz ?_ _ _ ez _ (by rw [hsz]; linarith)
      (by rw [hsz, show (back s).duration = s.duration from rfl]; linarith), hsz]
    · congr 2
      ring
    · intro j a b ha hb
      rw [hz] at ha hb
      obtain ⟨a', ha', hja, rfl⟩ := backs_getElem? ha
      obtain ⟨b', hb', hjb, rfl⟩ := backs_getElem? hb
      have ga := (hpos a' (List.mem_of_getElem? ha')).le
      have gb := (hpos b' (List.mem_of_getElem? hb')).le
      have e1 := hf a' ga 0
      have e2 := hf b' gb b'.duration
      rw [sub_zero] at e1
      rw [sub_self] at e2
      rw [show (back a').duration = a'.duration from rfl, e1, e2]
      rw [hj _ b' a' hb' (by rw [← ha']; congr 1; omega)]
  · have hl := List.getElem?_eq_getElem (show x.splines.length - 1 < x.splines.length by omega)
    have hp := hpos _ (List.getElem_mem (show x.splines.length - 1 < x.splines.length by omega))
    have ez := backs_at hl
    rw [← hz, show x.splines.length - 1 - (x.splines.length - 1) = 0 by omega] at ez
    have hlast : total x.splines = start x.splines (x.splines.length - 1) + (x.splines[x.splines.length - 1]).duration := by
      rw [← start_succ _ _ _ hl, ← start_length]
      congr 1
      omega
    rw [atTime_beyond f x (fun s hs => (hpos s hs).le) _ (by rw [List.getLast?_eq_getElem?]; exact hl) t h1,
      Outcome.ok_bind, ← hf _ hp.le]
    rw [atTime_before f z _ ez _
      (by rw [show (back x.splines[x.splines.length - 1]).duration = x.splines[x.splines.length - 1].duration from rfl]; linarith)]
    congr 2
    rw [hlast]
    ring

theorem Fulfils.positive {ts ps : List K} {v0 vT : K} {l : List (Spline o K)} (h : Fulfils ts ps v0 vT l)
    (hp : ps.length = ts.length) (hinc : ts.Pairwise (· < ·)) : ∀ s ∈ l, 0 < s.duration := by
  intro s hs
  obtain ⟨j, hj, rfl⟩ := List.getElem_of_mem hs
  rw [(h.over hp hj).1]
  exact dur_pos hinc j

theorem mirror_getElem? (ts : List K) (b : K) {j : ℕ} {y : K} (h : (ts.map fun t => b - t).reverse[j]? = some y) :
    ∃ x, ts[ts.length - 1 - j]? = some x ∧ y = b - x := by
  have hj : j < ts.length := by
    by_contra hcon
    rw [List.getElem?_eq_none (by simpa using hcon)] at h
    simp at h
  rw [List.getElem?_reverse (by simpa using hj), List.length_map, List.getElem?_map, Option.map_eq_some_iff] at h
  obtain ⟨x, hx, rfl⟩ := h
  exact ⟨x, hx, rfl⟩

theorem Fulfils.back {ts ps : List K} {v0 vT : K} {l : List (Spline o K)} (h : Fulfils ts ps v0 vT l)
    (hp : ps.length = ts.length) (hinc : ts.Pairwise (· < ·)) (b : K) :
    Fulfils (ts.map fun t => b - t).reverse ps.reverse (-vT) (-v0) (backs l) := by
  have hpos := h.positive hp hinc
  have hc := h.count
  refine ⟨by simpa [backs] using h.count, ?_, ?_, ?_, ?_⟩
  · intro j s hs0 x y p q hx0 hy0 hp' hq
    obtain ⟨s, hs, hj, rfl⟩ := backs_getElem? hs0
    obtain ⟨x, hx, rfl⟩ := mirror_getElem? ts b hx0
    obtain ⟨y, hy, rfl⟩ := mirror_getElem? ts b hy0
    rw [List.getElem?_reverse (by omega)] at hp' hq
    obtain ⟨h1, h2, h3⟩ := h.segment (l.length - 1 - j) s hs y x q p (by rw [← hy]; congr 1; omega) (by rw [← hx]; congr 1; omega)
      (by rw [← hq]; congr 1; omega) (by rw [← hp']; congr 1; omega)
    have hd := (hpos s (List.mem_of_getElem? hs)).le
    have e : b - y - (b - x) = s.duration := by rw [h1]; ring
    refine ⟨e.symm, ?_, ?_⟩
    · rw [(back_zero s hd).1, h1, h3]
    · rw [e, (back_end s hd).1, h2]
  · intro j s s' hs0 hs0'
    obtain ⟨s, hs, hj, rfl⟩ := backs_getElem? hs0
    obtain ⟨s', hs', hj', rfl⟩ := backs_getElem? hs0'
    have hd := (hpos s (List.mem_of_getElem? hs)).le
    have hd' := (hpos s' (List.mem_of_getElem? hs')).le
    obtain ⟨h1, h2⟩ := h.joint _ s' s hs' (by rw [← hs]; congr 1; omega)
    rw [show (Container.back s).duration = s.duration from rfl, (back_end s hd).2.1, (back_end s hd).2.2,
      (back_zero s' hd').2.1, (back_zero s' hd').2.2, h1, h2]
    exact ⟨rfl, rfl⟩
  · intro s hs
    rw [backs, List.head?_reverse, List.getLast?_map, Option.map_eq_some_iff] at hs
    obtain ⟨s, hs, rfl⟩ := hs
    rw [(back_zero s (hpos s (List.mem_of_getLast? hs)).le).2.1, h.last s hs]
  · intro s hs
    rw [backs, List.getLast?_reverse, List.head?_map, Option.map_eq_some_iff] at hs
    obtain ⟨s, hs, rfl⟩ := hs
    rw [show (Container.back s).duration = s.duration from rfl,
      (back_end s (hpos s (List.mem_of_head? hs)).le).2.1, h.first s hs]

theorem EndAccelerations.back {a0 aT : K} {l : List (Spline o K)} (h : EndAccelerations a0 aT l)
    (hpos : ∀ s ∈ l, 0 < s.duration) : EndAccelerations aT a0 (backs l) := by
  refine ⟨?_, ?_⟩
  · intro s hs
    rw [backs, List.head?_reverse, List.getLast?_map, Option.map_eq_some_iff] at hs
    obtain ⟨s, hs, rfl⟩ := hs
    rw [(back_zero s (hpos s (List.mem_of_getLast? hs)).le).2.2, h.last s hs]
  · intro s hs
    rw [backs, List.getLast?_reverse, List.head?_map, Option.map_eq_some_iff] at hs
    obtain ⟨s, hs, rfl⟩ := hs
    rw [show (Container.back s).duration = s.duration from rfl,
      (back_end s (hpos s (List.mem_of_head? hs)).le).2.2, h.first s hs]

theorem back_line (h12 : o.deg ≤ 2) (p q d : K) (hd : d ≠ 0) : back (line o p q d) = line o q p d := by
  have hm : mirror (line o p q d) = C ((p - q) / d) * X + C q := by
    have e : C ((q - p) / d) * C d = C q - C p := by
      rw [← C_mul, div_mul_cancel₀ _ hd, C_sub]
    have e' : C ((p - q) / d) = -C ((q - p) / d) := by
      rw [← C_neg]; congr 1; ring
    rcases o with _ | _ | _ | _ | _ <;> simp [Order.deg] at h12
    · simp [mirror, line, toPoly_o1, Order.deg]
      rw [e', mul_sub, e]; ring
    · have c0 : (line .o2 p q d).coeffs 0 = 0 := rfl
      have c1 : (line .o2 p q d).coeffs 1 = (q - p) / d := rfl
      have c2 : (line .o2 p q d).coeffs 2 = p := rfl
      have c3 : (line .o2 p q d).duration = d := rfl
      rw [mirror, toPoly_o2, c0, c1, c2, c3]
      simp only [C_0, zero_mul, zero_add, pow_one, pow_zero, mul_one, add_comp, mul_comp, C_comp, X_comp]
      rw [e', mul_sub, e]; ring
  rw [back, hm]
  simp only [line]
  congr 1
  funext m
  rcases o with _ | _ | _ | _ | _ <;> simp [Order.deg] at h12
  · fin_cases m <;> simp [vecOf, Order.deg, Order.count]
  · fin_cases m <;> simp [vecOf, Order.deg, Order.count, coeff_C]

/-- The segments of the fit of data played backwards, in the determined cases. -/
theorem back_fit (S S' : Solver K) (ts ps : List K) (h2 : 2 ≤ ts.length) (hb : ts.length ≤ 2 ^ 28)
    (hp : ps.length = ts.length) (hinc : ts.Pairwise (· < ·))
    (ho : o = .o1 ∨ o = .o2 ∨ o = .o3 ∨ o = .o4 ∧ ts.length = 3 ∨ o = .o5 ∧ ts.length = 2)
    (v0 a0 vT aT b : K) (c d : Container o K) :
    ∃ x z, setDataAcc S ts ps v0 a0 vT aT c = .ok (true, x) ∧
      setDataAcc S' (ts.map fun t => b - t).reverse ps.reverse (-vT) aT (-v0) a0 d = .ok (true, z) ∧
      z.splines = backs x.splines ∧ (∀ s ∈ x.splines, 0 < s.duration) ∧
      (∀ j s s', x.splines[j]? = some s → x.splines[j + 1]? = some s' →
        s.getPositionAtTime s.duration = s'.getPositionAtTime 0) ∧
      (3 ≤ o.deg → ∀ j s s', x.splines[j]? = some s → x.splines[j + 1]? = some s' →
        s.getVelocityAtTime s.duration = s'.getVelocityAtTime 0 ∧
        s.getAccelerationAtTime s.duration = s'.getAccelerationAtTime 0) := by
  obtain ⟨n, hn⟩ : ∃ n, ts.length = n + 1 := ⟨ts.length - 1, by omega⟩
  have hn' : (ts.map fun t => b - t).reverse.length = n + 1 := by simpa using hn
  have hpn' : ps.reverse.length = n + 1 := by simp; omega
  have hinc' : (ts.map fun t => b - t).reverse.Pairwise (· < ·) := by
    rw [List.pairwise_reverse, List.pairwise_map]
    exact hinc.imp fun h => by linarith
  by_cases h12 : o.deg ≤ 2
  · obtain ⟨x, q1, g1, r1⟩ := linear_through ts ps n (by omega) hn (by omega) hinc c
    obtain ⟨z, q2, -, r2⟩ := linear_through (ts.map fun t => b - t).reverse ps.reverse n (by omega) hn' hpn' hinc' d
    have hdp := fun j => dur_pos hinc j
    refine ⟨x, z, ?_, ?_, ?_, ?_, ?_, fun h => absurd h (by omega)⟩
    · rw [setDataAcc_vel S ts ps v0 a0 vT aT c n (by omega) (by omega) hn (Or.inl (by omega)),
        setDataVel_linear S ts ps v0 vT c n (by omega) (by omega) hn h12, q1]
    · rw [setDataAcc_vel S' _ _ _ _ _ _ d n (by omega) (by omega) hn' (Or.inl (by omega)),
        setDataVel_linear S' _ _ _ _ d n (by omega) (by omega) hn' h12, q2]
    · rw [r1, r2]
      refine List.ext_getElem (by simp [backs]) fun j h1 h2 => ?_
      have hj : j < n := by simpa using h1
      simp only [backs, List.getElem_reverse, List.getElem_map, List.getElem_range, List.length_map, List.length_range]
      rw [back_line h12 _ _ _ (hdp _).ne']
      have k1 : knot ps.reverse j = knot ps (n - 1 - j + 1) := by
        simp only [knot]
        rw [List.getElem?_reverse (by omega)]
        congr 2
        omega
      have k2 : knot ps.reverse (j + 1) = knot ps (n - 1 - j) := by
        simp only [knot]
        rw [List.getElem?_reverse (by omega)]
        congr 2
        omega
      have k3 : dur (ts.map fun t => b - t).reverse j = dur ts (n - 1 - j) := by
        rw [dur, dur, if_pos (by omega), if_pos (by omega)]
        simp only [knot]
        rw [List.getElem?_reverse (by simp; omega), List.getElem?_reverse (by simp; omega)]
        simp only [List.getElem?_map, List.length_map, hn]
        rw [show n + 1 - 1 - (j + 1) = n - 1 - j by omega, show n + 1 - 1 - j = n - 1 - j + 1 by omega,
          List.getElem?_eq_getElem (by omega), List.getElem?_eq_getElem (by omega)]
        simp only [Option.map_some, Option.getD_some]
        ring
      rw [k1, k2, k3]
    · intro s hs
      rw [r1, List.mem_map] at hs
      obtain ⟨j, -, rfl⟩ := hs
      exact hdp j
    · intro j s s' hs hs'
      rw [(g1.seg j s hs).2.2, (g1.seg _ s' hs').2.1]
  · have ho' : o = .o3 ∨ o = .o4 ∧ ts.length = 3 ∨ o = .o5 ∧ ts.length = 2 := by
      rcases ho with rfl | rfl | h
      · simp [Order.deg] at h12
      · simp [Order.deg] at h12
      · exact h
    obtain ⟨x, q1, f1, a1, -⟩ := C88_determined_partial S ts ps h2 hb hp hinc ho' v0 a0 vT aT c
    obtain ⟨z, q2, -, -, u2⟩ := C88_determined_partial S' (ts.map fun t => b - t).reverse ps.reverse (by simpa using h2)
      (by simpa using hb) (by simpa using hp) hinc' (by simpa using ho') (-vT) aT (-v0) a0 d
    have hpos := f1.positive hp hinc
    refine ⟨x, z, q1, q2, (u2 _ (f1.back hp hinc b) fun h => (a1 h).back hpos).symm, hpos, ?_, fun _ => f1.joint⟩
    intro j s s' hs hs'
    obtain ⟨hj, rfl⟩ := List.getElem?_eq_some_iff.1 hs
    obtain ⟨hj', rfl⟩ := List.getElem?_eq_some_iff.1 hs'
    rw [(f1.over hp hj).1, (f1.over hp hj).2.2, (f1.over hp hj').2.1]

end Verif.Container
