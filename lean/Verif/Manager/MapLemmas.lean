import Verif.Manager.CurveLemmas

/-!
# Managers with converted coefficients

Inserting does not look at the coefficients, so it commutes with converting them.
-/

set_option linter.unusedSectionVars false

namespace Verif.Manager

variable {T C C' : Type} [LinearOrder T]

/-- A node with a converted coefficient. -/
def Node.conv (F : C → C') (n : Node T C) : Node T C' := ⟨n.addr, n.time, n.key, F n.coef⟩

/-- A manager with converted coefficients. -/
def Mgr.conv (F : C → C') (m : Mgr T C) : Mgr T C' := ⟨m.nodes.map (Node.conv F), m.keyMap⟩

theorem conv_knots (F : C → C') (m : Mgr T C) : (m.conv F).knots = m.knots.map fun p => (p.1, F p.2) := by
  simp [Mgr.conv, Mgr.knots, Node.conv, Function.comp_def]

theorem conv_empty (F : C → C') : (Mgr.empty : Mgr T C).conv F = Mgr.empty := rfl

theorem scanAtTime_conv (F : C → C') (ns : List (Node T C)) (t : T) :
    scanAtTime (ns.map (Node.conv F)) t = (scanAtTime ns t).map (Node.conv F) := by
  induction ns with
  | nil => rfl
  | cons n ns ih =>
    simp only [List.map_cons, scanAtTime, ih, show (n.conv F).time = n.time from rfl]
    split <;> [split; skip] <;> rfl

theorem mapInsert_conv (F : C → C') (ns : List (Node T C)) (n : Node T C) :
    mapInsert (ns.map (Node.conv F)) (n.conv F) = ((mapInsert ns n).1.map (Node.conv F), (mapInsert ns n).2) := by
  induction ns with
  | nil => rfl
  | cons a ns ih =>
    simp only [List.map_cons, mapInsert, ih, show (a.conv F).time = a.time from rfl,
      show (n.conv F).time = n.time from rfl]
    split <;> [skip; split] <;> rfl

theorem nodeAt_conv (F : C → C') (ns : List (Node T C)) (a : Nat) :
    nodeAt (ns.map (Node.conv F)) a = (nodeAt ns a).map (Node.conv F) := by
  simp only [nodeAt, List.find?_map]
  rfl

theorem setCoefAt_conv (F : C → C') (ns : List (Node T C)) (a : Nat) (c : C) :
    setCoefAt (ns.map (Node.conv F)) a (F c) = (setCoefAt ns a c).map (Node.conv F) := by
  simp only [setCoefAt, List.map_map]
  refine List.map_congr_left fun n _ => ?_
  simp only [Function.comp, show (n.conv F).addr = n.addr from rfl]
  split <;> rfl

theorem insertCoefficient_conv (F : C → C') (w : World) (m : Mgr T C) (t : T) (c : C) :
    (m.conv F).insertCoefficient w t (F c) =
      (m.insertCoefficient w t c >>= fun r => .ok (r.1, r.2.1.conv F, r.2.2)) := by
  unfold Mgr.insertCoefficient
  rw [show (m.conv F).nodes = m.nodes.map (Node.conv F) from rfl, scanAtTime_conv]
  cases h : scanAtTime m.nodes t with
  | some n =>
    simp only [Option.map_some, Mgr.updateCoefficientByKey, show (m.conv F).keyMap = m.keyMap from rfl,
      show (m.conv F).nodes = m.nodes.map (Node.conv F) from rfl, show (n.conv F).key = n.key from rfl, nodeAt_conv]
    cases h1 : kmFind m.keyMap n.key with
    | none => rfl
    | some a =>
      simp only
      cases h2 : nodeAt m.nodes a with
      | none => rfl
      | some x =>
        simp only [Option.map_some, setCoefAt_conv]
        rfl
  | none =>
    have := mapInsert_conv F m.nodes ⟨w.nextAddr, t, (w.calls + 1) % 2 ^ 64, c⟩
    simp only [Node.conv] at this
    simp only [Option.map_none, getNextKey, newAddr]
    erw [this]
    rfl

theorem insertLoop_conv (F : C → C') (l : List (T × C)) : ∀ (w : World) (m : Mgr T C),
    (m.conv F).insertLoop w (l.map fun p => (p.1, F p.2)) =
      (m.insertLoop w l >>= fun r => .ok (r.1, r.2.1.conv F, r.2.2)) := by
  induction l with
  | nil => intro w m; rfl
  | cons p l ih =>
    intro w m
    obtain ⟨t, c⟩ := p
    simp only [List.map_cons, Mgr.insertLoop, insertCoefficient_conv]
    cases h : m.insertCoefficient w t c with
    | ok r =>
      obtain ⟨w1, m1, k⟩ := r
      simp only [Outcome.ok_bind]
      erw [ih w1 m1]
      cases h' : m1.insertLoop w1 l with
      | ok r => obtain ⟨w2, m2, ks⟩ := r; rfl
      | abort => rfl
      | throw => rfl
      | ub => rfl
    | abort => rfl
    | throw => rfl
    | ub => rfl

theorem insertCoefficients_conv (F : C → C') (w : World) (m : Mgr T C) (ts : List T) (cs : List C) :
    (m.conv F).insertCoefficients w ts (cs.map F) =
      (m.insertCoefficients w ts cs >>= fun r => .ok (r.1, r.2.1.conv F, r.2.2)) := by
  simp only [Mgr.insertCoefficients, List.length_map]
  split
  · rw [← insertLoop_conv, List.zip_map_right]
    rfl
  · rfl

end Verif.Manager
