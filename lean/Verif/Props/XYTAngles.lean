import Verif.Spec.XYTAngles
import Verif.Props.XYTPrim
import Verif.Props.XYT
/-!
# Lattices whose headings are given by a list of angles
-/

namespace Sbpl.XAngProps
open Sbpl XEnv XSpec XAngSpec XYTPrimProps

/-- the call with an angle of the uniform heading that has the same number -/
def unif (T : Nat) (dirs : List ℚ) : Op → Op
  | .setStart x y th => match XPrim.contTheta2DiscSet T dirs th with | .ok i => .setStart x y (Utils.discTheta2Cont i T) | .error _ => .setStart x y th
  | .setGoal x y th => match XPrim.contTheta2DiscSet T dirs th with | .ok i => .setGoal x y (Utils.discTheta2Cont i T) | .error _ => .setGoal x y th
  | op => op

theorem heading_ok {T : Nat} {dirs : List ℚ} (H : HeadingSet T dirs) (th : ℚ) : ∃ i, XPrim.contTheta2DiscSet T dirs th = .ok i ∧ Nearest T dirs th i := by
  obtain ⟨i, a, h1, h2, h3, d, h4, h5⟩ := headings_nearest H th
  exact ⟨i, h1, h2, a, d, h3, h4, h5⟩

theorem round {T i : Nat} (hi : i < T) : Utils.contTheta2Disc (Utils.discTheta2Cont (i : Int) T) T = i :=
  AngleProps.disc_cont_disc_theta (by omega) (by omega)

theorem setGoal_unif {T : Nat} {dirs : List ℚ} {st : XEnv} {x y th : ℚ} {i : Nat} (hT : st.cfg.T = T) (h : XPrim.contTheta2DiscSet T dirs th = .ok i) (hi : i < T) :
    st.setGoalSet dirs x y th = st.setGoal x y (Utils.discTheta2Cont i T) := by
  unfold setGoalSet setGoal
  rw [hT, h, round hi]
  rfl

theorem setStart_unif {T : Nat} {dirs : List ℚ} {st : XEnv} {x y th : ℚ} {i : Nat} (hT : st.cfg.T = T) (h : XPrim.contTheta2DiscSet T dirs th = .ok i) (hi : i < T) :
    st.setStartSet dirs x y th = st.setStart x y (Utils.discTheta2Cont i T) := by
  unfold setStartSet setStart
  rw [hT, h, round hi]
  rfl

/-- one call with a list of headings has the effect of the same call with uniform headings and another angle -/
theorem stepSet_unif {T : Nat} {dirs : List ℚ} {st : XEnv} (H : HeadingSet T dirs) (hT : st.cfg.T = T) (op : Op) : st.stepSet dirs op = st.step (unif T dirs op) := by
  cases op with
  | setStart x y th =>
    obtain ⟨i, h, hi, -⟩ := heading_ok H th
    simp only [unif, h]
    unfold stepSet step
    simp only
    rw [setStart_unif hT h hi]
    rfl
  | setGoal x y th =>
    obtain ⟨i, h, hi, -⟩ := heading_ok H th
    simp only [unif, h]
    unfold stepSet step
    simp only
    rw [setGoal_unif hT h hi]
    rfl
  | _ => rfl

theorem unif_callOk {s : Setup} {dirs : List ℚ} (H : HeadingSet s.T dirs) {op : Op} (h : ∀ k, op = .getState k → InRange s k) : CallOk s (unif s.T dirs op) := by
  cases op with
  | setStart x y th =>
    obtain ⟨i, e, hi, -⟩ := heading_ok H th
    simp only [unif, e]
    show Utils.contTheta2Disc _ _ < _
    rw [round hi]; omega
  | setGoal x y th =>
    obtain ⟨i, e, hi, -⟩ := heading_ok H th
    simp only [unif, e]
    show Utils.contTheta2Disc _ _ < _
    rw [round hi]; omega
  | getState k => exact h k rfl
  | _ => exact trivial

theorem costStep_unif (s : Setup) (dirs : List ℚ) (g : Int → Int → Nat) (op : Op) : costStep s g (unif s.T dirs op) = costStep s g op := by
  cases op with
  | setStart x y th => simp only [unif]; split <;> rfl
  | setGoal x y th => simp only [unif]; split <;> rfl
  | _ => rfl

theorem costs_unif (s : Setup) (dirs : List ℚ) (ops : List Op) : costs s (ops.map (unif s.T dirs)) = costs s ops := by
  unfold costs
  rw [List.foldl_map]
  congr 1
  funext g op
  exact costStep_unif s dirs g op

theorem runSet_hist {s : Setup} {dirs : List ℚ} (H : HeadingSet s.T dirs) : ∀ (ops pre : List Op) (st st' : XEnv), Hist s pre st → (∀ k, Op.getState k ∈ ops → InRange s k) →
    st.runSet dirs ops = some st' → Hist s (pre ++ ops.map (unif s.T dirs)) st' := by
  intro ops
  induction ops with
  | nil => intro pre st st' h _ hr; cases hr; simpa using h
  | cons op ops ih =>
    intro pre st st' h hk hr
    have hT : st.cfg.T = s.T := (hist_inv h).1.stc.T
    unfold runSet at hr
    rw [stepSet_unif H hT] at hr
    split at hr
    · cases hr
    · next st1 h1 =>
      have hh : Hist s (pre ++ [unif s.T dirs op]) st1 := by
        refine hist_append h ?_ ?_
        · intro o ho
          rw [List.mem_singleton] at ho
          subst ho
          exact unif_callOk H (fun k e => hk k (by rw [e]; simp))
        · unfold XEnv.run
          rw [h1]; rfl
      have := ih _ st1 st' hh (fun k hm => hk k (List.mem_cons_of_mem _ hm)) hr
      rwa [List.append_assoc] at this

/-- **C187a** An environment with a list of headings, after any calls, is in a state that an environment with the same number of uniform headings reaches, with the same cell costs: what
holds for every history of the latter holds for it. -/
theorem angles_hist {s : Setup} {dirs : List ℚ} {ops : List Op} {st : XEnv} (h : HistSet s dirs ops st) :
    ∃ ops', Hist s ops' st ∧ costs s ops' = costs s ops ∧ ops'.length = ops.length := by
  obtain ⟨ok, H, hk, st0, h0, hr⟩ := h
  have hh : Hist s [] st0 := ⟨ok, by simp, st0, h0, rfl⟩
  exact ⟨ops.map (unif s.T dirs), by simpa using runSet_hist H ops [] st0 st hh hk hr, costs_unif s dirs ops, by simp⟩

theorem runSet_append (dirs : List ℚ) : ∀ (ops ops' : List Op) (st : XEnv), st.runSet dirs (ops ++ ops') = (st.runSet dirs ops).bind (fun st' => st'.runSet dirs ops') := by
  intro ops
  induction ops with
  | nil => intro ops' st; rfl
  | cons op ops ih =>
    intro ops' st
    simp only [List.cons_append, runSet]
    cases st.stepSet dirs op with
    | none => rfl
    | some st1 => exact ih ops' st1

section
variable {s : Setup} {dirs : List ℚ} {ops : List Op} {st : XEnv} {x y th : ℚ}

/-- **C187b** SetGoal with a list of headings: outside the map it is refused and nothing changes; inside, the goal becomes the state of the cell of the point and of a heading of the list
that is nearest to the angle, which every angle has; the start stays. -/
theorem set_goal_angles (h : HistSet s dirs ops st) :
    ∃ st' r, st.setGoalSet dirs x y th = .ok (st', r) ∧
      (r = none ↔ ¬ XSpec.InMap s (Utils.contXY2Disc x s.cs, Utils.contXY2Disc y s.cs)) ∧ (r = none → st' = st) ∧ st'.startId = st.startId ∧
      (∀ j, r = some j → st'.goalId = j ∧ ∃ i : Nat, Nearest s.T dirs th i ∧ st'.getCoord j = .ok (Utils.contXY2Disc x s.cs, Utils.contXY2Disc y s.cs, (i : Int))) ∧
      HistSet s dirs (ops ++ [.setGoal x y th]) st' := by
  obtain ⟨ops', hh, -, -⟩ := angles_hist h
  obtain ⟨inv, -, -, -⟩ := hist_inv hh
  have H := h.2.1
  obtain ⟨i, e, n⟩ := heading_ok H th
  have hT : st.cfg.T = s.T := inv.stc.T
  have hcs : st.cfg.cs = s.cs := inv.stc.cs
  have e1 : st.setGoalSet dirs x y th = st.setGoal x y (Utils.discTheta2Cont i s.T) := setGoal_unif hT e n.1
  obtain ⟨st', r, g1, g2, g3, g4, g5, g6, g7, g8⟩ := setGoal_ok inv (x := x) (y := y) (th := Utils.discTheta2Cont i s.T) (by rw [round n.1]; have := n.1; omega)
  have e2 : st.setGoalSet dirs x y th = .ok (st', r) := by rw [e1, g1]
  refine ⟨st', r, e2, ?_, g6, ?_, ?_, ?_⟩
  · rw [g7, hcs]
    unfold XCfg.within XSpec.InMap
    rw [inv.stc.W, inv.stc.H]
    simp only [decide_eq_false_iff_not]
  · unfold setGoalSet at e2
    rw [hT, e] at e2
    simp only at e2
    split at e2
    · cases e2; rfl
    · next hw0 =>
      split at e2
      · cases e2
      · next st1 id hg =>
        cases e2
        show st1.startId = _
        have hw : st.cfg.inRange (Utils.contXY2Disc x st.cfg.cs, Utils.contXY2Disc y st.cfg.cs, (i : Int)) = true := by
          unfold XCfg.inRange
          rw [Bool.and_eq_true]
          refine ⟨by simpa using hw0, ?_⟩
          have := n.1
          rw [decide_eq_true_iff, hT]; constructor <;> simp <;> omega
        obtain ⟨st2, id2, q1, q2, q3, q4, -⟩ := getState_ok inv.x hw
        rw [hg] at q1
        cases q1
        exact q3.startId
  · intro j hj
    obtain ⟨g81, g82⟩ := g8 j hj
    refine ⟨g81, i, n, ?_⟩
    rw [getCoord_ok]
    have := g2.goalC
    rw [g81, g82, hT, hcs, round n.1] at this
    exact this
  · obtain ⟨ok, _, hk, st0, h0, hr⟩ := h
    refine ⟨ok, H, ?_, st0, h0, ?_⟩
    · intro k hm
      rcases List.mem_append.mp hm with hm | hm
      · exact hk k hm
      · simp at hm
    · rw [runSet_append, hr]
      show (match st.stepSet dirs (.setGoal x y th) with | none => none | some st1 => some st1) = _
      unfold stepSet
      simp only [e2]

/-- **C187c** SetStart with a list of headings: outside the map it is refused and nothing changes; inside, the start becomes the state of the cell of the point and of a heading of the list
that is nearest to the angle, which every angle has; the goal stays. -/
theorem set_start_angles (h : HistSet s dirs ops st) :
    ∃ st' r, st.setStartSet dirs x y th = .ok (st', r) ∧
      (r = none ↔ ¬ XSpec.InMap s (Utils.contXY2Disc x s.cs, Utils.contXY2Disc y s.cs)) ∧ (r = none → st' = st) ∧ st'.goalId = st.goalId ∧
      (∀ j, r = some j → st'.startId = j ∧ ∃ i : Nat, Nearest s.T dirs th i ∧ st'.getCoord j = .ok (Utils.contXY2Disc x s.cs, Utils.contXY2Disc y s.cs, (i : Int))) ∧
      HistSet s dirs (ops ++ [.setStart x y th]) st' := by
  obtain ⟨ops', hh, -, -⟩ := angles_hist h
  obtain ⟨inv, -, -, -⟩ := hist_inv hh
  have H := h.2.1
  obtain ⟨i, e, n⟩ := heading_ok H th
  have hT : st.cfg.T = s.T := inv.stc.T
  have hcs : st.cfg.cs = s.cs := inv.stc.cs
  have e1 : st.setStartSet dirs x y th = st.setStart x y (Utils.discTheta2Cont i s.T) := setStart_unif hT e n.1
  obtain ⟨st', r, g1, g2, g3, g4, g5, g6, g7, g8⟩ := setStart_ok inv (x := x) (y := y) (th := Utils.discTheta2Cont i s.T) (by rw [round n.1]; have := n.1; omega)
  have e2 : st.setStartSet dirs x y th = .ok (st', r) := by rw [e1, g1]
  refine ⟨st', r, e2, ?_, g6, ?_, ?_, ?_⟩
  · rw [g7, hcs]
    unfold XCfg.within XSpec.InMap
    rw [inv.stc.W, inv.stc.H]
    simp only [decide_eq_false_iff_not]
  · unfold setStartSet at e2
    rw [hT, e] at e2
    simp only at e2
    split at e2
    · cases e2; rfl
    · next hw0 =>
      split at e2
      · cases e2
      · next st1 id hg =>
        cases e2
        show st1.goalId = _
        have hw : st.cfg.inRange (Utils.contXY2Disc x st.cfg.cs, Utils.contXY2Disc y st.cfg.cs, (i : Int)) = true := by
          unfold XCfg.inRange
          rw [Bool.and_eq_true]
          refine ⟨by simpa using hw0, ?_⟩
          have := n.1
          rw [decide_eq_true_iff, hT]; constructor <;> simp <;> omega
        obtain ⟨st2, id2, q1, q2, q3, q4, -⟩ := getState_ok inv.x hw
        rw [hg] at q1
        cases q1
        exact q3.goalId
  · intro j hj
    obtain ⟨g81, g82⟩ := g8 j hj
    refine ⟨g81, i, n, ?_⟩
    rw [getCoord_ok]
    have := g2.startC
    rw [g81, g82, hT, hcs, round n.1] at this
    exact this
  · obtain ⟨ok, _, hk, st0, h0, hr⟩ := h
    refine ⟨ok, H, ?_, st0, h0, ?_⟩
    · intro k hm
      rcases List.mem_append.mp hm with hm | hm
      · exact hk k hm
      · simp at hm
    · rw [runSet_append, hr]
      show (match st.stepSet dirs (.setStart x y th) with | none => none | some st1 => some st1) = _
      unfold stepSet
      simp only [e2]

end
end Sbpl.XAngProps
