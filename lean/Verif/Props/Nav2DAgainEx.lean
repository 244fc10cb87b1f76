import Verif.Props.Nav2DAgain
/-! # Several calls of InitializeEnv on one grid map: concrete cases -/

namespace Sbpl.Nav2DProps
open Sbpl Nav2D NavObj Scan GridSpec StateTable

/-- a free 3 x 2 map -/
def agArgs : NavArgs := ⟨3, 2, fun _ => 0, (0, 0), (0, 1), 1⟩
/-- a free 9 x 9 map with a start outside -/
def agBad : NavArgs := ⟨9, 9, fun _ => 0, (-1, 0), (0, 1), 1⟩

theorem ag_ok : (initBy NavObj.new (.inl agArgs)).2 = .ok () := rfl

/-- C197: the second call fails, with the same arguments -/
example : (initBy (NavObj.run (initBy NavObj.new (.inl agArgs)).1 [.use [.getState 2 0, .getSuccs 0]]) (.inl agArgs)).2 ≠ .ok () := nav_never_again ag_ok
example : (initBy (NavObj.run (initBy NavObj.new (.inl agArgs)).1 [.use [.getState 2 0, .getSuccs 0]]) (.inl agArgs)).2 = .error .stateId := by decide +kernel

/-- C197: a call with a start outside the map, then parameters, a missing file, and the corrected call -/
theorem ag_early : Early ([] ++ [NavObj.Op.initArgs agBad] ++ [.setParam "is16connected" 1] ++ [.initFile none]) ([] ++ [("is16connected", 1)])
    (NavObj.run NavObj.new [.initArgs agBad, .setParam "is16connected" 1, .initFile none]) := by
  have h0 := Early.args (a := agBad) (e := .start) .nil rfl
  have h1 := Early.param "is16connected" 1 h0
  exact Early.file (t := none) (e := .noFile) h1 rfl

example : (initArgs (NavObj.run NavObj.new [.initArgs agBad, .setParam "is16connected" 1, .initFile none]) agArgs).2 = .ok () ∧
    ∃ st, Nav2D.init 3 2 (fun _ => 0) (0, 0) (0, 1) 1 16 = .ok st ∧
      (initArgs (NavObj.run NavObj.new [.initArgs agBad, .setParam "is16connected" 1, .initFile none]) agArgs).1.env = some ⟨st, 3, 2⟩ := by
  obtain ⟨h1, h2⟩ := nav_retry_args ag_early agArgs
  have i : InMap agArgs.W agArgs.H agArgs.start.1 agArgs.start.2 := by unfold InMap agArgs; decide
  refine ⟨h1.mpr i, ?_⟩
  have d : dirsAfter ([] ++ [("is16connected", (1 : Int))]) = 16 := by decide +kernel
  rw [d] at h2
  exact h2 i

/-- C198: a free 3 x 2 map, the state (2, 0), and a rejected call with a 9 x 9 map: GetSuccs reads outside the array -/
theorem resize_witness : ∃ m m' : NavMem, (NavObj.step (initBy NavObj.new (.inl agArgs)).1 (.use [.getState 2 0])).env = some m ∧
    (initArgs (NavObj.step (initBy NavObj.new (.inl agArgs)).1 (.use [.getState 2 0])) agBad).1.env = some m' ∧
    (initArgs (NavObj.step (initBy NavObj.new (.inl agArgs)).1 (.use [.getState 2 0])) agBad).2 = .error .start ∧
    (∃ r, m.getSuccs 2 = .ok r) ∧ m.nav.getCoord 2 = .ok (2, 0) ∧ m'.getSuccs 2 = .error .oob := by
  have hs : ¬ InMap agBad.W agBad.H agBad.start.1 agBad.start.2 := by unfold InMap agBad; decide
  obtain ⟨m, he, hd⟩ : ∃ m, (NavObj.step (initBy NavObj.new (.inl agArgs)).1 (.use [.getState 2 0])).env = some m ∧
      (m.nav.cfg.W = 3 ∧ m.nav.cfg.H = 2 ∧ m.nav.getCoord 2 = .ok (2, 0) ∧ m.nav.goalId = 1) ∧ ∃ r, m.getSuccs 2 = .ok r := by
    refine ⟨_, rfl, ⟨rfl, rfl, by rfl, by rfl⟩, ?_⟩
    exact ⟨_, by rfl⟩
  obtain ⟨⟨d1, d2, d3, d4⟩, d5⟩ := hd
  obtain ⟨e1, m', e2, -⟩ := nav_rejected ag_ok he hs
  refine ⟨m, m', he, e2, e1, d5, d3, ?_⟩
  refine nav_rejected_oob (ops := []) (y := 0) rfl ag_ok he hs e2 (by rw [d4]; decide) (by rw [d3, d1]; rfl) (by rw [d1, d2]; unfold InMap; decide) (by rw [d1]; decide) (by decide)

/-- C199: a map with a changed cell and a moved start is re-created -/
example : ∃ st st2, Hist 3 2 (fun _ => 0) (0, 0) (0, 1) 5 false [.updateCost 1 0 3, .setStart 2 0] st ∧
    Nav2D.init st.getParms.W st.getParms.H st.getParms.map st.getParms.start st.getParms.goal st.getParms.obs (dirsOf false) = .ok st2 ∧
    st.getParms.start = (2, 0) ∧ st2.getCoord st2.startId = .ok (2, 0) := by
  obtain ⟨st, h, e1, e2, e3⟩ : ∃ st, Hist 3 2 (fun _ => 0) (0, 0) (0, 1) 5 false [.updateCost 1 0 3, .setStart 2 0] st ∧ st.getParms.start = (2, 0) ∧
      st.getCoord st.startId = .ok (2, 0) ∧ st.getCoord st.goalId = .ok (0, 1) :=
    ⟨_, ⟨_, rfl, rfl⟩, rfl, by rfl, by rfl⟩
  obtain ⟨st2, h1, h2, -⟩ := nav_copy h
  exact ⟨st, st2, h, h1, e1, (h2 e2 e3).1⟩

end Sbpl.Nav2DProps
