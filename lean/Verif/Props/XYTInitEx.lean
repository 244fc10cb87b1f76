import Verif.Props.XYTInit
import Verif.Props.XYTFileEx
/-!
# Parameters and copies of environments: concrete cases
-/

namespace Sbpl.XInitProps
open Sbpl XSpec XEnv XInit XFileProps

/-- parameters: the last accepted value counts; -1, which the constructor uses, cannot be set -/
example : lastValue "cost_inscribed_thresh" 254 [("cost_inscribed_thresh", 100), ("cost_obsthresh", 7), ("cost_inscribed_thresh", 300)] = 100 ∧
    getParam (setAll params0 [("cost_inscribed_thresh", 100), ("cost_obsthresh", 7), ("cost_inscribed_thresh", 300)]) "cost_inscribed_thresh" = some 100 ∧
    setParam params0 "cost_possibly_circumscribed_thresh" (-1) = (params0, false) ∧ setParam params0 "obsthresh" 1 = (params0, false) ∧
    (setParam params0 "cost_obsthresh" 255).2 = true := by decide +kernel

/-- `get_last` is not vacuous -/
example : ("cost_possibly_circumscribed_thresh", (-1 : Int)) ∈ Known ∧ ∀ d, ("is16connected", d) ∉ Known := by
  constructor
  · decide
  · intro d h
    simp [Known] at h

/-- a map is 16-connected after a request for it -/
example : [("is16connected", (0 : Int)), ("is16connected", 1), ("x", 0)].foldl (fun p nv => (Nav2DInit.setParam p nv.1 nv.2).1) (8, false) = (16, false) := by decide +kernel

/-- the hypotheses of `copy` are met by the environment of the files of Props/XYTFileEx after its map was changed and its start moved; the copy has the changed cell and the new start -/
example : ∃ s st p' st' s', Hist s [.updateCost 1 0 5, .setStart (3 / 4) (1 / 4) 0] st ∧
    initArgs pointFoot false p' (getParms st 1 2) (textOf exPrim) = .ok st' ∧ Hist s' [] st'.2 ∧ s'.start = (1, 0, 0) ∧ costs s' [] 1 0 = 5 ∧ costs s' [] 0 0 = 3 := by
  obtain ⟨⟨rest, hq⟩, stx, s, hx, hH, D, -, -⟩ := ex_files
  have hT : s.T = 2 := by have := D.T_eq; omega
  have hW : s.W = 2 := D.W_eq
  have hHt : s.H = 1 := D.H_eq
  have hcs : s.cs = 1 / 2 := D.cs_eq
  have callok : ∀ op ∈ [Op.updateCost 1 0 5, .setStart (3 / 4) (1 / 4) 0], CallOk s op := by
    intro op ho
    simp only [List.mem_cons, List.not_mem_nil, or_false] at ho
    rcases ho with rfl | rfl
    · trivial
    · show Utils.contTheta2Disc 0 s.T < s.T
      rw [hT]; decide +kernel
  obtain ⟨iv, -, -, -⟩ := hist_inv hH
  obtain ⟨st1, h1⟩ : ∃ st1, stx.step (.updateCost 1 0 5) = some st1 := by
    obtain ⟨z, e⟩ : ∃ z, stx.updateCost 1 0 5 = .ok z := by
      unfold updateCost
      rw [if_pos (by rw [XCfg.within_iff, iv.stc.W, iv.stc.H, hW, hHt]; decide)]
      exact ⟨_, rfl⟩
    unfold step
    simp only [e]
    exact ⟨_, rfl⟩
  have H1 : Hist s ([] ++ [.updateCost 1 0 5]) st1 := hist_append hH (fun op ho => callok op (by simp only [List.mem_singleton] at ho; simp [ho])) (by unfold run; rw [h1]; rfl)
  obtain ⟨iv1, -, -, -⟩ := hist_inv H1
  obtain ⟨st, h2⟩ : ∃ st, st1.step (.setStart (3 / 4) (1 / 4) 0) = some st := by
    have hr : st1.cfg.inRange (Utils.contXY2Disc (3 / 4) st1.cfg.cs, Utils.contXY2Disc (1 / 4) st1.cfg.cs, Utils.contTheta2Disc 0 st1.cfg.T) = true := by
      rw [XCfg.inRange_iff, iv1.stc.cs, iv1.stc.T, iv1.stc.W, iv1.stc.H, hW, hHt, hcs, hT]
      decide +kernel
    obtain ⟨st2, i, e, -⟩ := XFileProps.getState_ok hr
    obtain ⟨z, e'⟩ : ∃ z, st1.setStart (3 / 4) (1 / 4) 0 = .ok z := by
      unfold setStart
      simp only
      rw [if_neg (by rw [XCfg.inRange_iff] at hr; rw [Bool.not_eq_false, XCfg.within_iff]; exact hr.1), e]
      exact ⟨_, rfl⟩
    unfold step
    simp only [e']
    exact ⟨_, rfl⟩
  have H2 : Hist s [.updateCost 1 0 5, .setStart (3 / 4) (1 / 4) 0] st :=
    hist_append (ops := [] ++ [.updateCost 1 0 5]) (ops' := [.setStart (3 / 4) (1 / 4) 0]) H1 (fun op ho => callok op (by simp only [List.mem_singleton] at ho; simp [ho])) (by unfold run; rw [h2]; rfl)
  obtain ⟨-, -, p', st', s', e, hH', cur, -, -, -⟩ := copy (foot := pointFoot) H2 (by rw [hcs]; norm_num) (vel := 1) (tt := 2) (txt := textOf exPrim) (l := exVs) (rest := rest)
    (by rw [hcs, hT]; exact hq) (by unfold exVs; exact List.cons_ne_nil _ _) D.prims_eq (by rw [hcs]; exact D.foot_eq) (by have := D.inscr_eq; omega) (by have := D.circ_eq; omega)
  rw [D.poly_eq] at e
  obtain ⟨-, -, -, -, -, -, -, -, -, -, c1, -, c2⟩ := cur
  refine ⟨s, st, _, _, s', H2, e, hH', ?_, ?_, ?_⟩
  · rw [c1]
    unfold startOf
    simp only [List.foldl_cons, List.foldl_nil, startStep]
    have k : poseKey s (3 / 4) (1 / 4) 0 = (1, 0, 0) := by unfold poseKey; rw [hcs, hT]; decide +kernel
    rw [k, if_pos (by unfold XSpec.InMap; rw [hW, hHt]; decide)]
  · rw [c2 (1, 0) (by unfold XSpec.InMap; rw [hW, hHt]; decide)]
    simp [costs, costStep]
  · rw [c2 (0, 0) (by unfold XSpec.InMap; rw [hW, hHt]; decide)]
    have := D.cell_eq 0 0 (by decide) (by decide) (by decide) (by decide)
    simp only [costs, List.foldl_cons, List.foldl_nil, costStep]
    rw [if_neg (by decide), hW]
    exact this

/-- the conversions on an environment of two headings and two cells of half a metre: the pose of the second cell; a position outside; the one angle whose heading does not exist -/
example : ∃ (s : Setup) (st : XEnv), Static s st.cfg ∧ 0 < s.cs ∧ InRange s (1, 0, 1) ∧ (poseToCont st.cfg 1 0 1).1 = (3 / 4, 1 / 4, Utils.PI_CONST) ∧
    (poseToDisc st.cfg (-1 / 100) 0 0).2 = false ∧ (poseToDisc st.cfg 0 0 (3 / 2 * Utils.PI_CONST)) = ((0, 0, 2), true) := by
  obtain ⟨-, stx, s, -, hH, D, -, -⟩ := ex_files
  obtain ⟨iv, -, -, -⟩ := hist_inv hH
  have hT : s.T = 2 := by have := D.T_eq; omega
  have hW : s.W = 2 := D.W_eq
  have hHt : s.H = 1 := D.H_eq
  have hcs : s.cs = 1 / 2 := D.cs_eq
  refine ⟨s, stx, iv.stc, by rw [hcs]; norm_num, ?_, ?_, ?_, ?_⟩
  · unfold InRange XSpec.InMap; rw [hW, hHt, hT]; decide
  · unfold poseToCont; rw [iv.stc.cs, iv.stc.T, iv.stc.W, iv.stc.H, hcs, hT, hW, hHt]; decide +kernel
  · unfold poseToDisc; rw [iv.stc.cs, iv.stc.T, iv.stc.W, iv.stc.H, hcs, hT, hW, hHt]; decide +kernel
  · unfold poseToDisc; rw [iv.stc.cs, iv.stc.T, iv.stc.W, iv.stc.H, hcs, hT, hW, hHt]; decide +kernel

end Sbpl.XInitProps
