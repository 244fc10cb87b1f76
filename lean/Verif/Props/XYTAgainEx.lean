import Verif.Props.XYTAgain
import Verif.Props.XYTAnglesEx
/-!
# Cases that meet the hypotheses of C190-C195
-/

namespace Sbpl.XAgainProps
open Sbpl Scan FileSpec CfgFileProps CfgFileXProps PrimFileProps XEnv XSpec XAngSpec XInit XInitProps XAngProps XFileProps XYTPrimProps

/-- a map of two cells, the start in the left one (or, if `out`, outside the map), the goal in the right one -/
def exArgs (out : Bool) : XArgs where
  W := 2
  H := 1
  T := 2
  map := fun _ => 3
  startX := if out then -1 else 0
  startY := 0
  startTheta := 0
  goalX := 1 / 2
  goalY := 0
  goalTheta := 0
  cs := 1 / 2
  vel := 1
  tt := 2
  obs := 9

theorem ex_list (out : Bool) : PrimData (exArgs out) (textOf exSetPrim) (exSetVs.map Prod.snd) (some exDirs) := by
  obtain ⟨⟨rest, h⟩, -⟩ := ex_files_set
  exact .list exSetVs rest exDirs h rfl ex_headings

theorem ex_unif (out : Bool) : PrimData (exArgs out) (textOf exPrim) (exVs.map Prod.snd) none := by
  obtain ⟨⟨rest, h⟩, -⟩ := ex_files
  exact .unif exVs rest h rfl

theorem ex_even : Even 2 (starts (exVs.map Prod.snd)) ∧ Even 2 (starts (exSetVs.map Prod.snd)) := ⟨⟨1, by decide, by decide⟩, ⟨1, by decide, by decide⟩⟩

theorem ex_has (out : Bool) (d : Option (List ℚ)) : HasHeading (exArgs out).T (exArgs out).startTheta d ∧ HasHeading (exArgs out).T (exArgs out).goalTheta d := by
  have : (0 : ℚ) ≠ 2 * Utils.PI_CONST - 2 * Utils.PI_CONST / ((2 : ℕ) : ℚ) / 2 := by unfold Utils.PI_CONST; norm_num
  exact ⟨fun _ => this, fun _ => this⟩

theorem ex_cells : GridSpec.InMap (exArgs false).W (exArgs false).H (startCell (exArgs false)).1 (startCell (exArgs false)).2 ∧
    GridSpec.InMap (exArgs false).W (exArgs false).H (goalCell (exArgs false)).1 (goalCell (exArgs false)).2 ∧
    ¬ GridSpec.InMap (exArgs true).W (exArgs true).H (startCell (exArgs true)).1 (startCell (exArgs true)).2 := by
  unfold GridSpec.InMap
  decide +kernel

section
variable (foot : ℚ → ℚ × ℚ × ℚ → List (Int × Int)) (poly : Bool)

/-- both files are accepted by a new object -/
theorem ex_new : (XObj.initEnv foot poly XObj.new (exArgs false) (textOf exPrim)).2 = .ok () ∧ (XObj.initEnv foot poly XObj.new (exArgs false) (textOf exSetPrim)).2 = .ok () := by
  constructor
  · exact (accepted_iff (o := XObj.new) (ex_unif false) (fun c => by cases c) ⟨by decide, by decide⟩ (ex_has false none).1 (ex_has false none).2 (fun p hp => by cases hp) (by decide) rfl).mpr
      ⟨ex_cells.1, ex_cells.2.1, ex_even.1⟩
  · exact (accepted_iff (o := XObj.new) (ex_list false) (fun c => by simp) ⟨by decide, by decide⟩ (ex_has false _).1 (ex_has false _).2 (fun p hp => by cases hp) (by decide) rfl).mpr
      ⟨ex_cells.1, ex_cells.2.1, ex_even.2⟩

/-- a start outside the map is rejected -/
theorem ex_out : (XObj.initEnv foot poly XObj.new (exArgs true) (textOf exPrim)).2 ≠ .ok () ∧ (XObj.initEnv foot poly XObj.new (exArgs true) (textOf exSetPrim)).2 ≠ .ok () := by
  constructor
  · intro h
    exact ex_cells.2.2 ((accepted_iff (o := XObj.new) (ex_unif true) (fun c => by cases c) ⟨by decide, by decide⟩ (ex_has true none).1 (ex_has true none).2 (fun p hp => by cases hp) (by decide) rfl).mp h).1
  · intro h
    exact ex_cells.2.2 ((accepted_iff (o := XObj.new) (ex_list true) (fun c => by simp) ⟨by decide, by decide⟩ (ex_has true _).1 (ex_has true _).2 (fun p hp => by cases hp) (by decide) rfl).mp h).1

/-- C192: the call is corrected, with the same file and with the other one -/
example : (XObj.initEnv foot poly (XObj.initEnv foot poly XObj.new (exArgs true) (textOf exPrim)).1 (exArgs false) (textOf exPrim)).2 = .ok () ∧
    (XObj.initEnv foot poly (XObj.initEnv foot poly XObj.new (exArgs true) (textOf exPrim)).1 (exArgs false) (textOf exSetPrim)).2 = .ok () := by
  obtain ⟨k1, k2⟩ := keeps (foot := foot) (poly := poly) (o := XObj.new) (ex_unif true) (fun c => by cases c)
  have m := fail_mapped (foot := foot) (poly := poly) (o := XObj.new) rfl (ex_out foot poly).1
  constructor
  · exact ((retry_same (foot := foot) (poly := poly) (calls := []) (ex_unif true) (ex_unif false) ⟨by decide, by decide⟩ rfl (by decide) (ex_has false _).1 (ex_has false _).2)
      (ex_out foot poly).1).1.mpr (ex_new foot poly).1
  · refine (accepted_iff (ex_list false) (fun c => rfl) ⟨by decide, by decide⟩ (ex_has false _).1 (ex_has false _).2 (by rw [k1]; decide) (by rw [k1]; decide) m).mpr
      ⟨ex_cells.1, ex_cells.2.1, ?_⟩
    rw [k1]
    exact ⟨2, by decide, by decide⟩

/-- C194: the file with a list of headings was read by a call that failed; the same call with the other file then fails, although a new object accepts it -/
example : (XObj.initEnv foot poly (XObj.initEnv foot poly XObj.new (exArgs true) (textOf exSetPrim)).1 (exArgs false) (textOf exPrim)).2 = .error .prims :=
  sticky (ops := []) (ex_list true) (ex_unif false)

/-- C195: an object that is initialised -/
example : (XObj.initEnv foot poly (XObj.run foot poly (XObj.initEnv foot poly XObj.new (exArgs false) (textOf exPrim)).1 [.use [.setStart 0 0 0], .initEnv (exArgs false) (textOf exPrim)])
    (exArgs false) (textOf exSetPrim)).2 ≠ .ok () := never_again (ex_new foot poly).1

/-- C190: the hypotheses, and the call succeeds -/
example : PrimsFit (exSetVs.map Prod.snd) ∧ ∃ o', XObj.initEnv foot poly (XObj.run foot poly XObj.new ([("cost_inscribed_thresh", 100)].map (fun c => .setParam c.1 c.2))) (exArgs false) (textOf exSetPrim) = (o', .ok ()) := by
  have fit : PrimsFit (exSetVs.map Prod.snd) := by unfold PrimsFit; decide
  refine ⟨fit, _, Prod.ext rfl ?_⟩
  exact ((list_init (foot := foot) (poly := poly) (calls := [("cost_inscribed_thresh", 100)]) (ex_list false) (by decide) (by decide) fit).1).mpr ⟨ex_cells.1, ex_cells.2.1, ex_even.2⟩

/-- C191: the hypotheses are met by the environment of C190 -/
example : ∃ s st vs rest, HistSet s exDirs [] st ∧ 0 < s.cs ∧ readPrimsSet s.cs s.T (textOf exSetPrim) = .ok (some (exDirs, vs), rest) ∧ vs ≠ [] ∧
    s.prims = (vs.map Prod.snd).map (XPrim.mkPrimSet s.T exDirs 1 2) ∧ s.foot = foot s.cs ∧ s.inscr ≤ 255 ∧ s.circ ≤ 255 := by
  have fit : PrimsFit (exSetVs.map Prod.snd) := by unfold PrimsFit; decide
  obtain ⟨s, st, i, j, e1, e2, D, -, -, e3, e4, e5, -⟩ := (list_init (foot := foot) (poly := false) (calls := []) (ex_list false) (by decide) (by decide) fit).2 _ (Prod.ext rfl (ex_new foot false).2)
  obtain ⟨⟨rest, h⟩, -⟩ := ex_files_set
  have hT : s.T = 2 := D.T
  have hc : s.cs = 1 / 2 := D.cs
  refine ⟨s, st, exSetVs, rest, e2, by rw [hc]; norm_num, by rw [hc, hT]; exact h, by decide, by rw [e3, hT]; rfl, by rw [D.foot, hc]; rfl, ?_, ?_⟩
  · have : (s.inscr : Int) = 254 := e4
    omega
  · have := (e5 255).mpr (by decide)
    omega

/-- C193: the second primitive says that it ends with heading 1 -/
def exBadP : PrimText := ⟨['1'], ['1'], ['0'], ['0'], ['1'], ['1'], ['2'], [(['0'], ['0'], ['3']), (['0'], ['0'], ['0'])]⟩

def exBadFile : List Word := primFile ['0', '.', '5'] ['2'] ['2'] ((exPs.take 1).flatMap PrimText.words ++ (exBadP.words ++ []))

/-- C193: the file is rejected; the corrected file, accepted by a new object, is then rejected for ever -/
example : (XObj.initEnv foot poly XObj.new (exArgs false) (textOf exBadFile)).2 = .error .prims ∧
    (XObj.initEnv foot poly (XObj.run foot poly (XObj.initEnv foot poly XObj.new (exArgs false) (textOf exBadFile)).1
      [.initEnv (exArgs false) (textOf exPrim), .initEnv (exArgs false) (textOf exPrim)]) (exArgs false) (textOf exPrim)).2 ≠ .ok () := by
  have d0 : IsDec ['0'] 0 := by simpa using digit_dec (c := '0') (n := 0) (by unfold Digits; decide) (by decide)
  have d3 : IsDec ['3'] 3 := by simpa using digit_dec (c := '3') (n := 3) (by unfold Digits; decide) (by decide)
  have i0 : IsInt ['0'] 0 := by simpa using digit_int (c := '0') (n := 0) (by unfold Digits; decide) (by decide)
  have i1 : IsInt ['1'] 1 := by simpa using digit_int (c := '1') (n := 1) (by unfold Digits; decide) (by decide)
  have i2 : IsInt ['2'] 2 := by simpa using digit_int (c := '2') (n := 2) (by unfold Digits; decide) (by decide)
  have L : Layout exBadFile (textOf exBadFile) := layout_join (by decide +kernel)
  have good : Good 2 (exArgs false, textOf exPrim) := ⟨rfl, _, _, ex_unif false, ex_even.1⟩
  have hp : List.Forall₂ (fun (p : PrimText) (v : Int × RawPrim) => Denotes 2 p v.1 v.2 ∧ XPrim.checkEnd (1 / 2) 2 v.2 = .ok true) (exPs.take 1) [(0, ⟨0, 1, 0, 0, 1, [(0, 0, 0), (1 / 2, 0, 0)]⟩)] := by
    refine .cons ⟨⟨i0, by unfold IntRange; decide, i0, by unfold IntRange; decide, i1, by unfold IntRange; decide, i0, by unfold IntRange; decide,
      ⟨0, i0, by unfold IntRange; decide, by decide⟩, i1, by decide, i2, by decide,
      .cons ⟨d0, d0, ⟨0, d0, by decide +kernel⟩, by decide, by decide, by decide⟩
        (.cons ⟨half_dec, d0, ⟨0, d0, by decide +kernel⟩, by decide, by decide, by decide⟩ .nil), by decide, by decide, by decide⟩, by decide +kernel⟩ .nil
  have D : Denotes 2 exBadP 1 ⟨1, 0, 0, 1, 1, [(0, 0, 3), (0, 0, 0)]⟩ :=
    ⟨i1, by unfold IntRange; decide, i1, by unfold IntRange; decide, i0, by unfold IntRange; decide, i0, by unfold IntRange; decide,
      ⟨1, i1, by unfold IntRange; decide, by decide⟩, i1, by decide, i2, by decide,
      .cons ⟨d0, d0, ⟨3, d3, by decide +kernel⟩, by decide, by decide, by decide⟩
        (.cons ⟨d0, d0, ⟨0, d0, by decide +kernel⟩, by decide, by decide, by decide⟩ .nil), by decide, by decide, by decide⟩
  have h := bad_file_stays (foot := foot) (poly := poly) (a := exArgs false) (T := 2) (cw := ['0', '.', '5']) (tw := ['2']) (nw := ['2']) (f := 1 / 2) (ps := exPs.take 1) (vs := [(0, ⟨0, 1, 0, 0, 1, [(0, 0, 0), (1 / 2, 0, 0)]⟩)]) (p := exBadP) (id := 1)
    (r := ⟨1, 0, 0, 1, 1, [(0, 0, 3), (0, 0, 0)]⟩) (more := []) (n := 2) (calls := []) (tries := [(exArgs false, textOf exPrim), (exArgs false, textOf exPrim)]) L half_dec (by show |(1 / 2 : ℚ) - 1 / 2| ≤ _; norm_num) rfl
    i2 ⟨by decide, by decide⟩ i2 (by decide) (by decide) hp D (by decide +kernel) (by rintro ⟨k, h1, h2⟩; simp [starts] at h1; omega) (by
      intro x hx
      simp only [List.mem_cons, List.not_mem_nil, or_false, or_self] at hx
      rw [hx]
      exact good) good
  simp only [List.map_nil] at h
  rw [show XObj.run foot poly XObj.new [] = XObj.new from rfl] at h
  simp only [List.map_cons, List.map_nil] at h
  exact h

/-- C190, C192, later calls: the hypotheses hold for both files with a new map set after initialisation, and the object stays initialised; also with the headings looked up -/
example (m : Int → Nat) : PrimsFit (XObj.new.mprims ++ exSetVs.map Prod.snd) ∧ PrimsFit (XObj.new.mprims ++ exVs.map Prod.snd) ∧
    envCalls [.setParam "cost_inscribed_thresh" 100, .use [.setMap m], .use [.getState (1, 0, 1)]] = [XEnv.Op.setMap m, .getState (1, 0, 1)] ∧
    (∃ o' st', XObj.initEnv foot poly XObj.new (exArgs false) (textOf exSetPrim) = (o', .ok ()) ∧
      (XObj.run foot poly o' [.setParam "cost_inscribed_thresh" 100, .use [.setMap m]]).env = some (st', exDirs)) ∧
    ∃ o' st', XObj.initEnv foot poly XObj.new (exArgs false) (textOf exPrim) = (o', .ok ()) ∧
      (XObj.run foot poly o' [.setParam "cost_inscribed_thresh" 100, .use [.setMap m]]).env = some (st', []) := by
  refine ⟨by unfold PrimsFit; decide, by unfold PrimsFit; decide, rfl, ?_, ?_⟩
  · obtain ⟨s, st, i, j, e1, -, -, -, -, -, -⟩ := accepted_made (foot := foot) (poly := poly) (o := XObj.new) (ex_list false) (fun c => by cases c) (by decide) (ex_has false _).1 (ex_has false _).2 (by decide)
      (Prod.ext rfl (ex_new foot poly).2)
    obtain ⟨r, _, _, _, _, hr, -, -, -, -, -, -, -, hs, -⟩ := made (o := XObj.new) (foot := foot) (poly := poly) (Prod.ext rfl (ex_new foot poly).2)
    rw [text_into (o := XObj.new) (ex_list false) (fun c => by cases c)] at hr
    cases hr
    refine ⟨_, st.setMap m, Prod.ext rfl (ex_new foot poly).2, ?_⟩
    simp only [XObj.run, List.foldl, XObj.step, e1, hs, Option.isSome, if_true, XEnv.runSet, XEnv.stepSet, XEnv.step]
    rfl
  · obtain ⟨s, st, i, j, e1, -, -, -, -, -, -⟩ := accepted_made (foot := foot) (poly := poly) (o := XObj.new) (ex_unif false) (fun c => by cases c) (by decide) (ex_has false _).1 (ex_has false _).2 (by decide)
      (Prod.ext rfl (ex_new foot poly).1)
    obtain ⟨r, _, _, _, _, hr, -, -, -, -, -, -, -, hs, -⟩ := made (o := XObj.new) (foot := foot) (poly := poly) (Prod.ext rfl (ex_new foot poly).1)
    rw [text_into (o := XObj.new) (ex_unif false) (fun c => by cases c)] at hr
    cases hr
    refine ⟨_, st.setMap m, Prod.ext rfl (ex_new foot poly).1, ?_⟩
    simp only [XObj.run, List.foldl, XObj.step, e1, hs, Option.isSome, Bool.false_eq_true, if_false, XEnv.run, XEnv.step]
    rfl

end
end Sbpl.XAgainProps
