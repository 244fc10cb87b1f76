import Verif.Props.XYTAnglesInit
import Verif.Props.XYTFileEx
import Verif.Props.MLevEx
/-!
# Lattices with a list of headings: concrete cases, and the configurations of the lattice with additional levels
-/

namespace Sbpl.XAngProps
open Sbpl Scan FileSpec CfgFileProps CfgFileXProps PrimFileProps XSpec XEnv XAngSpec XYTPrimProps XFileProps

/-! ### a file with the angles 0 and 1 -/

/-- two headings: 0 and 1 (rad) -/
def exDirs : List ℚ := [0, 1] ++ [2 * Utils.PI_CONST]

theorem ex_headings : HeadingSet 2 exDirs := by
  refine headings_of_file (as := [0, 1]) rfl ?_ ?_
  · rw [List.pairwise_cons]; simp
  · intro a ha
    simp only [List.mem_cons, List.not_mem_nil, or_false] at ha
    rcases ha with rfl | rfl <;> · unfold Utils.PI_CONST; norm_num

/-- one cell forward with heading 0; a turn from heading 1 to heading 0 -/
def exSetPs : List PrimSetText := [⟨⟨['0'], ['0'], ['1'], ['0'], ['0'], ['1'], ['2'], [(['0'], ['0'], ['0']), (['0', '.', '5'], ['0'], ['0'])]⟩, ['9']⟩,
  ⟨⟨['1'], ['1'], ['0'], ['0'], ['0'], ['1'], ['2'], [(['0'], ['0'], ['1']), (['0'], ['0'], ['0'])]⟩, ['9']⟩]

def exSetVs : List (Int × RawPrim) := [(0, ⟨0, 1, 0, 0, 1, [(0, 0, 0), (1 / 2, 0, 0)]⟩), (1, ⟨1, 0, 0, 0, 1, [(0, 0, 1), (0, 0, 0)]⟩)]

/-- the words of the file of primitives -/
def exSetPrim : List Word := primSetFile ['0', '.', '5'] ['9'] ['2'] ['2'] [['0'], ['1']] (exSetPs.flatMap PrimSetText.words ++ [])

/-- the hypotheses of `prims_set_read`, `files_to_plan_set` and `files_accepted_iff_set` are met; the environment is created, and its goal is then moved to a state with heading 1 -/
theorem ex_files_set : (∃ rest, readPrimsSet (1 / 2) 2 (textOf exSetPrim) = .ok (some (exDirs, exSetVs), rest)) ∧
    ∃ stx s, XInit.initSet pointFoot false (textOf exMap) (textOf exSetPrim) = .ok (stx, exDirs) ∧ HistSet s exDirs [] stx ∧ PrimsFit (exSetVs.map Prod.snd) ∧
    (∀ v ∈ exSetVs, RawExact (1 / 2) v.2 ∧ 1 ≤ v.2.mult) ∧ s.T = 2 ∧
    ∃ st' j, stx.setGoalSet exDirs 0 0 (6 / 5) = .ok (st', some j) ∧ st'.goalId = j ∧ st'.getCoord j = .ok (0, 0, 1) ∧ HistSet s exDirs [.setGoal 0 0 (6 / 5)] st' := by
  have d0 : IsDec ['0'] 0 := by simpa using digit_dec (c := '0') (n := 0) (by unfold Digits; decide) (by decide)
  have d1 : IsDec ['1'] 1 := by simpa using digit_dec (c := '1') (n := 1) (by unfold Digits; decide) (by decide)
  have d2 : IsDec ['2'] 2 := by simpa using digit_dec (c := '2') (n := 2) (by unfold Digits; decide) (by decide)
  have d9 : IsDec ['9'] 9 := by simpa using digit_dec (c := '9') (n := 9) (by unfold Digits; decide) (by decide)
  have i0 : IsInt ['0'] 0 := by simpa using digit_int (c := '0') (n := 0) (by unfold Digits; decide) (by decide)
  have i1 : IsInt ['1'] 1 := by simpa using digit_int (c := '1') (n := 1) (by unfold Digits; decide) (by decide)
  have i2 : IsInt ['2'] 2 := by simpa using digit_int (c := '2') (n := 2) (by unfold Digits; decide) (by decide)
  have i3 : IsInt ['3'] 3 := by simpa using digit_int (c := '3') (n := 3) (by unfold Digits; decide) (by decide)
  have i7 : IsInt ['7'] 7 := by simpa using digit_int (c := '7') (n := 7) (by unfold Digits; decide) (by decide)
  have i8 : IsInt ['8'] 8 := by simpa using digit_int (c := '8') (n := 8) (by unfold Digits; decide) (by decide)
  have i9 : IsInt ['9'] 9 := by simpa using digit_int (c := '9') (n := 9) (by unfold Digits; decide) (by decide)
  have f1 : ⌊(1 / 2 / (1 / 2) : ℚ)⌋ = 1 := by norm_num
  have f0 : ⌊((0 : ℚ) / (1 / 2) : ℚ)⌋ = 0 := by norm_num
  have N : XNumbers ['2'] ['1'] ["NumThetaDirs:".toList, ['2']] ['9'] ['8'] ['7'] ['0', '.', '5'] ['1'] ['2'] ['a'] ['0'] ['0'] ['0'] ['b'] ['0', '.', '5'] ['0'] ['0'] ['c']
      2 1 ((2 : Nat) : Int) 9 8 7 (1 / 2) 1 2 0 0 0 (1 / 2) 0 0 :=
    ⟨by decide, i2, i1, by decide, by decide, .given i2 (by unfold IntRange; decide) (by decide), i9, by unfold IntRange; decide, i8, by unfold IntRange; decide, i7,
      by unfold IntRange; decide, half_dec, by norm_num, d1, d2, d0, d0, d0, half_dec, d0, d0, by norm_num, by norm_num, by norm_num, by norm_num⟩
  have L : Layout exMap (textOf exMap) := layout_join (by decide +kernel)
  have Lp : Layout exSetPrim (textOf exSetPrim) := layout_join (by decide +kernel)
  have hp : List.Forall₂ (fun (p : PrimSetText) (v : Int × RawPrim) => DenotesSet 2 p v.1 v.2 ∧ XPrim.checkEndSet (1 / 2) 2 exDirs v.2 = .ok true) exSetPs exSetVs := by
    refine .cons ⟨⟨i0, by unfold IntRange; decide, i0, by unfold IntRange; decide, i1, by unfold IntRange; decide, i0, by unfold IntRange; decide,
      ⟨0, i0, by unfold IntRange; decide, by decide⟩, i1, by decide, ⟨9, d9⟩, i2, by decide,
      .cons ⟨d0, d0, ⟨0, d0, by decide +kernel⟩, by decide, by decide, by decide⟩
        (.cons ⟨half_dec, d0, ⟨0, d0, by decide +kernel⟩, by decide, by decide, by decide⟩ .nil), by decide, by decide, by decide⟩, by decide +kernel⟩
      (.cons ⟨⟨i1, by unfold IntRange; decide, i1, by unfold IntRange; decide, i0, by unfold IntRange; decide, i0, by unfold IntRange; decide,
      ⟨0, i0, by unfold IntRange; decide, by decide⟩, i1, by decide, ⟨9, d9⟩, i2, by decide,
      .cons ⟨d0, d0, ⟨1, d1, by decide +kernel⟩, by decide, by decide, by decide⟩
        (.cons ⟨d0, d0, ⟨0, d0, by decide +kernel⟩, by decide, by decide, by decide⟩ .nil), by decide, by decide, by decide⟩, by decide +kernel⟩ .nil)
  have hs : GridSpec.InMap (2 : Nat) (1 : Nat) ⌊(0 : ℚ) / (1 / 2)⌋ ⌊(0 : ℚ) / (1 / 2)⌋ := by rw [f0]; unfold GridSpec.InMap; decide
  have he : GridSpec.InMap (2 : Nat) (1 : Nat) ⌊(1 / 2 : ℚ) / (1 / 2)⌋ ⌊(0 : ℚ) / (1 / 2)⌋ := by rw [f0, f1]; unfold GridSpec.InMap; decide
  have fit : PrimsFit (exSetVs.map Prod.snd) := by unfold PrimsFit; decide
  have hcell : ∀ x y : Nat, x < 2 → y < 1 → IsInt ['3'] (((fun _ _ => 3 : Int → Int → Nat) x y : Nat) : Int) ∧ (fun _ _ => 3 : Int → Int → Nat) x y < 256 :=
    fun _ _ _ _ => ⟨i3, (by decide : (3 : Nat) < 256)⟩
  have ev : Even 2 (exSetVs.map (fun v => v.2.startTheta)) := ⟨1, by decide, by decide⟩
  have as : List.Forall₂ IsDec [['0'], ['1']] [(0 : ℚ), 1] := .cons d0 (.cons d1 .nil)
  obtain ⟨⟨stx, dirs⟩, hx⟩ := (files_accepted_iff_set (foot := pointFoot) (poly := false) (T := 2) (val := fun _ _ => 3) (ps := exSetPs) (vs := exSetVs) L N hs he hcell (by decide) (by decide)
    (by decide) Lp half_dec (by norm_num) d9 i2 as rfl ex_headings i2 (by decide) hp).mpr ev
  obtain ⟨rfl, s, i, j, h1, h2, h3, h4, -⟩ := files_to_plan_set (foot := pointFoot) (poly := false) (T := 2) (val := fun _ _ => 3) (ps := exSetPs) (vs := exSetVs) L N hs he hcell (by decide)
    (by decide) (by decide) Lp half_dec (by norm_num) d9 i2 as rfl ex_headings i2 (by decide) hp fit hx
  obtain ⟨rest', q, _⟩ := prims_set_read (T := 2) (cs := 1 / 2) Lp half_dec (by norm_num) d9 i2 (by decide) as rfl i2 (by decide) hp
  have sT : s.T = 2 := by have := h3.T_eq; omega
  have scs : s.cs = 1 / 2 := h3.cs_eq
  have z : Utils.contXY2Disc 0 (1 / 2) = 0 := by decide +kernel
  obtain ⟨st', r, g1, g2, -, -, g5, g6⟩ := set_goal_angles (x := 0) (y := 0) (th := 6 / 5) h4
  rw [scs, z] at g2 g5
  rcases r with _ | r
  · exfalso
    refine g2.mp rfl ⟨by simp, ?_, by simp, ?_⟩
    · rw [h3.W_eq]; simp
    · rw [h3.H_eq]; simp
  obtain ⟨g7, k, g8, g9⟩ := g5 r rfl
  have hk : XPrim.contTheta2DiscSet 2 exDirs (6 / 5) = .ok 1 := by decide +kernel
  refine ⟨⟨rest', q⟩, stx, s, hx, h4, fit, ?_, sT, st', r, g1, g7, ?_, g6⟩
  · intro v hv
    simp only [exSetVs, List.mem_cons, List.not_mem_nil, or_false] at hv
    rcases hv with rfl | rfl
    · exact ⟨⟨⟨0, rfl⟩, ⟨0, by norm_num⟩⟩, by decide⟩
    · exact ⟨⟨⟨1, rfl⟩, ⟨0, by norm_num⟩⟩, by decide⟩
  · rw [g9]
    have : k = 1 := by
      obtain ⟨kl, a, d, ka, kd, kmin⟩ := g8
      rw [sT] at kl
      by_contra hne
      have k0 : k = 0 := by omega
      subst k0
      cases ka
      -- heading 1 is at distance 1/5, heading 0 is not
      have r1 : Rotation (6 / 5) 1 (1 / 5) := by
        refine ⟨⟨0, by norm_num [abs_of_pos]⟩, ?_⟩
        intro n
        rcases lt_trichotomy n 0 with hn | hn | hn
        · have : (n : ℚ) ≤ -1 := by exact_mod_cast (by omega : n ≤ -1)
          refine le_trans ?_ (neg_le_abs _)
          unfold Utils.PI_CONST; linarith
        · subst hn; norm_num [abs_of_pos]
        · have : (1 : ℚ) ≤ n := by exact_mod_cast (by omega : 1 ≤ n)
          refine le_trans ?_ (le_abs_self _)
          unfold Utils.PI_CONST; linarith
      have hd := kmin 1 1 (1 / 5) rfl r1
      obtain ⟨⟨n, hn⟩, -⟩ := kd
      rw [hn] at hd
      rw [abs_le] at hd
      rcases lt_trichotomy n 0 with hn | hn | hn
      · have : (n : ℚ) ≤ -1 := by exact_mod_cast (by omega : n ≤ -1)
        unfold Utils.PI_CONST at hd; linarith
      · subst hn; norm_num at hd
      · have : (1 : ℚ) ≤ n := by exact_mod_cast (by omega : 1 ≤ n)
        unfold Utils.PI_CONST at hd; linarith
    rw [this]; rfl

/-! ### files that are rejected or should be -/

/-- the value, if any -/
def okA {α : Type} : Except XErr α → Option α
  | .ok a => some a
  | .error _ => none

/-- a file with three angles and one primitive, whose last pose has the angle 1 -/
def exBad (angles endHeading : String) : Text := ("resolution_m: 0.5 min_turning_radius_m: 0.1 numberofangles: 3 " ++ angles ++ " totalnumberofprimitives: 1 primID: 0 startangle_c: 0 endpose_c: 1 0 " ++
  endHeading ++ " additionalactioncostmult: 2 turning_radius: 0 intermediateposes: 2 0.0 0.0 0.0 0.5 0.0 1.0").toList

/-- angles and primitives read; `none` inside if the file is rejected -/
def setView : Except FileErr (Option (List ℚ × List (Int × RawPrim)) × Text) → Option (Option (List ℚ × List (Int × RawPrim)))
  | .ok r => some r.1
  | _ => none

/-- C186b: a wrong heading at the end is rejected, the right one is accepted -/
example : setView (readPrimsSet (1 / 2) 3 (exBad "angle:0 0 angle:1 1 angle:2 3" "2")) = some none ∧
    setView (readPrimsSet (1 / 2) 3 (exBad "angle:0 0 angle:1 1 angle:2 3" "1")) =
      some (some ([0, 1, 3, 2 * Utils.PI_CONST], [(0, ⟨0, 1, 0, 1, 2, [(0, 0, 0), (1 / 2, 0, 1)]⟩)])) := by decide +kernel

/-- **C186d** (violated: a file that is accepted gives every primitive the heading nearest to its last angle) The angles of the list are not checked to be increasing: the list 0, 3, 1 is accepted; then
the angle 1, which is that of heading 2, is converted to heading 0, and the primitive that ends with this angle is accepted with heading 0 and rejected with heading 2. -/
theorem angles_unchecked :
    setView (readPrimsSet (1 / 2) 3 (exBad "angle:0 0 angle:1 3 angle:2 1" "0")) =
      some (some ([0, 3, 1, 2 * Utils.PI_CONST], [(0, ⟨0, 1, 0, 0, 2, [(0, 0, 0), (1 / 2, 0, 1)]⟩)])) ∧
    setView (readPrimsSet (1 / 2) 3 (exBad "angle:0 0 angle:1 3 angle:2 1" "2")) = some none ∧
    okA (XPrim.discTheta2ContSet 3 [0, 3, 1, 2 * Utils.PI_CONST] 2) = some 1 ∧ okA (XPrim.contTheta2DiscSet 3 [0, 3, 1, 2 * Utils.PI_CONST] 1) = some 0 := by decide +kernel

/-! ### C189: configurations of the lattice with additional levels -/

section
open MEnv MLevProps XYTProps
variable {s : Setup} {ops : List MOp} {st : MEnv} {dirs : List ℚ}

/-- the cells covered are free map cells -/
def CellsFree (s : Setup) (g : Int → Int → Nat) (cells : List (Int × Int)) : Prop := ∀ r ∈ cells, XSpec.InMap s r ∧ g r.1 r.2 < s.obs

/-- **C189a** IsValidConfiguration of the lattice with additional levels and a list of headings: the base level is checked with the angle that the list gives to the heading, but every additional
level with the angle the heading would have if the headings were uniform. -/
theorem config_angles (h : MHist s ops st) (H : HeadingSet s.T dirs) {i : Nat} (hi : i < s.T) (x y : Int) :
    ∃ a, dirs[i]? = some a ∧ (st.isValidConfigSet dirs s.foot x y i = true ↔
      CellsFree s (costs s (baseCalls ops)) (s.foot (Utils.discXY2Cont x s.cs, Utils.discXY2Cont y s.cs, a)) ∧
      ∀ l ∈ levelsOf s ops, CellsFree s l.2 (l.1.foot (Utils.discXY2Cont x s.cs, Utils.discXY2Cont y s.cs, i * (2 * Utils.PI_CONST / s.T)))) := by
  obtain ⟨-, ha⟩ := angle_defined H hi
  refine ⟨_, ha, ?_⟩
  have inv := (mhist_inv h).1
  have eT : st.env.cfg.T = s.T := inv.env.stc.T
  have e2 : ∀ b c : Bool, (if b = false then false else c) = true ↔ b = true ∧ c = true := by decide
  have k1 := config_exact h (XPrim.angleOf s.T dirs) x y i
  have k2 := config_exact h (fun t => Utils.discTheta2Cont t s.T) x y i
  obtain ⟨_, eg, -, -, -, el⟩ := mhist_inv h
  have key : ∀ (g : Int → Int → Nat) (cells : List (Int × Int)), footFree st.env.cfg g cells = true ↔ CellsFree s g cells := by
    intro g cells
    unfold footFree CellsFree
    rw [List.all_eq_true]
    constructor
    · intro h r hr
      have := h r hr
      rw [Bool.and_eq_true, inv.env.stc.within, decide_eq_true_iff, inv.env.stc.obs] at this
      exact this
    · intro h r hr
      rw [Bool.and_eq_true, inv.env.stc.within, decide_eq_true_iff, inv.env.stc.obs]
      exact h r hr
  have d : Utils.discTheta2Cont (i : Int) s.T = (i : ℚ) * (2 * Utils.PI_CONST / s.T) := by simp [Utils.discTheta2Cont]
  unfold isValidConfigSet XEnv.isValidConfig
  rw [eT, inv.env.stc.cs]
  dsimp only
  rw [e2, key, eg, d, List.all_eq_true]
  refine and_congr_right (fun _ => ?_)
  rw [← el]
  constructor
  · intro h2 l hl
    obtain ⟨l', hl', rfl⟩ := List.mem_map.mp hl
    exact (key _ _).mp (h2 l' hl')
  · intro hh l hl
    exact (key _ _).mpr (hh (lvl l) (List.mem_map.mpr ⟨l, hl, rfl⟩))

/-- **C189b** With a list that contains the uniform headings, the configurations accepted are those where the robot is free at all levels. -/
theorem config_uniform_list (h : MHist s ops st) (H : HeadingSet s.T dirs) (hu : ∀ i < s.T, dirs[i]? = some ((i : ℚ) * (2 * Utils.PI_CONST / s.T))) {i : Nat} (hi : i < s.T) (x y : Int) :
    st.isValidConfigSet dirs s.foot x y i = true ↔
      ∀ f ∈ (s.foot, costs s (baseCalls ops)) :: (levelsOf s ops).map (fun l => (l.1.foot, l.2)),
        CellsFree s f.2 (f.1 (Utils.discXY2Cont x s.cs, Utils.discXY2Cont y s.cs, i * (2 * Utils.PI_CONST / s.T))) := by
  obtain ⟨a, ha, e⟩ := config_angles h H hi x y
  rw [hu i hi] at ha
  cases ha
  rw [e, List.forall_mem_cons, List.forall_mem_map]

/-- a robot that covers its cell and the cell before it if its angle is below 2, and the cell behind it otherwise -/
def turnFoot (p : ℚ × ℚ × ℚ) : List (Int × Int) := [(⌊p.1⌋, ⌊p.2.1⌋), if p.2.2 < 2 then (⌊p.1⌋ + 1, ⌊p.2.1⌋) else (⌊p.1⌋ - 1, ⌊p.2.1⌋)]

def turnSetup : Setup :=
  { W := 3, H := 1, T := 2, cs := 1, obs := 10, inscr := 8, circ := 0, poly := true, foot := turnFoot,
    prims := [⟨0, 0, 0, 0, [(0, 0, 0)], 1000, none⟩, ⟨1, 0, 0, 1, [(0, 0, 1)], 1000, none⟩], map := fun _ => 0, start := (1, 0, 0), goal := (1, 0, 1) }

/-- one level with the same footprint and an obstacle in cell (x, 0) -/
def turnOps (x : Int) : List MOp := [.initLevels [{ foot := turnFoot, poly := true, inscr := 8, circ := 0 }], .updateLev x 0 10 0]

theorem turn_ok : SetupOk turnSetup := ⟨by decide, by decide⟩

/-- **C189c** (violated: IsValidConfiguration checks every level where the robot is) The headings are 0 and 1; the robot is at cell (1, 0) with heading 1, where it covers cells (1, 0) and (2, 0).
An obstacle of the additional level in cell (2, 0) is not seen; one in cell (0, 0), which the robot does not touch, is. -/
theorem config_angles_wrong : HeadingSet turnSetup.T exDirs ∧ turnFoot (Utils.discXY2Cont 1 1, Utils.discXY2Cont 0 1, 1) = [(1, 0), (2, 0)] ∧
    (∃ st, MHist turnSetup (turnOps 2) st ∧ st.isValidConfigSet exDirs turnFoot 1 0 1 = true ∧ okOf (st.isObstacle 2 0) = some true) ∧
    (∃ st, MHist turnSetup (turnOps 0) st ∧ st.isValidConfigSet exDirs turnFoot 1 0 1 = false ∧ okOf (st.isObstacle 1 0) = some false ∧ okOf (st.isObstacle 2 0) = some false) := by
  refine ⟨ex_headings, by decide +kernel, ?_, ?_⟩
  · obtain ⟨st, h1, h2⟩ := tryM_ok (s := turnSetup) (ops := turnOps 2) (f := fun st =>
      decide (st.isValidConfigSet exDirs turnFoot 1 0 1 = true) && decide (okOf (st.isObstacle 2 0) = some true)) turn_ok (by simp [turnOps, MCallOk]) (by decide +kernel)
    exact ⟨st, h1, by simpa using h2⟩
  · obtain ⟨st, h1, h2⟩ := tryM_ok (s := turnSetup) (ops := turnOps 0) (f := fun st =>
      decide (st.isValidConfigSet exDirs turnFoot 1 0 1 = false) && decide (okOf (st.isObstacle 1 0) = some false) && decide (okOf (st.isObstacle 2 0) = some false)) turn_ok
      (by simp [turnOps, MCallOk]) (by decide +kernel)
    exact ⟨st, h1, by simpa [and_assoc] using h2⟩

end
end Sbpl.XAngProps
