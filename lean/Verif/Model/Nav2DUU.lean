import Verif.Model.CfgFile
import Verif.Model.MDP
/-!
# `EnvironmentNAV2DUU`, grid navigation under uncertainty (src/discrete_space_information/environment_nav2Duu.cpp)

Simplifications: `float` and `double` are exact; `int` does not overflow; width and height are not negative; allocation succeeds.
GetSuccs, the GetPreds of the parent class, SetAllActionsandAllOutcomes, SetAllPreds and the heuristics always throw (environment_nav2Duu.h:184-214,
environment_nav2Duu.cpp:491-528, USE_HEUR is 1) and are not modelled.
-/

namespace Sbpl

/-- `thrown`: an exception; `oob`: access outside an array; `uninit`: use of a variable that was never set -/
inductive UUErr where
  | thrown | oob | uninit
deriving DecidableEq, Repr

/-- `EnvNAV2DUUConfig_t` and `EnvironmentNAV2DUU_t` (environment_nav2Duu.h:51-107).  `hid x y = none`: HiddenVariableXY2ID[x][y] was not written.  `nd` is numofdirs; no function
of the class sets it, so it is whatever the memory contained. -/
structure NavUU where
  W : Nat
  H : Nat
  obs : Nat
  grid : Int → Int → Nat
  unc : Int → Int → ℚ
  hid : Int → Int → Option Int
  nd : Int
  sizeofH : Nat
  startId : Int
  goalId : Int

/-- `sbpl_BinaryHiddenVar_t` (utils.h:196-201); Prob is an `unsigned char` -/
structure HVar where
  hID : Int
  prob : Nat
deriving DecidableEq

namespace NavUU

/-- NAV2DUU_ERR_EPS (environment_nav2Duu.cpp:43) -/
def EPS : ℚ := 1 / 100000

/-- ENVNAV2DUU_XYTOSTATEID (environment_nav2Duu.h:96) -/
def enc (x y : Int) : Int := x * 1024 + y
/-- ENVNAV2DUU_STATEIDTOX (environment_nav2Duu.h:95), division of `int`s -/
def decX (id : Int) : Int := id.tdiv 1024
/-- ENVNAV2DUU_STATEIDTOY (environment_nav2Duu.h:94) -/
def decY (id : Int) : Int := id.tmod 1024

/-- a cell counted as unknown (environment_nav2Duu.cpp:217-218, 253-254) -/
def uncertain (unc : Int → Int → ℚ) (x y : Int) : Bool := decide (unc x y ≥ EPS ∧ unc x y ≤ 1 - EPS)

/-- the loop that numbers the hidden variables (environment_nav2Duu.cpp:247-262) -/
def hidLoop (H : Nat) (unc : Int → Int → ℚ) : List (Nat × Nat) → Nat → (Int → Int → Option Int) → Except UUErr (Nat × (Int → Int → Option Int))
  | [], n, h => .ok (n, h)
  | (x, y) :: l, n, h =>
    if y ≥ H then .error .oob
    else if uncertain unc x y then hidLoop H unc l (n + 1) (fun a b => if a = x ∧ b = y then some (n : Int) else h a b)
    else hidLoop H unc l n (fun a b => if a = x ∧ b = y then some (-1) else h a b)

/-- the cells in the order of this loop: `y` runs up to the WIDTH of the map (environment_nav2Duu.cpp:250-252) -/
def hidCells (W : Nat) : List (Nat × Nat) := (List.range W).flatMap fun x => (List.range W).map fun y => (x, y)

/-- InitGeneral (environment_nav2Duu.cpp:468-480): InitializeEnvConfig (239-268) and InitializeEnvironment (228-237) -/
def initGeneral (W H obs : Nat) (grid : Int → Int → Nat) (unc : Int → Int → ℚ) (sizeofH : Nat) (nd : Int) (start goal : Int × Int) : Except UUErr NavUU :=
  match hidLoop H unc (hidCells W) 0 (fun _ _ => none) with
  | .error e => .error e
  | .ok (n, h) => if n ≠ sizeofH then .error .thrown else .ok ⟨W, H, obs, grid, unc, h, nd, sizeofH, enc start.1 start.2, enc goal.1 goal.2⟩

/-- number of unknown cells (environment_nav2Duu.cpp:204-221) -/
def countH (W H : Nat) (unc : Int → Int → ℚ) : Nat := ((Scan.coords W H).filter fun p => uncertain unc p.1 p.2).length

/-- InitializeEnv with maps (environment_nav2Duu.cpp:453-466) and SetConfiguration (180-226); `map = none` is the null pointer -/
def init (W H obs : Nat) (map : Option ((Nat → Nat) × (Nat → ℚ))) (nd : Int) : Except UUErr NavUU :=
  let grid : Int → Int → Nat := fun x y => match map with
    | none => 0
    | some m => m.1 (x + y * W).toNat
  let unc : Int → Int → ℚ := fun x y => match map with
    | none => 0
    | some m => m.2 (x + y * W).toNat
  initGeneral W H obs grid unc (countH W H unc) nd (0, 0) (0, 0)

/-- IsWithinMapCell (environment_nav2Duu.cpp:287-290) -/
def within (st : NavUU) (x y : Int) : Bool := decide (x ≥ 0 ∧ x < st.W ∧ y ≥ 0 ∧ y < st.H)

/-- SetGoal (environment_nav2Duu.cpp:660-678); `none` is -1 -/
def setGoal (st : NavUU) (x y : Int) : NavUU × Option Int :=
  if st.within x y then ({ st with goalId := enc x y }, some (enc x y)) else (st, none)

/-- SetStart (environment_nav2Duu.cpp:681-699) -/
def setStart (st : NavUU) (x y : Int) : NavUU × Option Int :=
  if st.within x y then ({ st with startId := enc x y }, some (enc x y)) else (st, none)

/-- UpdateCost (environment_nav2Duu.cpp:701-706); the indices are not checked -/
def updateCost (st : NavUU) (x y : Int) (c : Nat) : Except UUErr NavUU :=
  if st.within x y then .ok { st with grid := fun a b => if a = x ∧ b = y then c else st.grid a b } else .error .oob

/-- `dx_`, `dy_` (environment_nav2Duu.cpp:292-343) and `dxy_distance_mm_` (345-361) -/
def dirs : List (Int × Int × Nat) := [(1, 1, 1414), (1, 0, 1000), (1, -1, 1414), (0, 1, 1000), (0, -1, 1000), (-1, 1, 1414), (-1, 0, 1000), (-1, -1, 1414)]

/-- the loop over the updated values (environment_nav2Duu.cpp:560-566): the probability that the cell is an obstacle -/
def probOf (hd : Int) : List HVar → ℚ → ℚ
  | [], p => p
  | v :: l, p => probOf hd l (if v.hID = hd then v.prob else p)

/-- an updated value is that of a free cell (environment_nav2Duu.cpp:561) -/
def anyFree (ups : List HVar) : Bool := ups.any fun v => decide ((v.prob : ℚ) < EPS)

/-- the cell with the given hidden variable is known to be free (environment_nav2Duu.cpp:600-609) -/
def knownFree (hd : Int) (ups : List HVar) : Bool := ups.any fun v => decide (v.hID = hd ∧ (v.prob : ℚ) < EPS)

/-- the test of a cell beside a diagonal move (environment_nav2Duu.cpp:595-611); `false`: skip the move -/
def cornerOk (st : NavUU) (ups : List HVar) (x y : Int) : Except UUErr Bool :=
  if st.unc x y ≥ EPS then
    if !anyFree ups then .ok false
    else
      match st.hid x y with
      | none => .error .uninit
      | some hd => .ok (knownFree hd ups)
  else .ok true

/-- an incoming action: action index, source state, outcomes (state, cost, probability) -/
structure InAct where
  aind : Nat
  src : Int
  outs : List (Int × Int × ℚ)
deriving DecidableEq

/-- one pass of the loop over the neighbours (environment_nav2Duu.cpp:580-645), without the construction of the action: source cell and cost -/
def move (st : NavUU) (ups : List HVar) (x y : Int) (d : Int × Int × Nat) : Except UUErr (Option ((Int × Int) × Nat)) :=
  let px := x + d.1
  let py := y + d.2.1
  if !st.within px py || st.grid px py ≥ st.obs then .ok none
  else
    let cm := max (st.grid x y) (st.grid px py)
    if px ≠ x ∧ py ≠ y then
      match st.cornerOk ups x py with
      | .error e => .error e
      | .ok false => .ok none
      | .ok true =>
        match st.cornerOk ups px y with
        | .error e => .error e
        | .ok false => .ok none
        | .ok true =>
          let cm := max (max cm (st.grid x py)) (st.grid px y)
          if cm ≥ st.obs then .ok none else .ok (some ((px, py), (cm + 1) * d.2.2))
    else if cm ≥ st.obs then .ok none else .ok (some ((px, py), (cm + 1) * d.2.2))

/-- what GetPreds returns: deterministic actions, stochastic actions, hidden variable of the non-preferred outcome of each stochastic action -/
structure UUPreds where
  det : List InAct
  stoch : List InAct
  hvals : List HVar
deriving DecidableEq

/-- the loop over the neighbours (environment_nav2Duu.cpp:580-657); `left`: directions still to do, beyond the table an access outside the arrays -/
def predLoop (st : NavUU) (ups : List HVar) (id : Int) (x y : Int) (bDet : Bool) (p : ℚ) (hd : Int) : (left aind : Nat) → List (Int × Int × Nat) → Except UUErr UUPreds
  | 0, _, _ => .ok ⟨[], [], []⟩
  | _ + 1, _, [] => .error .oob
  | left + 1, aind, d :: ds =>
    match st.move ups x y d with
    | .error e => .error e
    | .ok m =>
      match predLoop st ups id x y bDet p hd left (aind + 1) ds with
      | .error e => .error e
      | .ok r =>
        match m with
        | none => .ok r
        | some (s, c) =>
          if bDet then .ok ⟨⟨aind, enc s.1 s.2, [(id, c, 1)]⟩ :: r.det, r.stoch, r.hvals⟩
          else .ok ⟨r.det, ⟨aind, enc s.1 s.2, [(id, c, 1 - p), (enc s.1 s.2, 2 * c, p)]⟩ :: r.stoch, ⟨hd, 1⟩ :: r.hvals⟩

/-- GetPreds (environment_nav2Duu.cpp:530-657) -/
def getPreds (st : NavUU) (id : Int) (ups : List HVar) : Except UUErr UUPreds :=
  let x := decX id
  let y := decY id
  if !st.within x y || st.grid x y ≥ st.obs then .ok ⟨[], [], []⟩
  else
    let bDet := decide (st.unc x y < EPS)
    match st.hid x y with
    | none => .error .uninit
    | some hd =>
      let p := probOf hd ups (st.unc x y)
      if p > 1 - EPS then .ok ⟨[], [], []⟩
      else predLoop st ups id x y (if p < EPS then false else bDet) p hd st.nd.toNat 0 dirs

end NavUU

namespace Scan

/-- cost and probability of being an obstacle of a cell, from the number in the file (environment_nav2Duu.cpp:152-169); the comment there calls a number between 0 and 1 the probability of
being free -/
def uuCell (obs : Nat) (f : ℚ) : Rd (Nat × ℚ) :=
  if f > 1 - NavUU.EPS ∨ f < NavUU.EPS then do
    let v ← toInt f
    pure (toUchar v, if toUchar v ≥ obs then 1 else 0)
  else pure (0, f)

/-- the loop over the cells of the file (environment_nav2Duu.cpp:145-170) -/
def readUUCells (obs : Nat) : List (Nat × Nat) → (Int → Int → Nat × ℚ) → Rd (Int → Int → Nat × ℚ)
  | [], g => pure g
  | (x, y) :: l, g => do
    match ← scanF with
    | .one f => do
      let c ← uuCell obs f
      readUUCells obs l (fun a b => if a = x ∧ b = y then c else g a b)
    | _ => fail .thrown

/-- what ReadConfiguration (environment_nav2Duu.cpp:57-177) reads: width, height, threshold, start, goal, cells -/
def readUU : Rd (Int × Int × Nat × (Int × Int) × (Int × Int) × (Int → Int → Nat × ℚ)) := do
  label "discretization(cells):"
  let W ← needInt
  let H ← needInt
  label "obsthresh:"
  let o ← toInt (← needDec)
  let _ ← need
  let sx ← needInt
  let sy ← needInt
  inside W H sx sy
  let _ ← need
  let ex ← needInt
  let ey ← needInt
  inside W H ex ey
  let _ ← need
  let g ← readUUCells (toUchar o) (coords W.toNat H.toNat) (fun _ _ => (0, 0))
  pure (W, H, toUchar o, (sx, sy), (ex, ey), g)

end Scan

namespace NavUU

/-- InitializeEnv with a file (environment_nav2Duu.cpp:436-451): reading, then InitGeneral.  The number of unknown cells is the number of cells with a probability (line 167), which are
the unknown cells. -/
def initFile (t : Scan.Text) (nd : Int) : Except FileErr (Except UUErr NavUU) :=
  match Scan.readUU t with
  | .error e => .error e
  | .ok ((W, H, obs, s, g, c), _) =>
    .ok (initGeneral W.toNat H.toNat obs (fun x y => (c x y).1) (fun x y => (c x y).2) (countH W.toNat H.toNat (fun x y => (c x y).2)) nd s g)

end NavUU
end Sbpl
