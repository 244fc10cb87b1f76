import Verif.Model.XYTAngles
/-!
# One `EnvironmentNAVXYTHETALAT` object through several calls of InitializeEnv

InitializeEnv with arguments and a file of motion primitives (environment_navxythetalat.cpp:1908-2011), on an object that is new, on one on which an earlier call threw, and on one that is initialised.
Three members survive a call: `mprimV` (ReadMotionPrimitives appends to it), `bUseNonUniformAngles` (never reset) and `StateID2IndexMapping` (never cleared by the environment).  The members that every
call sets before it uses them (configuration, `ThetaDirs`) are not part of the model of the object.
-/

namespace Sbpl

namespace Scan

/-- ReadMotionPrimitives up to the number of primitives (environment_navxythetalat.cpp:750-862), `bUseNonUniformAngles` being false; a file with a list of headings is in `primsHeadSet` -/
def primsHead (cs : ℚ) (T : Nat) : Rd (Option Nat) := do
  let b ← wordKeep 1024 none
  if !(← isLabel b "resolution_m:") then return none
  match ← scanF with
  | .eof => fail .ub
  | .nomatch => return none
  | .one f =>
    if |f - cs| > 1 / 10000000 then return none
    let b ← wordKeep 1024 b
    let w ← contents b
    if w.take 21 = "min_turning_radius_m:".toList then fail .other
    if !(← isLabel b "numberofangles:") then return none
    let some d ← scanKeep none | return none
    if d ≠ T then return none
    let b ← wordKeep 1024 b
    if !(← isLabel b "totalnumberofprimitives:") then return none
    let some n ← scanKeep (some 0) | return none
    pure (some n.toNat)

/-- the same part of ReadMotionPrimitives, `bUseNonUniformAngles` being true after the second entry (environment_navxythetalat.cpp:780-801, 819-844): the angles with 2π, and the number -/
def primsHeadSet (cs : ℚ) (T : Nat) : Rd (Option (List ℚ × Nat)) := do
  let b ← wordKeep 1024 none
  if !(← isLabel b "resolution_m:") then return none
  match ← scanF with
  | .eof => fail .ub
  | .nomatch => return none
  | .one f =>
    if |f - cs| > 1 / 10000000 then return none
    let b ← wordKeep 1024 b
    if !(← isLabel b "min_turning_radius_m:") then return none
    match ← scanF with
    | .nomatch => return none
    | _ =>
      let b ← wordKeep 1024 b
      if !(← isLabel b "numberofangles:") then return none
      let some d ← scanKeep none | return none
      if d ≠ T then return none
      let some as ← readAngles 0 T b | return none
      let b ← wordKeep 1024 b
      if !(← isLabel b "totalnumberofprimitives:") then return none
      let some n ← scanKeep (some 0) | return none
      pure (some (as ++ [2 * Utils.PI_CONST], n.toNat))

/-- whether reading the file sets `bUseNonUniformAngles` (environment_navxythetalat.cpp:758-782): the second entry begins with the label, and it is reached -/
def listed (cs : ℚ) : Rd Bool := do
  let b ← wordKeep 1024 none
  if !(← isLabel b "resolution_m:") then return false
  match ← scanF with
  | .eof => fail .ub
  | .nomatch => return false
  | .one f =>
    if |f - cs| > 1 / 10000000 then return false
    let b ← wordKeep 1024 b
    let w ← contents b
    pure (decide (w.take 21 = "min_turning_radius_m:".toList))

/-- the loop over the primitives (environment_navxythetalat.cpp:866-874): what it appends to `mprimV`, and whether it returns at the end or with `false` -/
def pushPrims (rd : Rd (Option (Int × RawPrim))) : Nat → Text → Except FileErr (List RawPrim × Bool)
  | 0, _ => .ok ([], true)
  | n + 1, t =>
    match rd t with
    | .error e => .error e
    | .ok (none, _) => .ok ([], false)
    | .ok (some p, t') =>
      match pushPrims rd n t' with
      | .error e => .error e
      | .ok (l, b) => .ok (p.2 :: l, b)

/-- effect of ReadMotionPrimitives -/
structure PrimsRead where
  /-- `bUseNonUniformAngles` afterwards -/
  set : Bool
  /-- the list of headings, if it is used -/
  dirs : List ℚ
  /-- the primitives appended to `mprimV` -/
  pushed : List RawPrim
  /-- the value returned -/
  ok : Bool

/-- ReadMotionPrimitives (environment_navxythetalat.cpp:750-878) with `bUseNonUniformAngles` as it was left by earlier calls -/
def readInto (set : Bool) (cs : ℚ) (T : Nat) (t : Text) : Except FileErr PrimsRead :=
  match listed cs t with
  | .error e => .error e
  | .ok (b, _) =>
    if set || b then
      match primsHeadSet cs T t with
      | .error e => .error e
      | .ok (none, _) => .ok ⟨true, [], [], false⟩
      | .ok (some (dirs, n), t') =>
        match pushPrims (readPrimSet cs T dirs) n t' with
        | .error e => .error e
        | .ok (l, ok) => .ok ⟨true, dirs, l, ok⟩
    else
      match primsHead cs T t with
      | .error e => .error e
      | .ok (none, _) => .ok ⟨false, [], [], false⟩
      | .ok (some n, t') =>
        match pushPrims (readPrim cs T) n t' with
        | .error e => .error e
        | .ok (l, ok) => .ok ⟨false, [], l, ok⟩

end Scan

/-- an `EnvironmentNAVXYTHETALAT` object -/
structure XObj where
  /-- the parameters -/
  par : XParams
  /-- `mprimV`, as read -/
  mprims : List RawPrim
  /-- `bUseNonUniformAngles` -/
  set : Bool
  /-- the size of `StateID2IndexMapping` -/
  mapped : Nat
  /-- the environment and its list of headings (empty if they are uniform), after a call of InitializeEnv that returned; `none` before, and after a later call that threw -/
  env : Option (XEnv × List ℚ)

namespace XObj

/-- the constructor (environment_navxythetalat.cpp:51-80, 2587-2596) -/
def new : XObj := ⟨XInit.params0, [], false, 0, none⟩

/-- ContTheta2DiscNew (environment_navxythetalat.cpp:535-543) -/
def heading (set : Bool) (T : Nat) (dirs : List ℚ) (th : ℚ) : Except XErr Int :=
  if set then (match XPrim.contTheta2DiscSet T dirs th with | .error e => .error e | .ok i => .ok (i : Int))
  else .ok (Utils.contTheta2Disc th T)

/-- the configuration that InitGeneral works on (environment_navxythetalat.cpp:1961-2001): all primitives in `mprimV`, and the costs computed from them by
PrecomputeActionswithCompleteMotionPrimitive (1221-1233) with the headings of this call -/
noncomputable def setup (foot : ℚ → ℚ × ℚ × ℚ → List (Int × Int)) (poly : Bool) (p : XParams) (a : XArgs) (set : Bool) (dirs : List ℚ) (raws : List RawPrim) (i j : Int) : XEnv.Setup where
  W := a.W
  H := a.H
  T := a.T
  cs := a.cs
  obs := a.obs
  inscr := p.inscr
  circ := p.circ.toNat
  poly := poly
  foot := foot a.cs
  prims := raws.map (if set then XPrim.mkPrimSet a.T dirs a.vel a.tt else XPrim.mkPrim a.T a.vel a.tt)
  map := a.map
  start := (Utils.contXY2Disc a.startX a.cs, Utils.contXY2Disc a.startY a.cs, i)
  goal := (Utils.contXY2Disc a.goalX a.cs, Utils.contXY2Disc a.goalY a.cs, j)

/-- InitGeneral (environment_navxythetalat.cpp:2003-2008): the built-in actions with a list of headings are not modelled -/
noncomputable def general (s : XEnv.Setup) (a : XArgs) (set none : Bool) : Except XInitErr XEnv :=
  if none then
    if set then .error (.file .other)
    else match XDfl.init s a.vel a.tt with | .error e => .error (.env e) | .ok st => .ok st
  else match XEnv.init s with | .error e => .error (.env e) | .ok st => .ok st

/-- InitializeEnv with arguments (environment_navxythetalat.cpp:1908-2011): the object afterwards, and how the call ended.  `obsthresh` is set at the beginning (1961).  InitializeEnvironment clears
StateID2CoordTable and makes a new table of states, so that the start gets the number 0; CreateNewHashEntry (2697-2704, 2742-2749) appends to StateID2IndexMapping and throws if that is not the last one. -/
noncomputable def initEnv (foot : ℚ → ℚ × ℚ × ℚ → List (Int × Int)) (poly : Bool) (o : XObj) (a : XArgs) (txt : Scan.Text) : XObj × Except XInitErr Unit :=
  let o1 : XObj := { o with par := { o.par with obs := a.obs }, env := none }
  match Scan.readInto o.set a.cs a.T txt with
  | .error e => (o1, .error (.file e))
  | .ok r =>
    let o2 : XObj := { o1 with set := r.set, mprims := o.mprims ++ r.pushed }
    if r.ok = false then (o2, .error .prims)
    else
      match heading r.set a.T r.dirs a.startTheta, heading r.set a.T r.dirs a.goalTheta with
      | .error e, _ => (o2, .error (.env e))
      | .ok i, .error e => if ¬ (0 ≤ i ∧ i < a.T) then (o2, .error .heading) else (o2, .error (.env e))
      | .ok i, .ok j =>
        if ¬ (0 ≤ i ∧ i < a.T) then (o2, .error .heading)
        else if ¬ (0 ≤ j ∧ j < a.T) then (o2, .error .heading)
        else
          match general (setup foot poly o.par a r.set r.dirs o2.mprims i j) a r.set o2.mprims.isEmpty with
          | .error e => (o2, .error e)
          | .ok st =>
            if o.mapped ≠ 0 then ({ o2 with mapped := o.mapped + 1 }, .error (.env .badInput))
            else ({ o2 with par := { o2.par with inited := true }, mapped := st.tab.table.length, env := some (st, r.dirs) }, .ok ())

/-- a call on the object -/
inductive Op where
  | setParam (name : String) (v : Int)
  | initEnv (a : XArgs) (txt : Scan.Text)
  /-- any calls on the environment, see `XEnv.Op` -/
  | use (ops : List XEnv.Op)

/-- effect of a call; calls on an object that is not initialised, and the object after an error in such a call, are not modelled.  Every state that is created gets an entry in
StateID2IndexMapping (2697, 2742). -/
noncomputable def step (foot : ℚ → ℚ × ℚ × ℚ → List (Int × Int)) (poly : Bool) (o : XObj) : Op → XObj
  | .setParam n v => { o with par := (XInit.setParam o.par n v).1 }
  | .initEnv a txt => (initEnv foot poly o a txt).1
  | .use ops =>
    match o.env with
    | none => o
    | some (st, dirs) =>
      match (if o.set then st.runSet dirs ops else st.run ops) with
      | none => { o with env := none }
      | some st' => { o with env := some (st', dirs), mapped := max o.mapped st'.tab.table.length }

/-- the object after a list of calls -/
noncomputable def run (foot : ℚ → ℚ × ℚ × ℚ → List (Int × Int)) (poly : Bool) (o : XObj) (ops : List Op) : XObj := ops.foldl (step foot poly) o

/-- GetEnvParms (environment_navxythetalat.cpp:2182-2229) and GetMapCost with a list of headings, see `XInit.getParms` -/
def getParms (dirs : List ℚ) (st : XEnv) (vel tt : ℚ) : Except XErr XArgs :=
  match XPrim.discTheta2ContSet st.cfg.T dirs st.cfg.start.2.2, XPrim.discTheta2ContSet st.cfg.T dirs st.cfg.goal.2.2 with
  | .error e, _ => .error e
  | .ok _, .error e => .error e
  | .ok b, .ok g => .ok { XInit.getParms st vel tt with startTheta := b, goalTheta := g }

end XObj
end Sbpl
