import Verif.Model.Scan
import Verif.Model.Nav2D
import Verif.Model.XYTPrim
/-!
# Configuration files of `EnvironmentNAV2D` and `EnvironmentNAVXYTHETALATTICE`, and files of motion primitives

Allocation of the map is assumed to succeed.
-/

namespace Sbpl
namespace Scan

/-- `fscanf(f, "%s", sTemp) != 1` raises an exception; the buffer has 1024 bytes (environment_nav2D.cpp:151-158) -/
def need : Rd (List Char) := do
  match ← word 1024 with
  | none => fail .thrown
  | some w => pure w

/-- a word that must be the given label (environment_nav2D.cpp:170-178) -/
def label (s : String) : Rd Unit := do
  let w ← need
  if w = s.toList then pure () else fail .thrown

/-- a word converted by `atoi` -/
def needInt : Rd Int := do atoi (← need)

/-- a word converted by `atof` -/
def needDec : Rd ℚ := do atof (← need)

/-- coordinates must be inside the map (environment_nav2D.cpp:196-201) -/
def inside (W H x y : Int) : Rd Unit :=
  if x < 0 ∨ x ≥ W then fail .thrown else if y < 0 ∨ y ≥ H then fail .thrown else pure ()

/-- EnvironmentNAV2D::ReadConfiguration (environment_nav2D.cpp:148-242); the number of directions is not changed (8 by default,
environment_nav2D.cpp:40-48).  The contents of the map are those of the file. -/
def readNav2D (dirs : Nat) : Rd NavCfg := do
  let _ ← need
  let W ← needInt
  let H ← needInt
  label "obsthresh:"
  let o ← toInt (← needDec)
  let _ ← need
  let sx ← needInt
  let sy ← needInt
  inside W H sx sy
  let _ ← need
  let ex ← needInt
  let ey ← needInt
  inside W H ex ey
  let _ ← need
  let g ← readCells (coords W.toNat H.toNat) (fun _ _ => 0)
  pure ⟨W, H, toUchar o, g, dirs, (sx, sy), (ex, ey)⟩

end Scan

/-- the configuration read by EnvironmentNAVXYTHETALATTICE::ReadConfiguration (environment_navxythetalat.h:119-170) -/
structure XFile where
  W : Int
  H : Int
  T : Int
  obs : Nat
  inscr : Nat
  circ : Int
  cs : ℚ
  vel : ℚ
  tt : ℚ
  start : Int × Int
  startTheta : ℚ
  goal : Int × Int
  goalTheta : ℚ
  grid : Int → Int → Nat

namespace Scan

/-- `CONTXY2DISC` (utils.h:51) in `int`; a cell size of 0 gives an infinite quotient -/
def toCell (x cs : ℚ) : Rd Int :=
  if cs = 0 then fail .ub else do
    let v ← toInt (x / cs)
    if x ≥ 0 then pure v else inInt (v - 1)

/-- the optional number of headings, 16 by default (environment_navxythetalat.cpp:249-287) -/
def headings : Rd Int := do
  let w ← need
  if w = "NumThetaDirs:".toList then do
    let T ← needInt
    label "obsthresh:"
    pure T
  else if w = "obsthresh:".toList then pure 16
  else fail .thrown

/-- EnvironmentNAVXYTHETALATTICE::ReadConfiguration (environment_navxythetalat.cpp:217-457) -/
def readXYT : Rd XFile := do
  label "discretization(cells):"
  let W ← needInt
  let H ← needInt
  let T ← headings
  let o ← needInt
  label "cost_inscribed_thresh:"
  let i ← needInt
  label "cost_possibly_circumscribed_thresh:"
  let c ← needInt
  label "cellsize(meters):"
  let cs ← needDec
  label "nominalvel(mpersecs):"
  let vel ← needDec
  label "timetoturn45degsinplace(secs):"
  let tt ← needDec
  let _ ← need
  let sx ← toCell (← needDec) cs
  let sy ← toCell (← needDec) cs
  let st ← needDec
  inside W H sx sy
  let _ ← need
  let ex ← toCell (← needDec) cs
  let ey ← toCell (← needDec) cs
  let et ← needDec
  inside W H ex ey
  let _ ← need
  let g ← readCells (coords W.toNat H.toNat) (fun _ _ => 0)
  pure ⟨W, H, T, toUchar o, toUchar i, c, cs, vel, tt, (sx, sy), st, (ex, ey), et, g⟩

/-! ### motion primitives

`fscanf(...) == 0` is the only failure tested in many places: at the end of the file (EOF, -1) reading goes on with the old
contents of the buffer.  A reader returns `none` where the code returns `false`. -/

/-- `%s` into a buffer that holds `old` (`none`: never written); the code never sees the result 0 -/
def wordKeep (size : Nat) (old : Option (List Char)) : Rd (Option (List Char)) := do
  match ← word size with
  | none => pure old
  | some w => pure (some w)

/-- the buffer is compared with a label: `some true` if equal; comparing a buffer never written is undefined -/
def isLabel (buf : Option (List Char)) (s : String) : Rd Bool :=
  match buf with
  | none => fail .ub
  | some w => pure (decide (w = s.toList))

/-- the contents of a buffer -/
def contents (buf : Option (List Char)) : Rd (List Char) :=
  match buf with
  | none => fail .ub
  | some w => pure w

/-- ReadinCell (environment_navxythetalat.cpp:459-483), uniform headings -/
def readCell (T : Nat) : Rd (Int × Int × Int) := do
  let b ← wordKeep 60 none
  let x ← atoi (← contents b)
  let b ← wordKeep 60 b
  let y ← atoi (← contents b)
  let b ← wordKeep 60 b
  let th ← atoi (← contents b)
  pure (x, y, Utils.normDiscTheta th T)

/-- ReadinPose (environment_navxythetalat.cpp:485-507) -/
def readPose : Rd (ℚ × ℚ × ℚ) := do
  let b ← wordKeep 60 none
  let x ← atof (← contents b)
  let b ← wordKeep 60 b
  let y ← atof (← contents b)
  let b ← wordKeep 60 b
  let th ← atof (← contents b)
  pure (x, y, Utils.normalizeAngle th)

/-- the loop over the intermediate poses (environment_navxythetalat.cpp:698-705) -/
def readPoses : Nat → Rd (List (ℚ × ℚ × ℚ))
  | 0 => pure []
  | n + 1 => do
    let p ← readPose
    let l ← readPoses n
    pure (p :: l)

/-- `%d` where only the result 0 counts as a failure, into a variable holding `old` -/
def scanKeep (old : Option Int) : Rd (Option Int) := do
  match ← scanD with
  | .one v => pure (some v)
  | .nomatch => pure none
  | .eof =>
    match old with
    | none => fail .ub
    | some v => pure (some v)

/-- ReadinMotionPrimitive (environment_navxythetalat.cpp:605-748), uniform headings.  A negative multiplier is not modelled. -/
def readPrim (cs : ℚ) (T : Nat) : Rd (Option (Int × RawPrim)) := do
  let b ← wordKeep 1024 none
  if !(← isLabel b "primID:") then return none
  let .one id ← scanD | return none
  let b ← wordKeep 1024 b
  if !(← isLabel b "startangle_c:") then return none
  let some st ← scanKeep none | return none
  let b ← wordKeep 1024 b
  if !(← isLabel b "endpose_c:") then return none
  let e ← readCell T
  let b ← wordKeep 1024 b
  if !(← isLabel b "additionalactioncostmult:") then return none
  let .one m ← scanD | return none
  let b ← wordKeep 1024 b
  if !(← isLabel b "intermediateposes:") then return none
  let .one n ← scanD | return none
  let pts ← readPoses n.toNat
  if m < 0 then fail .other
  let r : RawPrim := ⟨st, e.1, e.2.1, e.2.2, m.toNat, pts⟩
  match XPrim.checkEnd cs T r with
  | .error _ => fail .ub
  | .ok ok => if ok then pure (some (id, r)) else pure none

/-- the loop over the primitives (environment_navxythetalat.cpp:866-874) -/
def readPrimList (cs : ℚ) (T : Nat) : Nat → Rd (Option (List (Int × RawPrim)))
  | 0 => pure (some [])
  | n + 1 => do
    let some p ← readPrim cs T | return none
    let some l ← readPrimList cs T n | return none
    pure (some (p :: l))

/-- ReadMotionPrimitives (environment_navxythetalat.cpp:750-878) for an environment with cell size `cs` and `T` uniform headings; files
with a list of headings (`min_turning_radius_m:`) are modelled by `readPrimsSet` (Model/XYTAngles.lean) -/
def readPrims (cs : ℚ) (T : Nat) : Rd (Option (List (Int × RawPrim))) := do
  let b ← wordKeep 1024 none
  if !(← isLabel b "resolution_m:") then return none
  match ← scanF with
  | .eof => fail .ub
  | .nomatch => return none
  | .one f =>
    if |f - cs| > 1 / 10000000 then return none
    let b ← wordKeep 1024 b
    let w ← contents b
    if w.take 21 = "min_turning_radius_m:".toList then fail .other
    if !(← isLabel b "numberofangles:") then return none
    let some d ← scanKeep none | return none
    if d ≠ T then return none
    let b ← wordKeep 1024 b
    if !(← isLabel b "totalnumberofprimitives:") then return none
    let some n ← scanKeep (some 0) | return none
    readPrimList cs T n.toNat

end Scan
end Sbpl
