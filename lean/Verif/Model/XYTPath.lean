import Verif.Model.XYT
/-!
# ConvertStateIDPathintoXYThetaPath (src/discrete_space_information/environment_navxythetalat.cpp:2409-2501)

The poses `intermptV` of the actions are looked up in the primitives of the set-up: `ActionsV[tind][aind].intermptV` is the list of poses of the `aind`-th primitive
with start angle `tind` (environment_navxythetalat.cpp:1152-1187).  Simplifications as in Model/XYT.lean.
-/

namespace Sbpl.XEnv

/-- `ActionsV[tind][aind].intermptV` (environment_navxythetalat.cpp:1152-1187) -/
def intermPts (s : Setup) (tind : Int) (aind : Nat) : List (ℚ × ℚ × ℚ) :=
  match (s.prims.filter (fun m => decide (m.startTheta = tind)))[aind]? with
  | none => []
  | some m => m.pts

/-- the poses stored for one transition from the state with coordinates `k` (environment_navxythetalat.cpp:2468-2499): all but the last, translated to the
centre of the cell of the source -/
def piece (s : Setup) (cs : ℚ) (k : XKey) (a : XAct) : List (ℚ × ℚ × ℚ) :=
  (intermPts s k.2.2 a.aind).dropLast.map (fun p => (p.1 + Utils.discXY2Cont k.1 cs, p.2.1 + Utils.discXY2Cont k.2.1 cs, p.2.2))

/-- ConvertStateIDPathintoXYThetaPath (environment_navxythetalat.cpp:2409-2501) -/
def convertPath (s : Setup) (st : XEnv) : List Nat → Except XErr (XEnv × List (ℚ × ℚ × ℚ))
  | a :: b :: rest =>
    match st.getSuccs a with
    | .error e => .error e
    | .ok (st1, l) =>
      match pick b l with
      | none => .error .noTransition
      | some e =>
        match st1.getCoord a with
        | .error er => .error er
        | .ok k =>
          match convertPath s st1 (b :: rest) with
          | .error er => .error er
          | .ok (st2, ps) => .ok (st2, piece s st1.cfg.cs k e.2.2 ++ ps)
  | _ => .ok (st, [])

end Sbpl.XEnv
