import Verif.Model.XYTPlan
import Verif.Model.MLev
/-!
# `EnvironmentNAVXYTHETAMLEVLAT` as seen by a planner

As in Model/XYTPlan.lean: the environment with the numbering of its states given in advance.  The heuristics are those of the base class: they only look at the base
level (environment_navxythetamlevlat.cpp:476).
-/

namespace Sbpl

/-- the environment with a fixed numbering (environment_navxythetalat.cpp:2757-2886 with the overridden IsValidCell and GetActionCost) -/
def mlevPEnv (c : XCfg) (ls : List MLev) (num : XKey → Nat) (den : Nat → Option XKey) (hg hs : XKey → XKey → Int) : PEnv where
  succs gl s := if s = gl then [] else match den s with
    | none => []
    | some p => (c.acts p.2.2).filterMap (fun a => (MEnv.succAct ls c p a).map (fun r => (num r.1, r.2)))
  preds _ t := match den t with
    | none => []
    | some q => (c.preds q.2.2).filterMap (fun a => (MEnv.predAct ls c q a).map (fun r => (num r.1, r.2)))
  hGoal gl s := match den gl, den s with
    | some g, some p => (hg g p).toNat
    | _, _ => 0
  hStart s0 s := match den s0, den s with
    | some g, some p => (hs g p).toNat
    | _, _ => 0

end Sbpl
