import Verif.Model.XYTPlan
import Verif.Model.LazyARA
/-!
# `EnvironmentNAVXYTHETALAT` as seen by a planner that evaluates edges lazily

As in `Model/XYTPlan.lean`, the numbering `num` of the states (with inverse `den`) is given in advance.  `XYTLazyProps.xytLEnv_succs`, `xytLEnv_preds` and
`xytLEnv_true` relate the lists and costs to GetLazySuccs, GetLazyPreds and GetTrueCost of the stateful environment.
-/

namespace Sbpl

/-- GetTrueCost on coordinates (environment_navxythetalat.cpp:3284-3320): the first action that ends in a valid cell and leads to `q` decides; -1 if it is blocked.
An exception (no action leads to `q`) is also given as -1: the planner never asks for such a pair. -/
def XCfg.trueLoop (c : XCfg) (p q : XKey) : List XAct → Int
  | [] => -1
  | a :: as =>
    if c.valid (p.1 + a.dX) (p.2.1 + a.dY) = false then XCfg.trueLoop c p q as
    else if c.target p a ≠ q then XCfg.trueLoop c p q as
    else if c.actionCost p.1 p.2.1 a ≥ INFINITECOST then -1
    else (c.actionCost p.1 p.2.1 a : Nat)

/-- the environment with goal `gl` (environment_navxythetalat.cpp:3203-3282 for GetLazySuccs, 3284-3320 for GetTrueCost, 3344-3395 for GetLazyPreds,
3141-3181 for the heuristics; all costs are listed as not evaluated); `hgp`, `hsp` are the heuristics before EnsureHeuristicsUpdated -/
def xytLEnv (c : XCfg) (num : XKey → Nat) (den : Nat → Option XKey) (gl : Nat) (hg hs : XKey → XKey → Int) (hgp hsp : Nat → Nat) : LEnv where
  succs s := if s = gl then [] else match den s with
    | none => []
    | some p => (c.acts p.2.2).filterMap (fun a => (c.lazySuccAct p a).map (fun r => (num r.1, r.2, false)))
  preds t := match den t with
    | none => []
    | some q => (c.preds q.2.2).filterMap (fun a => (c.lazyPredAct q a).map (fun r => (num r.1, r.2, false)))
  trueCost s t := match den s, den t with
    | some p, some q => c.trueLoop p q (c.acts p.2.2)
    | _, _ => -1
  hGoal := (xytPEnv c num den hg hs).hGoal gl
  hStart s := (xytPEnv c num den hg hs).hStart gl s
  hGoalPre := hgp
  hStartPre := hsp

end Sbpl
