import Verif.Props.XYTHeur
import Verif.Props.XYTEx
/-! # Heuristics of the (x, y, theta) lattice: concrete cases, and C57 -/

namespace Sbpl.XHeurProps
open XSpec XEnv XHeur GridSpec XYTProps

/-- initialise and run -/
def tryH (s : Setup) (vel : ℚ) (ops : List XHeur.HOp) : Option XHeur :=
  match XHeur.init s vel 0 with
  | .ok h => h.run ops
  | .error _ => none

/-- what is asked of a setup and a velocity, beyond the calls -/
structure HSetup (s : Setup) (vel : ℚ) : Prop where
  ok : SetupOk s
  vel0 : 0 < vel
  cell : 1 ≤ 1000 * s.cs
  thr : s.inscr ≤ 254

theorem tryH_ok {s : Setup} {vel : ℚ} {ops : List XHeur.HOp} {f : XHeur → Bool} (hs : HSetup s vel) (hc : ∀ op, HOp.call op ∈ ops → CallOk s op)
    (h : (tryH s vel ops).any f = true) : ∃ h', HHist s vel 0 ops h' ∧ f h' = true := by
  cases ht : tryH s vel ops with
  | none => rw [ht] at h; cases h
  | some h' =>
    rw [ht] at h
    unfold tryH at ht
    split at ht
    next h0 e0 => exact ⟨h', ⟨hs.ok, hs.vel0, hs.cell, hs.thr, hc, h0, e0, ht⟩, h⟩
    next => cases ht

/-- a transition, computed -/
theorem edge_of {s : Setup} {vel : ℚ} {dyn : Nat} {ops : List XHeur.HOp} {h : XHeur} (hh : HHist s vel dyn ops h) {m : MPrim} (hm : m ∈ s.prims) {p q : XKey}
    (ht : m.startTheta = p.2.2) {n : Nat} (e : h.env.cfg.succAct p (mkAct s.cs s.foot 0 m) = some (q, n)) : Edge s (costs s (calls ops)) m p q n := by
  obtain ⟨i, t1, -⟩ := hist hh
  have := (succAct_iff i.env.stc hh.setup_ok hm ht).mp e
  rw [t1] at this
  exact this

/-! ## A case that meets the conditions of C55 and C56 -/

/-- four headings; for each: one cell (of 10 mm) forward, and a quarter turn on the spot; velocity 1 -/
def hPrims : List MPrim :=
  [⟨0, 1, 0, 0, [(0, 0, 0), (1/100, 0, 0)], 10, none⟩, ⟨0, 0, 0, 1, [(0, 0, 0)], 3, none⟩,
   ⟨1, 0, 1, 1, [(0, 0, 0), (0, 1/100, 0)], 10, none⟩, ⟨1, 0, 0, 2, [(0, 0, 0)], 3, none⟩,
   ⟨2, -1, 0, 2, [(0, 0, 0), (-1/100, 0, 0)], 10, none⟩, ⟨2, 0, 0, 3, [(0, 0, 0)], 3, none⟩,
   ⟨3, 0, -1, 3, [(0, 0, 0), (0, -1/100, 0)], 10, none⟩, ⟨3, 0, 0, -4, [(0, 0, 0)], 3, none⟩]

/-- a map of 3 × 2 cells, the one at (1, 0) blocked -/
def hSetup : Setup :=
  { W := 3, H := 2, T := 4, cs := 1/100, obs := 254, inscr := 253, circ := 1, poly := false, foot := pointFoot (1/100),
    prims := hPrims, map := fun i => if i = 1 then 254 else 0, start := (0, 0, 0), goal := (2, 0, 0) }

theorem hSetup_ok : HSetup hSetup 1 := by
  refine ⟨⟨by decide, ?_⟩, by norm_num, by norm_num [hSetup], by decide⟩
  intro m hm
  simp only [hSetup, hPrims, List.mem_cons, List.not_mem_nil, or_false] at hm
  rcases hm with rfl | rfl | rfl | rfl | rfl | rfl | rfl | rfl <;> decide

theorem hSetup_fast : NotTooFast hSetup 1 := by
  intro m hm
  simp only [hSetup, hPrims, List.mem_cons, List.not_mem_nil, or_false] at hm
  rcases hm with rfl | rfl | rfl | rfl | rfl | rfl | rfl | rfl <;> norm_num [hSetup]

/-- follow a primitive by its cells -/
theorem one_move {s : Setup} {m : MPrim} (h0 : (0, 0) ∈ intermCells s.cs m.pts) {l : Nat}
    (hl : moveLen (1000 * s.cs).num.toNat (1000 * s.cs).den m.dX m.dY = some l)
    (ht : ∀ r ∈ touched (0, 0) m.dX m.dY, r = (m.dX, m.dY) ∨ r ∈ intermCells s.cs m.pts) : Centre s m (0, 0) ∧ Chain s m (m.dX, m.dY) l := by
  refine ⟨mem_intermCells.mp h0, ?_⟩
  have := Chain.snoc (s := s) (m := m) (a := (0, 0)) (b := (m.dX, m.dY)) (n := 0) (l := l) .nil (by simpa using hl) (by
    intro r hr
    simp only [Int.sub_zero] at hr
    rcases ht r hr with h | h
    · exact .inl h
    · exact .inr (.inl (mem_intermCells.mp h)))
  rwa [Nat.zero_add] at this

theorem no_move {s : Setup} {m : MPrim} (h0 : (0, 0) ∈ intermCells s.cs m.pts) (hx : m.dX = 0) (hy : m.dY = 0) :
    Centre s m (0, 0) ∧ Chain s m (m.dX, m.dY) 0 := by
  refine ⟨mem_intermCells.mp h0, ?_⟩
  rw [hx, hy]; exact .nil

theorem hSetup_follow : Followable hSetup 1 := by
  intro m hm
  simp only [hSetup, hPrims, List.mem_cons, List.not_mem_nil, or_false] at hm
  have fwd : ∀ m : MPrim, (0, 0) ∈ intermCells hSetup.cs m.pts → moveLen (1000 * hSetup.cs).num.toNat (1000 * hSetup.cs).den m.dX m.dY = some 10 →
      (∀ r ∈ touched (0, 0) m.dX m.dY, r = (m.dX, m.dY) ∨ r ∈ intermCells hSetup.cs m.pts) → m.cost = 10 →
      ∃ n, Chain hSetup m (m.dX, m.dY) n ∧ (n : ℚ) ≤ m.cost * 1 := by
    intro m h1 h2 h3 h4
    obtain ⟨a, b⟩ := one_move h1 h2 h3
    exact ⟨10, b, by rw [h4]; norm_num⟩
  have trn : ∀ m : MPrim, (0, 0) ∈ intermCells hSetup.cs m.pts → m.dX = 0 → m.dY = 0 →
      ∃ n, Chain hSetup m (m.dX, m.dY) n ∧ (n : ℚ) ≤ m.cost * 1 := by
    intro m h1 h2 h3
    obtain ⟨a, b⟩ := no_move h1 h2 h3
    exact ⟨0, b, by simp⟩
  rcases hm with rfl | rfl | rfl | rfl | rfl | rfl | rfl | rfl
  · exact fwd _ (by decide +kernel) (by decide +kernel) (by decide +kernel) rfl
  · exact trn _ (by decide +kernel) rfl rfl
  · exact fwd _ (by decide +kernel) (by decide +kernel) (by decide +kernel) rfl
  · exact trn _ (by decide +kernel) rfl rfl
  · exact fwd _ (by decide +kernel) (by decide +kernel) (by decide +kernel) rfl
  · exact trn _ (by decide +kernel) rfl rfl
  · exact fwd _ (by decide +kernel) (by decide +kernel) (by decide +kernel) rfl
  · exact trn _ (by decide +kernel) rfl rfl

/-- The theorems apply: after a history with a change of costs, the heuristics of the start and the goal state, and of (0, 1) heading upwards (ID 2): the 2D way around the
obstacle has cost 14 + 14, and once the obstacle is gone (at cost 1) the way through it costs 2 · 10 + 2 · 10, so it is still 28. -/
def hOps : List XHeur.HOp := [.ensure true, .ensure false, .call (.getState (0, 1, 1)), .call (.updateCost 1 0 1), .ensure true, .ensure false]

example : ∃ h, HHist hSetup 1 0 hOps h ∧ UpToDate true hOps ∧ (okOf (h.goalHeur 0) = some 28 ∧ okOf (h.goalHeur 1) = some 0 ∧
    okOf (h.goalHeur 2) = some 24 ∧ okOf (h.startHeur 1) = some 28 ∧ okOf (h.fromTo 0 1) = some 20 ∧ okOf (h.fromTo 2 1) = some 22) := by
  obtain ⟨h, h1, h2⟩ := tryH_ok (s := hSetup) (vel := 1) (ops := hOps) (f := fun h => decide (okOf (h.goalHeur 0) = some 28 ∧ okOf (h.goalHeur 1) = some 0 ∧
    okOf (h.goalHeur 2) = some 24 ∧ okOf (h.startHeur 1) = some 28 ∧ okOf (h.fromTo 0 1) = some 20 ∧ okOf (h.fromTo 2 1) = some 22)) hSetup_ok (by
      intro op ho
      simp only [hOps, List.mem_cons, List.not_mem_nil, or_false, HOp.call.injEq, reduceCtorEq, false_or, or_false] at ho
      rcases ho with rfl | rfl
      · exact ⟨by decide, by decide, by decide⟩
      · trivial) (by decide +kernel)
  exact ⟨h, h1, ⟨[.ensure true, .ensure false, .call (.getState (0, 1, 1)), .call (.updateCost 1 0 1)], [.ensure false], rfl,
    by intro op ho; simp at ho⟩, by simpa using h2⟩

/-! ## C57: where the heuristics are not admissible or not consistent -/

/-- one heading, one primitive: straight to (4, 1), on cells of 100 mm, at the time its length takes at velocity 1 (413 ms, rounded up) -/
def slope : Setup :=
  { W := 5, H := 2, T := 1, cs := 1/10, obs := 254, inscr := 253, circ := 1, poly := false, foot := pointFoot (1/10),
    prims := [⟨0, 4, 1, 0, [(0, 0, 0), (4/10, 1/10, 0)], 413, none⟩], map := fun _ => 0, start := (0, 0, 0), goal := (4, 1, 0) }

/-- **C57.** The 2D search only moves in 16 directions, so GetGoalHeuristic is not admissible: on an empty map, for a straight primitive to (4, 1) of cost 413, the
heuristic of the start is 423. -/
theorem straight_primitive_overestimated : ∃ h, HHist slope 1 0 [.ensure true] h ∧ NotTooFast slope 1 ∧
    LWalk slope (costs slope (calls [.ensure true])) (startOf slope []) (goalOf slope []) 413 ∧
    okOf (h.env.getCoord h.env.startId) = some (startOf slope []) ∧ okOf (h.goalHeur h.env.startId) = some 423 := by
  have hs : HSetup slope 1 := by
    refine ⟨⟨by decide, ?_⟩, by norm_num, by norm_num [slope], by decide⟩
    intro m hm
    simp only [slope, List.mem_cons, List.not_mem_nil, or_false] at hm
    subst hm; decide
  obtain ⟨h, h1, h2⟩ := tryH_ok (s := slope) (vel := 1) (ops := [.ensure true]) (f := fun h =>
    decide (okOf (h.env.getCoord h.env.startId) = some (startOf slope [])) && (decide (okOf (h.goalHeur h.env.startId) = some 423) &&
    decide (h.env.cfg.succAct (0, 0, 0) (mkAct slope.cs slope.foot 0 ⟨0, 4, 1, 0, [(0, 0, 0), (4/10, 1/10, 0)], 413, none⟩) = some ((4, 1, 0), 413))))
    hs (by intro op ho; simp at ho) (by decide +kernel)
  simp only [Bool.and_eq_true, decide_eq_true_iff] at h2
  refine ⟨h, h1, ?_, ?_, h2.1, h2.2.1⟩
  · intro m hm
    simp only [slope, List.mem_cons, List.not_mem_nil, or_false] at hm
    subst hm; norm_num [slope]
  · have := LWalk.snoc (s := slope) (grid := costs slope (calls [.ensure true])) (p := (0, 0, 0)) (b := (0, 0, 0)) (t := (4, 1, 0)) (n := 0) (c := 413) _ .nil
      (edge_of h1 (by simp [slope]) rfl h2.2.2)
    rw [Nat.zero_add] at this
    exact this

/-- **C57.** Between a change of the costs and the next EnsureHeuristicsUpdated the heuristics are those of the old costs: here the only corridor is opened, the goal
is 20 away, and the heuristic of the start is still the largest value, for an unreachable goal. -/
def corridor : Setup :=
  { W := 3, H := 1, T := 1, cs := 1/100, obs := 254, inscr := 253, circ := 1, poly := false, foot := pointFoot (1/100),
    prims := [⟨0, 1, 0, 0, [(0, 0, 0), (1/100, 0, 0)], 10, none⟩], map := fun i => if i = 1 then 254 else 0, start := (0, 0, 0), goal := (2, 0, 0) }

theorem stale_overestimates : ∃ h, HHist corridor 1 0 [.ensure true, .call (.updateCost 1 0 0)] h ∧ NotTooFast corridor 1 ∧ Followable corridor 1 ∧
    LWalk corridor (costs corridor [.updateCost 1 0 0]) (startOf corridor []) (goalOf corridor []) 20 ∧
    okOf (h.env.getCoord h.env.startId) = some (startOf corridor []) ∧ okOf (h.goalHeur h.env.startId) = some 1000000000 := by
  have hs : HSetup corridor 1 := by
    refine ⟨⟨by decide, ?_⟩, by norm_num, by norm_num [corridor], by decide⟩
    intro m hm
    simp only [corridor, List.mem_cons, List.not_mem_nil, or_false] at hm
    subst hm; decide
  obtain ⟨h, h1, h2⟩ := tryH_ok (s := corridor) (vel := 1) (ops := [.ensure true, .call (.updateCost 1 0 0)]) (f := fun h =>
    decide (okOf (h.env.getCoord h.env.startId) = some (startOf corridor [])) && (decide (okOf (h.goalHeur h.env.startId) = some 1000000000) &&
    (decide (h.env.cfg.succAct (0, 0, 0) (mkAct corridor.cs corridor.foot 0 ⟨0, 1, 0, 0, [(0, 0, 0), (1/100, 0, 0)], 10, none⟩) = some ((1, 0, 0), 10)) &&
    decide (h.env.cfg.succAct (1, 0, 0) (mkAct corridor.cs corridor.foot 0 ⟨0, 1, 0, 0, [(0, 0, 0), (1/100, 0, 0)], 10, none⟩) = some ((2, 0, 0), 10)))))
    hs (by intro op ho; simp at ho; subst ho; trivial) (by decide +kernel)
  simp only [Bool.and_eq_true, decide_eq_true_iff] at h2
  refine ⟨h, h1, ?_, ?_, ?_, h2.1, h2.2.1⟩
  · intro m hm
    simp only [corridor, List.mem_cons, List.not_mem_nil, or_false] at hm
    subst hm; norm_num [corridor]
  · intro m hm
    simp only [corridor, List.mem_cons, List.not_mem_nil, or_false] at hm
    subst hm
    obtain ⟨a, b⟩ := one_move (s := corridor) (m := ⟨0, 1, 0, 0, [(0, 0, 0), (1/100, 0, 0)], 10, none⟩) (l := 10) (by decide +kernel) (by decide +kernel) (by decide +kernel)
    exact ⟨10, b, by norm_num⟩
  · have w1 := LWalk.snoc (s := corridor) (grid := costs corridor [.updateCost 1 0 0]) (p := (0, 0, 0)) (b := (0, 0, 0)) (t := (1, 0, 0)) (n := 0) (c := 10) _ .nil
      (edge_of h1 (by simp [corridor]) rfl h2.2.2.1)
    have w2 := w1.snoc _ (edge_of h1 (by simp [corridor]) rfl h2.2.2.2)
    exact w2

/-- one heading, one primitive: diagonally backwards, on cells of 10 mm, at velocity 0.1; only the diagonal of the map is free -/
def diagonal : Setup :=
  { W := 9, H := 9, T := 1, cs := 1/100, obs := 254, inscr := 253, circ := 1, poly := false, foot := pointFoot (1/100),
    prims := [⟨0, -1, -1, 0, [(0, 0, 0), (-1/100, -1/100, 0)], 142, none⟩], map := fun i => if i % 9 = i / 9 then 0 else 254, start := (8, 8, 0), goal := (0, 0, 0) }

/-- **C57.** For a velocity that is not a whole number GetGoalHeuristic is not consistent (distances are first rounded to millimetres and then divided): the heuristics of
the ends of a transition of cost 142 are 1130 and 980. -/
theorem slow_inconsistent : ∃ h m, HHist diagonal (1/10) 0 [.ensure true, .call (.getState (7, 7, 0))] h ∧
    UpToDate true [.ensure true, .call (.getState (7, 7, 0))] ∧ NotTooFast diagonal (1/10) ∧ Followable diagonal (1/10) ∧
    Edge diagonal (costs diagonal (calls [.ensure true, .call (.getState (7, 7, 0))])) m (8, 8, 0) (7, 7, 0) 142 ∧
    okOf (h.env.getCoord 0) = some (8, 8, 0) ∧ okOf (h.env.getCoord 2) = some (7, 7, 0) ∧
    okOf (h.goalHeur 0) = some 1130 ∧ okOf (h.goalHeur 2) = some 980 := by
  have hs : HSetup diagonal (1/10) := by
    refine ⟨⟨by decide, ?_⟩, by norm_num, by norm_num [diagonal], by decide⟩
    intro m hm
    simp only [diagonal, List.mem_cons, List.not_mem_nil, or_false] at hm
    subst hm; decide
  obtain ⟨h, h1, h2⟩ := tryH_ok (s := diagonal) (vel := 1/10) (ops := [.ensure true, .call (.getState (7, 7, 0))]) (f := fun h =>
    decide (okOf (h.env.getCoord 0) = some (8, 8, 0) ∧ okOf (h.env.getCoord 2) = some (7, 7, 0) ∧
      okOf (h.goalHeur 0) = some 1130 ∧ okOf (h.goalHeur 2) = some 980) &&
    decide (h.env.cfg.succAct (8, 8, 0) (mkAct diagonal.cs diagonal.foot 0 ⟨0, -1, -1, 0, [(0, 0, 0), (-1/100, -1/100, 0)], 142, none⟩) = some ((7, 7, 0), 142)))
    hs (by intro op ho; simp at ho; subst ho; exact ⟨by decide, by decide, by decide⟩) (by decide +kernel)
  simp only [Bool.and_eq_true, decide_eq_true_iff] at h2
  refine ⟨h, _, h1, ⟨[], [.call (.getState (7, 7, 0))], rfl, ?_⟩, ?_, ?_, edge_of h1 (m := ⟨0, -1, -1, 0, [(0, 0, 0), (-1/100, -1/100, 0)], 142, none⟩)
    (by simp [diagonal]) rfl h2.2, h2.1⟩
  · intro op ho; simp at ho; subst ho; exact id
  · intro m hm
    simp only [diagonal, List.mem_cons, List.not_mem_nil, or_false] at hm
    subst hm; norm_num [diagonal]
  · intro m hm
    simp only [diagonal, List.mem_cons, List.not_mem_nil, or_false] at hm
    subst hm
    obtain ⟨a, b⟩ := one_move (s := diagonal) (m := ⟨0, -1, -1, 0, [(0, 0, 0), (-1/100, -1/100, 0)], 142, none⟩) (l := 14) (by decide +kernel) (by decide +kernel)
      (by decide +kernel)
    exact ⟨14, b, by norm_num⟩

end Sbpl.XHeurProps
