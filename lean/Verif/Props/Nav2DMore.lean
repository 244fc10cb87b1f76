import Verif.Proofs.Nav2DHeur
import Verif.Props.Nav2D
/-! # Properties of `EnvironmentNAV2D`, continued: heuristic, changed edges, safety -/

namespace Sbpl.Nav2DProps
open Sbpl GridSpec StateTable Nav2D

section
variable {W H : Int} {map : Int → Nat} {s g : Int × Int} {obs : Nat} {is16 : Bool} {ops : List NavOp} {st : Nav2D}

/-! ## C16, negative part -/

/-- **C16, limits** On a 3 × 3 map with an obstacle in cell (0, 0) (the start) and the goal in (2, 2):
`GetSuccs(start)` lists cell (1, 1) but `GetPreds` of (1, 1) does not list the start; and `GetPreds` of (1, 1) lists the
goal although `GetSuccs(goal)` is empty. -/
theorem preds_not_dual_for_obstacles_and_goal :
    ∃ (st : Nav2D) (b : Nat) (ls lp : List (Nat × Nat)) (st1 st2 : Nav2D),
      Hist 3 3 (fun i => if i = 0 then 1 else 0) (0, 0) (2, 2) 1 false [.getState 1 1] st ∧
      st.getCoord b = .ok (1, 1) ∧ st.startId ≠ st.goalId ∧
      st.getSuccs st.startId = .ok (st1, ls) ∧ (b, 1414) ∈ ls ∧
      st.getPreds b = .ok (st2, lp) ∧ st.startId ∉ lp.map Prod.fst ∧
      (st.goalId, 1414) ∈ lp ∧ st.getSuccs st.goalId = .ok (st, []) := by
  refine ⟨_, 2, _, _, _, _, ⟨_, rfl, rfl⟩, rfl, ?_, rfl, ?_, rfl, ?_, ?_, rfl⟩ <;> decide +kernel

/-! ## C17: heuristic -/

theorem fromToHeur_ok {a b : Nat} {p q : Int × Int} (ha : st.getCoord a = .ok p) (hb : st.getCoord b = .ok q) :
    st.fromToHeur a b = .ok (eucl p q) := by
  unfold fromToHeur; rw [ha, hb]

/-- **C17a** The heuristic is symmetric, zero at its target, and the straight-line distance (1000 mm per cell) rounded
down; in particular the goal heuristic of the goal is 0. -/
theorem heuristic_value (h : Hist W H map s g obs is16 ops st) {a b : Nat} {p q : Int × Int}
    (ha : st.getCoord a = .ok p) (hb : st.getCoord b = .ok q) :
    ∃ v, st.fromToHeur a b = .ok v ∧ st.fromToHeur b a = .ok v ∧ IsLength (p.1 - q.1) (p.2 - q.2) v ∧
      st.goalHeur st.goalId = .ok 0 ∧ st.startHeur st.startId = .ok 0 := by
  refine ⟨eucl p q, fromToHeur_ok ha hb, ?_, ?_, ?_, ?_⟩
  · rw [fromToHeur_ok hb ha, eucl_comm]
  · exact eucl_sq p q
  · have := (start_goal_ids h).2
    unfold goalHeur
    rw [fromToHeur_ok this this]
    simp [eucl]
  · have := (start_goal_ids h).1
    unfold startHeur
    rw [fromToHeur_ok this this]
    simp [eucl]

/-- **C17b** Along every edge `a → b` of cost `c` the goal heuristic drops by at most `c + 1`, and by at most
`(1415 / 1414) * c`. -/
theorem heuristic_nearly_consistent (h : Hist W H map s g obs is16 ops st) {a b : Nat} {p q : Int × Int} {c : Nat}
    (ha : st.getCoord a = .ok p) (hb : st.getCoord b = .ok q) (he : Edge W H st.cfg.grid obs is16 p q c) :
    ∃ va vb, st.goalHeur a = .ok va ∧ st.goalHeur b = .ok vb ∧ va ≤ vb + c + 1 ∧ 1414 * va ≤ 1414 * vb + 1415 * c := by
  have hg := (start_goal_ids h).2
  refine ⟨_, _, fromToHeur_ok ha hg, fromToHeur_ok hb hg, ?_⟩
  have := heur_edge he st.cfg.goal
  exact ⟨this.1, this.2.1⟩

/-- **C17c** The heuristic overestimates the cost `n` of a walk to the goal at most by the factor
`1000 * sqrt 2 / 1414 = 1.000151`: `1414² * va² ≤ 2 * 1000² * n²`. -/
theorem heuristic_nearly_admissible (h : Hist W H map s g obs is16 ops st) {a : Nat} {p : Int × Int} {n : Nat}
    (ha : st.getCoord a = .ok p) (w : GridWalk W H st.cfg.grid obs is16 p st.cfg.goal n) :
    ∃ va : Nat, st.goalHeur a = .ok va ∧ (1414 * va) * (1414 * va) ≤ 2 * (1000 * n) * (1000 * n) := by
  have hg := (start_goal_ids h).2
  refine ⟨_, fromToHeur_ok ha hg, ?_⟩
  have h1 := walk_dist w
  have h2 := (eucl_sq p st.cfg.goal).1
  have : ((1414 * eucl p st.cfg.goal : Nat) : Int) * (1414 * eucl p st.cfg.goal : Nat) ≤ ((2 * (1000 * n) * (1000 * n) : Nat) : Int) := by
    push_cast
    nlinarith
  exact_mod_cast this

/-- **C17, refuted** The heuristic is not admissible (hence not consistent): on an empty 6 × 6 map the goal heuristic
of (0, 0) for goal (5, 5) is 7071, but there is a path of cost 7070. -/
theorem heuristic_not_admissible :
    ∃ st, Hist 6 6 (fun _ => 0) (0, 0) (5, 5) 1 false [] st ∧ st.getCoord st.startId = .ok (0, 0) ∧
      st.goalHeur st.startId = .ok 7071 ∧ GridWalk 6 6 st.cfg.grid 1 false (0, 0) st.cfg.goal 7070 := by
  refine ⟨_, ⟨_, rfl, rfl⟩, rfl, by decide +kernel, ?_⟩
  have e : ∀ i : Int, 0 ≤ i → i < 5 → Edge 6 6 (fun x y => (fun _ => 0) (x + y * 6)) 1 false (i, i) (i + 1, i + 1) 1414 := by
    intro i h1 h2
    refine (succG_edge (c := ⟨6, 6, 1, fun x y => (fun _ => 0) (x + y * 6), 8, (0, 0), (5, 5)⟩) (x := i) (y := i) rfl
      ⟨h1, by show i < 6; omega, h1, by show i < 6; omega⟩).mp ?_
    rw [List.mem_filterMap]
    refine ⟨⟨1, 1, (0, 1), (1, 0), true⟩, by decide, ?_⟩
    simp [NavCfg.succG, NavCfg.foldMax, Act.extras, NavCfg.within, Act.dist]
    omega
  have w0 : GridWalk 6 6 (fun x y => (fun _ => 0) (x + y * 6)) 1 false (0, 0) (0, 0) 0 := .nil
  exact ((((w0.snoc (e 0 (by decide) (by decide))).snoc (e 1 (by decide) (by decide))).snoc
    (e 2 (by decide) (by decide))).snoc (e 3 (by decide) (by decide))).snoc (e 4 (by decide) (by decide))

/-! ## C18: changed edges -/

theorem mem_changedNbrs (x y : Int) : ∀ (as : List Act) (st : Nav2D), TInv hash st.tab →
    ∀ a ∈ as, InMap st.cfg.W st.cfg.H (x + a.dx) (y + a.dy) →
      ∃ i ∈ (st.changedNbrs x y as).2, (st.changedNbrs x y as).1.tab.coord i = some (x + a.dx, y + a.dy)
  | [], st, _, a, ha, _ => by simp at ha
  | b :: as, st, hi, a, ha, hm => by
    rw [changedNbrs]
    split
    · next hout =>
      rcases List.mem_cons.mp ha with rfl | ha
      · unfold InMap at hm; omega
      · exact mem_changedNbrs x y as st hi a ha hm
    · have hx := changedNbrs_inv x y as _ (getState_inv hi (x + b.dx, y + b.dy))
      rcases List.mem_cons.mp ha with rfl | ha
      · exact ⟨_, List.mem_cons_self, coord_prefix hx.2.pre (getState_coord hi _)⟩
      · obtain ⟨i, h1, h2⟩ := mem_changedNbrs x y as _ (getState_inv hi (x + b.dx, y + b.dy)) a ha hm
        exact ⟨i, List.mem_cons_of_mem _ h1, h2⟩

theorem mem_changedEdges : ∀ (cs : List (Int × Int)) (st : Nav2D), TInv hash st.tab → ∀ k ∈ cs,
    (∃ i ∈ (st.changedEdges cs).2, (st.changedEdges cs).1.tab.coord i = some k) ∧
    ∀ a ∈ st.cfg.acts, InMap st.cfg.W st.cfg.H (k.1 + a.dx) (k.2 + a.dy) →
      ∃ i ∈ (st.changedEdges cs).2, (st.changedEdges cs).1.tab.coord i = some (k.1 + a.dx, k.2 + a.dy)
  | [], st, _, k, hk => by simp at hk
  | (x, y) :: cs, st, hi, k, hk => by
    have h0 := getState_inv hi (x, y)
    have h1 := changedNbrs_inv x y (st.getState (x, y)).1.cfg.acts _ h0
    have h2 := changedEdges_inv cs _ h1.1
    rcases List.mem_cons.mp hk with rfl | hk
    · refine ⟨⟨(st.getState (x, y)).2, List.mem_cons_self, ?_⟩, ?_⟩
      · exact coord_prefix h2.2.pre (coord_prefix h1.2.pre (getState_coord hi _))
      · intro a ha hm
        obtain ⟨i, q1, q2⟩ := mem_changedNbrs x y (st.getState (x, y)).1.cfg.acts _ h0 a ha hm
        refine ⟨i, List.mem_cons_of_mem _ (List.mem_append_left _ q1), coord_prefix h2.2.pre q2⟩
    · obtain ⟨⟨i, a1, a2⟩, b⟩ := mem_changedEdges cs _ h1.1 k hk
      refine ⟨⟨i, List.mem_cons_of_mem _ (List.mem_append_right _ a1), a2⟩, ?_⟩
      intro a ha hm
      have ec : ((st.getState (x, y)).1.changedNbrs x y (st.getState (x, y)).1.cfg.acts).1.cfg = st.cfg := h1.2.cfg
      obtain ⟨j, q1, q2⟩ := b a (by rw [ec]; exact ha) (by rw [ec]; exact hm)
      exact ⟨j, List.mem_cons_of_mem _ (List.mem_append_right _ q1), q2⟩

/-- from every cell a move crosses, its source is one move away -/
theorem back_move : ∀ is16, ∀ a ∈ navActs.take (dirsOf is16), ∀ e ∈ (a.dx, a.dy) :: a.extras,
    ∃ b ∈ navActs.take (dirsOf is16), b.dx = -e.1 ∧ b.dy = -e.2 := by
  unfold dirsOf; decide

theorem reported {cs : List (Int × Int)} {id : Nat} {p : Int × Int} (i : NInv st) (hd : st.cfg.dirs = dirsOf is16)
    (hp : st.tab.coord id = some p) (hin : InMap st.cfg.W st.cfg.H p.1 p.2) {a : Act} (ha : a ∈ st.cfg.acts)
    {e : Int × Int} (he : e = (0, 0) ∨ e ∈ (a.dx, a.dy) :: a.extras) (hk : (p.1 + e.1, p.2 + e.2) ∈ cs) :
    id ∈ (st.changedEdges cs).2 := by
  have hI := changedEdges_inv cs st i.tab
  obtain ⟨h1, h2⟩ := mem_changedEdges cs st i.tab _ hk
  have fin : ∀ j, j ∈ (st.changedEdges cs).2 → (st.changedEdges cs).1.tab.coord j = some p → id ∈ (st.changedEdges cs).2 := by
    intro j hj hc
    rw [coord_inj hI.1 (coord_prefix hI.2.pre hp) hc]; exact hj
  rcases he with rfl | he
  · obtain ⟨j, hj, hc⟩ := h1
    exact fin j hj (by simpa using hc)
  · rw [acts_eq hd] at ha
    obtain ⟨b, hb, e1, e2⟩ := back_move is16 a ha e he
    have q1 : p.1 + e.1 + b.dx = p.1 := by omega
    have q2 : p.2 + e.2 + b.dy = p.2 := by omega
    obtain ⟨j, hj, hc⟩ := h2 b (by rw [acts_eq hd]; exact hb) (by simp only [q1, q2]; exact hin)
    simp only [q1, q2] at hc
    exact fin j hj hc

theorem foldMax_congr {c c' : NavCfg} {x y : Int} {l : List (Int × Int)} {b : Nat}
    (h : ∀ e ∈ l, c.grid (x + e.1) (y + e.2) = c'.grid (x + e.1) (y + e.2)) : c.foldMax x y l b = c'.foldMax x y l b := by
  unfold NavCfg.foldMax
  induction l generalizing b with
  | nil => rfl
  | cons e l ih =>
    rw [List.foldl_cons, List.foldl_cons, h e (by simp)]
    exact ih (fun e' he' => h e' (by simp [he']))

theorem filterMap_congr' {α β : Type} {f f' : α → Option β} {l : List α} (h : ∀ a ∈ l, f a = f' a) :
    l.filterMap f = l.filterMap f' := by
  induction l with
  | nil => rfl
  | cons a l ih => rw [List.filterMap_cons, List.filterMap_cons, h a (by simp), ih (fun b hb => h b (by simp [hb]))]

/-- equal decoded lists are equal ID lists -/
theorem ids_eq {sa sb : Nav2D} {l1 l2 : List (Nat × Nat)} {r : List ((Int × Int) × Nat)}
    (hb : TInv hash sb.tab) (pre : sa.tab.table <+: sb.tab.table)
    (h1 : l1.map (fun p => (sa.tab.coord p.1, p.2)) = r.map (fun p => (some p.1, p.2)))
    (h2 : l2.map (fun p => (sb.tab.coord p.1, p.2)) = r.map (fun p => (some p.1, p.2))) : l1 = l2 := by
  induction r generalizing l1 l2 with
  | nil => simp at h1 h2; rw [h1, h2]
  | cons q r ih =>
    cases l1 with
    | nil => simp at h1
    | cons a l1 =>
      cases l2 with
      | nil => simp at h2
      | cons b l2 =>
        simp only [List.map_cons, List.cons.injEq, Prod.mk.injEq] at h1 h2
        rw [ih h1.2 h2.2]
        congr 1
        exact Prod.ext (coord_inj hb (coord_prefix pre h1.1.1) h2.1.1) (h1.1.2.trans h2.1.2.symm)

/-- **C18, outgoing edges** Compare `GetSuccs(id)` at two moments of any history.  If the answers differ (in any ID or
cost), then `id` is among the states reported by GetPredsofChangedEdges at the second moment for any list of cells that
contains all cells whose cost differs between the two moments. -/
theorem changed_succs_reported (h : Hist W H map s g obs is16 ops st) {id : Nat} {p : Int × Int}
    (hp : st.getCoord id = .ok p) (hin : InMap W H p.1 p.2) (hg1 : id ≠ st.goalId)
    {sa : Nav2D} {l1 : List (Nat × Nat)} (hs1 : st.getSuccs id = .ok (sa, l1))
    {ops' : List NavOp} {st2 : Nav2D} (hr : sa.run ops' = some st2) (hg2 : id ≠ st2.goalId)
    {sb : Nav2D} {l2 : List (Nat × Nat)} (hs2 : st2.getSuccs id = .ok (sb, l2))
    {cs : List (Int × Int)} (hcs : ∀ x y, InMap W H x y → st.cfg.grid x y ≠ st2.cfg.grid x y → (x, y) ∈ cs)
    (hne : l1 ≠ l2) : id ∈ (st2.changedEdges cs).2 := by
  obtain ⟨i, eW, eH, eo, ed⟩ := h.inv
  have hpc := getCoord_ok.mp hp
  have hin1 : InMap st.cfg.W st.cfg.H p.1 p.2 := by rw [eW, eH]; exact hin
  obtain ⟨sa', l1', q1, ta, ea, m1⟩ := getSuccs_spec i hg1 hpc hin1
  rw [hs1] at q1; cases q1
  have ia : NInv sa := i.ext ea ta
  obtain ⟨i2, sm⟩ := run_inv ops' ia hr
  have s12 : Same st st2 := ea.same.trans sm
  have hpc2 := coord_prefix s12.pre hpc
  have hin2 : InMap st2.cfg.W st2.cfg.H p.1 p.2 := by rw [s12.W, s12.H]; exact hin1
  obtain ⟨sb', l2', q2, tb, eb, m2⟩ := getSuccs_spec i2 hg2 hpc2 hin2
  rw [hs2] at q2; cases q2
  by_contra hno
  apply hne
  have ed2 : st2.cfg.dirs = dirsOf is16 := by rw [s12.dirs, ed]
  have acts_eq' : st2.cfg.acts = st.cfg.acts := by rw [acts_eq ed2, acts_eq ed]
  have key : ∀ a ∈ st.cfg.acts, ∀ e ∈ (a.dx, a.dy) :: a.extras, InMap W H (p.1 + e.1) (p.2 + e.2) →
      st.cfg.grid (p.1 + e.1) (p.2 + e.2) = st2.cfg.grid (p.1 + e.1) (p.2 + e.2) := by
    intro a ha e he hm
    by_contra hd
    exact hno (reported i2 ed2 hpc2 hin2 (by rw [acts_eq']; exact ha) (.inr he) (hcs _ _ hm hd))
  have hG : st.cfg.acts.filterMap (st.cfg.succG p.1 p.2) = st2.cfg.acts.filterMap (st2.cfg.succG p.1 p.2) := by
    rw [acts_eq']
    apply filterMap_congr'
    intro a ha
    have hw : st2.cfg.within (p.1 + a.dx) (p.2 + a.dy) = st.cfg.within (p.1 + a.dx) (p.2 + a.dy) := by
      unfold NavCfg.within; rw [s12.W, s12.H]
    unfold NavCfg.succG
    rw [hw]
    by_cases hwt : st.cfg.within (p.1 + a.dx) (p.2 + a.dy) = true
    · have ht := NavCfg.within_iff.mp hwt
      have ex := NavCfg.extras_within (NavCfg.acts_sub a ha) hin1 ht
      rw [eW, eH] at ht ex
      have g0 := key a ha (a.dx, a.dy) (by simp) ht
      simp only at g0
      rw [g0, foldMax_congr (c := st.cfg) (c' := st2.cfg) (fun e he => key a ha e (List.mem_cons_of_mem _ he) (ex e he)), s12.obs]
    · rw [if_neg (fun h => hwt h.1), if_neg (fun h => hwt h.1)]
  rw [hG] at m1
  exact ids_eq tb (sm.pre.trans eb.pre) m1 m2

/-- **C18, incoming edges** The same for `GetPreds` and GetSuccsofChangedEdges. -/
theorem changed_preds_reported (h : Hist W H map s g obs is16 ops st) {id : Nat} {p : Int × Int}
    (hp : st.getCoord id = .ok p) (hin : InMap W H p.1 p.2)
    {sa : Nav2D} {l1 : List (Nat × Nat)} (hs1 : st.getPreds id = .ok (sa, l1))
    {ops' : List NavOp} {st2 : Nav2D} (hr : sa.run ops' = some st2)
    {sb : Nav2D} {l2 : List (Nat × Nat)} (hs2 : st2.getPreds id = .ok (sb, l2))
    {cs : List (Int × Int)} (hcs : ∀ x y, InMap W H x y → st.cfg.grid x y ≠ st2.cfg.grid x y → (x, y) ∈ cs)
    (hne : l1 ≠ l2) : id ∈ (st2.changedEdges cs).2 := by
  obtain ⟨i, eW, eH, eo, ed⟩ := h.inv
  have hpc := getCoord_ok.mp hp
  have hin1 : InMap st.cfg.W st.cfg.H p.1 p.2 := by rw [eW, eH]; exact hin
  obtain ⟨sa', l1', q1, ta, ea, m1⟩ := getPreds_spec i hpc hin1
  rw [hs1] at q1; cases q1
  have ia : NInv sa := i.ext ea ta
  obtain ⟨i2, sm⟩ := run_inv ops' ia hr
  have s12 : Same st st2 := ea.same.trans sm
  have hpc2 := coord_prefix s12.pre hpc
  have hin2 : InMap st2.cfg.W st2.cfg.H p.1 p.2 := by rw [s12.W, s12.H]; exact hin1
  obtain ⟨sb', l2', q2, tb, eb, m2⟩ := getPreds_spec i2 hpc2 hin2
  rw [hs2] at q2; cases q2
  by_contra hno
  apply hne
  have ed2 : st2.cfg.dirs = dirsOf is16 := by rw [s12.dirs, ed]
  have acts_eq' : st2.cfg.acts = st.cfg.acts := by rw [acts_eq ed2, acts_eq ed]
  have key : ∀ a ∈ st.cfg.acts, ∀ e, e = (0, 0) ∨ e ∈ (a.dx, a.dy) :: a.extras → InMap W H (p.1 + e.1) (p.2 + e.2) →
      st.cfg.grid (p.1 + e.1) (p.2 + e.2) = st2.cfg.grid (p.1 + e.1) (p.2 + e.2) := by
    intro a ha e he hm
    by_contra hd
    exact hno (reported i2 ed2 hpc2 hin2 (by rw [acts_eq']; exact ha) he (hcs _ _ hm hd))
  have hself : st.cfg.grid p.1 p.2 = st2.cfg.grid p.1 p.2 := by
    have ha : (⟨1, 1, (0, 1), (1, 0), true⟩ : Act) ∈ st.cfg.acts := by
      rw [acts_eq ed]; cases is16 <;> decide
    have := key _ ha (0, 0) (.inl rfl) (by simpa using hin)
    simpa using this
  have hG : st.cfg.acts.filterMap (st.cfg.predG p.1 p.2) = st2.cfg.acts.filterMap (st2.cfg.predG p.1 p.2) := by
    rw [acts_eq']
    apply filterMap_congr'
    intro a ha
    have hw : st2.cfg.within (p.1 + a.dx) (p.2 + a.dy) = st.cfg.within (p.1 + a.dx) (p.2 + a.dy) := by
      unfold NavCfg.within; rw [s12.W, s12.H]
    have htb : st2.cfg.testBounds p.1 p.2 = st.cfg.testBounds p.1 p.2 := by
      unfold NavCfg.testBounds; rw [s12.W, s12.H]
    unfold NavCfg.predG
    rw [hw, htb]
    by_cases hwt : st.cfg.within (p.1 + a.dx) (p.2 + a.dy) = true
    · have ht := NavCfg.within_iff.mp hwt
      have ex := NavCfg.extras_within (NavCfg.acts_sub a ha) hin1 ht
      rw [eW, eH] at ht ex
      have g0 := key a ha (a.dx, a.dy) (.inr (by simp)) ht
      simp only at g0
      rw [g0, hself, foldMax_congr (c := st.cfg) (c' := st2.cfg)
        (fun e he => key a ha e (.inr (List.mem_cons_of_mem _ he)) (ex e he)), s12.obs]
    · rw [if_neg (fun h => hwt h.1), if_neg (fun h => hwt h.1)]
  rw [hself, ← s12.obs, hG] at m1
  split at m1 <;> rename_i hc
  · rw [if_pos hc] at m2
    simp at m1 m2
    rw [m1, m2]
  · rw [if_neg hc] at m2
    exact ids_eq tb (sm.pre.trans eb.pre) m1 m2

/-! ## C30: no access outside the map -/

/-- calls whose coordinates are in the map and whose IDs exist; `SetStart`/`SetGoal` check their arguments themselves -/
def SafeOp (W H : Int) (st : Nav2D) : NavOp → Prop
  | .getState x y => InMap W H x y
  | .getSuccs id => id < st.tab.size
  | .getPreds id => id < st.tab.size
  | .setStart _ _ => True
  | .setGoal _ _ => True
  | .updateCost x y _ => InMap W H x y
  | .changedEdges cs => ∀ k ∈ cs, InMap W H k.1 k.2

/-- every call of the list is a `SafeOp` in the state it is made -/
def SafeCalls (W H : Int) : Nav2D → List NavOp → Prop
  | _, [] => True
  | st, op :: ops => SafeOp W H st op ∧ ∀ st', st.step op = some st' → SafeCalls W H st' ops

/-- all states are map cells -/
def AllIn (W H : Int) (st : Nav2D) : Prop := ∀ i k, st.tab.coord i = some k → InMap W H k.1 k.2

theorem getState_allIn {k : Int × Int} (i : TInv hash st.tab) (h : AllIn W H st) (hk : InMap W H k.1 k.2) :
    AllIn W H (st.getState k).1 := by
  intro j q hq
  have hq' : (StateTable.getId hash st.tab k).1.coord j = some q := hq
  unfold StateTable.getId at hq'
  split at hq'
  · exact h j q hq'
  · simp only [StateTable.create, StateTable.coord] at hq'
    rw [Option.map_eq_some_iff] at hq'
    obtain ⟨e, he, rfl⟩ := hq'
    rcases List.mem_append.mp (List.mem_of_getElem? he) with hm | hm
    · exact h e.id e.coord (coord_of_mem i hm)
    · rw [List.mem_singleton] at hm; subst hm; exact hk

theorem actLoop_allIn {f : Act → Except EnvErr (Option ((Int × Int) × Nat))}
    (hf : ∀ a k c, f a = .ok (some (k, c)) → InMap W H k.1 k.2) :
    ∀ (as : List Act) (st : Nav2D) {st' l}, TInv hash st.tab → AllIn W H st → actLoop f as st = .ok (st', l) → AllIn W H st'
  | [], st, st', l, _, ha, h => by cases h; exact ha
  | a :: as, st, st', l, hi, ha, h => by
    rw [actLoop] at h
    split at h
    · cases h
    · exact actLoop_allIn hf as st hi ha h
    · next k cost hk =>
      split at h
      · cases h
      · next s l' q =>
        cases h
        exact actLoop_allIn hf as _ (getState_inv hi k) (getState_allIn hi ha (hf a k cost hk)) q

theorem changedNbrs_allIn (x y : Int) : ∀ (as : List Act) (st : Nav2D), st.cfg.W = W → st.cfg.H = H →
    TInv hash st.tab → AllIn W H st → AllIn W H (st.changedNbrs x y as).1
  | [], st, _, _, _, ha => ha
  | a :: as, st, eW, eH, hi, ha => by
    rw [changedNbrs]
    split
    · exact changedNbrs_allIn x y as st eW eH hi ha
    · next hn =>
      exact changedNbrs_allIn x y as _ eW eH (getState_inv hi _) (getState_allIn hi ha (by
        unfold InMap; simp only; omega))

theorem changedEdges_allIn : ∀ (cs : List (Int × Int)) (st : Nav2D), st.cfg.W = W → st.cfg.H = H →
    TInv hash st.tab → AllIn W H st → (∀ k ∈ cs, InMap W H k.1 k.2) → AllIn W H (st.changedEdges cs).1
  | [], st, _, _, _, ha, _ => ha
  | (x, y) :: cs, st, eW, eH, hi, ha, hc => by
    have h1 := changedNbrs_inv x y (st.getState (x, y)).1.cfg.acts _ (getState_inv hi (x, y))
    have a1 := changedNbrs_allIn (W := W) (H := H) x y (st.getState (x, y)).1.cfg.acts (st.getState (x, y)).1 eW eH (getState_inv hi (x, y))
      (getState_allIn hi ha (hc (x, y) (by simp)))
    exact changedEdges_allIn cs _ (by rw [h1.2.cfg]; exact eW) (by rw [h1.2.cfg]; exact eH) h1.1 a1
      (fun k hk => hc k (by simp [hk]))

theorem step_safe {op : NavOp} (i : NInv st) (eW : st.cfg.W = W) (eH : st.cfg.H = H) (ha : AllIn W H st)
    (hs : SafeOp W H st op) : ∃ st', st.step op = some st' ∧ AllIn W H st' := by
  cases op with
  | getState x y => exact ⟨_, rfl, getState_allIn i.tab ha hs⟩
  | getSuccs id =>
    obtain ⟨k, hk⟩ := Option.ne_none_iff_exists'.mp (coord_lt.mpr hs)
    by_cases hg : id = st.goalId
    · refine ⟨st, ?_, ha⟩
      simp only [step, getSuccs, if_pos hg]
    · have hin := ha _ _ hk
      rw [← eW, ← eH] at hin
      obtain ⟨st', l, h1, _, _, _⟩ := getSuccs_spec i hg hk hin
      refine ⟨st', by simp only [step, h1], ?_⟩
      unfold getSuccs at h1
      rw [if_neg hg, getCoord_ok.mpr hk] at h1
      refine actLoop_allIn ?_ _ _ i.tab ha h1
      intro a k' c hf
      by_cases hma : a ∈ navActs
      · rw [NavCfg.succAct_eq hma hin] at hf
        simp only [Except.ok.injEq] at hf
        unfold NavCfg.succG at hf
        split at hf
        · next hc => cases hf; rw [← eW, ← eH]; exact NavCfg.within_iff.mp hc.1
        · cases hf
      · unfold NavCfg.succAct at hf
        split at hf
        · cases hf
        · split at hf
          · cases hf
          · next t ht =>
            have : InMap st.cfg.W st.cfg.H (k.1 + a.dx) (k.2 + a.dy) := by
              unfold NavCfg.cell at ht
              split at ht
              · next hc => exact hc
              · cases ht
            split at hf
            · cases hf
            · split at hf
              · cases hf
              · cases hf; rw [← eW, ← eH]; exact this
  | getPreds id =>
    obtain ⟨k, hk⟩ := Option.ne_none_iff_exists'.mp (coord_lt.mpr hs)
    have hin := ha _ _ hk
    rw [← eW, ← eH] at hin
    obtain ⟨st', l, h1, t1, e1, h4⟩ := getPreds_spec i hk hin
    refine ⟨st', by simp only [step, h1], ?_⟩
    unfold getPreds at h1
    simp only [getCoord_ok.mpr hk, NavCfg.cell_ok hin] at h1
    split at h1
    · cases h1; exact ha
    · -- only the actions of the table occur
      have key : ∀ (as : List Act) (s0 : Nav2D) {s1 l1}, (∀ a ∈ as, a ∈ navActs) → TInv hash s0.tab → AllIn W H s0 →
          actLoop (st.cfg.predAct k.1 k.2 (st.cfg.grid k.1 k.2)) as s0 = .ok (s1, l1) → AllIn W H s1 := by
        intro as
        induction as with
        | nil => intro s0 s1 l1 _ _ h q; cases q; exact h
        | cons a as ih =>
          intro s0 s1 l1 hm t h q
          rw [actLoop, NavCfg.predAct_eq (hm a (by simp)) hin] at q
          split at q
          · next hh => cases hh
          · exact ih _ (fun b hb => hm b (by simp [hb])) t h q
          · next k' c' hh =>
            split at q
            · cases q
            · next s2 l2 q2 =>
              cases q
              refine ih _ (fun b hb => hm b (by simp [hb])) (getState_inv t k') (getState_allIn t h ?_) q2
              simp only [Except.ok.injEq] at hh
              unfold NavCfg.predG at hh
              split at hh
              · next hc => cases hh; rw [← eW, ← eH]; exact NavCfg.within_iff.mp hc.1
              · cases hh
      exact key _ _ NavCfg.acts_sub i.tab ha h1
  | setStart x y =>
    refine ⟨_, rfl, ?_⟩
    unfold setStart
    split
    · next hw =>
      have := NavCfg.within_iff.mp hw
      rw [eW, eH] at this
      exact getState_allIn i.tab ha this
    · exact ha
  | setGoal x y =>
    refine ⟨_, rfl, ?_⟩
    unfold setGoal
    split
    · next hw =>
      have := NavCfg.within_iff.mp hw
      rw [eW, eH] at this
      exact getState_allIn i.tab ha this
    · exact ha
  | updateCost x y v =>
    have hin : InMap W H x y := hs
    rw [← eW, ← eH] at hin
    refine ⟨{ st with cfg := { st.cfg with grid := fun a b => if a = x ∧ b = y then v else st.cfg.grid a b } }, ?_, ha⟩
    simp only [step, updateCost, NavCfg.cell_ok hin]
  | changedEdges cs => exact ⟨_, rfl, changedEdges_allIn cs st eW eH i.tab ha hs⟩

/-- **C30** If the goal lies in the map, then no sequence of calls with map coordinates and existing IDs ever reads or
writes outside the map or uses a bad ID, and all states ever created are map cells. -/
theorem calls_safe {st0 : Nav2D} (h0 : Nav2D.init W H map s g obs (if is16 then 16 else 8) = .ok st0)
    (hg : InMap W H g.1 g.2) (hs : SafeCalls W H st0 ops) :
    ∃ st, st0.run ops = some st ∧ ∀ id k, st.getCoord id = .ok k → InMap W H k.1 k.2 := by
  obtain ⟨i0, c0⟩ := init_inv h0
  have a0 : AllIn W H st0 := by
    unfold Nav2D.init at h0
    split at h0
    · cases h0
    · split at h0
      · cases h0
      · next n1 n2 =>
        cases h0
        have e0 : AllIn W H ⟨⟨W, H, obs, fun x y => map (x + y * W), 8, s, g⟩, StateTable.empty, 0, 0⟩ := by
          intro j k hk; simp [StateTable.coord, StateTable.empty] at hk
        have e1 := getState_allIn (inv_empty) e0 (k := s) (by unfold InMap; omega)
        exact getState_allIn (inv_getId inv_empty s) e1 hg
  have main : ∀ (ops : List NavOp) (st1 : Nav2D), NInv st1 → st1.cfg.W = W → st1.cfg.H = H → AllIn W H st1 →
      SafeCalls W H st1 ops → ∃ st, st1.run ops = some st ∧ AllIn W H st := by
    intro ops
    induction ops with
    | nil => intro st1 _ _ _ ha _; exact ⟨st1, rfl, ha⟩
    | cons op ops ih =>
      intro st1 i eW eH ha hs
      obtain ⟨st2, h2, a2⟩ := step_safe i eW eH ha hs.1
      obtain ⟨i2, sm⟩ := step_inv i h2
      obtain ⟨st3, h3, a3⟩ := ih st2 i2 (by rw [sm.W, eW]) (by rw [sm.H, eH]) a2 (hs.2 st2 h2)
      exact ⟨st3, by rw [run, h2]; exact h3, a3⟩
  obtain ⟨st, h1, h2⟩ := main ops st0 i0 (by rw [c0]) (by rw [c0]) a0 hs
  exact ⟨st, h1, fun id k hk => h2 id k (getCoord_ok.mp hk)⟩

/-- **C31, refuted** "InitializeEnv checks its arguments": for every map and every goal outside it (and start inside),
initialisation succeeds, and the first `GetPreds` of the goal, as every backward search makes it, reads outside the
map. -/
theorem goal_outside_map_reads_out_of_bounds (hs : InMap W H s.1 s.2) (hg : ¬ InMap W H g.1 g.2) :
    ∃ st, Nav2D.init W H map s g obs (if is16 then 16 else 8) = .ok st ∧ st.getPreds st.goalId = .error .oob := by
  unfold InMap at hs
  have h0 : ∃ st, Nav2D.init W H map s g obs (if is16 then 16 else 8) = .ok st := by
    unfold Nav2D.init
    rw [if_neg (by omega), if_neg (by omega)]
    exact ⟨_, rfl⟩
  obtain ⟨st, hst⟩ := h0
  refine ⟨st, hst, ?_⟩
  obtain ⟨i, c⟩ := init_inv hst
  have hgc := i.goal
  rw [c] at hgc
  unfold getPreds
  rw [getCoord_ok.mpr hgc]
  have : st.cfg.cell g.1 g.2 = .error .oob := by
    unfold NavCfg.cell
    rw [c]
    exact if_neg hg
  simp only [this]

/-- **C31, refuted, second part** "GetStateFromCoord rejects cells outside the map": it creates a state for any
coordinates, and expanding such a state reads outside the map. -/
theorem outside_state_reads_out_of_bounds :
    ∃ st id, Hist 3 3 (fun _ => 0) (0, 0) (2, 2) 1 false [.getState (-1) 0] st ∧ st.getCoord id = .ok (-1, 0) ∧
      st.getSuccs id = .error .oob := by
  refine ⟨_, 2, ⟨_, rfl, rfl⟩, rfl, ?_⟩
  rfl

end

/-! ### Concrete cases -/

/-- C18's hypotheses: raising the cost of (1, 1) changes the successors of (0, 0) -/
example : ∃ st sa l1 st2 sb l2, Hist 4 3 exMap (0, 0) (3, 2) 3 true [] st ∧ st.getCoord 0 = .ok (0, 0) ∧ 0 ≠ st.goalId ∧
    st.getSuccs 0 = .ok (sa, l1) ∧ sa.run [.updateCost 1 1 1] = some st2 ∧ 0 ≠ st2.goalId ∧
    st2.getSuccs 0 = .ok (sb, l2) ∧ l1 ≠ l2 ∧ 0 ∈ (st2.changedEdges [(1, 1)]).2 := by
  refine ⟨_, _, _, _, _, _, ⟨_, rfl, rfl⟩, rfl, ?_, rfl, rfl, ?_, rfl, ?_, ?_⟩ <;> decide +kernel

/-- C30's hypotheses -/
example : ∃ st0, Nav2D.init 4 3 exMap (0, 0) (3, 2) 3 16 = .ok st0 ∧
    SafeCalls 4 3 st0 [.getSuccs 0, .updateCost 1 1 7, .setGoal 9 9, .getPreds 1] := by
  refine ⟨_, rfl, ?_⟩
  refine ⟨by unfold SafeOp; decide +kernel, ?_⟩
  rintro _ ⟨⟩
  refine ⟨by unfold SafeOp InMap; decide, ?_⟩
  rintro _ ⟨⟩
  refine ⟨trivial, ?_⟩
  rintro _ ⟨⟩
  exact ⟨by unfold SafeOp; decide +kernel, fun _ _ => trivial⟩

end Sbpl.Nav2DProps
