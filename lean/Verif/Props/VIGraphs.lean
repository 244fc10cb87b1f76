import Verif.Props.VIAny
import Verif.Props.Nav2DARA
import Verif.Props.XYTARA
import Verif.Props.AdjList
/-!
# C161, C162: SetAllActionsandAllOutcomes of the grid, lattice and adjacency list environments, and the value iteration planner on them
-/

namespace Sbpl.VIGraphProps
open MDP VI VIProps VIAnyProps GraphSpec PlannerSpec

/-- the one certain outcome of an edge -/
def sureOut (t c : Nat) : List (Int × Int × ℚ) := [((t : Int), (c : Int), (1 : ℚ))]

/-! ## The actions are the successors -/

section nav
open Nav2D Nav2DProps GridSpec

theorem nav_outcomeLoop {f : Act → Except EnvErr (Option ((Int × Int) × Nat))} : ∀ {as : List Act} {i : Nat} {st : Nav2D},
    (∀ e, actLoop f as st = .error e → Nav2D.outcomeLoop f i as st = .error e) ∧
    ∀ st' l, actLoop f as st = .ok (st', l) → ∃ la, Nav2D.outcomeLoop f i as st = .ok (st', la) ∧ la.map (fun a => a.outs) = l.map (fun e => sureOut e.1 e.2) ∧
      (la.map (fun a => a.id)).Pairwise (· < ·) ∧ ∀ a ∈ la, (i : Int) ≤ a.id ∧ a.id < i + as.length
  | [], i, st => by
    refine ⟨fun e h => (by cases h), fun st' l h => ?_⟩
    cases h
    exact ⟨[], rfl, rfl, .nil, fun a ha => by cases ha⟩
  | a :: as, i, st => by
    rw [actLoop, Nav2D.outcomeLoop]
    cases f a with
    | error e => exact ⟨fun e' h => (by cases h; rfl), fun _ _ h => (by cases h)⟩
    | ok o =>
      cases o with
      | none =>
        obtain ⟨h1, h2⟩ := nav_outcomeLoop (f := f) (as := as) (i := i + 1) (st := st)
        refine ⟨h1, fun st' l h => ?_⟩
        obtain ⟨la, k1, k2, k3, k4⟩ := h2 st' l h
        refine ⟨la, k1, k2, k3, fun x hx => ?_⟩
        have := k4 x hx
        simp only [List.length_cons] at this ⊢
        push_cast at this ⊢
        omega
      | some kc =>
        obtain ⟨k, cost⟩ := kc
        obtain ⟨h1, h2⟩ := nav_outcomeLoop (f := f) (as := as) (i := i + 1) (st := (st.getState k).1)
        dsimp only
        cases hL : actLoop f as (st.getState k).1 with
        | error e =>
          rw [h1 e hL]
          exact ⟨fun e' h => (by cases h; rfl), fun _ _ h => (by cases h)⟩
        | ok r =>
          obtain ⟨st1, l1⟩ := r
          obtain ⟨la, k1, k2, k3, k4⟩ := h2 st1 l1 hL
          refine ⟨fun e' h => (by cases h), fun st' l h => ?_⟩
          cases h
          rw [k1]
          refine ⟨_, rfl, ?_, ?_, ?_⟩
          · rw [List.map_cons, List.map_cons, k2]; rfl
          · rw [List.map_cons]
            refine List.Pairwise.cons ?_ k3
            intro x hx
            obtain ⟨y, hy, rfl⟩ := List.mem_map.mp hx
            have := (k4 y hy).1
            simp only [sureAct]
            push_cast at this
            omega
          · intro x hx
            rcases List.mem_cons.mp hx with rfl | hx
            · simp only [sureAct, List.length_cons]; push_cast; omega
            · have := k4 x hx
              simp only [List.length_cons]
              push_cast at this ⊢
              omega

/-- **C161.**  SetAllActionsandAllOutcomes of the grid environment gives one action per successor that GetSuccs returns, in the same order, with one outcome of probability 1: the same state ID, the same cost;
the action IDs are different directions; the same states are created; and it fails when GetSuccs fails. -/
theorem nav_actions {st : Nav2D} {id : Nat} :
    (∀ e, st.getSuccs id = .error e → st.setAll id = .error e) ∧
    ∀ st' l, st.getSuccs id = .ok (st', l) → ∃ la, st.setAll id = .ok (st', la) ∧ la.map (fun a => a.outs) = l.map (fun e => sureOut e.1 e.2) ∧
      (la.map (fun a => a.id)).Pairwise (· < ·) ∧ ∀ a ∈ la, 0 ≤ a.id ∧ a.id < st.cfg.acts.length := by
  unfold Nav2D.getSuccs Nav2D.setAll
  by_cases hg : id = st.goalId
  · rw [if_pos hg, if_pos hg]
    refine ⟨fun e h => (by cases h), fun st' l h => ?_⟩
    cases h
    exact ⟨[], rfl, rfl, .nil, fun a ha => by cases ha⟩
  · rw [if_neg hg, if_neg hg]
    cases st.getCoord id with
    | error e => exact ⟨fun e' h => (by cases h; rfl), fun _ _ h => (by cases h)⟩
    | ok p =>
      obtain ⟨h1, h2⟩ := nav_outcomeLoop (f := st.cfg.succAct p.1 p.2) (as := st.cfg.acts) (i := 0) (st := st)
      refine ⟨h1, fun st' l h => ?_⟩
      obtain ⟨la, k1, k2, k3, k4⟩ := h2 st' l h
      exact ⟨la, k1, k2, k3, fun a ha => by have := k4 a ha; push_cast at this; omega⟩

/-- **C161.**  So, with the state numbering that results, the actions are the edges of the map (see `navPEnv`). -/
theorem nav_actions_edges {st st' : Nav2D} {id : Nat} {la : List Action} {p : Int × Int} {num : Int × Int → Nat} {den : Nat → Option (Int × Int)} (i : NInv st)
    (h : st.setAll id = .ok (st', la)) (hp : st.getCoord id = .ok p) (hin : InMap st.cfg.W st.cfg.H p.1 p.2)
    (hden : den id = some p) (hnum : ∀ j k, st'.getCoord j = .ok k → num k = j) :
    la.map (fun a => a.outs) = ((navPEnv st.cfg num den).succs st.goalId id).map (fun e => sureOut e.1 e.2) := by
  obtain ⟨h1, h2⟩ := nav_actions (st := st) (id := id)
  cases hs : st.getSuccs id with
  | error e => rw [h1 e hs] at h; cases h
  | ok r =>
    obtain ⟨st1, l⟩ := r
    obtain ⟨la', k1, k2, _⟩ := h2 st1 l hs
    rw [h] at k1; cases k1
    rw [k2, navPEnv_succs i hs hp hin hden hnum]

variable {c : NavCfg} {is16 : Bool} {num : Int × Int → Nat} {den : Nat → Option (Int × Int)}

/-- **C161.**  A new value iteration planner on a grid map that stops because the values have converged has found a way over the map from start to goal: its policy consists of the cells of that way, and the way
costs at most 1415/1414 times any other.  So it has found one only if there is one. -/
theorem vi_nav2d (N : Numbering c.W c.H num den) (hd : c.dirs = dirsOf is16) {a b : Nat} {p q : Int × Int} (hp : den a = some p) (hq : den b = some q)
    {acts : Nat → List Action} (he : EdgeActions ((navPEnv c num den).succs b) acts)
    {clk : Nat → Bool} {fuel : Nat} {bell : ℚ} {sol : List Int} {r : Res} (hb : ERRDELTA < bell)
    (hr : replan (vEnvOf acts ((navPEnv c num den).hGoal b)) a b clk fuel (fresh (vEnvOf acts ((navPEnv c num den).hGoal b))) bell sol = some r) (hcv : r.bell ≤ ERRDELTA) :
    ∃ l n, PathCost ((navPEnv c num den).succs b) l n ∧ FromTo l a b ∧ (∀ t : Int, t ∈ r.policy.map (fun s => s.id) ↔ ∃ x ∈ l, t = ((x : Nat) : Int)) ∧
      GridWalk c.W c.H c.grid c.obs is16 p q n ∧ ∀ n', GridWalk c.W c.H c.grid c.obs is16 p q n' → 1414 * n ≤ 1415 * n' := by
  have hh := nav_heur_one N hd (D := 1) (by omega) true
  simp only [HeurUpTo, if_true] at hh
  obtain ⟨l, n, q1, q2, q3, q4⟩ := graph_near_optimal he (hh b).1 (fun s t n h => by
    obtain ⟨_, p', q', _, _, he'⟩ := (succs_edge N hd).mp h
    have := (heur_edge he' p').2.2
    omega) (by omega) (by omega) (hh b).2 hb hr hcv
  obtain ⟨q', hq', w⟩ := gridWalk_of_path N hd q1 q2.1 q2.2 hp
  rw [hq] at hq'; cases hq'
  refine ⟨l, n, q1, q2, q3, w, fun n' w' => ?_⟩
  obtain ⟨n2, hn, w2⟩ := walk_of_gridWalk N hd hp hq w'
  have := q4 n2 w2
  omega

end nav

section xyt
open XEnv XCfg XSpec XYTProps XYTARAProps XHeurProps

theorem xyt_outcomeLoop {f : XAct → Option (XKey × Nat)} : ∀ {as : List XAct} {i : Nat} {st : XEnv},
    (∀ e, actLoop f as st = .error e → XEnv.outcomeLoop f i as st = .error e) ∧
    ∀ st' l, actLoop f as st = .ok (st', l) → ∃ la, XEnv.outcomeLoop f i as st = .ok (st', la) ∧ la.map (fun a => a.outs) = l.map (fun e => sureOut e.1 e.2.1) ∧
      (la.map (fun a => a.id)).Pairwise (· < ·) ∧ ∀ a ∈ la, (i : Int) ≤ a.id ∧ a.id < i + as.length
  | [], i, st => by
    refine ⟨fun e h => (by cases h), fun st' l h => ?_⟩
    cases h
    exact ⟨[], rfl, rfl, .nil, fun a ha => by cases ha⟩
  | a :: as, i, st => by
    rw [actLoop, XEnv.outcomeLoop]
    cases f a with
    | none =>
      obtain ⟨h1, h2⟩ := xyt_outcomeLoop (f := f) (as := as) (i := i + 1) (st := st)
      refine ⟨h1, fun st' l h => ?_⟩
      obtain ⟨la, k1, k2, k3, k4⟩ := h2 st' l h
      refine ⟨la, k1, k2, k3, fun x hx => ?_⟩
      have := k4 x hx
      simp only [List.length_cons] at this ⊢
      push_cast at this ⊢
      omega
    | some kc =>
      obtain ⟨k, cost⟩ := kc
      dsimp only
      cases st.getState k with
      | error e => exact ⟨fun e' h => (by cases h; rfl), fun _ _ h => (by cases h)⟩
      | ok sr =>
        obtain ⟨st0, id⟩ := sr
        obtain ⟨h1, h2⟩ := xyt_outcomeLoop (f := f) (as := as) (i := i + 1) (st := st0)
        dsimp only
        cases hL : actLoop f as st0 with
        | error e =>
          rw [h1 e hL]
          exact ⟨fun e' h => (by cases h; rfl), fun _ _ h => (by cases h)⟩
        | ok r =>
          obtain ⟨st1, l1⟩ := r
          obtain ⟨la, k1, k2, k3, k4⟩ := h2 st1 l1 hL
          refine ⟨fun e' h => (by cases h), fun st' l h => ?_⟩
          cases h
          rw [k1]
          refine ⟨_, rfl, ?_, ?_, ?_⟩
          · rw [List.map_cons, List.map_cons, k2]; rfl
          · rw [List.map_cons]
            refine List.Pairwise.cons ?_ k3
            intro x hx
            obtain ⟨y, hy, rfl⟩ := List.mem_map.mp hx
            have := (k4 y hy).1
            simp only [sureAct]
            push_cast at this
            omega
          · intro x hx
            rcases List.mem_cons.mp hx with rfl | hx
            · simp only [sureAct, List.length_cons]; push_cast; omega
            · have := k4 x hx
              simp only [List.length_cons]
              push_cast at this ⊢
              omega

/-- **C162.**  The same for the lattice: one action per successor that GetSuccs returns, in the same order, with one outcome of probability 1, and the same failures. -/
theorem xyt_actions {st : XEnv} {id : Nat} :
    (∀ e, st.getSuccs id = .error e → st.setAll id = .error e) ∧
    ∀ st' l, st.getSuccs id = .ok (st', l) → ∃ la, st.setAll id = .ok (st', la) ∧ la.map (fun a => a.outs) = l.map (fun e => sureOut e.1 e.2.1) ∧
      (la.map (fun a => a.id)).Pairwise (· < ·) := by
  unfold XEnv.getSuccs succsBy XEnv.setAll
  by_cases hg : id = st.goalId
  · rw [if_pos hg, if_pos hg]
    refine ⟨fun e h => (by cases h), fun st' l h => ?_⟩
    cases h
    exact ⟨[], rfl, rfl, .nil⟩
  · rw [if_neg hg, if_neg hg]
    cases st.getCoord id with
    | error e => exact ⟨fun e' h => (by cases h; rfl), fun _ _ h => (by cases h)⟩
    | ok p =>
      dsimp only
      cases st.cfg.actsAt p.2.2 with
      | error e => exact ⟨fun e' h => (by cases h; rfl), fun _ _ h => (by cases h)⟩
      | ok as =>
        obtain ⟨h1, h2⟩ := xyt_outcomeLoop (f := st.cfg.succAct p) (as := as) (i := 0) (st := st)
        refine ⟨h1, fun st' l h => ?_⟩
        obtain ⟨la, k1, k2, k3, _⟩ := h2 st' l h
        exact ⟨la, k1, k2, k3⟩

variable {s : Setup} {num : XKey → Nat} {den : Nat → Option XKey} {hg hs : XKey → XKey → Int} {vel : ℚ}

/-- **C162.**  So, with the state numbering that results, the actions are the edges of the lattice (see `xytPEnv`). -/
theorem xyt_actions_edges {st st' : XEnv} {id : Nat} {la : List Action} {p : XKey} (i : SInv s st) (h : st.setAll id = .ok (st', la))
    (hp : st.getCoord id = .ok p) (hden : den id = some p) (hnum : ∀ j k, st'.getCoord j = .ok k → num k = j) :
    la.map (fun a => a.outs) = ((xytPEnv st.cfg num den hg hs).succs st.goalId id).map (fun e => sureOut e.1 e.2) := by
  obtain ⟨h1, h2⟩ := xyt_actions (st := st) (id := id)
  cases hs' : st.getSuccs id with
  | error e => rw [h1 e hs'] at h; cases h
  | ok r =>
    obtain ⟨st1, l⟩ := r
    obtain ⟨la', k1, k2, _⟩ := h2 st1 l hs'
    rw [h] at k1; cases k1
    rw [k2, ← xytPEnv_succs (hg := hg) (hs := hs) i hs' hp hden hnum, List.map_map]
    rfl

/-- **C162.**  A new value iteration planner on a lattice that stops because the values have converged has found a path of primitives from start to goal: its policy consists of the poses of that path,
and the path costs at most (m+k)/m times any other (`m`: least primitive cost, `k`: rounding of the heuristic). -/
theorem vi_xyt {xops : List XEnv.Op} {stx : XEnv} (hx : XSpec.Hist s xops stx) (N : XNumbering s num den) {a b : Nat} {p q : XKey} (hp : den a = some p) (hq : den b = some q)
    (hv : 0 < vel) (hf : NotTooFast s vel) (hw : Followable s vel) {m k : Nat} (hm : CostAtLeast s m) (hm1 : 1 ≤ m)
    (hk : Slack vel k) (hG : ∀ g, InRange s g → HeurFrom s vel (costs s xops) g (hg g))
    {acts : Nat → List Action} (he : EdgeActions ((xytPEnv stx.cfg num den hg hs).succs b) acts)
    {clk : Nat → Bool} {fuel : Nat} {bell : ℚ} {sol : List Int} {r : Res} (hb : ERRDELTA < bell)
    (hr : replan (vEnvOf acts ((xytPEnv stx.cfg num den hg hs).hGoal b)) a b clk fuel (fresh (vEnvOf acts ((xytPEnv stx.cfg num den hg hs).hGoal b))) bell sol = some r) (hcv : r.bell ≤ ERRDELTA) :
    ∃ ks n, (∀ t : Int, t ∈ r.policy.map (fun s => s.id) ↔ ∃ x ∈ ks, t = ((num x : Nat) : Int)) ∧ ks.head? = some p ∧ ks.getLast? = some q ∧ LPath s (costs s xops) ks n ∧
      ∀ n', LWalk s (costs s xops) p q n' → m * n ≤ (m + k) * n' := by
  obtain ⟨ix, eg, -, -⟩ := hist_inv hx
  have stc := ix.stc
  have ok := hx.1
  rw [← eg] at hG ⊢
  have h0 : (xytPEnv stx.cfg num den hg hs).hGoal b b = 0 := by
    simp only [xytPEnv, hq]
    rw [heur_origin hv (hG q (N.right _ _ hq).2) (N.right _ _ hq).2]; rfl
  have hu : UpTo ((xytPEnv stx.cfg num den hg hs).succs b) ((xytPEnv stx.cfg num den hg hs).hGoal b) 1 1 (m + k) m := by
    intro i j n h
    obtain ⟨_, p', q', mm, hp', hq', ed⟩ := (succs_edge stc ok N).mp h
    have h1 := (XYTARAProps.heur_edge hv hf hw (hG q (N.right _ _ hq).2) hk (N.right _ _ hp').2 (N.right _ _ hq').2 ed).1
    have h2 := edge_cost_ge hm ed
    simp only [xytPEnv, hp', hq', hq, Nat.one_mul, Nat.div_one]
    have h3 : m * k ≤ n * k := Nat.mul_le_mul_right _ h2
    have h4 := Nat.mul_le_mul_left m h1
    rw [Nat.mul_add, Nat.mul_add] at h4
    rw [Nat.add_mul, Nat.mul_comm k n]
    omega
  obtain ⟨l, n, q1, q2, q3, q4⟩ := graph_near_optimal he h0 (fun i j n h => by
    obtain ⟨_, p', q', mm, hp', hq', ed⟩ := (succs_edge stc ok N).mp h
    exact le_trans hm1 (edge_cost_ge hm ed)) (by omega) (by omega) hu hb hr hcv
  obtain ⟨ks, e1, e2⟩ := lpath_of_path stc ok N q1 (by intro a' ha'; rw [q2.1] at ha'; cases ha'; exact ⟨p, hp⟩)
  have e3 : l = ks.map num := by
    have : ∀ (l : List Nat) (ks : List XKey), l.map den = ks.map some → l = ks.map num := by
      intro l
      induction l with
      | nil => intro ks h; cases ks with | nil => rfl | cons _ _ => simp at h
      | cons i l ih =>
        intro ks h
        cases ks with
        | nil => simp at h
        | cons k ks =>
          simp only [List.map_cons, List.cons.injEq] at h
          rw [List.map_cons, ← ih ks h.2, (N.right _ _ h.1).1]
    exact this l ks e1
  refine ⟨ks, n, fun t => ?_, ?_, ?_, e2, fun n' w' => ?_⟩
  · rw [q3 t, e3]
    simp
  · have := congrArg List.head? e1
    simp only [List.head?_map, q2.1, Option.map_some, hp] at this
    cases hk : ks.head? with
    | none => rw [hk] at this; cases this
    | some x => rw [hk] at this; simp at this; rw [this]
  · have := congrArg List.getLast? e1
    simp only [List.getLast?_map, q2.2, Option.map_some, hq] at this
    cases hk : ks.getLast? with
    | none => rw [hk] at this; cases this
    | some x => rw [hk] at this; simp at this; rw [this]
  · obtain ⟨n2, hn, w2⟩ := walk_of_lwalk (hg := hg) (hs := hs) stc ok N hp hq w'
    exact Nat.le_trans (q4 n2 w2) (Nat.mul_le_mul_left _ hn)

end xyt

section adj
open Adj AdjSpec AdjProps
variable {C : Type} [DecidableEq C]

/-- **C162.**  The actions of the adjacency list environment are its edges.  They all have the action ID 0. -/
theorem adj_actions {e : Env C} {dist : C → C → Nat} {gl : Nat} : EdgeActions ((e.penv dist).succs gl) (e.setAll gl) ∧ ∀ s, ∀ a ∈ e.setAll gl s, a.id = 0 := by
  constructor
  · intro s
    simp only [Env.penv, Env.setAll]
    by_cases hs : s = gl
    · rw [if_pos hs, if_pos (.inl hs)]; rfl
    · rw [if_neg hs]
      by_cases hl : s < e.points.length
      · rw [if_pos hl, if_neg (by omega), List.map_map]; rfl
      · rw [if_neg hl, if_pos (.inr (by omega))]; rfl
  · intro s a ha
    simp only [Env.setAll] at ha
    split at ha
    · cases ha
    · split at ha
      · obtain ⟨_, _, rfl⟩ := List.mem_map.mp ha; rfl
      · cases ha

/-- **C162.**  A new value iteration planner on a graph built by any sequence of calls that stops because the values have converged has found a path of least cost from start to goal. -/
theorem vi_adj {ops : List (Adj.Op C)} {a b : C} {e : Env C} {dist : C → C → Nat} (h : LegalAll ⟨[], fun _ _ => none⟩ (ops ++ [.start a, .goal b])) (he : Adj.empty.run (ops ++ [.start a, .goal b]) = .ok e)
    (hd : Estimates dist (after ops)) :
    ∃ i j, e.startId = some i ∧ e.goalId = some j ∧ ∀ {clk : Nat → Bool} {fuel : Nat} {bell : ℚ} {sol : List Int} {r : Res}, ERRDELTA < bell →
      replan (vEnvOf (e.setAll j) (fun s => e.heur dist s j)) i j clk fuel (fresh (vEnvOf (e.setAll j) (fun s => e.heur dist s j))) bell sol = some r → r.bell ≤ ERRDELTA →
      ∃ pts n, GPath (after ops) pts n ∧ Joins pts a b ∧ (∀ t : Int, t ∈ r.policy.map (fun s => s.id) ↔ ∃ i x, e.points[i]? = some x ∧ x ∈ pts ∧ t = ((i : Nat) : Int)) ∧
        ∀ pts' n', GPath (after ops) pts' n' → Joins pts' a b → n ≤ n' := by
  obtain ⟨r, i, j, hi, hj, hs, hg⟩ := setup h he
  refine ⟨i, j, hs, hg, ?_⟩
  intro clk fuel bell sol res hb hr hc
  have hok := adj_envOk r hd
  have hh := adj_heurOk r hd
  simp only [HeurOk, if_true] at hh
  obtain ⟨l, n, q1, q2, q3, q4⟩ := graph_near_optimal (adj_actions (e := e) (dist := dist) (gl := j)).1 (h := fun s => e.heur dist s j) (hh j).1 (fun s t n h => hok.posS j s t n h) (N := 1) (M := 1) (by omega) (by omega)
    (fun s t c hm => by have := (hh j).2 s t c hm; simpa [Env.penv] using this) hb hr hc
  have hlt : ∀ x ∈ l.head?, x < (after ops).pts.length := by
    intro x hx
    rw [q2.1] at hx; cases hx
    exact (List.getElem?_eq_some_iff.mp hi).1
  obtain ⟨g1, g2⟩ := gpath_of_pathCost r q1 hlt
  refine ⟨l.filterMap (fun i => e.points[i]?), n, g1, ⟨g2 a (by rw [q2.1]; simp [r.pts, hi]), last_of_pathCost r q1 hlt b (by rw [q2.2]; simp [r.pts, hj])⟩, ?_, ?_⟩
  · intro t
    rw [q3 t]
    constructor
    · rintro ⟨x, hx, rfl⟩
      have hxl : ∃ y, e.points[x]? = some y := by
        have : ∀ {p : List Nat} {n : Nat}, PathCost ((e.penv dist).succs j) p n → (∀ i ∈ p.head?, i < (after ops).pts.length) → ∀ x ∈ p, x < (after ops).pts.length := by
          intro p n hpc
          induction hpc with
          | single s => intro h x hx; simp at hx; subst hx; exact h x (by simp)
          | cons hm _ ih =>
            intro h x hx
            rcases List.mem_cons.mp hx with rfl | hx
            · exact h x (by simp)
            · refine ih (fun i hi => ?_) x hx
              simp at hi; subst hi
              obtain ⟨-, x', y', -, hy, -⟩ := (mem_succs r).mp hm
              exact (List.getElem?_eq_some_iff.mp hy).1
        have := this q1 hlt x hx
        exact ⟨_, by rw [r.pts]; exact List.getElem?_eq_getElem this⟩
      obtain ⟨y, hy⟩ := hxl
      exact ⟨x, y, hy, List.mem_filterMap.mpr ⟨x, hx, hy⟩, rfl⟩
    · rintro ⟨i', x, h1, h2, rfl⟩
      obtain ⟨k, hk, hk'⟩ := List.mem_filterMap.mp h2
      have := r.inj (by rw [← r.pts]; exact h1) (by rw [← r.pts]; exact hk')
      subst this
      exact ⟨i', hk, rfl⟩
  · intro pts' n' gp hj'
    obtain ⟨n2, hn, w⟩ := walk_of_gpath (dist := dist) r hj gp hj'.1 hj'.2 hi (Walk.nil)
    have := q4 n2 w
    omega

end adj

end Sbpl.VIGraphProps
