import Verif.Proofs.AdjList
import Verif.Props.ARA
/-!
# The adjacency-list environment (C62, C63)
-/

namespace Sbpl.AdjProps
open Adj AdjSpec GraphSpec PlannerSpec
variable {C : Type} [DecidableEq C]

/-- **C62** Every legal history of addPoint / removeLastPoints / setCost / setStartState / setGoalState succeeds, and then the environment is exactly the undirected graph of the history:
`hasPoint` says which points are there, and `GetSuccs` of a point other than the goal lists every neighbour exactly once, with the cost set last. -/
theorem history_is_graph {ops : List (Op C)} (h : LegalAll ⟨[], fun _ _ => none⟩ ops) : ∃ e : Env C, empty.run ops = .ok e ∧
    e.points = (after ops).pts ∧ (∀ c, e.hasPoint c = true ↔ c ∈ (after ops).pts) ∧
    ∀ (dist : C → C → Nat) gl i x, e.points[i]? = some x → i ≠ gl →
      (((e.penv dist).succs gl i).map Prod.fst).Nodup ∧ ∀ j k, (j, k) ∈ (e.penv dist).succs gl i ↔ ∃ y, e.points[j]? = some y ∧ (after ops).cost x y = some k := by
  obtain ⟨e, he, r⟩ := rep_run ops rep_empty h
  refine ⟨e, he, r.pts, ?_, ?_⟩
  · intro c
    unfold Env.hasPoint
    constructor
    · intro hc
      obtain ⟨i, hi⟩ := Option.isSome_iff_exists.mp hc
      exact List.mem_of_getElem? ((r.ids c i).mp hi)
    · intro hc
      obtain ⟨i, hi, -⟩ := r.get hc
      rw [hi]; rfl
  · intro dist gl i x hx hi
    have hx' : (after ops).pts[i]? = some x := by rw [← hx, r.pts]; rfl
    have hlt : i < e.points.length := (List.getElem?_eq_some_iff.mp hx).1
    have hs : (e.penv dist).succs gl i = e.adj i := by
      simp only [Env.penv]; rw [if_neg]; omega
    rw [hs]
    refine ⟨r.single i (by rw [← r.pts]; exact hlt), fun j k => ?_⟩
    rw [r.adj i x hx' j k, r.pts]; rfl

/-- the graph of a history is symmetric, without loops, and joins existing points only -/
theorem graph_wf {ops : List (Op C)} (h : LegalAll ⟨[], fun _ _ => none⟩ ops) : (after ops).pts.Nodup ∧
    ∀ x y k, (after ops).cost x y = some k → (after ops).cost y x = some k ∧ x ∈ (after ops).pts ∧ y ∈ (after ops).pts ∧ x ≠ y := by
  obtain ⟨e, he, r⟩ := rep_run ops rep_empty h
  refine ⟨r.nodup, fun x y k hk => ?_⟩
  have hk' : (after ops).cost y x = some k := by unfold after; rw [r.symm]; exact hk
  refine ⟨hk', r.sub _ _ _ hk, r.sub _ _ _ hk', ?_⟩
  rintro rfl
  have := r.irrefl x
  unfold after at hk
  rw [this] at hk; cases hk

/-- the hypothesis is met: a triangle, one edge changed, one point removed -/
def demo : List (Op Nat) := [.add 7, .add 8, .add 9, .set 7 8 3, .set 8 9 2, .set 9 7 1, .set 8 7 5, .remove 1, .add 9, .set 9 8 4]

example : LegalAll ⟨[], fun _ _ => none⟩ demo := by
  simp [demo, LegalAll, Legal, Graph.step]

example : (after demo).pts = [7, 8, 9] ∧ (after demo).cost 7 8 = some 5 ∧ (after demo).cost 9 8 = some 4 ∧ (after demo).cost 9 7 = none := by decide +kernel

def demoSuccs (ops : List (Op Nat)) (i : Nat) : Option (List (Nat × Nat)) :=
  match empty.run ops with
  | .ok e => some ((e.penv (fun _ _ => 0)).succs 99 i)
  | .error _ => none

example : demoSuccs demo 1 = some [(0, 5), (2, 4)] := by decide +kernel

/-- adding a point that is already there is accepted; when its copy is removed, the original, still in the graph with its edges, can no longer be named -/
theorem duplicate_point_lost : ∃ e : Env Nat, empty.run [.add 7, .add 8, .set 7 8 3, .add 7, .remove 1] = .ok e ∧ e.points = [7, 8] ∧ e.hasPoint 7 = false ∧
    (e.penv (fun _ _ => 0)).succs 99 0 = [(1, 3)] ∧ e.setCost 7 8 4 = .error .unknownPoint :=
  ⟨_, rfl, rfl, rfl, rfl, rfl⟩

/-- setCost of a point to itself is accepted; removing that point steps on an erased list element -/
theorem self_loop_removal : (empty.run [.add 7, .set 7 7 1, .remove 1] : Except Err (Env Nat)).toOption = none ∧
    ∃ e : Env Nat, empty.run [.add 7, .set 7 7 1] = .ok e ∧ e.removeLastPoints 1 = .error .erasedIterator :=
  ⟨rfl, _, rfl, rfl⟩

/-! ## findOptimalPath -/

section
variable {e : Env C} {G : Graph C} {dist : C → C → Nat}

theorem mem_succs (r : Rep e G) {gl s t k : Nat} : (t, k) ∈ (e.penv dist).succs gl s ↔ s ≠ gl ∧ ∃ x y, G.pts[s]? = some x ∧ G.pts[t]? = some y ∧ G.cost x y = some k := by
  simp only [Env.penv]
  by_cases hs : s = gl
  · simp [hs]
  · by_cases hl : e.points.length ≤ s
    · rw [if_pos (.inr hl)]
      constructor
      · intro h; simp at h
      · rintro ⟨-, x, y, hx, -⟩
        rw [← r.pts, List.getElem?_eq_none hl] at hx; cases hx
    · rw [if_neg (by omega)]
      have hlt : s < G.pts.length := by rw [← r.pts]; omega
      have hx : G.pts[s]? = some G.pts[s] := List.getElem?_eq_getElem hlt
      rw [r.adj s _ hx]
      constructor
      · rintro ⟨y, hy, hk⟩; exact ⟨hs, _, y, hx, hy, hk⟩
      · rintro ⟨-, x, y, hx', hy, hk⟩
        rw [hx] at hx'; cases hx'
        exact ⟨y, hy, hk⟩

theorem adj_envOk (r : Rep e G) (hd : Estimates dist G) : EnvOk (e.penv dist) := by
  refine ⟨?_, ?_, ?_, ?_, ?_⟩
  · intro gl gl' s h1 h2; simp [Env.penv, h1, h2]
  · intro gl s x h; simp [Env.penv] at h
  · intro gl s t k h
    obtain ⟨-, x, y, -, -, hk⟩ := (mem_succs r).mp h
    exact (hd.2 x y k hk).1
  · intro gl s t k h; simp [Env.penv] at h
  · intro gl s t k _ h; simp [Env.penv] at h

theorem adj_heurOk (r : Rep e G) (hd : Estimates dist G) : HeurOk (e.penv dist) true := by
  simp only [HeurOk, if_true]
  intro gl
  constructor
  · simp only [Env.penv, Env.heur]
    cases h : e.points[gl]? with
    | none => rfl
    | some x => exact hd.1 x
  · intro s t k h
    obtain ⟨-, x, y, hx, hy, hk⟩ := (mem_succs r).mp h
    rw [← r.pts] at hx hy
    simp only [Env.penv, Env.heur, hx, hy]
    cases h : e.points[gl]? with
    | none => exact Nat.zero_le _
    | some z => exact (hd.2 x y k hk).2 z

/-- a path of indices is a path of points -/
theorem gpath_of_pathCost (r : Rep e G) {gl : Nat} : ∀ {p : List Nat} {n : Nat}, PathCost ((e.penv dist).succs gl) p n → (∀ i ∈ p.head?, i < G.pts.length) →
    GPath G (p.filterMap (fun i => e.points[i]?)) n ∧ ∀ x, (p.head?.bind (fun i => e.points[i]?)) = some x → (p.filterMap (fun i => e.points[i]?)).head? = some x
  | _, _, .single s, h => by
    have hs : s < G.pts.length := h s (by simp)
    have : e.points[s]? = some G.pts[s] := by rw [r.pts]; exact List.getElem?_eq_getElem hs
    simp only [List.filterMap_cons, this, List.filterMap_nil]
    exact ⟨.single (List.getElem_mem hs), fun x hx => by simpa [this] using hx⟩
  | _, _, .cons (s := s) (t := t) (p := p) hm hp, _ => by
    obtain ⟨-, x, y, hx, hy, hk⟩ := (mem_succs r).mp hm
    have ih := gpath_of_pathCost r hp (by
      intro i hi; simp at hi; subst hi; exact (List.getElem?_eq_some_iff.mp hy).1)
    rw [← r.pts] at hx hy
    simp only [List.filterMap_cons, hx, hy] at ih ⊢
    exact ⟨.cons hk ih.1, fun z hz => by simpa [hx] using hz⟩

theorem last_of_pathCost (r : Rep e G) {gl : Nat} : ∀ {p : List Nat} {n : Nat}, PathCost ((e.penv dist).succs gl) p n → (∀ i ∈ p.head?, i < G.pts.length) →
    ∀ x, (p.getLast?.bind (fun i => e.points[i]?)) = some x → (p.filterMap (fun i => e.points[i]?)).getLast? = some x
  | _, _, .single s, h, x, hx => by
    simp at hx; simp [hx]
  | _, _, .cons (s := s) (t := t) (p := p) hm hp, _, z, hz => by
    obtain ⟨-, x, y, hx, hy, hk⟩ := (mem_succs r).mp hm
    have ih := last_of_pathCost r hp (by
      intro i hi; simp at hi; subst hi; exact (List.getElem?_eq_some_iff.mp hy).1) z (by
      simpa [List.getLast?_cons_cons] using hz)
    rw [← r.pts] at hx hy
    simp only [List.filterMap_cons, hx, hy] at ih ⊢
    rw [List.getLast?_cons_cons]; exact ih

/-- a path of points, up to the first visit of the goal, is a walk of indices -/
theorem walk_of_gpath (r : Rep e G) {b : C} {j : Nat} (hj : G.pts[j]? = some b) {i0 : Nat} : ∀ {p : List C} {n : Nat}, GPath G p n → ∀ {a : C} {i m : Nat}, p.head? = some a → p.getLast? = some b →
    G.pts[i]? = some a → Walk ((e.penv dist).succs j) i0 i m → ∃ n', n' ≤ m + n ∧ Walk ((e.penv dist).succs j) i0 j n'
  | _, _, .single hx, a, i, m, h1, h2, hi, w => by
    simp at h1 h2; subst h1; subst h2
    obtain rfl := r.inj hj hi
    exact ⟨m, by omega, w⟩
  | _, _, .cons (x := x) (y := y) (p := p) (k := k) (n := n) hk hp, a, i, m, h1, h2, hi, w => by
    simp at h1; subst h1
    by_cases hij : i = j
    · rw [hij] at w; exact ⟨m, by omega, w⟩
    · obtain ⟨t, -, ht, -⟩ := r.get (r.sub y x k (by rw [r.symm]; exact hk))
      have w' := Walk.snoc w ((mem_succs r).mpr ⟨hij, x, y, hi, ht, hk⟩)
      obtain ⟨n', hn, w''⟩ := walk_of_gpath r hj hp rfl (by rw [List.getLast?_cons_cons] at h2; exact h2) ht w'
      exact ⟨n', by omega, w''⟩

end

/-- the state of the environment and of the planner when `findOptimalPath` is called after a legal history that ends with setStartState(a), setGoalState(b) -/
theorem setup {ops : List (Op C)} {a b : C} {e : Env C} (h : LegalAll ⟨[], fun _ _ => none⟩ (ops ++ [.start a, .goal b])) (he : empty.run (ops ++ [.start a, .goal b]) = .ok e) :
    Rep e (after ops) ∧ ∃ i j, (after ops).pts[i]? = some a ∧ (after ops).pts[j]? = some b ∧ e.startId = some i ∧ e.goalId = some j := by
  obtain ⟨h1, h2⟩ := (legalAll_append _ _ _).mp h
  obtain ⟨e1, he1, r⟩ := rep_run ops rep_empty h1
  have ha : a ∈ (after ops).pts := h2.1
  have hb : b ∈ (after ops).pts := h2.2.1
  obtain ⟨i, hi, hi', -⟩ := r.get ha
  obtain ⟨j, hj, hj', -⟩ := r.get hb
  rw [run_append, he1] at he
  simp only [Env.run, Env.step, Env.setStart, Env.setGoal, hi, hj] at he
  cases he
  exact ⟨⟨r.pts, r.nodup, r.ids, r.single, r.adj, r.symm, r.irrefl, r.sub⟩, i, j, hi', hj', rfl, rfl⟩

/-- the eps with which the planner was constructed plays no role once `set_initialsolution_eps` was called before the first search -/
theorem eps_irrelevant {env : PEnv} {i j : Nat} {bs : List Nat} {st : ARA} (h : (ARA.init env true 5 25 5 1 false).run [.setStart i, .setGoal j, .setParams 5 5 1 false] = some st) :
    ∃ st5, (ARA.init env true 5 5 5 1 false).run [.setStart i, .setGoal j, .setParams 5 5 1 false] = some st5 ∧ st5.replan bs = st.replan bs := by
  simp only [ARA.run, ARA.step, Option.bind_some, Option.some.injEq] at h ⊢
  subst h
  refine ⟨_, rfl, ?_⟩
  have key : ∀ gl, ((((ARA.init env true 5 25 5 1 false).setStart i).setGoal j).setParams 5 5 1 false).searchProlog gl =
      ((((ARA.init env true 5 5 5 1 false).setStart i).setGoal j).setParams 5 5 1 false).searchProlog gl := by
    intro gl
    rfl
  unfold ARA.replan
  simp only [key]
  rfl

/-- **C63** After any legal history that ends by setting start and goal, if all edges cost at least 1 and `heuristicDistanceTo` is a consistent estimate, then what `findOptimalPath` returns is:
a path of the graph from start to goal that costs at most what is reported, whenever the planner found a solution; the cheapest such path, when the planner finished (reports eps = 1, i.e. five fifths);
and nothing was found without the clock having run out only if every path costs INFINITECOST or more. -/
theorem findOptimalPath_correct {ops : List (Op C)} {a b : C} {e : Env C} {dist : C → C → Nat} {bs : List Nat} {res : ARA.Result} {pts : List C}
    (h : LegalAll ⟨[], fun _ _ => none⟩ (ops ++ [.start a, .goal b])) (he : empty.run (ops ++ [.start a, .goal b]) = .ok e) (hd : Estimates dist (after ops)) (hbs : bs ≠ [])
    (hf : e.findOptimalPath dist bs = some (res, pts)) :
    (res.found = true → Joins pts a b ∧ pts.Nodup ∧ ∃ n, GPath (after ops) pts n ∧ n ≤ res.cost ∧ res.cost < INFINITECOST) ∧
    (res.finalEps = some 5 → ∀ p n, GPath (after ops) p n → Joins p a b → res.found = true ∧ res.cost ≤ n) ∧
    (NoTimeout bs res.traces → res.found = false → ∀ p n, GPath (after ops) p n → Joins p a b → INFINITECOST ≤ n) := by
  obtain ⟨r, i, j, hi, hj, hs, hg⟩ := setup h he
  unfold Env.findOptimalPath at hf
  simp only [hs, hg] at hf
  have hok : ∀ op ∈ ([.setStart i, .setGoal j, .setParams 5 5 1 false] : List ARA.Op), OpOk op := by
    intro op hop
    simp only [List.mem_cons, List.not_mem_nil, or_false] at hop
    rcases hop with rfl | rfl | rfl <;> exact trivial
  cases hrun : (ARA.init (e.penv dist) true 5 25 5 1 false).run [.setStart i, .setGoal j, .setParams 5 5 1 false] with
  | none => rw [hrun] at hf; cases hf
  | some st =>
    rw [hrun] at hf
    simp only at hf
    cases hr : st.replan bs with
    | error x => rw [hr] at hf; cases hf
    | ok q =>
      obtain ⟨st', res'⟩ := q
      rw [hr] at hf
      simp only [Option.some.injEq, Prod.mk.injEq] at hf
      obtain ⟨rfl, rfl⟩ := hf
      have ek := adj_envOk r hd
      have hk := adj_heurOk r hd
      refine ⟨fun hfound => ?_, fun hfe p n hp hj' => ?_, fun hnt hnf p n hp hj' => ?_⟩
      · obtain ⟨⟨f1, f2⟩, nd, n, pc, hn, hc⟩ := ARAProps.replan_path_sound ek hok hrun rfl rfl hbs hr hfound
        have hil : ∀ i' ∈ res'.path.head?, i' < (after ops).pts.length := by
          intro i' hi'; rw [f1] at hi'; simp at hi'; subst hi'; exact (List.getElem?_eq_some_iff.mp hi).1
        have g1 := gpath_of_pathCost r pc hil
        refine ⟨⟨g1.2 a (by rw [f1, r.pts]; exact hi), last_of_pathCost r pc hil b (by rw [f2, r.pts]; exact hj)⟩, ?_, n, g1.1, hn, hc⟩
        refine List.Nodup.filterMap ?_ nd
        intro s t x hs ht
        rw [r.pts] at hs ht
        exact r.inj (by simpa using hs) (by simpa using ht)
      · obtain ⟨n', hn', w⟩ := walk_of_gpath (dist := dist) r hj hp hj'.1 hj'.2 hi Walk.nil
        have := ARAProps.replan_bound ek hok hrun rfl rfl hbs hr hk hfe (E := 1) (Nat.le_refl _) (by omega) (fun h => by cases h) w
        exact ⟨this.1, by omega⟩
      · obtain ⟨n', hn', w⟩ := walk_of_gpath (dist := dist) r hj hp hj'.1 hj'.2 hi Walk.nil
        obtain ⟨st5, hrun5, hr5⟩ := eps_irrelevant (bs := bs) hrun
        have := ARAProps.replan_failure_complete ek hok hrun5 rfl rfl hbs (hr5.trans hr) hk (E := 1) (c := n') (by omega) (by
          intro op hop a b c d heq
          simp only [List.mem_cons, List.not_mem_nil, or_false] at hop
          rcases hop with rfl | rfl | rfl <;> simp at heq
          omega) (by omega) (by omega) hnt hnf (fun h => by cases h) w
        omega

/-- the hypotheses are met: the cheapest of two routes on a line with a detour -/
def demoPath (ops : List (Op Nat)) (bs : List Nat) : Option (List Nat × Nat × Option Nat) :=
  match empty.run ops with
  | .ok e => (e.findOptimalPath (fun x y => if x = y then 0 else 1) bs).map (fun q => (q.2, q.1.cost, q.1.finalEps))
  | .error _ => none

def demo2 : List (Op Nat) := [.add 7, .add 8, .add 9, .add 4, .set 7 8 3, .set 8 9 2, .set 9 7 9, .set 9 4 1]

example : LegalAll ⟨[], fun _ _ => none⟩ (demo2 ++ [.start 7, .goal 4]) := by
  simp [demo2, LegalAll, Legal, Graph.step]

example : Estimates (fun x y => if x = y then 0 else 1) (after demo2) := by
  refine ⟨fun x => by simp, fun x y k h => ?_⟩
  have hk : 1 ≤ k := by
    simp only [demo2, after, Graph.step, List.foldl_cons, List.foldl_nil] at h
    split_ifs at h <;> (cases h; decide)
  refine ⟨hk, fun z => ?_⟩
  dsimp only
  split_ifs <;> omega

example : demoPath (demo2 ++ [.start 7, .goal 4]) [9, 9] = some ([7, 8, 9, 4], 6, some 5) := by decide +kernel

end Sbpl.AdjProps
