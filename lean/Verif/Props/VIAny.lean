import Verif.Proofs.VIAny
import Verif.Props.VI
import Verif.Model.SetActions
import Verif.Spec.Graph
/-!
# C160: the value iteration planner with heuristics that need not be consistent, and on graphs

The heuristics of the grid and lattice environments are rounded and so not consistent; C120–C125 do not apply to them.
-/

set_option linter.unusedSectionVars false

namespace Sbpl
namespace VIAnyProps
open MDP VISpec VI VIProps GraphSpec

variable {env : VEnv} {start goal : Int}

theorem fresh_wk (h0 : env.h goal = 0) (hn : ∀ s, 0 ≤ env.h s) : Wk env goal (fresh env) :=
  ⟨by show ((env.h goal : Int) : ℚ) = 0; rw [h0]; norm_num, fun s => by show (0 : ℚ) ≤ ((env.h s : Int) : ℚ); exact_mod_cast hn s, fun s a h => by cases h⟩

theorem replan_pres (hp : Proper env.acts) {P : (Int → ℚ) → Prop} (hP : ∀ s p b, Wk env goal p → P p.v → P (backup env goal s p b).1.v)
    {clk : Nat → Bool} {fuel : Nat} {p : St} {bell : ℚ} {sol : List Int} {r : Res} (hs : Wk env goal p) (h0 : P p.v)
    (h : replan env start goal clk fuel p bell sol = some r) : Wk env goal r.st ∧ P r.st.v := by
  obtain ⟨p1, b1, p2, m, h1, h2, rfl⟩ := replan_parts h
  have hs0 : Wk env goal { p with iteration := 0 } := hs.of_eq rfl rfl
  obtain ⟨k1, k2⟩ := iterate_pres hp hP hs0 h0 h1
  obtain ⟨f1, f2⟩ := polLoop_frame h2
  refine ⟨k1.of_eq f1 f2, ?_⟩
  show P p2.v
  rw [f1]; exact k2

theorem hist_pres (hp : Proper env.acts) (h0 : env.h goal = 0) (hn : ∀ s, 0 ≤ env.h s) {P : (Int → ℚ) → Prop}
    (hP : ∀ s p b, Wk env goal p → P p.v → P (backup env goal s p b).1.v) (hF : P (fresh env).v) {p : St} (h : Hist env start goal p) : Wk env goal p ∧ P p.v := by
  induction h with
  | new => exact ⟨fresh_wk h0 hn, hF⟩
  | call _ h ih => exact replan_pres hp hP ih.1 ih.2 h

/-- the bound by plans is kept by a backup -/
theorem plan_pres (hp : Proper env.acts) {K : ℚ} (hK : 1 ≤ K) (s : Int) (p : St) (b : ℚ) (hw : Wk env goal p)
    (h : ∀ (pl : Plan) (s : Int), pl.Legal env.acts goal s → pl.Sure goal s → p.v s ≤ K * pl.cost) :
    ∀ (pl : Plan) (x : Int), pl.Legal env.acts goal x → pl.Sure goal x → (backup env goal s p b).1.v x ≤ K * pl.cost := by
  intro pl x hl hsu
  have hB := backup_wk (s := s) (b := b) hp hw
  by_cases hx : x = s
  · subst hx
    cases pl with
    | stop =>
      have : x = goal := hsu
      subst this
      rw [hB.sub.goal0, Plan.cost]; simp
    | act a next =>
      obtain ⟨h1, h2, h3⟩ := hl
      rcases hB.value with e | e | ⟨a', _, e1, e2⟩
      · exact absurd e h1
      · rw [e] at h2; cases h2
      · rw [e1]
        refine le_trans (e2 a h2) ?_
        rw [Plan.cost, ← expect_smul]
        refine expect_mono (hp.prob x a h2) (fun o ho => ?_)
        have k1 := h (next o.1) o.1 (h3 o ho) (hsu o ho)
        have k2 : (0 : ℚ) ≤ (o.2.1 : ℚ) := by exact_mod_cast hp.cost x a h2 o ho
        nlinarith
  · rw [(hB.frame x hx).1]; exact h pl x hl hsu

/-- **C160.**  If no heuristic value exceeds `K` times the cost of a plan that surely reaches the goal, no value does, after any number of calls. -/
theorem value_le_plan (hp : Proper env.acts) (h0 : env.h goal = 0) (hn : ∀ s, 0 ≤ env.h s) {K : ℚ} (hK : 1 ≤ K)
    (hh : ∀ (pl : Plan) (s : Int), pl.Legal env.acts goal s → pl.Sure goal s → (env.h s : ℚ) ≤ K * pl.cost)
    {p : St} (h : Hist env start goal p) {pl : Plan} {s : Int} (hl : pl.Legal env.acts goal s) (hs : pl.Sure goal s) : p.v s ≤ K * pl.cost :=
  (hist_pres hp h0 hn (P := fun v => ∀ (pl : Plan) (s : Int), pl.Legal env.acts goal s → pl.Sure goal s → v s ≤ K * pl.cost) (fun s p b => plan_pres hp hK s p b) hh h).2 pl s hl hs

/-! ## After convergence -/

theorem replan_settled (hp : Proper env.acts) (h0 : env.h goal = 0) (hn : ∀ s, 0 ≤ env.h s) {clk : Nat → Bool} {fuel : Nat} {bell : ℚ} {sol : List Int} {r : Res} (hb : ERRDELTA < bell)
    (h : replan env start goal clk fuel (fresh env) bell sol = some r) (hc : r.bell ≤ ERRDELTA) : SettledW env goal start r.st := by
  have hs0 : Wk env goal (fresh env) := fresh_wk h0 hn
  obtain ⟨p1, b1, p2, m, h1, h2, rfl⟩ := replan_parts h
  have k2 := iterate_wk hp hs0 (fun _ => Nat.le_refl _) h1
  obtain ⟨D, d0, d1⟩ := k2.2 (fun h => absurd h (not_le.mpr hb)) hc
  obtain ⟨f1, f2⟩ := polLoop_frame h2
  refine ⟨D, d0, fun s hs => ?_⟩
  show s = goal ∨ ∃ a ∈ env.acts s, p2.best s = some a ∧ Q p2.v a ≤ p2.v s + 1 / 25 ∧ ∀ o ∈ a.outs, D o.1
  rw [f1, f2]
  exact d1 s hs

theorem best_legal {p : St} (h : Wk env goal p) : LegalPol env.acts p.best := fun s a hs => (h.best s a hs).2

theorem settled_cost (hp : Proper env.acts) {p : St} (hw : Wk env goal p) {D : Int → Prop}
    (hD : ∀ s, D s → s = goal ∨ ∃ a ∈ env.acts s, p.best s = some a ∧ Q p.v a ≤ p.v s + 1 / 25 ∧ ∀ o ∈ a.outs, D o.1) :
    ∀ {k : Nat} {s : Int}, D s → polCost p.best goal k s ≤ p.v s + 1 / 25 * polSteps p.best goal k s
  | 0, s, _ => by rw [polCost, polSteps]; have := hw.nonneg s; linarith
  | k + 1, s, h => by
    rw [polCost, polSteps]
    rcases hD s h with hg | ⟨a, k1, k2, k3, k4⟩
    · rw [if_pos hg, if_pos hg, hg, hw.goal0]; norm_num
    · have hg := (hw.best s a k2).1
      rw [if_neg hg, if_neg hg, k2]
      dsimp only
      have h1 : expect a (fun c t => (c : ℚ) + polCost p.best goal k t) ≤ expect a (fun c t => ((c : ℚ) + p.v t) + 1 / 25 * polSteps p.best goal k t) :=
        expect_mono (hp.prob s a k1) (fun o ho => by have := settled_cost hp hw hD (k := k) (k4 o ho); linarith)
      rw [expect_add (f := fun c t => (c : ℚ) + p.v t), expect_smul] at h1
      have h2 : expect a (fun c t => (c : ℚ) + p.v t) ≤ p.v s + 1 / 25 := k3
      linarith

/-- **C160.**  If a new planner stops because the values have converged (costs at least 1), whatever the heuristic: following its policy costs at most 25/24 times the value of the start state,
and the probability of not having reached the goal after `k` steps is at most (25/24)·value/k. -/
theorem converged_cost (hp : Proper env.acts) (hu : UnitCost env.acts) (h0 : env.h goal = 0) (hn : ∀ s, 0 ≤ env.h s) {clk : Nat → Bool} {fuel : Nat} {bell : ℚ} {sol : List Int} {r : Res} (hb : ERRDELTA < bell)
    (h : replan env start goal clk fuel (fresh env) bell sol = some r) (hc : r.bell ≤ ERRDELTA) (k : Nat) :
    polCost r.st.best goal k start ≤ 25 / 24 * r.st.v start ∧ k * (1 - polReach r.st.best goal k start) ≤ 25 / 24 * r.st.v start := by
  obtain ⟨D, d0, d1⟩ := replan_settled hp h0 hn hb h hc
  have hw : Wk env goal r.st := (replan_pres hp (P := fun _ => True) (fun _ _ _ _ _ => trivial) (fresh_wk h0 hn) trivial h).1
  have a1 := settled_cost hp hw d1 (k := k) d0
  have a2 := steps_le_cost (goal := goal) hp hu (best_legal hw) (k := k) (s := start)
  have a3 := reach_steps hp (best_legal hw) (fun s hs => by
    rcases d1 s hs with e | ⟨a, _, k2, _, k4⟩
    · exact Or.inl e
    · exact Or.inr ⟨a, k2, k4⟩) (k := k) d0
  constructor <;> linarith

/-- **C160.**  So the policy of a converged planner costs at most 25/24·K times any plan that surely reaches the goal. -/
theorem converged_near_optimal (hp : Proper env.acts) (hu : UnitCost env.acts) (h0 : env.h goal = 0) (hn : ∀ s, 0 ≤ env.h s) {K : ℚ} (hK : 1 ≤ K)
    (hh : ∀ (pl : Plan) (s : Int), pl.Legal env.acts goal s → pl.Sure goal s → (env.h s : ℚ) ≤ K * pl.cost)
    {clk : Nat → Bool} {fuel : Nat} {bell : ℚ} {sol : List Int} {r : Res} (hb : ERRDELTA < bell)
    (h : replan env start goal clk fuel (fresh env) bell sol = some r) (hc : r.bell ≤ ERRDELTA) {pl : Plan} (hl : pl.Legal env.acts goal start) (hs : pl.Sure goal start) (k : Nat) :
    polCost r.st.best goal k start ≤ 25 / 24 * (K * pl.cost) := by
  have h1 := (converged_cost hp hu h0 hn hb h hc k).1
  have h2 := value_le_plan hp h0 hn hK hh (Hist.call Hist.new h) hl hs
  linarith

/-- **C160.**  replan of a new planner returns when the allocated time is over (finite state space, any heuristic). -/
theorem replan_returns (hp : Proper env.acts) (h0 : env.h goal = 0) (hn : ∀ s, 0 ≤ env.h s) {S : List Int} (hS : Closed env.acts S) (hst : start ∈ S) {clk : Nat → Bool} {K : Nat} (hK : clk K = false)
    {bell : ℚ} {sol : List Int} {fuel : Nat} (hf : S.length < fuel) (hf2 : K < fuel) : ∃ r, replan env start goal clk fuel (fresh env) bell sol = some r := by
  have hs0 : Wk env goal (fresh env) := fresh_wk h0 hn
  obtain ⟨⟨p1, b1⟩, h1⟩ := iterate_wkTime hp hS.closed hst hK hf (n := fuel) (k := 0) (p := fresh env) (b := bell) hs0 (fun _ => Nat.le_refl _) (Nat.zero_le _) (by omega)
  have k1 := (iterate_pres hp (P := fun _ => True) (fun _ _ _ _ _ => trivial) hs0 trivial h1).1
  have k2 := iterate_wk hp hs0 (fun _ => Nat.le_refl _) h1
  obtain ⟨⟨m, p2⟩, h2⟩ := policyOf_ends (start := start) (goal := goal) k2.1 hst (fun s a hs _ hb o ho => hS.closed s hs a (k1.best s a hb).2 o ho) (fuel := fuel) (by omega)
  refine ⟨⟨p2, b1, 1, sol, m, evaluate m start goal false fuel⟩, ?_⟩
  unfold replan
  rw [show ({ fresh env with iteration := 0 } : St) = fresh env from rfl, h1]
  dsimp only
  rw [h2]

/-! ## Graphs -/

/-- the actions are the edges of the graph: action by action, the one certain outcome is the end of the edge, with the cost of the edge -/
def EdgeActions (succs : Nat → List (Nat × Nat)) (acts : Nat → List Action) : Prop :=
  ∀ s, (acts s).map (fun a => a.outs) = (succs s).map (fun e => [((e.1 : Int), (e.2 : Int), (1 : ℚ))])

variable {succs : Nat → List (Nat × Nat)} {acts : Nat → List Action} {h : Nat → Nat}

theorem edge_act (he : EdgeActions succs acts) {s : Nat} {a : Action} (ha : a ∈ acts s) : ∃ t c, (t, c) ∈ succs s ∧ a.outs = [((t : Int), (c : Int), (1 : ℚ))] := by
  have : a.outs ∈ (acts s).map (fun a => a.outs) := List.mem_map_of_mem ha
  rw [he s] at this
  obtain ⟨⟨t, c⟩, h1, h2⟩ := List.mem_map.mp this
  exact ⟨t, c, h1, h2.symm⟩

theorem act_edge (he : EdgeActions succs acts) {s t c : Nat} (h : (t, c) ∈ succs s) : ∃ a ∈ acts s, a.outs = [((t : Int), (c : Int), (1 : ℚ))] := by
  have : [((t : Int), (c : Int), (1 : ℚ))] ∈ (succs s).map (fun e => [((e.1 : Int), (e.2 : Int), (1 : ℚ))]) := List.mem_map.mpr ⟨(t, c), h, rfl⟩
  rw [← he s] at this
  obtain ⟨a, h1, h2⟩ := List.mem_map.mp this
  exact ⟨a, h1, h2⟩

theorem vacts_mem {s : Int} {a : Action} (ha : a ∈ (vEnvOf acts h).acts s) : ∃ n : Nat, s = n ∧ a ∈ acts n := by
  simp only [vEnvOf] at ha
  split at ha
  · cases ha
  · exact ⟨s.toNat, by omega, ha⟩

theorem vacts_nat (n : Nat) : (vEnvOf acts h).acts (n : Int) = acts n := by
  simp only [vEnvOf]
  rw [if_neg (by omega)]; rfl

theorem vh_nat (n : Nat) : (vEnvOf acts h).h (n : Int) = h n := by
  simp only [vEnvOf]
  rw [if_neg (by omega)]; rfl

theorem vh_nonneg (s : Int) : 0 ≤ (vEnvOf acts h).h s := by
  simp only [vEnvOf]
  split <;> omega

theorem graph_proper (he : EdgeActions succs acts) : Proper (vEnvOf acts h).acts := by
  refine ⟨?_, ?_, ?_⟩ <;> intro s a ha <;> obtain ⟨n, rfl, ha⟩ := vacts_mem ha <;> obtain ⟨t, c, _, e⟩ := edge_act he ha <;> rw [e]
  · intro o ho; simp at ho; subst ho; norm_num
  · simp
  · intro o ho; simp at ho; subst ho; simp

theorem walk_head {a b n : Nat} (w : Walk succs a b n) : (a = b ∧ n = 0) ∨ ∃ t c n', (t, c) ∈ succs a ∧ Walk succs t b n' ∧ n = c + n' := by
  induction w with
  | nil => exact Or.inl ⟨rfl, rfl⟩
  | @snoc x y n c _ hm ih =>
    right
    rcases ih with ⟨rfl, rfl⟩ | ⟨t, c', n', h1, h2, rfl⟩
    · exact ⟨y, c, 0, hm, .nil, by omega⟩
    · exact ⟨t, c', n' + c, h1, h2.snoc hm, by omega⟩

theorem Q_edge {v : Int → ℚ} {a : Action} {t c : Nat} (e : a.outs = [((t : Int), (c : Int), (1 : ℚ))]) : Q v a = c + v t := by
  unfold Q expect
  rw [e]
  simp

theorem walk_pres (he : EdgeActions succs acts) {gl : Nat} {K : ℚ} (hK : 1 ≤ K) (s : Int) (p : St) (b : ℚ) (hw : Wk (vEnvOf acts h) gl p)
    (hi : ∀ s n : Nat, Walk succs s gl n → p.v s ≤ K * n) : ∀ x n : Nat, Walk succs x gl n → (backup (vEnvOf acts h) gl s p b).1.v x ≤ K * n := by
  intro x n w
  have hB := backup_wk (s := s) (b := b) (graph_proper he) hw
  by_cases hx : (x : Int) = s
  · subst hx
    by_cases hg : x = gl
    · subst hg
      rw [hB.sub.goal0]
      have : (0 : ℚ) ≤ n := by exact_mod_cast Nat.zero_le n
      nlinarith
    · rcases walk_head w with ⟨e, _⟩ | ⟨t, c, n', h1, h2, rfl⟩
      · exact absurd e hg
      · obtain ⟨a, ha, e⟩ := act_edge he h1
        rw [← vacts_nat (acts := acts) (h := h) x] at ha
        rcases hB.value with e' | e' | ⟨a', _, e1, e2⟩
        · exact absurd (by exact_mod_cast e') hg
        · rw [e'] at ha; cases ha
        · rw [e1]
          refine le_trans (e2 a ha) ?_
          rw [Q_edge e]
          have k1 := hi t n' h2
          have k2 : (0 : ℚ) ≤ (c : ℚ) := by exact_mod_cast Nat.zero_le c
          push_cast
          nlinarith
  · rw [(hB.frame x hx).1]; exact hi x n w

/-- **C160.**  On a graph, after any number of calls: the value of a state is at most `K` times the cost of every walk from it to the goal, if that holds for the heuristic. -/
theorem graph_value_le (he : EdgeActions succs acts) {gl : Nat} (h0 : h gl = 0) {K : ℚ} (hK : 1 ≤ K) (hh : ∀ s n : Nat, Walk succs s gl n → (h s : ℚ) ≤ K * n)
    {p : St} (hp : Hist (vEnvOf acts h) start gl p) {s n : Nat} (w : Walk succs s gl n) : p.v s ≤ K * n := by
  refine (hist_pres (graph_proper he) (by rw [vh_nat, h0]; rfl) vh_nonneg (P := fun v => ∀ s n : Nat, Walk succs s gl n → v s ≤ K * n) (fun s p b => walk_pres he hK s p b) ?_ hp).2 s n w
  intro s n w
  show (((vEnvOf acts h).h s : Int) : ℚ) ≤ K * n
  rw [vh_nat]; exact_mod_cast hh s n w

theorem meets_head {π : Int → Option Action} {g x y : Int} (hm : Meets π g x y) : y = x ∨ ∃ a o, x ≠ g ∧ π x = some a ∧ o ∈ a.outs ∧ Meets π g o.1 y := by
  induction hm with
  | start => exact Or.inl rfl
  | @step s a o _ hg hb ho ih =>
    right
    rcases ih with rfl | ⟨a', o', k1, k2, k3, k4⟩
    · exact ⟨a, o, hg, hb, ho, .start⟩
    · exact ⟨a', o', k1, k2, k3, .step k4 hg hb ho⟩

theorem meets_cons {π : Int → Option Action} {g x y : Int} {a : Action} {o : Int × Int × ℚ} (h1 : x ≠ g) (h2 : π x = some a) (h3 : o ∈ a.outs) (hm : Meets π g o.1 y) : Meets π g x y := by
  induction hm with
  | start => exact .step .start h1 h2 h3
  | step _ hg hb ho ih => exact .step ih hg hb ho

/-- on a graph all values are natural numbers -/
theorem nat_pres (he : EdgeActions succs acts) {gl : Nat} (s : Int) (p : St) (b : ℚ) (hw : Wk (vEnvOf acts h) gl p)
    (hi : ∀ n : Nat, ∃ k : Nat, p.v n = k) : ∀ n : Nat, ∃ k : Nat, (backup (vEnvOf acts h) gl s p b).1.v n = k := by
  intro x
  have hB := backup_wk (s := s) (b := b) (graph_proper he) hw
  by_cases hx : (x : Int) = s
  · subst hx
    rcases hB.value with e | e | ⟨a, ha, e1, _⟩
    · obtain rfl : x = gl := by exact_mod_cast e
      exact ⟨0, by rw [hB.sub.goal0]; simp⟩
    · by_cases hg : (x : Int) = gl
      · obtain rfl : x = gl := by exact_mod_cast hg
        exact ⟨0, by rw [hB.sub.goal0]; simp⟩
      · unfold backup
        rw [if_neg hg, e]
        exact ⟨INFINITECOST, by simp [VI.minLoop, updI]⟩
    · rw [vacts_nat] at ha
      obtain ⟨t, c, _, e⟩ := edge_act he ha
      obtain ⟨k, hk⟩ := hi t
      exact ⟨c + k, by rw [e1, Q_edge e, hk]; push_cast; rfl⟩
  · rw [(hB.frame x hx).1]; exact hi x

theorem settled_path (he : EdgeActions succs acts) {gl : Nat} (hc : ∀ s t c, (t, c) ∈ succs s → 1 ≤ c) {p : St} (hw : Wk (vEnvOf acts h) gl p) (hnat : ∀ n : Nat, ∃ k : Nat, p.v n = k) {D : Int → Prop}
    (hD : ∀ s, D s → s = gl ∨ ∃ a ∈ (vEnvOf acts h).acts s, p.best s = some a ∧ Q p.v a ≤ p.v s + 1 / 25 ∧ ∀ o ∈ a.outs, D o.1) :
    ∀ (k : Nat) (s : Nat), D s → p.v s ≤ k * (24 / 25) → ∃ l n, PathCost succs l n ∧ FromTo l s gl ∧ (n : ℚ) ≤ p.v s ∧ ∀ t : Int, (∃ x ∈ l, t = ((x : Nat) : Int)) ↔ Meets p.best gl s t := by
  intro k
  induction k with
  | zero =>
    intro s hs hv
    rcases hD s hs with hg | ⟨a, ha, hb, hq, ho⟩
    · have hg : s = gl := by exact_mod_cast hg
      subst hg
      refine ⟨[s], 0, .single s, ⟨rfl, rfl⟩, by rw [hw.goal0]; norm_num, fun t => ⟨?_, ?_⟩⟩
      · rintro ⟨x, hx, rfl⟩; simp at hx; subst hx; exact .start
      · intro h
        rcases meets_head h with rfl | ⟨_, _, h, _⟩
        · exact ⟨s, by simp, rfl⟩
        · exact absurd rfl h
    · exfalso
      rw [vacts_nat] at ha
      obtain ⟨t, c, h1, e⟩ := edge_act he ha
      rw [Q_edge e] at hq
      have h2 : (1 : ℚ) ≤ (c : ℚ) := by exact_mod_cast hc s t c h1
      have := hw.nonneg t
      norm_num at hv
      linarith
  | succ k ih =>
    intro s hs hv
    rcases hD s hs with hg | ⟨a, ha, hb, hq, ho⟩
    · have hg : s = gl := by exact_mod_cast hg
      subst hg
      refine ⟨[s], 0, .single s, ⟨rfl, rfl⟩, by rw [hw.goal0]; norm_num, fun t => ⟨?_, ?_⟩⟩
      · rintro ⟨x, hx, rfl⟩; simp at hx; subst hx; exact .start
      · intro h
        rcases meets_head h with rfl | ⟨_, _, h, _⟩
        · exact ⟨s, by simp, rfl⟩
        · exact absurd rfl h
    · have hsg := (hw.best s a hb).1
      rw [vacts_nat] at ha
      obtain ⟨t, c, h1, e⟩ := edge_act he ha
      rw [Q_edge e] at hq
      have h2 : (1 : ℚ) ≤ (c : ℚ) := by exact_mod_cast hc s t c h1
      have h3 : (c : ℚ) + p.v t ≤ p.v s := by
        obtain ⟨k1, e1⟩ := hnat s
        obtain ⟨k2, e2⟩ := hnat t
        rw [e1, e2] at hq ⊢
        have : ((c + k2 : Nat) : ℚ) < ((k1 + 1 : Nat) : ℚ) := by push_cast; linarith
        have : c + k2 < k1 + 1 := by exact_mod_cast this
        have : c + k2 ≤ k1 := by omega
        exact_mod_cast this
      have hDt : D t := ho ((t : Int), (c : Int), 1) (by rw [e]; simp)
      obtain ⟨l, n, q1, ⟨q2, q3⟩, q4, q5⟩ := ih t hDt (by push_cast at hv; linarith)
      obtain ⟨l', rfl⟩ : ∃ l', l = t :: l' := by
        cases l with
        | nil => cases q2
        | cons x l' => simp at q2; subst q2; exact ⟨l', rfl⟩
      refine ⟨s :: t :: l', c + n, .cons h1 q1, ⟨rfl, by simpa using q3⟩, ?_, fun x => ⟨?_, ?_⟩⟩
      · push_cast
        linarith
      · rintro ⟨y, hy, rfl⟩
        rcases List.mem_cons.mp hy with rfl | hy
        · exact .start
        · exact meets_cons hsg hb (o := ((t : Int), (c : Int), 1)) (by rw [e]; simp) ((q5 y).mp ⟨y, hy, rfl⟩)
      · intro hx
        rcases meets_head hx with rfl | ⟨a', o, _, k2, k3, k4⟩
        · exact ⟨s, by simp, rfl⟩
        · rw [hb] at k2; cases k2
          rw [e] at k3; simp at k3; subst k3
          obtain ⟨y, hy, e⟩ := (q5 x).mpr k4
          exact ⟨y, List.mem_cons_of_mem _ hy, e⟩

/-- **C160.**  On a graph whose edges cost at least 1, a new planner that stops because the values have converged has found a path: the states of the policy are exactly the states of a path from the start
to the goal, and the cost of the path is at most the value of the start state. -/
theorem graph_converged (he : EdgeActions succs acts) {st gl : Nat} (h0 : h gl = 0) (hc : ∀ s t c, (t, c) ∈ succs s → 1 ≤ c)
    {clk : Nat → Bool} {fuel : Nat} {bell : ℚ} {sol : List Int} {r : Res} (hb : ERRDELTA < bell)
    (hr : replan (vEnvOf acts h) st gl clk fuel (fresh (vEnvOf acts h)) bell sol = some r) (hcv : r.bell ≤ ERRDELTA) :
    ∃ l n, PathCost succs l n ∧ FromTo l st gl ∧ (n : ℚ) ≤ r.st.v st ∧ ∀ t : Int, t ∈ r.policy.map (fun s => s.id) ↔ ∃ x ∈ l, t = ((x : Nat) : Int) := by
  have hp := graph_proper (h := h) he
  have h0' : (vEnvOf acts h).h gl = 0 := by rw [vh_nat, h0]; rfl
  obtain ⟨D, d0, d1⟩ := replan_settled hp h0' vh_nonneg hb hr hcv
  obtain ⟨hw, hnat⟩ := replan_pres hp (P := fun v => ∀ n : Nat, ∃ k : Nat, v n = k) (fun s p b => nat_pres he s p b) (fresh_wk h0' vh_nonneg)
    (fun n => ⟨h n, by show (((vEnvOf acts h).h n : Int) : ℚ) = h n; rw [vh_nat]; simp⟩) hr
  obtain ⟨k, hk⟩ := exists_nat_gt (r.st.v st)
  have hk2 : (r.st.v st : ℚ) ≤ (2 * k : Nat) * (24 / 25) := by
    have := hw.nonneg st
    push_cast
    linarith
  obtain ⟨l, n, q1, q2, q3, q4⟩ := settled_path he hc hw hnat d1 (2 * k) st d0 hk2
  refine ⟨l, n, q1, q2, q3, fun t => ?_⟩
  rw [q4]
  obtain ⟨p1, b1, p2, m', h1, h2, rfl⟩ := replan_parts hr
  have k2 := iterate_wk hp (fresh_wk h0' vh_nonneg) (fun _ => Nat.le_refl _) h1
  obtain ⟨_, s2, _, s4, _⟩ := policyOf_spec k2.1 h2
  rw [s2 t]
  show _ ↔ Meets p2.best gl st t
  rw [s4]

/-- a heuristic that drops along every edge by at most N/M of its cost is at most N/M times the cost of every walk to the goal -/
theorem heur_walk {gl N M : Nat} (h0 : h gl = 0) (hu : UpTo succs h 1 1 N M) {s n : Nat} (w : Walk succs s gl n) : M * h s ≤ N * n := by
  have : ∀ {b n : Nat}, Walk succs s b n → M * h s ≤ M * h b + N * n := by
    intro b n w
    induction w with
    | nil => omega
    | @snoc x y n c _ hm ih =>
      have := hu _ _ _ hm
      simp only [Nat.one_mul, Nat.div_one] at this
      rw [Nat.mul_add]; omega
  have := this w
  rw [h0] at this
  simpa using this

/-- **C160.**  So, on a graph with edge costs at least 1 and a heuristic that drops along every edge by at most N/M ≥ 1 times its cost, the path costs at most N/M times any walk from start to goal. -/
theorem graph_near_optimal (he : EdgeActions succs acts) {st gl N M : Nat} (h0 : h gl = 0) (hc : ∀ s t c, (t, c) ∈ succs s → 1 ≤ c)
    (hM : 0 < M) (hMN : M ≤ N) (hu : UpTo succs h 1 1 N M)
    {clk : Nat → Bool} {fuel : Nat} {bell : ℚ} {sol : List Int} {r : Res} (hb : ERRDELTA < bell)
    (hr : replan (vEnvOf acts h) st gl clk fuel (fresh (vEnvOf acts h)) bell sol = some r) (hcv : r.bell ≤ ERRDELTA) :
    ∃ l n, PathCost succs l n ∧ FromTo l st gl ∧ (∀ t : Int, t ∈ r.policy.map (fun s => s.id) ↔ ∃ x ∈ l, t = ((x : Nat) : Int)) ∧
      ∀ n', Walk succs st gl n' → M * n ≤ N * n' := by
  obtain ⟨l, n, q1, q2, q3, q4⟩ := graph_converged he h0 hc hb hr hcv
  refine ⟨l, n, q1, q2, q4, fun n' w => ?_⟩
  have hM' : (0 : ℚ) < M := by exact_mod_cast hM
  have hv := graph_value_le he h0 (K := (N : ℚ) / M) (by rw [le_div_iff₀ hM']; rw [one_mul]; exact_mod_cast hMN) (fun s n w => by
    rw [div_mul_eq_mul_div, le_div_iff₀ hM']
    have := heur_walk h0 hu w
    calc (h s : ℚ) * M = M * h s := by ring
      _ ≤ N * n := by exact_mod_cast this) (Hist.call Hist.new hr) w
  have h1 : (M : ℚ) * r.st.v st ≤ N * n' := by
    have := mul_le_mul_of_nonneg_left hv hM'.le
    rwa [div_mul_eq_mul_div, mul_div_cancel₀ _ hM'.ne'] at this
  have h2 : (M : ℚ) * n ≤ M * r.st.v st := mul_le_mul_of_nonneg_left q3 hM'.le
  have h4 : ((M * n : Nat) : ℚ) ≤ ((N * n' : Nat) : ℚ) := by
    push_cast
    linarith
  exact_mod_cast h4

end VIAnyProps
end Sbpl
