import Verif.Proofs.ARASub
import Verif.Props.ARA
/-!
# `ARAPlanner::compute_suboptimality` (C169–C170)

A planner is constructed on environment `env0`, an arbitrary list of interface calls is made, `replan` is called
with an arbitrary time limit, and then `compute_suboptimality`.
-/

namespace Sbpl.ARASubProps
open Sbpl GraphSpec PlannerSpec ARA ARAProps

/-- `g + h` of a state, a lower bound on the cost of a path through it (for the values the planner holds) -/
def fval (st : ARA) (s : Nat) : Nat := st.g s + st.h s

/-- The last element of the OPEN array is not the only state of OPEN and INCONS with the smallest `g + h`. -/
def LastNotBest (st : ARA) : Prop :=
  st.heap.size = 0 ∨
  (∃ i, 1 ≤ i ∧ i < st.heap.size ∧ fval st (st.heap.arr i).st ≤ fval st (st.heap.arr st.heap.size).st) ∨
  (∃ s, st.incons.inList s = true ∧ fval st s ≤ fval st (st.heap.arr st.heap.size).st)

section
variable {env0 : PEnv} {fwd : Bool} {D ie fe de : Nat} {fs : Bool} {ops : List Op} {st st' : ARA} {bs : List Nat}
  {res : Result} {a b : Nat}

/-- the suboptimality bound in force after `replan`: the reported eps, or INFINITECOST if none is satisfied -/
def epsOf (D : Nat) (res : Result) : ℚ :=
  match res.finalEps with
  | none => 1000000000
  | some e => (e : ℚ) / D

theorem walk_zero {st : ARA} (pos : Pos st) {s t c : Nat} (w : Walk st.base s t c) (h : c = 0) : t = s := by
  cases w with
  | nil => rfl
  | snoc w2 hm => have := pos _ _ _ hm; omega

/-- **C169a** `compute_suboptimality` after `replan` never raises; it returns -1 or a number which is at least 1 and
never above the bound `replan` reported (when that is at least 1). -/
theorem range (he : EnvOk env0) (hok : ∀ op ∈ ops, OpOk op)
    (hrun : (init env0 fwd D ie fe de fs).run ops = some st)
    (ha : lastStart ops = some a) (hb : lastGoal ops = some b) (hbs : bs ≠ [])
    (hr : st.replan bs = .ok (st', res)) :
    st'.computeSub = .ok none ∨ ∃ r, st'.computeSub = .ok (some r) ∧ 1 ≤ r ∧ r ≤ max 1 (epsOf D res) := by
  obtain ⟨g, hf', hD, hEn, s0, gl, h0, hg, e1, e2⟩ := hist he hok hrun ha hb
  have af := replan_after g.api g.env h0 hg hbs hr
  have eq : st'.epsSatQ = epsOf D res := by
    unfold epsSatQ epsOf
    rw [af.feps, af.D, hD]
    cases st'.epsSat with
    | none => norm_num [INFINITECOST]
    | some e => rfl
  obtain ⟨im, _, _, h⟩ := computeSub_eq af.inv.data af.inv.goal
  rw [h]
  split
  · exact .inl rfl
  · right
    refine ⟨_, rfl, le_max_left _ _, ?_⟩
    apply max_le (le_max_left _ _)
    rw [eq]
    split
    · exact le_max_right _ _
    · exact le_trans (min_le_left _ _) (le_max_right _ _)

/-- **C169b** After a search that satisfied eps = 1, `compute_suboptimality` returns 1 or -1. -/
theorem optimal_reports_one (he : EnvOk env0) (hok : ∀ op ∈ ops, OpOk op)
    (hrun : (init env0 fwd D ie fe de fs).run ops = some st)
    (ha : lastStart ops = some a) (hb : lastGoal ops = some b) (hbs : bs ≠ [])
    (hr : st.replan bs = .ok (st', res)) {e : Nat} (hfe : res.finalEps = some e) (h1 : e ≤ D) :
    st'.computeSub = .ok none ∨ st'.computeSub = .ok (some 1) := by
  rcases range he hok hrun ha hb hbs hr with h | ⟨r, h, h2, h3⟩
  · exact .inl h
  · right
    have : epsOf D res ≤ 1 := by
      unfold epsOf
      rw [hfe]
      exact div_le_one_of_le₀ (by exact_mod_cast h1) (by positivity)
    rw [max_eq_left this] at h3
    rw [h, le_antisymm h3 h2]

/-- **C169c** Unless the last element of OPEN is the only state with the smallest `g + h`, the number returned is a
valid suboptimality bound for a consistent heuristic: the cost of the solution is at most that many times the cost of
every path.  (`hx`: the eps satisfied by the search is one the inflated heuristic respects, e.g. an integer, see C20.) -/
theorem sound (he : EnvOk env0) (hok : ∀ op ∈ ops, OpOk op)
    (hrun : (init env0 fwd D ie fe de fs).run ops = some st)
    (ha : lastStart ops = some a) (hb : lastGoal ops = some b) (hbs : bs ≠ [])
    (hr : st.replan bs = .ok (st', res)) (hD : 0 < D) (hh : HeurOk (lastEnv env0 ops) fwd)
    (hx : ∀ e, res.finalEps = some e → D ∣ e)
    (hp : fwd = false → PredsOk (lastEnv env0 ops) a)
    (hl : LastNotBest st') {r : ℚ} (hs : st'.computeSub = .ok (some r)) (hf : res.found = true) {c : Nat}
    (w : Walk ((lastEnv env0 ops).succs b) a b c) : (res.cost : ℚ) ≤ r * c := by
  obtain ⟨g, hf', hD', hEn, s0, gl, h0, hg, e1, e2⟩ := hist he hok hrun ha hb
  have af := replan_after g.api g.env h0 hg hbs hr
  have eq : st'.epsSatQ = epsOf D res := by
    unfold epsSatQ epsOf
    rw [af.feps, af.D, hD']
    cases st'.epsSat with
    | none => norm_num [INFINITECOST]
    | some e => rfl
  have w' : Walk st.base s0 gl c := by
    apply walk_base g.env h0 hg (by rw [hf', hEn, e1]; exact hp)
    rw [hf', hEn, e1, e2]; exact w
  have u := upTo_base (gl := gl) g.env (D := 1) (e := 1) (N := 1) (M := 1)
    (by rw [hEn, hf']; exact heurUpTo_of_heurOk hh (by omega)) h0
  have baseE : st'.base = st.base := by
    funext s; simp only [ARA.base, af.env, af.fwd, af.inv.start, h0]
  have heurE : st'.heur = st.heur := by funext x y; simp only [heur, af.env, af.fwd]
  rw [← baseE, ← heurE] at u
  rw [← baseE] at w'
  have hc0 : (0 : ℚ) ≤ c := by positivity
  have costlt : st'.g gl < 1000000000 := by
    have := af.found.mp hf
    exact this
  have costE : res.cost = st'.g gl := af.cost
  -- the eps bound is valid
  have epsOk : (res.cost : ℚ) ≤ max 1 (epsOf D res) * c := by
    rcases Nat.eq_zero_or_pos c with rfl | hc
    · have pos : Pos st' := envOk_base (by rw [af.env]; exact g.env)
      have e0 : gl = s0 := walk_zero pos w' rfl
      rw [costE, e0, af.inv.core.startG]; simp
    · cases hfe : res.finalEps with
      | none =>
        have : epsOf D res = 1000000000 := by unfold epsOf; rw [hfe]
        rw [this]
        have h1 : (1 : ℚ) ≤ c := by exact_mod_cast hc
        have h2 : (res.cost : ℚ) ≤ 1000000000 := by rw [costE]; exact_mod_cast (le_of_lt costlt)
        have h3 : (1000000000 : ℚ) ≤ max 1 1000000000 := le_max_right _ _
        nlinarith
      | some e =>
        obtain ⟨q, hq⟩ := hx e hfe
        have hb2 : res.cost ≤ max 1 q * c := by
          refine (replan_bound he hok hrun ha hb hbs hr hh hfe (E := max 1 q) (le_max_left _ _) ?_ hp w).2
          rw [hq]
          calc D * q = q * D := Nat.mul_comm _ _
            _ ≤ max 1 q * D := Nat.mul_le_mul_right _ (le_max_right _ _)
        have : epsOf D res = q := by
          unfold epsOf
          rw [hfe, hq]
          have : (D : ℚ) ≠ 0 := by exact_mod_cast hD.ne'
          push_cast
          field_simp
        rw [this]
        have h2 : (res.cost : ℚ) ≤ ((max 1 q * c : Nat) : ℚ) := by exact_mod_cast hb2
        refine le_trans h2 ?_
        push_cast
        exact le_refl _
  obtain ⟨im, hi1, hi2, h⟩ := computeSub_eq af.inv.data af.inv.goal
  rw [h] at hs
  split at hs
  · cases hs
  next hne =>
    have hs' := Option.some.inj (Except.ok.inj hs)
    generalize hm : min (st'.subOpen (st'.heap.size - 1)) im = m at hs' hne
    split at hs'
    · rw [← hs', eq]; exact epsOk
    next hm0 =>
      have front : st'.g gl ≤ c ∨ m ≤ c := by
        rcases plain_front af.inv.core u.2 w' with h | ⟨o, ho, hfo⟩
        · left; rw [G_acc af.acc] at h; exact h
        · right
          rw [u.1] at hfo
          have inIncons : ∀ s, st'.Inc s → m ≤ fval st' s := by
            intro s h; rw [← hm]; exact Nat.le_trans (Nat.min_le_right _ _) (hi1 s h)
          have inOpen : ∀ i, 1 ≤ i → i < st'.heap.size → m ≤ fval st' (st'.heap.arr i).st := by
            intro i h1 h2
            rw [← hm]
            exact Nat.le_trans (Nat.min_le_left _ _) (subOpen_le st' _ i h1 (by omega))
          have key : m ≤ fval st' o := by
            rcases ho with ho | ho
            · cases e : Heap.keyOf st'.heap o with
              | none => exact absurd e ho
              | some k =>
                obtain ⟨sl, a1, a2, a3, _⟩ := Heap.slot_of_keyOf af.inv.data.bp e
                by_cases q : sl = st'.heap.size
                · have oe : (st'.heap.arr st'.heap.size).st = o := by rw [← q]; exact a3
                  rcases hl with hl | ⟨i, h1, h2, h3⟩ | ⟨s, h1, h3⟩
                  · omega
                  · rw [oe] at h3; exact Nat.le_trans (inOpen i h1 h2) h3
                  · rw [oe] at h3
                    refine Nat.le_trans (inIncons s ?_) h3
                    unfold CList.inList at h1
                    exact Option.isSome_iff_ne_none.mp h1
                · rw [← a3]; exact inOpen sl a1 (by omega)
            · exact inIncons o ho
          have hoA : st'.acc o := by
            rcases ho with ho | ho
            · exact af.inv.data.openAcc ho
            · exact af.inv.data.incAcc ho
          unfold fval at key
          rw [af.inv.hok o hoA] at key
          omega
      have lbOk : (res.cost : ℚ) ≤ max 1 ((st'.g gl : ℚ) / m) * c := by
        rw [costE]
        rcases front with h | h
        · have h1 : (st'.g gl : ℚ) ≤ c := by exact_mod_cast h
          have h2 : (1 : ℚ) ≤ max 1 ((st'.g gl : ℚ) / m) := le_max_left _ _
          nlinarith
        · have h1 : (m : ℚ) ≤ c := by exact_mod_cast h
          have h0 : (0 : ℚ) < m := by exact_mod_cast Nat.pos_of_ne_zero hm0
          have h2 : (st'.g gl : ℚ) / m ≤ max 1 ((st'.g gl : ℚ) / m) := le_max_right _ _
          have h3 : (0 : ℚ) ≤ (st'.g gl : ℚ) / m := div_nonneg (Nat.cast_nonneg _) (le_of_lt h0)
          calc (st'.g gl : ℚ) = (st'.g gl : ℚ) / m * m := by field_simp
            _ ≤ (st'.g gl : ℚ) / m * c := mul_le_mul_of_nonneg_left h1 h3
            _ ≤ _ := mul_le_mul_of_nonneg_right h2 hc0
      rw [← hs', eq]
      rcases le_total (epsOf D res) ((st'.g gl : ℚ) / m) with hle | hle
      · rw [min_eq_left hle]; exact epsOk
      · rw [min_eq_right hle]; exact lbOk

/-- **C169d** -1 is returned exactly when INCONS is empty and OPEN has at most one element (values below INT_MAX). -/
theorem minus_one_iff (he : EnvOk env0) (hok : ∀ op ∈ ops, OpOk op)
    (hrun : (init env0 fwd D ie fe de fs).run ops = some st)
    (ha : lastStart ops = some a) (hb : lastGoal ops = some b) (hbs : bs ≠ [])
    (hr : st.replan bs = .ok (st', res)) (hi : ∀ s, fval st' s < 2147483647) :
    st'.computeSub = .ok none ↔ st'.heap.size ≤ 1 ∧ ∀ s, st'.incons.inList s = false := by
  obtain ⟨g, hf', hD', hEn, s0, gl, h0, hg, e1, e2⟩ := hist he hok hrun ha hb
  have af := replan_after g.api g.env h0 hg hbs hr
  obtain ⟨im, hi1, hi2, h⟩ := computeSub_eq af.inv.data af.inv.goal
  rw [h]
  have hi' : ∀ s, st'.g s + st'.h s < INTMAX := hi
  have inc : ∀ s, st'.Inc s ↔ st'.incons.inList s = true := by
    intro s; unfold ARA.Inc CList.inList; rw [Option.isSome_iff_ne_none]
  have i1 : im ≤ INTMAX := by
    rcases hi2 with h | ⟨s, _, h⟩
    · omega
    · have := hi' s; omega
  constructor
  · intro hn
    split at hn
    next hm =>
      constructor
      · by_contra q
        have := subOpen_le st' (st'.heap.size - 1) 1 (by omega) (by omega)
        have := hi' (st'.heap.arr 1).st
        omega
      · intro s
        by_contra q
        have q' : st'.incons.inList s = true := by simpa using q
        have := hi1 s ((inc s).mpr q')
        have := hi' s
        omega
    · cases hn
  · rintro ⟨h1, h2⟩
    have e1 : st'.subOpen (st'.heap.size - 1) = INTMAX := by
      rw [show st'.heap.size - 1 = 0 by omega]; rfl
    have e2 : im = INTMAX := by
      rcases hi2 with h | ⟨s, h, _⟩
      · exact h
      · have := (inc s).mp h; rw [h2 s] at this; cases this
    rw [e1, e2, if_pos (by simp)]

end

/-! ## What the condition costs: refutation, and runs meeting the hypotheses -/

/-- construct, make the calls `ops`, call `replan` and then `compute_suboptimality` -/
def subRun (env : PEnv) (fwd : Bool) (D ie fe de : Nat) (fs : Bool) (ops : List Op) (bs : List Nat) :
    Option (Result × Option (Option ℚ)) :=
  match (ARA.init env fwd D ie fe de fs).run ops with
  | none => none
  | some st => match st.replan bs with
    | .ok (st', r) => some (r, st'.computeSub.toOption)
    | .error _ => none

theorem subRun_some {env : PEnv} {fwd : Bool} {D ie fe de : Nat} {fs : Bool} {ops : List Op} {bs : List Nat}
    {r : Result} {x : Option ℚ} (h : subRun env fwd D ie fe de fs ops bs = some (r, some x)) :
    ∃ st st', (ARA.init env fwd D ie fe de fs).run ops = some st ∧ st.replan bs = .ok (st', r) ∧
      st'.computeSub = .ok x := by
  unfold subRun at h
  split at h
  · cases h
  · rename_i st h1
    split at h
    · rename_i st' r' h2
      simp only [Option.some.injEq, Prod.mk.injEq] at h
      obtain ⟨rfl, h3⟩ := h
      refine ⟨st, st', h1, h2, ?_⟩
      cases e : st'.computeSub with
      | error y => rw [e] at h3; cases h3
      | ok y => rw [e] at h3; cases h3; rfl
    · cases h

/-- three ways from 0 to the goal 9: directly for 15, through 1 for 9, through 3 for 12 -/
def threeEdges : List (Nat × Nat × Nat) := [(0, 9, 15), (0, 1, 1), (0, 3, 2), (1, 9, 8), (3, 9, 10)]
def threeH (gl s : Nat) : Nat := if gl = 9 then (if s = 1 then 6 else if s = 3 then 8 else if s = 0 then 7 else 0) else 0
def threeEnv : PEnv := tableEnv threeEdges threeH (fun _ _ => 0)

theorem threeEnv_heurOk : HeurOk threeEnv true := by
  show ∀ gl, Consistent _ _ _
  intro gl
  refine ⟨?_, ?_⟩
  · show threeH gl gl = 0
    unfold threeH
    split
    next h => subst h; rfl
    · rfl
  · intro s t c h
    show threeH gl s ≤ threeH gl t + c
    simp only [threeEnv, tableEnv] at h
    split at h
    · cases h
    · have hm := mem_tableSucc.mp h
      have key : ∀ e ∈ threeEdges, threeH 9 e.1 ≤ threeH 9 e.2.1 + e.2.2 := by decide
      by_cases q : gl = 9
      · subst q; exact key _ hm
      · simp [threeH, q]

/-- what the example checks about the final state -/
def threeRun : Option (Result × Option (Option ℚ) × Bool) :=
  match (ARA.init threeEnv true 1 3 1 1 true).run [.setGoal 9, .setStart 0] with
  | none => none
  | some st => match st.replan [9] with
    | .ok (st', r) => some (r, st'.computeSub.toOption,
        decide (2 < st'.heap.size) && decide (fval st' (st'.heap.arr 2).st ≤ fval st' (st'.heap.arr st'.heap.size).st))
    | .error _ => none

/-- The hypotheses of `sound` hold, and its bound 15 / 7 is sharper than the eps = 3 of the search. -/
example : ∃ st st' res, EnvOk threeEnv ∧ HeurOk threeEnv true ∧
    (init threeEnv true 1 3 1 1 true).run [.setGoal 9, .setStart 0] = some st ∧ st.replan [9] = .ok (st', res) ∧
    res.found = true ∧ res.cost = 15 ∧ res.finalEps = some 3 ∧ LastNotBest st' ∧
    st'.computeSub = .ok (some (15 / 7)) ∧ Walk (threeEnv.succs 9) 0 9 9 := by
  have e : threeRun = some (⟨true, [0, 9], 15, some 3, [[0]]⟩, some (some (15 / 7)), true) := by decide +kernel
  unfold threeRun at e
  split at e
  · cases e
  · rename_i st h1
    split at e
    · rename_i st' r h2
      simp only [Option.some.injEq, Prod.mk.injEq, Bool.and_eq_true, decide_eq_true_eq] at e
      obtain ⟨rfl, h3, h4, h5⟩ := e
      refine ⟨st, st', _, tableEnv_ok _ _ _ (by decide), threeEnv_heurOk, h1, h2, rfl, rfl, rfl,
        .inr (.inl ⟨2, by omega, h4, h5⟩), ?_, ?_⟩
      · cases e : st'.computeSub with
        | error y => rw [e] at h3; cases h3
        | ok y => rw [e] at h3; cases h3; rfl
      · exact Walk.snoc (b := 1) (n := 1) (c := 8) (Walk.snoc (b := 0) (n := 0) (c := 1) .nil (by decide)) (by decide)
    · cases e

/-- **C170, refuted** "The number compute_suboptimality returns bounds the ratio of the solution's cost to the
optimum": with a consistent heuristic and eps = 3, the planner returns a solution of cost 3, reports a suboptimality
of 1 (optimal), and there is a path of cost 2 -- the loop over OPEN never looks at its last element. -/
theorem reports_optimal_wrongly :
    EnvOk smallEnv ∧ HeurOk smallEnv true ∧ Walk (smallEnv.succs 2) 0 2 2 ∧
    ∃ st st' res, (init smallEnv true 1 3 1 1 true).run smallOps = some st ∧ st.replan [9] = .ok (st', res) ∧
      res.found = true ∧ res.cost = 3 ∧ res.finalEps = some 3 ∧ st'.computeSub = .ok (some 1) := by
  refine ⟨smallEnv_ok, small_heurOk, ?_, ?_⟩
  · exact Walk.snoc (b := 1) (n := 1) (c := 1) (Walk.snoc (b := 0) (n := 0) (c := 1) .nil (by decide)) (by decide)
  · have e : subRun smallEnv true 1 3 1 1 true smallOps [9] =
        some (⟨true, [0, 2], 3, some 3, [[0]]⟩, some (some 1)) := by decide +kernel
    obtain ⟨st, st', h1, h2, h3⟩ := subRun_some e
    exact ⟨st, st', _, h1, h2, rfl, rfl, rfl, h3⟩

def lineEnv : PEnv := tableEnv [(0, 1, 1)] (fun _ _ => 0) (fun _ _ => 0)

/-- **C170, second part** After finding the optimal solution of a graph with a single edge, -1 (error) is returned:
the goal is the only element of OPEN. -/
theorem reports_error_for_optimal :
    EnvOk lineEnv ∧ HeurOk lineEnv true ∧
    ∃ st st' res, (init lineEnv true 1 2 1 1 true).run [.setGoal 1, .setStart 0] = some st ∧
      st.replan [9] = .ok (st', res) ∧ res.found = true ∧ res.cost = 1 ∧ st'.computeSub = .ok none := by
  refine ⟨tableEnv_ok _ _ _ (by decide), ?_, ?_⟩
  · show ∀ gl, Consistent _ _ _
    exact fun gl => ⟨rfl, fun _ _ _ _ => Nat.zero_le _⟩
  · have e : subRun lineEnv true 1 2 1 1 true [.setGoal 1, .setStart 0] [9] =
        some (⟨true, [0, 1], 1, some 2, [[0]]⟩, some none) := by decide +kernel
    obtain ⟨st, st', h1, h2, h3⟩ := subRun_some e
    exact ⟨st, st', _, h1, h2, rfl, rfl, h3⟩

end Sbpl.ARASubProps
