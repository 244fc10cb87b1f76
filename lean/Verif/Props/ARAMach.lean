import Verif.Proofs.ARAMach
import Verif.Props.ARA16
/-!
# `ARAPlanner` with its machine integers (C171)
-/

namespace Sbpl.ARAMachProps
open Sbpl GraphSpec PlannerSpec ARA CounterSpec ARAProps ARA16Props

/-- a call stays within the bounds: environments hand out `int` costs and heuristic values at most `H`, requested eps
values are at most `M / D` -/
def OpBd (M H : Nat) : Op → Prop
  | .costsChanged env => EnvBd H env
  | .setParams a b _ _ => a ≤ M ∧ b ≤ M
  | _ => True

variable {conv : Nat → Nat} {M H : Nat}

theorem step_mb {st st' : ARA} (b : MB M H st) {op : Op} (ho : OpBd M H op) (h : st.step op = some st') : MB M H st' := by
  cases op with
  | replan bs =>
    simp only [step] at h
    split at h
    · rename_i r hr; cases h; exact mb_replan b hr
    · cases h
  | setStart s =>
    cases h
    unfold setStart setSearchStart setSearchGoal
    split <;> split
    · exact b
    · exact b.congr rfl rfl rfl rfl rfl rfl rfl rfl
    · exact b
    · exact ⟨b.env, b.g, b.v, b.h, b.ini, b.ini, b.fin, b.ok⟩
  | setGoal s =>
    cases h
    unfold setGoal setSearchStart setSearchGoal
    split <;> split
    · exact b
    · exact ⟨b.env, b.g, b.v, b.h, b.ini, b.ini, b.fin, b.ok⟩
    · exact b
    · exact b.congr rfl rfl rfl rfl rfl rfl rfl rfl
  | costsChanged e => cases h; exact ⟨ho, b.g, b.v, b.h, b.eps, b.ini, b.fin, b.ok⟩
  | forceScratch => cases h; exact b.congr rfl rfl rfl rfl rfl rfl rfl rfl
  | setParams x y z f => cases h; exact ⟨b.env, b.g, b.v, b.h, b.eps, ho.1, ho.2, b.ok⟩

theorem runM_agree : ∀ (ops : List Op) {st : ARA} (_ : MB M H st) (_ : ∀ op ∈ ops, OpBd M H op)
    (_ : st.call + replans ops ≤ 65535) (_ : st.iter + passes ops ≤ 65535),
    st.runM conv ops = st.run ops ∧ ∀ st', st.run ops = some st' →
      MB M H st' ∧ st'.call ≤ st.call + replans ops ∧ st'.iter ≤ st.iter + passes ops
  | [], st, b, _, _, _ => by
    refine ⟨rfl, ?_⟩
    intro st' h; cases h; exact ⟨b, Nat.le_add_right _ _, Nat.le_add_right _ _⟩
  | op :: ops, st, bd, ho, h1, h2 => by
    have a := replans_cons op ops
    have b := passes_cons op ops
    have c := replans_one op
    rw [a] at h1; rw [b] at h2
    have e : st.stepM conv op = st.step op := by
      cases op with
      | replan bs =>
        simp only [replans, passes] at h1 h2
        simp only [stepM, step]
        rw [replanM_eq bd (by show _ < 65536; omega) (by show _ < 65536; omega)]
        rfl
      | _ => rfl
    unfold runM run
    rw [e]
    rcases hs : st.step op with _ | st1
    · exact ⟨rfl, fun st' h => by cases h⟩
    · have cn := step_count hs
      have b1 := step_mb bd (ho op (by simp)) hs
      have ih := runM_agree ops (st := st1) b1 (fun o h => ho o (by simp [h])) (by omega) (by omega)
      refine ⟨ih.1, ?_⟩
      intro st' h
      have := ih.2 st' h
      refine ⟨this.1, ?_⟩
      rw [a, b]
      omega

variable {env0 : PEnv} {fwd : Bool} {D ie fe de : Nat} {fs : Bool} {ops : List Op} {st st' : ARA} {bs : List Nat}
  {res : Result} {a b : Nat}

/-- **C171** The planner computing with its machine integers (32-bit unsigned g and v, `(int)(eps * h)`, 16-bit
counters, whatever an overflowing conversion does) behaves exactly like the planner with unbounded integers - same
exceptions, paths, costs, bounds - in every history of at most 65535 `replan` calls and passes in which every edge cost
is an `int`, every eps requested is at most `M / D` and every heuristic value is at most `H`, with
`(M / D) * H < 2^31`.  No bound on costs of paths is needed. -/
theorem overflow_harmless (hM : M * H / D < 2147483648) (h0 : EnvBd H env0) (hie : ie ≤ M) (hfe : fe ≤ M)
    (ho : ∀ op ∈ ops, OpBd M H op)
    (h1 : replans (ops ++ [.replan bs]) ≤ 65535) (h2 : passes (ops ++ [.replan bs]) ≤ 65535) :
    (init env0 fwd D ie fe de fs).runM conv ops = (init env0 fwd D ie fe de fs).run ops ∧
    ∀ st, (init env0 fwd D ie fe de fs).runM conv ops = some st → st.replanM conv bs = st.replan bs := by
  have e1 : ∀ l : List Op, replans (l ++ [.replan bs]) = replans l + 1 := by
    intro l
    induction l with
    | nil => rfl
    | cons o l ih => rw [List.cons_append, replans_cons, ih, replans_cons o l]; omega
  have e2 : ∀ l : List Op, passes (l ++ [.replan bs]) = passes l + bs.length := by
    intro l
    induction l with
    | nil => simp [passes]
    | cons o l ih => rw [List.cons_append, passes_cons, ih, passes_cons o l]; omega
  rw [e1] at h1; rw [e2] at h2
  have b0 : MB M H (init env0 fwd D ie fe de fs) :=
    ⟨h0, fun _ => Nat.le_refl _, fun _ => Nat.le_refl _, fun _ => Nat.zero_le _, hie, hie, hfe, hM⟩
  have ra := runM_agree (conv := conv) ops b0 ho (by show 0 + _ ≤ _; omega) (by show 0 + _ ≤ _; omega)
  refine ⟨ra.1, ?_⟩
  intro st h
  rw [ra.1] at h
  have := ra.2 st h
  have c0 : (init env0 fwd D ie fe de fs).call = 0 := rfl
  have i0 : (init env0 fwd D ie fe de fs).iter = 0 := rfl
  rw [c0, i0] at this
  exact replanM_eq this.1 (by show _ < 65536; omega) (by show _ < 65536; omega)

/-- **C171, corollary** (cf. C19, C20): within these bounds the answers of the planner with machine integers are sound,
and within the reported bound. -/
theorem replanM_sound_bound (hM : M * H / D < 2147483648) (h0 : EnvBd H env0) (hie : ie ≤ M) (hfe : fe ≤ M)
    (ho : ∀ op ∈ ops, OpBd M H op) (he : EnvOk env0) (hok : ∀ op ∈ ops, OpOk op)
    (h1 : replans (ops ++ [.replan bs]) ≤ 65535) (h2 : passes (ops ++ [.replan bs]) ≤ 65535)
    (hrun : (init env0 fwd D ie fe de fs).runM conv ops = some st)
    (ha : lastStart ops = some a) (hb : lastGoal ops = some b) (hbs : bs ≠ [])
    (hr : st.replanM conv bs = .ok (st', res)) :
    (res.found = true → FromTo res.path a b ∧
      ∃ n, PathCost ((lastEnv env0 ops).succs b) res.path n ∧ n ≤ res.cost ∧ res.cost < INFINITECOST) ∧
    (HeurOk (lastEnv env0 ops) fwd → (fwd = false → PredsOk (lastEnv env0 ops) a) →
      ∀ e E c, res.finalEps = some e → 1 ≤ E → e ≤ E * D → Walk ((lastEnv env0 ops).succs b) a b c →
        res.found = true ∧ res.cost ≤ E * c) := by
  have ch := overflow_harmless (conv := conv) (fwd := fwd) (de := de) (fs := fs) hM h0 hie hfe ho h1 h2
  rw [ch.2 st hrun] at hr
  rw [ch.1] at hrun
  refine ⟨fun hf => ?_, fun hh hp e E c hfe hE heE w => ?_⟩
  · have := replan_path_sound he hok hrun ha hb hbs hr hf
    exact ⟨this.1, this.2.2⟩
  · exact replan_bound he hok hrun ha hb hbs hr hh hfe hE heE hp w

/-! ## Examples -/

/-- construct, make the calls, replan - with machine integers -/
def planRunM (conv : Nat → Nat) (env : PEnv) (fwd : Bool) (D ie fe de : Nat) (fs : Bool) (ops : List Op) (bs : List Nat) :
    Option Result :=
  match (ARA.init env fwd D ie fe de fs).runM conv ops with
  | none => none
  | some st => match st.replanM conv bs with
    | .ok (_, r) => some r
    | .error _ => none

theorem planRunM_some {env : PEnv} {ops : List Op} {r : Result}
    (h : planRunM conv env fwd D ie fe de fs ops bs = some r) :
    ∃ st st', (ARA.init env fwd D ie fe de fs).runM conv ops = some st ∧ st.replanM conv bs = .ok (st', r) := by
  unfold planRunM at h
  split at h
  · cases h
  · rename_i st h1
    split at h
    · rename_i st' r' h2; cases h; exact ⟨st, st', h1, h2⟩
    · cases h

theorem tableEnv_bd (es : List (Nat × Nat × Nat)) (hg hs : Nat → Nat → Nat) {H : Nat} (h1 : ∀ a b, hg a b ≤ H) (h2 : ∀ a b, hs a b ≤ H)
    (hc : ∀ e ∈ es, e.2.2 < 2147483648) : EnvBd H (tableEnv es hg hs) := by
  refine ⟨h1, h2, ?_, ?_⟩
  · rintro gl s ⟨t, c⟩ h
    simp only [tableEnv] at h
    split at h
    · cases h
    · exact hc _ (mem_tableSucc.mp h)
  · rintro gl s ⟨t, c⟩ h
    exact hc _ (mem_tablePred.mp h)

/-- edges as long as INFINITECOST and beyond (2000000000), heuristic up to 7 * 10^8, eps = 3: the hypotheses hold -/
def bigEdges : List (Nat × Nat × Nat) := [(0, 2, 2000000000), (0, 1, 100000000), (1, 2, 150000000)]
def bigH (gl s : Nat) : Nat := if gl = 2 ∧ s = 1 then 150000000 else 0
def bigEnv : PEnv := tableEnv bigEdges bigH (fun _ _ => 0)

theorem bigEnv_bd : EnvBd 700000000 bigEnv := by
  refine tableEnv_bd _ _ _ ?_ (fun _ _ => Nat.zero_le _) (by decide)
  intro a b; unfold bigH; split <;> omega

example : ∃ st st' res, EnvOk bigEnv ∧ EnvBd 700000000 bigEnv ∧ 3 * 700000000 / 1 < 2147483648 ∧
    (init bigEnv true 1 3 1 2 false).runM (fun _ => 0) [.setGoal 2, .setStart 0] = some st ∧
    st.replanM (fun _ => 0) [9, 9] = .ok (st', res) ∧ res.path = [0, 1, 2] ∧ res.cost = 250000000 := by
  have e : planRunM (fun _ => 0) bigEnv true 1 3 1 2 false [.setGoal 2, .setStart 0] [9, 9] =
      some ⟨true, [0, 1, 2], 250000000, some 1, [[0, 1], []]⟩ := by decide +kernel
  obtain ⟨st, st', h1, h2⟩ := planRunM_some e
  exact ⟨st, st', _, tableEnv_ok _ _ _ (by decide), bigEnv_bd, by omega, h1, h2, rfl, rfl⟩

/-- Four states: the true costs to the goal are `int`s below INFINITECOST and the heuristic is consistent. -/
def overEdges : List (Nat × Nat × Nat) := [(0, 3, 1), (0, 1, 1), (3, 2, 800000000), (1, 2, 800000000)]
def overH (gl s : Nat) : Nat := if gl = 2 ∧ (s = 1 ∨ s = 3) then 800000000 else 0
def overEnv : PEnv := tableEnv overEdges overH (fun _ _ => 0)

theorem overEnv_heur : HeurOk overEnv true := by
  show ∀ gl, Consistent _ _ _
  intro gl
  refine ⟨?_, ?_⟩
  · show overH gl gl = 0
    unfold overH
    rw [if_neg (by omega)]
  · intro s t c h
    show overH gl s ≤ overH gl t + c
    simp only [overEnv, tableEnv] at h
    split at h
    · cases h
    · have hm := mem_tableSucc.mp h
      have key : ∀ e ∈ overEdges, overH 2 e.1 ≤ overH 2 e.2.1 + e.2.2 := by decide
      by_cases q : gl = 2
      · subst q; exact key _ hm
      · simp [overH, q]

/-- **C172, refuted** "Whether a path is found does not depend on undefined behaviour": with eps = 3 and heuristic
values of 8 * 10^8 the product is not an `int`; the planner finds a path or reports that there is none, depending on
what the conversion of the overflowing product gives (INT_MIN, as on x86, or 0). -/
theorem overflow_observable :
    EnvOk overEnv ∧ HeurOk overEnv true ∧ EnvBd 800000000 overEnv ∧ Walk (overEnv.succs 2) 0 2 800000001 ∧
    (∃ st st' res, (init overEnv true 1 3 1 2 true).runM (fun _ => 2147483648) [.setGoal 2, .setStart 0] = some st ∧
      st.replanM (fun _ => 2147483648) [9] = .ok (st', res) ∧ res.found = false) ∧
    (∃ st st' res, (init overEnv true 1 3 1 2 true).runM (fun _ => 0) [.setGoal 2, .setStart 0] = some st ∧
      st.replanM (fun _ => 0) [9] = .ok (st', res) ∧ res.found = true ∧ res.cost = 800000001) := by
  refine ⟨tableEnv_ok _ _ _ (by decide), overEnv_heur, ?_, ?_, ?_, ?_⟩
  · refine tableEnv_bd _ _ _ ?_ (fun _ _ => Nat.zero_le _) (by decide)
    intro a b; unfold overH; split <;> omega
  · exact Walk.snoc (b := 1) (n := 1) (c := 800000000) (Walk.snoc (b := 0) (n := 0) (c := 1) .nil (by decide)) (by decide)
  · have e : planRunM (fun _ => 2147483648) overEnv true 1 3 1 2 true [.setGoal 2, .setStart 0] [9] =
      some ⟨false, [], 1000000000, none, [[0]]⟩ := by decide +kernel
    obtain ⟨st, st', h1, h2⟩ := planRunM_some e
    exact ⟨st, st', _, h1, h2, rfl⟩
  · have e : planRunM (fun _ => 0) overEnv true 1 3 1 2 true [.setGoal 2, .setStart 0] [9] =
      some ⟨true, [0, 3, 2], 800000001, some 3, [[0, 3, 1]]⟩ := by decide +kernel
    obtain ⟨st, st', h1, h2⟩ := planRunM_some e
    exact ⟨st, st', _, h1, h2, rfl, rfl⟩

def farEdges : List (Nat × Nat × Nat) := [(0, 1, 1), (1, 2, 400000000)]
def farH (gl s : Nat) : Nat := if gl = 2 ∧ s = 1 then 400000000 else 0
def farEnv : PEnv := tableEnv farEdges farH (fun _ _ => 0)

theorem farEnv_heur : HeurOk farEnv true := by
  show ∀ gl, Consistent _ _ _
  intro gl
  refine ⟨?_, ?_⟩
  · show farH gl gl = 0
    unfold farH
    rw [if_neg (by omega)]
  · intro s t c h
    show farH gl s ≤ farH gl t + c
    simp only [farEnv, tableEnv] at h
    split at h
    · cases h
    · have hm := mem_tableSucc.mp h
      have key : ∀ e ∈ farEdges, farH 2 e.1 ≤ farH 2 e.2.1 + e.2.2 := by decide
      by_cases q : gl = 2
      · subst q; exact key _ hm
      · simp [farH, q]

/-- **C172, second part** "If there is a path cheaper than INFINITECOST and time is left, a path is found" fails without
any overflow: with eps = 3 the planner reports that there is no path although one costs 400000001 (the search ends as soon as
the smallest inflated key reaches INFINITECOST).  C22 gives the exact limit: INFINITECOST / eps. -/
theorem cheap_path_missed :
    EnvOk farEnv ∧ HeurOk farEnv true ∧ EnvBd 400000000 farEnv ∧ Walk (farEnv.succs 2) 0 2 400000001 ∧
    ∃ st st' res, (init farEnv true 1 3 1 2 false).runM conv [.setGoal 2, .setStart 0] = some st ∧
      st.replanM conv [9, 9] = .ok (st', res) ∧ NoTimeout [9, 9] res.traces ∧ res.found = false := by
  have bd : EnvBd 400000000 farEnv := by
    refine tableEnv_bd _ _ _ ?_ (fun _ _ => Nat.zero_le _) (by decide)
    intro a b; unfold farH; split <;> omega
  refine ⟨tableEnv_ok _ _ _ (by decide), farEnv_heur, bd, ?_, ?_⟩
  · exact Walk.snoc (b := 1) (n := 1) (c := 400000000) (Walk.snoc (b := 0) (n := 0) (c := 1) .nil (by decide)) (by decide)
  · have e : planRunM (fun _ => 0) farEnv true 1 3 1 2 false [.setGoal 2, .setStart 0] [9, 9] =
      some ⟨false, [], 1000000000, none, [[0]]⟩ := by decide +kernel
    obtain ⟨st, st', h1, h2⟩ := planRunM_some e
    have ho : ∀ op ∈ ([.setGoal 2, .setStart 0] : List Op), OpBd 3 400000000 op := by
      intro op h
      simp only [List.mem_cons, List.not_mem_nil, or_false] at h
      rcases h with rfl | rfl <;> trivial
    have x0 := overflow_harmless (conv := fun _ => 0) (M := 3) (H := 400000000) (env0 := farEnv) (fwd := true) (D := 1) (ie := 3) (fe := 1)
      (de := 2) (fs := false) (bs := [9, 9]) (by omega) bd (by omega) (by omega) ho (by decide) (by decide)
    have x1 := overflow_harmless (conv := conv) (M := 3) (H := 400000000) (env0 := farEnv) (fwd := true) (D := 1) (ie := 3) (fe := 1)
      (de := 2) (fs := false) (bs := [9, 9]) (by omega) bd (by omega) (by omega) ho (by decide) (by decide)
    have h1' : (init farEnv true 1 3 1 2 false).runM conv [.setGoal 2, .setStart 0] = some st := by rw [x1.1, ← x0.1]; exact h1
    refine ⟨st, st', ⟨false, [], 1000000000, none, [[0]]⟩, h1', ?_, ⟨1, by decide, by decide⟩, rfl⟩
    rw [x1.2 st h1', ← x0.2 st h1]; exact h2

end Sbpl.ARAMachProps
