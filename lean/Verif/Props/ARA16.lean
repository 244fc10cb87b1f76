import Verif.Proofs.ARA16
import Verif.Spec.Counters
import Verif.Props.ARA
/-!
# `ARAPlanner` with its 16-bit counters (C142, C143)
-/

namespace Sbpl.ARA16Props
open Sbpl GraphSpec PlannerSpec ARA CounterSpec ARAProps

theorem step_count {st st' : ARA} {op : Op} (h : st.step op = some st') :
    st'.call ≤ st.call + replans [op] ∧ st'.iter ≤ st.iter + passes [op] := by
  cases op with
  | replan bs =>
    simp only [step] at h
    split at h
    · rename_i r hr
      cases h
      have := replan_count hr
      simp only [replans, passes]; omega
    · cases h
  | setStart s =>
    cases h
    simp only [replans, passes, setStart, setSearchStart, setSearchGoal]
    split <;> split <;> exact ⟨Nat.le_refl _, Nat.le_refl _⟩
  | setGoal s =>
    cases h
    simp only [replans, passes, setGoal, setSearchStart, setSearchGoal]
    split <;> split <;> exact ⟨Nat.le_refl _, Nat.le_refl _⟩
  | costsChanged e => cases h; exact ⟨Nat.le_refl _, Nat.le_refl _⟩
  | forceScratch => cases h; exact ⟨Nat.le_refl _, Nat.le_refl _⟩
  | setParams a b c d => cases h; exact ⟨Nat.le_refl _, Nat.le_refl _⟩

theorem replans_cons (op : Op) (ops : List Op) : replans (op :: ops) = replans [op] + replans ops := by
  cases op <;> simp [replans, Nat.add_comm]
theorem passes_cons (op : Op) (ops : List Op) : passes (op :: ops) = passes [op] + passes ops := by
  cases op <;> simp [passes, Nat.add_comm]
theorem replans_one (op : Op) : replans [op] ≤ 1 := by cases op <;> simp [replans]

theorem run_agree : ∀ (ops : List Op) {st : ARA} (_ : st.call + replans ops ≤ 65535) (_ : st.iter + passes ops ≤ 65535),
    st.run16 ops = st.run ops ∧
      ∀ st', st.run ops = some st' → st'.call ≤ st.call + replans ops ∧ st'.iter ≤ st.iter + passes ops
  | [], st, _, _ => by
    refine ⟨rfl, ?_⟩
    intro st' h; cases h; exact ⟨Nat.le_add_right _ _, Nat.le_add_right _ _⟩
  | op :: ops, st, h1, h2 => by
    have a := replans_cons op ops
    have b := passes_cons op ops
    have c := replans_one op
    rw [a] at h1; rw [b] at h2
    have e : st.step16 op = st.step op := by
      cases op with
      | replan bs =>
        simp only [replans, passes] at h1 h2
        simp only [step16, step]
        rw [replan16_eq (by show _ < 65536; omega) (by show _ < 65536; omega)]
        rfl
      | _ => rfl
    unfold run16 run
    rw [e]
    rcases hs : st.step op with _ | st1
    · exact ⟨rfl, fun st' h => by cases h⟩
    · have cn := step_count hs
      have ih := run_agree ops (st := st1) (by omega) (by omega)
      refine ⟨ih.1, ?_⟩
      intro st' h
      have := ih.2 st' h
      rw [a, b]
      omega

variable {env0 : PEnv} {fwd : Bool} {D ie fe de : Nat} {fs : Bool} {ops : List Op} {st st' : ARA} {bs : List Nat}
  {res : Result} {a b : Nat}

/-- **C142** The planner with its real 16-bit counters behaves exactly like the planner with unbounded counters
- same exceptions, same paths, same costs, same reported bounds - in every history with at most 65535 `replan`
calls that make at most 65535 search passes altogether.  So all the theorems about `ARAPlanner`
histories hold for the real planner within these limits. -/
theorem counters_harmless (h1 : replans (ops ++ [.replan bs]) ≤ 65535) (h2 : passes (ops ++ [.replan bs]) ≤ 65535) :
    (init env0 fwd D ie fe de fs).run16 ops = (init env0 fwd D ie fe de fs).run ops ∧
    ∀ st, (init env0 fwd D ie fe de fs).run16 ops = some st → st.replan16 bs = st.replan bs := by
  have e1 : ∀ l : List Op, replans (l ++ [.replan bs]) = replans l + 1 := by
    intro l
    induction l with
    | nil => rfl
    | cons o l ih => rw [List.cons_append, replans_cons, ih, replans_cons o l]; omega
  have e2 : ∀ l : List Op, passes (l ++ [.replan bs]) = passes l + bs.length := by
    intro l
    induction l with
    | nil => simp [passes]
    | cons o l ih => rw [List.cons_append, passes_cons, ih, passes_cons o l]; omega
  rw [e1] at h1; rw [e2] at h2
  have ra := run_agree ops (st := init env0 fwd D ie fe de fs) (by show 0 + _ ≤ _; omega) (by show 0 + _ ≤ _; omega)
  refine ⟨ra.1, ?_⟩
  intro st h
  rw [ra.1] at h
  have := ra.2 st h
  have c0 : (init env0 fwd D ie fe de fs).call = 0 := rfl
  have i0 : (init env0 fwd D ie fe de fs).iter = 0 := rfl
  rw [c0, i0] at this
  exact replan16_eq (by show _ < 65536; omega) (by show _ < 65536; omega)

/-- **C142, corollary** (cf. C19, C20): the real planner's answers are sound, and within the reported
bound, in every such history. -/
theorem replan16_sound_bound (he : EnvOk env0) (hok : ∀ op ∈ ops, OpOk op)
    (h1 : replans (ops ++ [.replan bs]) ≤ 65535) (h2 : passes (ops ++ [.replan bs]) ≤ 65535)
    (hrun : (init env0 fwd D ie fe de fs).run16 ops = some st)
    (ha : lastStart ops = some a) (hb : lastGoal ops = some b) (hbs : bs ≠ [])
    (hr : st.replan16 bs = .ok (st', res)) :
    (res.found = true → FromTo res.path a b ∧
      ∃ n, PathCost ((lastEnv env0 ops).succs b) res.path n ∧ n ≤ res.cost ∧ res.cost < INFINITECOST) ∧
    (HeurOk (lastEnv env0 ops) fwd → (fwd = false → PredsOk (lastEnv env0 ops) a) →
      ∀ e E c, res.finalEps = some e → 1 ≤ E → e ≤ E * D → Walk ((lastEnv env0 ops).succs b) a b c →
        res.found = true ∧ res.cost ≤ E * c) := by
  have ch := counters_harmless (env0 := env0) (fwd := fwd) (D := D) (ie := ie) (fe := fe) (de := de) (fs := fs) h1 h2
  rw [ch.2 st hrun] at hr
  rw [ch.1] at hrun
  refine ⟨fun hf => ?_, fun hh hp e E c hfe hE heE w => ?_⟩
  · have := replan_path_sound he hok hrun ha hb hbs hr hf
    exact ⟨this.1, this.2.2⟩
  · exact replan_bound he hok hrun ha hb hbs hr hh hfe hE heE hp w

/-! ## Wrap-around -/

/-- a planner whose robot stands at its goal `G`, right after a `replan` that had nothing to do -/
structure IdleAt (st : ARA) (G : Nat) : Prop where
  fwd : st.fwd = true
  D : st.D = 1
  ini : st.initEps = 1
  fin : st.finalEps = 1
  first : st.first = false
  start : st.start = some G
  goal : st.goal = some G
  hz : st.env.hGoal G G = 0
  g : st.g G = 0
  v : st.v G = INFINITECOST
  h : st.h G = 0
  iterC : st.iterC G = 0
  par : st.par G = none
  next : st.next G = none
  hs : st.heap.size = 1
  ha : st.heap.arr 1 = ⟨G, ⟨0, 0⟩⟩
  hal : st.heap.alloc = 5000
  hi : st.heap.idx G = 1
  le : st.incons.elem G = none
  lf : st.incons.first = none
  ls : st.incons.size = 0
  iter : st.iter = 1
  bNew : st.bNew = false
  bRe : st.bReeval = false
  bRi : st.bReinit = false
  eps : st.eps = 1
  epsSat : st.epsSat = some 1
  call : st.call < 65536
  callA : st.callA G = st.call

/-- the state after further idle `replan`s, when the call counter shows `c` -/
def tick (st : ARA) (G c : Nat) : ARA := { st with call := c, callA := upd st.callA G c }

theorem upd_self' {α : Type} (f : Nat → α) (s : Nat) (x : α) (h : f s = x) : upd f s x = f := by
  funext t; simp only [upd]; split
  · rename_i q; rw [q, h]
  · rfl

theorem upd_upd' {α : Type} (f : Nat → α) (s : Nat) (x y : α) : upd (upd f s x) s y = upd f s y := by
  funext t; simp only [upd]; split <;> rfl

theorem idle_reinit {st : ARA} {G : Nat} (i : IdleAt st G) :
    st.forceScratch.reinitFrom16 G G =
      .ok { tick st G ((st.call + 1) % 65536) with iter := 0, bNew := true, epsSat := none } := by
  have hc : st.call ≠ (st.call + 1) % 65536 := by have := i.call; omega
  obtain ⟨env, fwd, D, g, v, h, iterC, callA, par, next, heap, incons, call, iter, start, goal, eps, epsSat, bRe, bRi, bNew,
    ini, fin, dec, first⟩ := st
  obtain ⟨arr, size, alloc, idx⟩ := heap
  obtain ⟨mem, lfirst, llast, lsize, elem, brk⟩ := incons
  obtain ⟨i1, i2, i3, i4, i5, i6, i7, i8, i9, i10, i11, i12, i13, i14, i15, i16, i17, i18, i19, i20, i21, i22, i23, i24, i25,
    i26, i27, i28, i29⟩ := i
  simp only at *
  subst i1 i2 i3 i4 i5 i6 i7 i15 i17 i20 i21 i22 i23 i24 i25 i26 i27
  have a1 : ¬ callA G = (call + 1) % 65536 := by rw [i29]; exact hc
  simp [forceScratch, reinitFrom16, CList.makeEmpty, CList.makeEmptyLoop, touch, reinitState, Heap.makeEmpty,
    Heap.clearIdx, heur, a1, upd_same, Heap.insert, Heap.sizeCheck, Heap.isFull, i16, Heap.HEAPSIZE, upd_upd', i8,
    upd_self' g G 0 i9, upd_self' v G _ i10, upd_self' h G _ i11, upd_self' iterC G _ i12, upd_self' par G _ i13,
    upd_self' next G _ i14, upd_self' idx G _ i18, upd_self' elem G _ i19, infl,
    Heap.percUp, Heap.percUpLoop, Heap.place, tick, U16]
  rw [i11]
  exact upd_self' arr 1 _ i16

theorem idle_iter {st : ARA} {G b : Nat} (i : IdleAt st G) (c : Nat) :
    searchIter16 { tick st G c with iter := 0, bNew := true, epsSat := none } b = .ok (tick st G c, 1, []) := by
  obtain ⟨env, fwd, D, g, v, h, iterC, callA, par, next, heap, incons, call, iter, start, goal, eps, epsSat, bRe, bRi, bNew,
    ini, fin, dec, first⟩ := st
  obtain ⟨arr, size, alloc, idx⟩ := heap
  obtain ⟨mem, lfirst, llast, lsize, elem, brk⟩ := incons
  obtain ⟨i1, i2, i3, i4, i5, i6, i7, i8, i9, i10, i11, i12, i13, i14, i15, i16, i17, i18, i19, i20, i21, i22, i23, i24, i25,
    i26, i27, i28, i29⟩ := i
  simp only at *
  subst i1 i2 i3 i4 i5 i6 i7 i15 i17 i20 i21 i22 i23 i24 i25 i26 i27
  cases b <;>
  simp [searchIter16, tick, decrease, newIteration16, buildNewOpen, buildLoop, CList.getFirst, CList.stateAt, improvePath,
    touch, upd_same, improveLoop, loopCond, Heap.isEmpty, minKey, Heap.getMinKey, i16, goalKey, i9, CKey.gtB, retCode, U16,
    INFINITECOST]

theorem idle_step {st : ARA} {G b : Nat} (i : IdleAt st G) :
    st.forceScratch.replan16 [b] =
      .ok (tick st G ((st.call + 1) % 65536), ⟨true, [G], 0, some 1, [[]]⟩) := by
  have e1 : st.forceScratch.searchProlog16 G =
      .ok { tick st G ((st.call + 1) % 65536) with iter := 0, bNew := true, epsSat := none } := by
    rw [← idle_reinit i]
    have hre : st.forceScratch.bReeval = false := i.bRe
    have hri : st.forceScratch.bReinit = true := rfl
    unfold searchProlog16
    simp only [hre, Bool.false_eq_true, if_false, hri, if_true]
    unfold reinitSpace16
    have h1 : st.forceScratch.start = some G := i.start
    have h2 : st.forceScratch.goal = some G := i.goal
    rw [h1, h2]
  have h1 : st.forceScratch.start = some G := i.start
  have h2 : st.forceScratch.goal = some G := i.goal
  unfold replan16
  rw [h1, h2]
  simp only
  rw [e1]
  have e2 : searchLoop16 G [b] { tick st G ((st.call + 1) % 65536) with iter := 0, bNew := true, epsSat := none } =
      .ok (tick st G ((st.call + 1) % 65536), [[]]) := by
    unfold searchLoop16
    rw [idle_iter i]
    simp [notDone, tick, i.first, i.g, INFINITECOST, searchLoop16]
  simp only
  rw [e2]
  simp [tick, i.g, INFINITECOST, getSearchPath, i.fwd, reconstruct, follow, i.epsSat]

theorem tick_idle {st : ARA} {G c : Nat} (i : IdleAt st G) (h : c < 65536) : IdleAt (tick st G c) G := by
  obtain ⟨i1, i2, i3, i4, i5, i6, i7, i8, i9, i10, i11, i12, i13, i14, i15, i16, i17, i18, i19, i20, i21, i22, i23, i24, i25,
    i26, i27, i28, i29⟩ := i
  exact ⟨i1, i2, i3, i4, i5, i6, i7, i8, i9, i10, i11, i12, i13, i14, i15, i16, i17, i18, i19, i20, i21, i22, i23, i24, i25,
    i26, i27, h, upd_same _ _ _⟩

theorem tick_tick (st : ARA) (G c d : Nat) : tick (tick st G c) G d = tick st G d := by
  simp [tick, upd_upd']

/-- `n` times: force planning from scratch, plan -/
def idleOps : Nat → List Op
  | 0 => []
  | n + 1 => .forceScratch :: .replan [1] :: idleOps n

theorem run16_step {st st' : ARA} {op : Op} {ops : List Op} (h : st.step16 op = some st') :
    st.run16 (op :: ops) = st'.run16 ops := by
  conv_lhs => unfold run16
  rw [h]

theorem run16_idle : ∀ (n : Nat) {st : ARA} {G : Nat} (_ : IdleAt st G) (ops : List Op),
    st.run16 (idleOps n ++ ops) = (tick st G ((st.call + n) % 65536)).run16 ops
  | 0, st, G, i, ops => by
    have : tick st G ((st.call + 0) % 65536) = st := by
      rw [Nat.add_zero, Nat.mod_eq_of_lt i.call]
      simp only [tick]
      rw [upd_self' _ _ _ i.callA]
    rw [this]; rfl
  | n + 1, st, G, i, ops => by
    have e := idle_step (b := 1) i
    have e' : st.run16 (idleOps (n + 1) ++ ops) = (tick st G ((st.call + 1) % 65536)).run16 (idleOps n ++ ops) := by
      show st.run16 (.forceScratch :: .replan [1] :: (idleOps n ++ ops)) = _
      rw [run16_step (st' := st.forceScratch) rfl, run16_step (st' := tick st G ((st.call + 1) % 65536))]
      simp only [step16]
      rw [e]
    rw [e']
    rw [run16_idle n (tick_idle i (by omega)) ops, tick_tick]
    have : (tick st G ((st.call + 1) % 65536)).call = (st.call + 1) % 65536 := rfl
    rw [this]
    have q : ((st.call + 1) % 65536 + n) % 65536 = (st.call + (n + 1)) % 65536 := by omega
    rw [q]

/-- starts 0 and 1, a common state 2, goal 3 -/
def wrapEnv : PEnv := tableEnv [(0, 2, 1), (2, 3, 1), (1, 2, 1), (1, 3, 10)] (fun _ _ => 0) (fun _ _ => 0)

theorem wrapEnv_ok : EnvOk wrapEnv := tableEnv_ok _ _ _ (by decide)

theorem wrapEnv_heur : HeurOk wrapEnv true := by
  show ∀ gl, Consistent _ _ _
  intro gl
  refine ⟨rfl, ?_⟩
  intro s t c h
  exact Nat.zero_le _

/-- plan from 0 to 3, drive to 3, plan there -/
def tripOps : List Op := [.setGoal 3, .setStart 0, .replan [9], .setStart 3, .replan [9]]

def trip : Option ARA := (ARA.init wrapEnv true 1 1 1 1 false).run16 tripOps

/-- executable form of `IdleAt` (environment aside) together with the stale entry of state 2 -/
def idleB (st : ARA) (G : Nat) : Bool :=
  st.fwd && st.D == 1 && st.initEps == 1 && st.finalEps == 1 && st.first == false && st.start == some G &&
  st.goal == some G && st.env.hGoal G G == 0 && st.g G == 0 && st.v G == INFINITECOST && st.h G == 0 &&
  st.iterC G == 0 && st.par G == none && st.next G == none && st.heap.size == 1 && (st.heap.arr 1).st == G &&
  decide ((st.heap.arr 1).key = ⟨0, 0⟩) && st.heap.alloc == 5000 && st.heap.idx G == 1 && st.incons.elem G == none &&
  st.incons.first == none && st.incons.size == 0 && st.iter == 1 && st.bNew == false && st.bReeval == false &&
  st.bReinit == false && st.eps == 1 && st.epsSat == some 1 && decide (st.call < 65536) && st.callA G == st.call

theorem idleB_ok {st : ARA} {G : Nat} (h : idleB st G = true) : IdleAt st G := by
  simp only [idleB, Bool.and_eq_true, beq_iff_eq, decide_eq_true_eq] at h
  obtain ⟨⟨⟨⟨⟨⟨⟨⟨⟨⟨⟨⟨⟨⟨⟨⟨⟨⟨⟨⟨⟨⟨⟨⟨⟨⟨⟨⟨⟨a1, a2⟩, a3⟩, a4⟩, a5⟩, a6⟩, a7⟩, a8⟩, a9⟩, b1⟩, b2⟩, b3⟩, b4⟩, b5⟩, b6⟩, b7⟩, b8⟩, b9⟩, c1⟩,
    c2⟩, c3⟩, c4⟩, c5⟩, c6⟩, c7⟩, c8⟩, c9⟩, d1⟩, d2⟩, d3⟩ := h
  have ha : st.heap.arr 1 = ⟨G, ⟨0, 0⟩⟩ := by
    rcases e : st.heap.arr 1 with ⟨x, y⟩
    rw [e] at b7 b8
    simp only at b7 b8
    rw [b7, b8]
  exact ⟨a1, a2, a3, a4, a5, a6, a7, a8, a9, b1, b2, b3, b4, b5, b6, ha, b9, c1, c2, c3, c4, c5, c6, c7, c8, c9, d1, d2, d3⟩

theorem trip_idle : (trip.map (fun st => idleB st 3 && st.call == 2)) = some true := by decide +kernel

/-- the last leg: back at 1, plan again, when the counter shows 0 -/
theorem leg_eq : (trip.bind fun st => (tick st 3 0).run16 [.setStart 1]).bind
    (fun st => match st.replan16 [9] with | .ok (_, r) => some r | .error _ => none) =
    some ⟨true, [1, 3], 10, some 1, [[1]]⟩ := by decide +kernel

/-- the same last leg on a planner that planned the trip and nothing else -/
theorem leg_fresh : (trip.bind fun st => st.run16 [.setStart 1]).bind
    (fun st => match st.replan16 [9] with | .ok (_, r) => some r | .error _ => none) =
    some ⟨true, [1, 2, 3], 2, some 1, [[1, 2]]⟩ := by decide +kernel

/-- **C143, refuted** The claims of C20 (the reported bound is a bound) do not survive arbitrarily long
histories: the 16-bit call counter wraps around, and a state that was last visited 65536 plans ago is taken
for one visited in the current plan.  There is a well-formed environment with a consistent heuristic (4 states,
zero heuristic) and a history - one trip, 65534 plans of a robot resting at its goal, one plan from a new
start - at the end of which `replan` reports cost 10 and eps 1 (optimal) although a path of cost 2
exists. -/
theorem wraparound_not_optimal :
    ∃ (env : PEnv) (ops : List Op) (st st' : ARA) (res : Result),
      EnvOk env ∧ HeurOk env true ∧ (∀ op ∈ ops, OpOk op) ∧
      (ARA.init env true 1 1 1 1 false).run16 ops = some st ∧ lastEnv env ops = env ∧
      lastStart ops = some 1 ∧ lastGoal ops = some 3 ∧ replans ops = 65536 ∧
      st.replan16 [9] = .ok (st', res) ∧ res.found = true ∧ res.finalEps = some 1 ∧ res.cost = 10 ∧
      Walk (env.succs 3) 1 3 2 := by
  have ti := trip_idle
  have lg := leg_eq
  rcases ht : trip with _ | t
  · rw [ht] at ti; cases ti
  rw [ht] at ti lg
  simp only [Option.map_some, Option.some.injEq, Bool.and_eq_true, beq_iff_eq, Option.bind_some] at ti lg
  have id := idleB_ok ti.1
  rcases hl : (tick t 3 0).run16 [.setStart 1] with _ | st
  · rw [hl] at lg; cases lg
  rw [hl] at lg
  simp only [Option.bind_some] at lg
  rcases hr : st.replan16 [9] with e | ⟨st', r⟩
  · rw [hr] at lg; cases lg
  rw [hr] at lg
  simp only [Option.some.injEq] at lg
  have app : ∀ (l₁ l₂ : List Op) (s : ARA), s.run16 (l₁ ++ l₂) = (s.run16 l₁).bind (fun x => x.run16 l₂) := by
    intro l₁
    induction l₁ with
    | nil => intro l₂ s; rfl
    | cons o l ih =>
      intro l₂ s
      show s.run16 (o :: (l ++ l₂)) = (s.run16 (o :: l)).bind _
      rcases hs : s.step16 o with _ | s1
      · unfold run16; rw [hs]; rfl
      · rw [run16_step hs, run16_step hs]; exact ih l₂ s1
  have lastS : ∀ (n : Nat) (l : List Op), lastStart (idleOps n ++ l) = lastStart l := by
    intro n; induction n with
    | zero => intro l; rfl
    | succ n ih => intro l; rw [← ih l]; rfl
  have lastG : ∀ (n : Nat), lastGoal (idleOps n ++ [.setStart 1]) = none := by
    intro n; induction n with
    | zero => rfl
    | succ n ih => rw [← ih]; rfl
  have lastE : ∀ (n : Nat) (e : PEnv), lastEnv e (idleOps n ++ [.setStart 1]) = e := by
    intro n; induction n with
    | zero => intro e; rfl
    | succ n ih => intro e; exact ih e
  have cnt : ∀ (n : Nat), replans (idleOps n ++ [.setStart 1]) = n := by
    intro n; induction n with
    | zero => rfl
    | succ n ih =>
      show replans (.forceScratch :: .replan [1] :: (idleOps n ++ [.setStart 1])) = _
      simp only [replans]; rw [ih]
  have oks : ∀ (n : Nat), ∀ op ∈ idleOps n ++ [.setStart 1], OpOk op := by
    intro n; induction n with
    | zero => intro op h; simp [idleOps] at h; subst h; trivial
    | succ n ih =>
      intro op h
      have h' : op ∈ (.forceScratch :: .replan [1] :: (idleOps n ++ [.setStart 1]) : List Op) := h
      simp only [List.mem_cons] at h'
      rcases h' with h | h | h
      · subst h; trivial
      · subst h; simp [OpOk]
      · exact ih op h
  refine ⟨wrapEnv, tripOps ++ (idleOps 65534 ++ [.setStart 1]), st, st', r, wrapEnv_ok, wrapEnv_heur, ?_, ?_, ?_, ?_, ?_, ?_, hr,
    ?_, ?_, ?_, ?_⟩
  · intro op h
    rcases List.mem_append.mp h with h | h
    · simp only [tripOps, List.mem_cons, List.not_mem_nil, or_false] at h
      rcases h with rfl | rfl | rfl | rfl | rfl <;> simp [OpOk]
    · exact oks _ op h
  · rw [app]
    show trip.bind _ = _
    rw [ht]
    show t.run16 _ = _
    rw [run16_idle 65534 id, ti.2]
    exact hl
  · have t : ∀ l, lastEnv wrapEnv (tripOps ++ l) = lastEnv wrapEnv l := fun l => rfl
    rw [t]; exact lastE _ _
  · have t : ∀ l, lastStart (tripOps ++ l) = ((lastStart l).or (some 3)).or (some 0) := fun l => rfl
    rw [t, lastS]; rfl
  · have t : ∀ l, lastGoal (tripOps ++ l) = (lastGoal l).or (some 3) := fun l => rfl
    rw [t, lastG]; rfl
  · have t : ∀ l, replans (tripOps ++ l) = replans l + 1 + 1 := fun l => rfl
    rw [t, cnt]
  · rw [lg]
  · rw [lg]
  · rw [lg]
  · have e1 : ((2, 1) : Nat × Nat) ∈ wrapEnv.succs 3 1 := by decide
    have e2 : ((3, 1) : Nat × Nat) ∈ wrapEnv.succs 3 2 := by decide
    exact Walk.snoc (Walk.snoc Walk.nil e1) e2

/-- the hypotheses of `counters_harmless` and of its corollary are met by the trip and a plan from state 1:
the answer is the optimal path -/
example : ∃ st st' res, (ARA.init wrapEnv true 1 1 1 1 false).run16 (tripOps ++ [.setStart 1]) = some st ∧
    st.replan16 [9] = .ok (st', res) ∧ res.cost = 2 ∧ res.path = [1, 2, 3] ∧
    replans ((tripOps ++ [.setStart 1]) ++ [.replan [9]]) ≤ 65535 ∧ passes ((tripOps ++ [.setStart 1]) ++ [.replan [9]]) ≤ 65535 := by
  have h : ((ARA.init wrapEnv true 1 1 1 1 false).run16 (tripOps ++ [.setStart 1])).bind
      (fun st => match st.replan16 [9] with | .ok (_, r) => some r | .error _ => none) =
      some ⟨true, [1, 2, 3], 2, some 1, [[1, 2]]⟩ := by decide +kernel
  rcases hl : (ARA.init wrapEnv true 1 1 1 1 false).run16 (tripOps ++ [.setStart 1]) with _ | st
  · rw [hl] at h; cases h
  rw [hl] at h
  simp only [Option.bind_some] at h
  rcases hr : st.replan16 [9] with e | ⟨st', r⟩
  · rw [hr] at h; cases h
  rw [hr] at h
  simp only [Option.some.injEq] at h
  exact ⟨st, st', r, hl, hr, by rw [h], by rw [h], by decide, by decide⟩

end Sbpl.ARA16Props
