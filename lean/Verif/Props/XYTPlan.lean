import Verif.Props.XYTARA
import Verif.Props.ANA
import Verif.Props.AD
import Verif.Props.XYTMore
/-!
# ANA* and AD* on `EnvironmentNAVXYTHETALAT`, end to end (C94, C95)
-/

namespace Sbpl.XYTARAProps
open XSpec XEnv XCfg GraphSpec XHeurProps XYTProps
open PlannerSpec (EnvOk PredsOk HeurOk searchGraph CostsAtLeast)

variable {s : Setup} {c : XCfg} {num : XKey → Nat} {den : Nat → Option XKey} {hg hs : XKey → XKey → Int} {vel : ℚ}

/-- a path of IDs between two states is a path of lattice states -/
theorem decode_path (stc : Static s c) (ok : SetupOk s) (N : XNumbering s num den) {gl a b : Nat} {l : List Nat} {n : Nat} {p q : XKey}
    (hpc : PathCost ((xytPEnv c num den hg hs).succs gl) l n) (h1 : l.head? = some a) (h2 : l.getLast? = some b) (h3 : l.Nodup)
    (hp : den a = some p) (hq : den b = some q) :
    ∃ ks, l.map den = ks.map some ∧ ks.head? = some p ∧ ks.getLast? = some q ∧ ks.Nodup ∧ LPath s c.grid ks n := by
  obtain ⟨ks, e1, e2⟩ := lpath_of_path stc ok N hpc (by intro a' ha'; rw [h1] at ha'; cases ha'; exact ⟨p, hp⟩)
  have e3 : l = ks.map num := by
    have : ∀ (l : List Nat) (ks : List XKey), l.map den = ks.map some → l = ks.map num := by
      intro l
      induction l with
      | nil => intro ks h; cases ks with | nil => rfl | cons _ _ => simp at h
      | cons i l ih =>
        intro ks h
        cases ks with
        | nil => simp at h
        | cons k ks =>
          simp only [List.map_cons, List.cons.injEq] at h
          rw [List.map_cons, ← ih ks h.2, (N.right _ _ h.1).1]
    exact this _ _ e1
  refine ⟨ks, e1, ?_, ?_, ?_, e2⟩
  · have := congrArg List.head? e1
    rw [List.head?_map, List.head?_map, h1] at this
    simp only [Option.map_some, hp] at this
    cases hk : ks.head? with
    | none => rw [hk] at this; cases this
    | some k => rw [hk] at this; simpa using this.symm
  · have := congrArg List.getLast? e1
    rw [List.getLast?_map, List.getLast?_map, h2] at this
    simp only [Option.map_some, hq] at this
    cases hk : ks.getLast? with
    | none => rw [hk] at this; cases this
    | some k => rw [hk] at this; simpa using this.symm
  · rw [e3] at h3
    exact List.Nodup.of_map _ h3

/-- a path of lattice states is a walk -/
theorem lwalk_of_lpath {grid : Int → Int → Nat} {ks : List XKey} {n : Nat} (h : LPath s grid ks n) :
    ∀ {p q : XKey}, ks.head? = some p → ks.getLast? = some q → LWalk s grid p q n := by
  have cons : ∀ {p r q : XKey} {m : MPrim} {k j : Nat}, Edge s grid m p r k → LWalk s grid r q j → LWalk s grid p q (k + j) := by
    intro p r q m k j he w
    induction w with
    | nil => have := LWalk.snoc m (.nil) he; simpa using this
    | snoc m' _ h ih => rw [← Nat.add_assoc]; exact ih.snoc m' h
  induction h with
  | single p => intro a b h1 h2; simp at h1 h2; subst h1 h2; exact .nil
  | @cons p r k n l m he hl ih =>
    intro a b h1 h2
    simp at h1; subst h1
    rw [List.getLast?_cons_cons] at h2
    exact cons he (ih rfl h2)

/-- the IDs of all states of the lattice -/
def allIds (s : Setup) (num : XKey → Nat) : List Nat :=
  (List.range s.W.toNat).flatMap fun (x : Nat) => (List.range s.H.toNat).flatMap fun (y : Nat) => (List.range s.T).map fun (t : Nat) => num ((x : Int), (y : Int), (t : Int))

theorem allIds_length (s : Setup) (num : XKey → Nat) : (allIds s num).length = s.W.toNat * (s.H.toNat * s.T) := by
  unfold allIds
  have key : ∀ {α : Type} (n k : Nat) (f : Nat → List α), (∀ x, (f x).length = k) → ((List.range n).flatMap f).length = n * k := by
    intro α n k f hf
    rw [List.length_flatMap]
    have : (List.range n).map (fun x => (f x).length) = List.replicate n k := by
      apply List.ext_getElem
      · simp
      · intro i h1 h2; simp [hf]
    rw [this]; simp
  apply key
  intro x
  apply key
  intro y
  simp

theorem mem_allIds (N : XNumbering s num den) {i : Nat} {k : XKey} (h : den i = some k) : i ∈ allIds s num := by
  obtain ⟨h1, ⟨⟨x0, xW, y0, yH⟩, t0, tT⟩⟩ := N.right _ _ h
  obtain ⟨x, y, t⟩ := k
  simp only at x0 xW y0 yH t0 tT
  unfold allIds
  rw [List.mem_flatMap]
  refine ⟨x.toNat, List.mem_range.mpr (by omega), ?_⟩
  rw [List.mem_flatMap]
  refine ⟨y.toNat, List.mem_range.mpr (by omega), ?_⟩
  rw [List.mem_map]
  refine ⟨t.toNat, List.mem_range.mpr (by omega), ?_⟩
  rw [Int.toNat_of_nonneg x0, Int.toNat_of_nonneg y0, Int.toNat_of_nonneg t0]
  exact h1

/-- whatever is reached from a state of the lattice is a state of the lattice -/
theorem reach_den (stc : Static s c) (ok : SetupOk s) (N : XNumbering s num den) {fwd : Bool} {b i j n : Nat} {p : XKey}
    (hi : den i = some p) (w : Walk (searchGraph (xytPEnv c num den hg hs) fwd b) i j n) : ∃ q, den j = some q := by
  cases w with
  | nil => exact ⟨p, hi⟩
  | snoc _ hm =>
    unfold searchGraph at hm
    split at hm
    · obtain ⟨_, p, q, m, hp, hq, e⟩ := (succs_edge stc ok N).mp hm
      exact ⟨q, hq⟩
    · obtain ⟨p, q, m, hp, hq, e⟩ := (preds_edge stc ok N).mp hm
      exact ⟨p, hp⟩

section
variable {env0 : PEnv} {fwd : Bool} {ops : List ANA.Op} {st st' : ANA} {bs : List Nat} {res : ANA.Result} {a b : Nat} {p q : XKey}
  {xops : List XEnv.Op} {stx : XEnv}

/-- **C94** ANA* on the (x, y, theta) lattice: a reported path is a sequence of states from start to goal without repetitions, joined by transitions that are valid with
the current costs of the environment (after any history `xops` of calls to it), of total cost at most the reported cost. -/
theorem ana_xyt_path (he : EnvOk env0) (hok : ∀ op ∈ ops, ANASpec.OpOk op) (hrd : ANASpec.Ready fwd bs .new ops)
    (hrun : (ANA.init env0 fwd).run ops = some st) (ha : ANASpec.lastStart ops = some a) (hb : ANASpec.lastGoal ops = some b)
    (hr : st.replan bs = .ok (st', res)) (hf : res.found = true)
    (hx : Hist s xops stx) (N : XNumbering s num den) (hmap : ANASpec.lastEnv env0 ops = xytPEnv stx.cfg num den hg hs) (hp : den a = some p) (hq : den b = some q) :
    ∃ ks n, res.path.map den = ks.map some ∧ ks.head? = some p ∧ ks.getLast? = some q ∧ ks.Nodup ∧ LPath s (costs s xops) ks n ∧ n ≤ res.cost := by
  obtain ⟨ix, eg, -, -⟩ := hist_inv hx
  rw [← eg]
  obtain ⟨⟨h1, h2⟩, h3, n, hpc, hn, _⟩ := (ANAProps.replan_path_sound he hok hrd hrun ha hb hr).1 hf
  rw [hmap] at hpc
  obtain ⟨ks, e1, e2, e3, e4, e5⟩ := decode_path ix.stc hx.1 N hpc h1 h2 h3 hp hq
  exact ⟨ks, n, e1, e2, e3, e4, e5, hn⟩

/-- **C94** With a whole nominal velocity the bound `eps.1 / eps.2` reported by `get_solution_eps` is a true one: the reported cost is at most that many times the cost of every
walk over the lattice.  With enough time (more loop checks than a multiple of the number of states of the lattice) the goal is found iff there is such a walk cheaper than
INFINITECOST, and the path is optimal. -/
theorem ana_xyt_bound (he : EnvOk env0) (hok : ∀ op ∈ ops, ANASpec.OpOk op) (hrd : ANASpec.Ready fwd bs .new ops)
    (hrun : (ANA.init env0 fwd).run ops = some st) (ha : ANASpec.lastStart ops = some a) (hb : ANASpec.lastGoal ops = some b)
    (hr : st.replan bs = .ok (st', res))
    (hx : Hist s xops stx) (N : XNumbering s num den) (hmap : ANASpec.lastEnv env0 ops = xytPEnv stx.cfg num den hg hs)
    (hp : den a = some p) (hq : den b = some q) (hv : 0 < vel) (hf : NotTooFast s vel) (hw : Followable s vel) (hz : ∃ z : Nat, vel = z)
    (hG : ∀ g, InRange s g → HeurFrom s vel (costs s xops) g (hg g)) (hS : ∀ g, InRange s g → HeurFrom s vel (costs s xops) g (hs g)) :
    (1 ≤ res.eps.1 ∧ res.eps.2 ≤ res.eps.1 ∧ ∀ n, LWalk s (costs s xops) p q n → res.cost * res.eps.2 ≤ res.eps.1 * n) ∧
    (ANASpec.lastMode false ops = false → (∀ n ∈ bs, (2 * INFINITECOST + 1) * (s.W.toNat * (s.H.toNat * s.T)) < n) →
      (2 * INFINITECOST + 1) * (s.W.toNat * (s.H.toNat * s.T)) < bs.length →
      (res.found = true ↔ ∃ n, LWalk s (costs s xops) p q n ∧ n < INFINITECOST) ∧ ∀ n, LWalk s (costs s xops) p q n → res.cost ≤ n) := by
  obtain ⟨ix, eg, -, -⟩ := hist_inv hx
  have stc := ix.stc
  have ok := hx.1
  have hpath := ana_xyt_path (p := p) (q := q) he hok hrd hrun ha hb hr (hx := hx) (N := N) (hmap := hmap) (hp := hp) (hq := hq)
  rw [← eg] at hG hS hpath ⊢
  have hP : fwd = false → PredsOk (ANASpec.lastEnv env0 ops) a := by
    intro _; rw [hmap]; exact xyt_predsOk stc ok N a
  have hh : ANASpec.AdmOk (ANASpec.lastEnv env0 ops) fwd := by
    rw [hmap]; exact ANAProps.admOk_of_heurOk (xyt_heurOk stc ok N hv hf hw hz hG hS fwd)
  refine ⟨?_, ?_⟩
  · obtain ⟨b1, b2, b3⟩ := ANAProps.replan_bound he hok hrd hrun ha hb hr hh hP
    refine ⟨b1, b2, fun n w => ?_⟩
    obtain ⟨n', hn, w'⟩ := walk_of_lwalk (hg := hg) (hs := hs) stc ok N hp hq w
    exact Nat.le_trans (b3 n' (by rw [hmap]; exact w')) (Nat.mul_le_mul_left _ hn)
  · intro hmode hlong hpass
    have hstart : ∃ k, den (if fwd then a else b) = some k := by
      split
      · exact ⟨p, hp⟩
      · exact ⟨q, hq⟩
    obtain ⟨k, hk⟩ := hstart
    obtain ⟨o1, o2⟩ := ANAProps.replan_optimal he hok hrd hrun ha hb hr hh hP hmode (R := allIds s num) (by
      intro i n w
      rw [hmap] at w
      obtain ⟨q', hq'⟩ := reach_den stc ok N hk w
      exact mem_allIds N hq') (by rw [allIds_length]; exact hlong) (by rw [allIds_length]; exact hpass)
    refine ⟨⟨?_, ?_⟩, ?_⟩
    · intro hfd
      obtain ⟨ks, n, e1, e2, e3, e4, e5, e6⟩ := hpath hfd
      obtain ⟨_, _, n', _, _, h5⟩ := (ANAProps.replan_path_sound he hok hrd hrun ha hb hr).1 hfd
      exact ⟨n, lwalk_of_lpath e5 e2 e3, by omega⟩
    · rintro ⟨n, w, hn⟩
      obtain ⟨n', hn', w'⟩ := walk_of_lwalk (hg := hg) (hs := hs) stc ok N hp hq w
      exact o1.mpr ⟨n', by rw [hmap]; exact w', by omega⟩
    · intro n w
      obtain ⟨n', hn', w'⟩ := walk_of_lwalk (hg := hg) (hs := hs) stc ok N hp hq w
      exact Nat.le_trans (o2 n' (by rw [hmap]; exact w')) hn'

end

/-! ## AD* -/

/-- the lattice meets what AD* asks of an environment, with the goal of a forward search fixed (it is absorbing) -/
theorem xyt_envAD (stc : Static s c) (ok : SetupOk s) (N : XNumbering s num den) (hv : 0 < vel) (hf : NotTooFast s vel) (hw : Followable s vel)
    (hz : ∃ z : Nat, vel = z) {m : Nat} (hm : CostAtLeast s m) (hm1 : 1 ≤ m)
    (hG : ∀ g, InRange s g → HeurFrom s vel c.grid g (hg g)) (hS : ∀ g, InRange s g → HeurFrom s vel c.grid g (hs g))
    (fwd : Bool) (b : Nat) : ADSpec.EnvAD (xytPEnv c num den hg hs) fwd m (some b) where
  ok := xyt_envOk stc ok N (fun p h => Nat.le_trans hm1 (hm p h))
  heur := xyt_heurOk stc ok N hv hf hw hz hG hS fwd
  lo := by
    refine ⟨?_, ?_⟩
    · intro gl i j n h
      obtain ⟨_, p, q, mm, _, _, e⟩ := (succs_edge stc ok N).mp h
      exact edge_cost_ge hm e
    · intro gl i j n h
      obtain ⟨p, q, mm, _, _, e⟩ := (preds_edge (gl := gl) stc ok N).mp h
      exact edge_cost_ge hm e
  predsIndep := fun _ _ _ _ => rfl
  nonAbs := fun _ h => by cases h
  back := by
    intro _ gl t _
    right
    intro u n h
    obtain ⟨_, h⟩ := (succs_edge stc ok N).mp h
    exact (preds_edge stc ok N).mpr h

section
variable {env0 : PEnv} {fwd : Bool} {D ie fe de E m : Nat} {fs : Bool} {ops : List AD.Op} {st st' : ARA} {bs : List Nat} {res : ARA.Result} {a b : Nat} {p q : XKey}
  {ab : Option Nat} {F : Prop} {xops : List XEnv.Op} {stx : XEnv}

theorem xyt_dualAt (stc : Static s c) (ok : SetupOk s) (N : XNumbering s num den) (gl t : Nat) : ADSpec.DualAt (xytPEnv c num den hg hs) gl t := by
  intro u n h
  obtain ⟨_, h⟩ := (succs_edge stc ok N).mp h
  exact (preds_edge stc ok N).mpr h

/-- **C95** AD* on the (x, y, theta) lattice, over histories of incremental replanning: a reported path (if it has at most 100000 steps, C68) is a sequence of states from start to goal
without repetitions, joined by transitions that are valid with the current costs of the environment, of total cost at most the reported cost. -/
theorem ad_xyt_path (he : ADSpec.EnvAD env0 fwd m ab) (hE : ADProps.EpsOk E D ie fe)
    (hok : ADSpec.HistOk F m ab E (AD.init env0 fwd D ie fe de fs) ops) (hrun : AD.run (AD.init env0 fwd D ie fe de fs) ops = some st)
    (ha : ADSpec.lastStart ops = some a) (hb : ADSpec.lastGoal ops = some b) (hbs : bs ≠ [])
    (hr : AD.replan st bs = .ok (st', res)) (hf : res.found = true)
    (hx : Hist s xops stx) (N : XNumbering s num den) (hmap : ADSpec.lastEnv env0 ops = xytPEnv stx.cfg num den hg hs) (hp : den a = some p) (hq : den b = some q) :
    (res.path = [] ∧ 100000 < res.cost) ∨
    ∃ ks n, res.path.map den = ks.map some ∧ ks.head? = some p ∧ ks.getLast? = some q ∧ ks.Nodup ∧ LPath s (costs s xops) ks n ∧ n ≤ res.cost := by
  obtain ⟨ix, eg, -, -⟩ := hist_inv hx
  rw [← eg]
  rcases (ADProps.replan_path_sound he hE hok hrun ha hb hbs (fun _ => by rw [hmap]; exact xyt_dualAt ix.stc hx.1 N b a) hr hf).2 with h | ⟨⟨h1, h2⟩, h3, n, hpc, hn⟩
  · exact .inl h
  · rw [hmap] at hpc
    obtain ⟨ks, e1, e2, e3, e4, e5⟩ := decode_path ix.stc hx.1 N hpc h1 h2 h3 hp hq
    exact .inr ⟨ks, n, e1, e2, e3, e4, e5, hn⟩

/-- **C95** When AD* reports eps = e / D and some walk of cost `n` leads from start to goal with the current costs, a path was found, of cost at most eps rounded up times `n`
(and at most (eps + 1 / m) * n where `m` is the cost of the cheapest primitive): repairing the search after cost changes never leaves a stale bound. -/
theorem ad_xyt_bound (he : ADSpec.EnvAD env0 fwd m ab) (hE : ADProps.EpsOk E D ie fe)
    (hok : ADSpec.HistOk True m ab E (AD.init env0 fwd D ie fe de fs) ops) (hrun : AD.run (AD.init env0 fwd D ie fe de fs) ops = some st)
    (ha : ADSpec.lastStart ops = some a) (hb : ADSpec.lastGoal ops = some b) (hbs : bs ≠ [])
    (hr : AD.replan st bs = .ok (st', res)) {e n : Nat} (hfe : res.finalEps = some e)
    (hx : Hist s xops stx) (N : XNumbering s num den) (hmap : ADSpec.lastEnv env0 ops = xytPEnv stx.cfg num den hg hs) (hp : den a = some p) (hq : den b = some q)
    (w : LWalk s (costs s xops) p q n) :
    res.found = true ∧ D * m * res.cost ≤ (e * m + D) * n ∧ ∀ E', 1 ≤ E' → e ≤ E' * D → res.cost ≤ E' * n := by
  obtain ⟨ix, eg, -, -⟩ := hist_inv hx
  have stc := ix.stc
  have ok := hx.1
  rw [← eg] at w
  obtain ⟨n', hn, w'⟩ := walk_of_lwalk (hg := hg) (hs := hs) stc ok N hp hq w
  have hP : PredsOk (ADSpec.lastEnv env0 ops) a := by rw [hmap]; exact xyt_predsOk stc ok N a
  have hd : fwd = false → ADSpec.DualAt (ADSpec.lastEnv env0 ops) b a := fun _ => by rw [hmap]; exact xyt_dualAt stc ok N b a
  have r1 := ADProps.replan_bound_fractional he hE hok hrun ha hb hbs hd hr hfe hP (by rw [hmap]; exact w')
  refine ⟨r1.1, Nat.le_trans r1.2.2.2 (Nat.mul_le_mul_left _ hn), fun E' h1 h2 => ?_⟩
  exact Nat.le_trans (ADProps.replan_bound he hE hok hrun ha hb hbs hd hr hfe h1 h2 hP (by rw [hmap]; exact w')).2 (Nat.mul_le_mul_left _ hn)

/-! ### the environment's report of changed edges is what AD* needs -/

/-- **C95** Backward AD* on the lattice after a change of cell costs: if every state the planner has visited has its ID in the environment, and the changed cells are passed to
GetPredsofChangedEdges, then the reported states cover all changes the planner has to know of. -/
theorem xyt_covers (hct : CentreTouched s) (hx : Hist s xops stx) {xops' : List XEnv.Op} {stx2 : XEnv} (hc : ∀ op ∈ xops', CallOk s op) (hr : stx.run xops' = some stx2)
    (N : XNumbering s num den) {hg' hs' : XKey → XKey → Int} {cs : List (Int × Int)}
    (hcs : ∀ z, InMap s z → costs s xops z.1 z.2 ≠ costs s (xops ++ xops') z.1 z.2 → z ∈ cs) {seen : Nat → Prop}
    (hid : ∀ t p, den t = some p → seen t → stx2.getCoord t = .ok p) :
    ADSpec.Covers (xytPEnv stx.cfg num den hg hs) (xytPEnv stx2.cfg num den hg' hs') false (stx2.changedPreds cs).2 seen := by
  obtain ⟨ix, eg, -, -⟩ := hist_inv hx
  have hx2 := hist_append hx hc hr
  obtain ⟨ix2, eg2, -, -⟩ := hist_inv hx2
  have key : ∀ {t : Nat} {p q : XKey} {n : Nat}, t ∉ (stx2.changedPreds cs).2 → seen t → den t = some p →
      ((∃ m, Edge s stx.cfg.grid m p q n) ↔ ∃ m, Edge s stx2.cfg.grid m p q n) := by
    intro t p q n ht hse hp
    rw [eg, eg2]
    have each : ∀ m, Edge s (costs s xops) m p q n ↔ Edge s (costs s (xops ++ xops')) m p q n := by
      intro m
      by_contra hd
      exact ht (changed_preds_reported hct hx hc hr (hid t p hp hse) hd hcs)
    exact ⟨fun ⟨m, e⟩ => ⟨m, (each m).mp e⟩, fun ⟨m, e⟩ => ⟨m, (each m).mpr e⟩⟩
  intro gl t ht hse
  constructor
  · intro u n
    simp only [searchGraph, Bool.false_eq_true, if_false]
    rw [preds_edge ix.stc hx.1 N, preds_edge ix2.stc hx2.1 N]
    constructor
    · rintro ⟨p, q, m, h1, h2, e⟩
      obtain ⟨m', e'⟩ := (key ht hse h1).mp ⟨m, e⟩
      exact ⟨p, q, m', h1, h2, e'⟩
    · rintro ⟨p, q, m, h1, h2, e⟩
      obtain ⟨m', e'⟩ := (key ht hse h1).mpr ⟨m, e⟩
      exact ⟨p, q, m', h1, h2, e'⟩
  · intro u n
    simp only [ADSpec.revEdges, Bool.false_eq_true, if_false]
    rw [succs_edge ix.stc hx.1 N, succs_edge ix2.stc hx2.1 N]
    constructor
    · rintro ⟨h0, p, q, m, h1, h2, e⟩
      obtain ⟨m', e'⟩ := (key ht hse h1).mp ⟨m, e⟩
      exact ⟨h0, p, q, m', h1, h2, e'⟩
    · rintro ⟨h0, p, q, m, h1, h2, e⟩
      obtain ⟨m', e'⟩ := (key ht hse h1).mpr ⟨m, e⟩
      exact ⟨h0, p, q, m', h1, h2, e'⟩

/-- **C95** … so that `costs_changed` is covered by `ad_xyt_path` and `ad_xyt_bound` if a reported state other than the goal was visited (then the planner reads the heuristics anew) or the
heuristics did not change; for the bound, no passage may be opened except from a visited state (C71). -/
theorem xyt_stepOk (hct : CentreTouched s) (hx : Hist s xops stx) {xops' : List XEnv.Op} {stx2 : XEnv} (hc : ∀ op ∈ xops', CallOk s op) (hr : stx.run xops' = some stx2)
    (N : XNumbering s num den) {hg' hs' : XKey → XKey → Int} {cs : List (Int × Int)}
    (hcs : ∀ z, InMap s z → costs s xops z.1 z.2 ≠ costs s (xops ++ xops') z.1 z.2 → z ∈ cs)
    (hid : ∀ t p, den t = some p → ADSpec.Seen st t → stx2.getCoord t = .ok p)
    (hfw : st.fwd = false) (henv : st.env = xytPEnv stx.cfg num den hg hs) (he' : ADSpec.EnvAD (xytPEnv stx2.cfg num den hg' hs') false m ab)
    (hh : hs' = hs ∨ ∃ t ∈ (stx2.changedPreds cs).2, st.start ≠ some t ∧ ADSpec.Seen st t)
    (hF : F → ∀ i k p q n, den i = some p → Edge s (costs s (xops ++ xops')) k p q n → (∃ k' n', Edge s (costs s xops) k' p q n') ∨ ADSpec.Seen st i)
    (succL : List Nat) (total : Nat) :
    ADSpec.StepOk F m ab E st (.costsChanged (xytPEnv stx2.cfg num den hg' hs') succL (stx2.changedPreds cs).2 total) := by
  obtain ⟨ix, eg, -, -⟩ := hist_inv hx
  have hx2 := hist_append hx hc hr
  obtain ⟨ix2, eg2, -, -⟩ := hist_inv hx2
  refine ⟨by rw [hfw]; exact he', .inr (.inr ⟨?_, ?_, ?_⟩)⟩
  · rw [hfw, henv]; exact xyt_covers hct hx hc hr N hcs hid
  · rcases hh with h | h
    · left
      rw [hfw, henv, h]
      rfl
    · right; rw [hfw]; exact h
  · intro f gl u t n hm
    rw [hfw, henv]
    rw [hfw] at hm
    simp only [searchGraph, Bool.false_eq_true, if_false] at hm ⊢
    obtain ⟨p, q, k, h1, h2, e⟩ := (preds_edge ix2.stc hx2.1 N).mp hm
    rw [eg2] at e
    rcases hF f t k p q n h1 e with ⟨k', n', e'⟩ | h
    · left
      exact ⟨n', (preds_edge ix.stc hx.1 N).mpr ⟨p, q, k', h1, h2, by rw [eg]; exact e'⟩⟩
    · exact .inr h

end

end Sbpl.XYTARAProps
