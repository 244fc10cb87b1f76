import Verif.Props.XYTPlan
import Verif.Props.XYTARAEx
import Verif.Props.ADEx
import Verif.Props.ANAEx
/-! # ANA* and AD* on the (x, y, theta) lattice: concrete cases -/

namespace Sbpl.XYTARAProps
open XSpec XEnv XCfg GraphSpec XHeurProps XYTProps
open PlannerSpec (EnvOk PredsOk HeurOk searchGraph CostsAtLeast)

/-! ## ANA* -/

def anaX (fwd : Bool) : Option (Bool × List Nat × Nat × (Nat × Nat)) :=
  match tryX hSetup [] with
  | none => none
  | some st => (ANAProps.anaRun (exEnv st) fwd [.setGoal 2, .setStart 0] [99, 99, 99]).map fun r => (r.found, r.path, r.cost, r.eps)

theorem anaX_some {fwd : Bool} {v : Bool × List Nat × Nat × (Nat × Nat)} (h : anaX fwd = some v) :
    ∃ stx st st' r, Hist hSetup [] stx ∧ (ANA.init (exEnv stx) fwd).run [.setGoal 2, .setStart 0] = some st ∧
      st.replan [99, 99, 99] = .ok (st', r) ∧ (r.found, r.path, r.cost, r.eps) = v := by
  unfold anaX at h
  split at h
  next => cases h
  next stx h0 =>
    cases hr : ANAProps.anaRun (exEnv stx) fwd [.setGoal 2, .setStart 0] [99, 99, 99] with
    | none => rw [hr] at h; cases h
    | some r =>
      rw [hr] at h
      obtain ⟨st, st', h1, h2⟩ := ANAProps.anaRun_some hr
      exact ⟨stx, st, st', r, tryX_hist hSetup_ok.ok (by simp) h0, h1, h2, by simpa using h⟩

/-- C94 is not vacuous: ANA* finds the path around the obstacle in both directions and reports a bound of 64 / 34, so every walk costs at least 34. -/
example (fwd : Bool) : (∃ stx st st' res, Hist hSetup [] stx ∧ EnvOk (exEnv stx) ∧ ANASpec.Ready fwd [99, 99, 99] .new [.setGoal 2, .setStart 0] ∧
      (ANA.init (exEnv stx) fwd).run [.setGoal 2, .setStart 0] = some st ∧ st.replan [99, 99, 99] = .ok (st', res) ∧ res.found = true ∧
      res.path = [0, 6, 9, 15, 21, 3, 4, 5, 11, 17, 23, 20, 2] ∧ res.cost = 64 ∧ res.eps = (64, 34)) ∧
    ∀ n, LWalk hSetup (costs hSetup []) (0, 0, 0) (2, 0, 0) n → 34 ≤ n := by
  have e : anaX fwd = some (true, [0, 6, 9, 15, 21, 3, 4, 5, 11, 17, 23, 20, 2], 64, (64, 34)) := by
    cases fwd <;> decide +kernel
  obtain ⟨stx, st, st', r, h0, h1, h2, h3⟩ := anaX_some e
  simp only [Prod.mk.injEq] at h3
  obtain ⟨N, hE, hc, hG, hS⟩ := exEnv_ok h0
  have rd : ANASpec.Ready fwd [99, 99, 99] .new [.setGoal 2, .setStart 0] := by
    cases fwd <;> simp [ANASpec.Ready, ANASpec.Hist.ready, ANASpec.Hist.next, ANASpec.Hist.new]
  refine ⟨⟨stx, st, st', r, h0, hE, rd, h1, h2, h3.1, h3.2.1, h3.2.2.1, h3.2.2.2⟩, fun n w => ?_⟩
  have := (ana_xyt_bound (vel := 1) hE (by simp [ANASpec.OpOk]) rd h1 rfl rfl h2 h0 N rfl (p := (0, 0, 0)) (q := (2, 0, 0)) (by decide) (by decide)
    (by norm_num) hSetup_fast hSetup_follow ⟨1, by norm_num⟩ hG hS).1.2.2 n w
  rw [h3.2.2.1, h3.2.2.2] at this
  omega

/-! ## AD* -/

/-- the states in the order in which they are created: start and goal first -/
def keyL : List XKey :=
  [(0, 0, 0), (2, 0, 0), (1, 0, 0), (0, 1, 0), (1, 1, 0), (2, 1, 0), (0, 0, 1), (1, 0, 1), (2, 0, 1), (0, 1, 1), (1, 1, 1), (2, 1, 1),
   (0, 0, 2), (1, 0, 2), (2, 0, 2), (0, 1, 2), (1, 1, 2), (2, 1, 2), (0, 0, 3), (1, 0, 3), (2, 0, 3), (0, 1, 3), (1, 1, 3), (2, 1, 3)]
def numL (k : XKey) : Nat := keyL.findIdx (· = k)
def denL (i : Nat) : Option XKey := keyL[i]?
/-- all states are created by a call -/
def xops0 : List XEnv.Op := (keyL.drop 2).map .getState
/-- then the cell (1, 1), which all paths use, becomes dearer -/
def xops1 : List XEnv.Op := [.updateCost 1 1 5]
def envL (st : XEnv) : PEnv := xytPEnv st.cfg numL denL (freshHeur hSetup 1 0 st.cfg.grid (0, 0, 0)) (freshHeur hSetup 1 0 st.cfg.grid (2, 0, 0))

theorem numbering_L : XNumbering hSetup numL denL := by
  constructor
  · rintro ⟨x, y, t⟩ ⟨⟨h1, h2, h3, h4⟩, h5, h6⟩
    simp only [hSetup] at h1 h2 h3 h4 h5 h6
    interval_cases x <;> interval_cases y <;> interval_cases t <;> decide
  · have key : ∀ i : Fin 24, ∃ k, denL i = some k ∧ numL k = i ∧ InRange hSetup k := by
      unfold InRange InMap
      intro i
      refine ⟨(denL i).getD (0, 0, 0), ?_⟩
      revert i
      decide
    intro i k h
    by_cases hi : i < 24
    · obtain ⟨k', h1, h2, h3⟩ := key ⟨i, hi⟩
      have h1 : denL i = some k' := h1
      rw [h] at h1; cases h1
      exact ⟨h2, h3⟩
    · exfalso
      unfold denL at h
      rw [List.getElem?_eq_none (by simpa [keyL] using hi)] at h
      cases h

theorem xops0_ok : ∀ op ∈ xops0, CallOk hSetup op := by
  intro op h
  unfold xops0 at h
  obtain ⟨k, hk, rfl⟩ := List.mem_map.mp h
  show InRange hSetup k
  have : ∀ k ∈ keyL, InRange hSetup k := by unfold InRange InMap; decide
  exact this k (List.mem_of_mem_drop hk)

/-- what is read off after the run: the reported states, which ids name the expected states, which states the planner has visited, the cost -/
def obsX (st2 : XEnv) (a1 : ARA) (r2 : ARA.Result) : List Nat × List (List Bool) × List (Option Nat) :=
  ((st2.changedPreds [(1, 1)]).2, [(List.range 24).map (fun t => decide (st2.tab.coord t = denL t)),
    (List.range 24).map (fun t => decide (a1.callA t = a1.call)), [a1.fwd, r2.found]], [a1.start, some r2.cost, r2.finalEps])

/-- a backward AD*, the change, and another `replan` -/
def adX : Option (List Nat × List (List Bool) × List (Option Nat)) :=
  (tryX hSetup xops0).bind fun st => (st.run xops1).bind fun st2 =>
    (AD.run (AD.init (envL st) false 1 2 1 1 false) [.setGoal 1, .setStart 0]).bind fun a =>
      (AD.replan a [99, 99]).toOption.bind fun p =>
        (AD.step p.1 (.costsChanged (envL st2) [] (st2.changedPreds [(1, 1)]).2 1000)).bind fun a2 =>
          (AD.replan a2 [99, 99]).toOption.map fun q => obsX st2 p.1 q.2

theorem toOption_some {ε α : Type} {x : Except ε α} {a : α} (h : x.toOption = some a) : x = .ok a := by
  cases x with
  | error e => cases h
  | ok b => exact congrArg _ (Option.some.inj h)

theorem adX_some {v : List Nat × List (List Bool) × List (Option Nat)} (e : adX = some v) : ∃ stx stx2 a a1 r1 a2 a3 r2, tryX hSetup xops0 = some stx ∧ stx.run xops1 = some stx2 ∧
    AD.run (AD.init (envL stx) false 1 2 1 1 false) [.setGoal 1, .setStart 0] = some a ∧ AD.replan a [99, 99] = .ok (a1, r1) ∧
    AD.step a1 (.costsChanged (envL stx2) [] (stx2.changedPreds [(1, 1)]).2 1000) = some a2 ∧ AD.replan a2 [99, 99] = .ok (a3, r2) ∧ obsX stx2 a1 r2 = v := by
  unfold adX at e
  obtain ⟨stx, h0, e⟩ := Option.bind_eq_some_iff.mp e
  obtain ⟨stx2, h1, e⟩ := Option.bind_eq_some_iff.mp e
  obtain ⟨a, h2, e⟩ := Option.bind_eq_some_iff.mp e
  obtain ⟨p, h3, e⟩ := Option.bind_eq_some_iff.mp e
  obtain ⟨a2, h4, e⟩ := Option.bind_eq_some_iff.mp e
  obtain ⟨q, h5, e⟩ := Option.map_eq_some_iff.mp e
  exact ⟨stx, stx2, a, p.1, p.2, a2, q.1, q.2, h0, h1, h2, toOption_some h3, h4, toOption_some h5, e⟩

theorem adX_eq : adX = some ([3, 4, 7, 10, 16, 17, 22], [List.replicate 24 true,
    [true, true, false, true, true, true, true, false, true, true, true, true, false, false, true, true, true, true, false, false, true, true, true, true],
    [false, true]], [some 1, some 164, some 1]) := by decide +kernel

theorem envL_ad {xops : List XEnv.Op} {stx : XEnv} (hx : Hist hSetup xops stx) (fwd : Bool) (b : Nat) :
    ADSpec.EnvAD (envL stx) fwd 3 (some b) ∧ (∀ g, InRange hSetup g → HeurFrom hSetup 1 (costs hSetup xops) g (freshHeur hSetup 1 0 stx.cfg.grid (0, 0, 0) g)) ∧
    (∀ g, InRange hSetup g → HeurFrom hSetup 1 (costs hSetup xops) g (freshHeur hSetup 1 0 stx.cfg.grid (2, 0, 0) g)) := by
  obtain ⟨ix, eg, -, -⟩ := hist_inv hx
  have hc : CostAtLeast hSetup 3 := by
    intro m hm
    simp only [hSetup, hPrims, List.mem_cons, List.not_mem_nil, or_false] at hm
    rcases hm with rfl | rfl | rfl | rfl | rfl | rfl | rfl | rfl <;> decide
  have h1 : ∀ g, InRange hSetup g → HeurFrom hSetup 1 stx.cfg.grid g (freshHeur hSetup 1 0 stx.cfg.grid (0, 0, 0) g) :=
    fun g hg => fresh_table hSetup_ok.cell hSetup_ok.thr 0 _ (by decide) (by unfold InRange InMap; decide) hg
  have h2 : ∀ g, InRange hSetup g → HeurFrom hSetup 1 stx.cfg.grid g (freshHeur hSetup 1 0 stx.cfg.grid (2, 0, 0) g) :=
    fun g hg => fresh_table hSetup_ok.cell hSetup_ok.thr 0 _ (by decide) (by unfold InRange InMap; decide) hg
  refine ⟨xyt_envAD ix.stc hSetup_ok.ok numbering_L (by norm_num) hSetup_fast hSetup_follow ⟨1, by norm_num⟩ hc (by decide) h1 h2 fwd b, ?_, ?_⟩
  · rw [← eg]; exact h1
  · rw [← eg]; exact h2

theorem hSetup_centre : CentreTouched hSetup := by
  intro m hm r hr
  have hr := mem_intermCells.mpr hr
  simp only [hSetup, hPrims, List.mem_cons, List.not_mem_nil, or_false] at hm
  have key : ∀ m ∈ hPrims, ∀ r ∈ intermCells (1/100) m.pts, r = (0, 0) ∨ r = (m.dX, m.dY) := by decide +kernel
  rcases key m (by simpa [hPrims] using hm) r hr with h | h
  · exact .inl h
  · exact .inr (.inl h)

theorem hist_pre {env : PEnv} {bs : List Nat} {a1 : ARA} {r1 : ARA.Result} (hd : ∀ x y, ADSpec.DualAt env x y) (hb : bs ≠ [])
    (h3 : AD.replan (AD.setStart (AD.setGoal (AD.init env false 1 2 1 1 false) 1) 0) bs = .ok (a1, r1)) {ops : List AD.Op}
    (h : ADSpec.HistOk True 3 (some 1) 2 a1 ops) :
    ADSpec.HistOk True 3 (some 1) 2 (AD.init env false 1 2 1 1 false) (.setGoal 1 :: .setStart 0 :: .replan bs :: ops) := by
  refine ⟨fun _ => .inr rfl, ?_⟩
  intro s1 q1
  cases q1
  refine ⟨trivial, ?_⟩
  intro s2 q2
  cases q2
  refine ⟨⟨hb, fun _ x y _ _ => hd y x⟩, ?_⟩
  intro s3 q3
  simp only [AD.step, h3, Option.some.injEq] at q3
  subst q3
  exact h

theorem run_pre {env : PEnv} {bs : List Nat} {a1 : ARA} {r1 : ARA.Result}
    (h3 : AD.replan (AD.setStart (AD.setGoal (AD.init env false 1 2 1 1 false) 1) 0) bs = .ok (a1, r1)) :
    AD.run (AD.init env false 1 2 1 1 false) [.setGoal 1, .setStart 0, .replan bs] = some a1 := by
  simp only [AD.run, AD.step, h3]

theorem run_pre2 {env env2 : PEnv} {bs : List Nat} {a1 a2 : ARA} {r1 : ARA.Result} {l : List Nat} {n : Nat}
    (h3 : AD.replan (AD.setStart (AD.setGoal (AD.init env false 1 2 1 1 false) 1) 0) bs = .ok (a1, r1))
    (h4 : AD.step a1 (.costsChanged env2 [] l n) = some a2) :
    AD.run (AD.init env false 1 2 1 1 false) [.setGoal 1, .setStart 0, .replan bs, .costsChanged env2 [] l n] = some a2 := by
  simp only [AD.run, AD.step, h3] at h4 ⊢
  rw [h4]

/-- C95 is not vacuous: a backward AD* plans on the map, the cell (1, 1) becomes dearer, the environment's report of the changed edges is handed to `costs_changed`, and the repaired search
reports the new optimal cost 164. -/
example : (∃ stx stx2 a b res, Hist hSetup xops0 stx ∧ stx.run xops1 = some stx2 ∧
      ADSpec.HistOk True 3 (some 1) 2 (AD.init (envL stx) false 1 2 1 1 false)
        [.setGoal 1, .setStart 0, .replan [99, 99], .costsChanged (envL stx2) [] (stx2.changedPreds [(1, 1)]).2 1000] ∧
      AD.run (AD.init (envL stx) false 1 2 1 1 false)
        [.setGoal 1, .setStart 0, .replan [99, 99], .costsChanged (envL stx2) [] (stx2.changedPreds [(1, 1)]).2 1000] = some a ∧
      AD.replan a [99, 99] = .ok (b, res) ∧ res.found = true ∧ res.cost = 164 ∧ res.finalEps = some 1) ∧
    ∀ n, LWalk hSetup (costs hSetup (xops0 ++ xops1)) (0, 0, 0) (2, 0, 0) n → 164 ≤ n := by
  obtain ⟨stx, stx2, a, a1, r1, a2, a3, r2, h0, h1, h2, h3, h4, h5, e⟩ := adX_some adX_eq
  simp only [obsX, Prod.mk.injEq, List.cons.injEq, and_true] at e
  obtain ⟨e1, ⟨e2, e3, e4, e6⟩, e5, e7, e8⟩ := e
  have e7 := Option.some.inj e7
  have hx := tryX_hist hSetup_ok.ok xops0_ok h0
  have c1 : ∀ op ∈ xops1, CallOk hSetup op := by simp [xops1, CallOk]
  have hx2 := hist_append hx c1 h1
  have ad1 := (envL_ad hx false 1).1
  have ad2 := (envL_ad hx2 false 1).1
  have seen : ∀ t, t < 24 → (ADSpec.Seen a1 t ↔ t ∉ [2, 7, 12, 13, 18, 19]) := by
    have := List.map_eq_iff.mp e3
    intro t ht
    have q := this t
    rw [List.getElem?_range ht] at q
    simp only [Option.map_some] at q
    unfold ADSpec.Seen
    interval_cases t <;> simp at q <;> simp [q]
  have coord : ∀ t p, denL t = some p → stx2.getCoord t = .ok p := by
    intro t p hp
    have ht : t < 24 := by
      by_contra hi
      unfold denL at hp
      rw [List.getElem?_eq_none (by simpa [keyL] using hi)] at hp
      cases hp
    have q : decide (stx2.tab.coord t = denL t) = true := by
      refine (List.eq_replicate_iff.mp e2).2 _ (List.mem_map.mpr ⟨t, List.mem_range.mpr ht, rfl⟩)
    have q := of_decide_eq_true q
    exact getCoord_ok.mpr (q.trans hp)
  have hE : ADProps.EpsOk 2 1 2 1 := by unfold ADProps.EpsOk; decide
  have h2' : a = AD.setStart (AD.setGoal (AD.init (envL stx) false 1 2 1 1 false) 1) 0 := by
    simpa [AD.run, AD.step] using h2.symm
  subst h2'
  have pre : ∀ ops, (ADSpec.HistOk True 3 (some 1) 2 a1 ops) → ADSpec.HistOk True 3 (some 1) 2 (AD.init (envL stx) false 1 2 1 1 false)
      (.setGoal 1 :: .setStart 0 :: .replan [99, 99] :: ops) := by
    obtain ⟨ix, -, -, -⟩ := hist_inv hx
    exact fun ops h => hist_pre (fun x y => xyt_dualAt ix.stc hSetup_ok.ok numbering_L x y) (by simp) h3 h
  have run3 := run_pre h3
  have fr : a1.env = envL stx :=
    (AD.run_api _ (AD.init_api ad1 hE.1 hE.2.1 hE.2.2) (pre [] trivial) run3).2.env
  have step : ADSpec.StepOk True 3 (some 1) 2 a1 (.costsChanged (envL stx2) [] (stx2.changedPreds [(1, 1)]).2 1000) := by
    refine xyt_stepOk hSetup_centre hx c1 h1 numbering_L (cs := [(1, 1)]) ?_ (fun t p hp _ => coord t p hp) e4 fr ad2 ?_ ?_ [] 1000
    · rintro ⟨x, y⟩ _ hne
      simp only [costs, List.foldl_append, xops1, List.foldl_cons, List.foldl_nil, costStep] at hne
      by_contra hn
      apply hne
      rw [if_neg]
      rintro ⟨rfl, rfl⟩
      exact hn (by simp)
    · right
      rw [e1, e5]
      exact ⟨3, by decide, by decide, (seen 3 (by decide)).mpr (by decide)⟩
    · intro _ i k p q n hp ed
      by_cases hs : ADSpec.Seen a1 i
      · exact .inr hs
      · left
        by_contra hno
        have hin : i ∈ (stx2.changedPreds [(1, 1)]).2 := changed_preds_reported hSetup_centre hx c1 h1 (coord i p hp) (m := k) (q := q) (c := n)
          (fun hiff => hno ⟨k, n, hiff.mpr ed⟩) (by
            rintro ⟨x, y⟩ _ hne
            simp only [costs, List.foldl_append, xops1, List.foldl_cons, List.foldl_nil, costStep] at hne
            by_contra hn
            apply hne
            rw [if_neg]
            rintro ⟨rfl, rfl⟩
            exact hn (by simp))
        rw [e1] at hin
        have hi : i = 7 := by
          have : i < 24 := by
            have : ∀ j ∈ [3, 4, 7, 10, 16, 17, 22], j < 24 := by decide
            exact this i hin
          have h := (seen i this).not.mp hs
          simp only [List.mem_cons, List.not_mem_nil, or_false, not_not] at hin h
          omega
        subst hi
        have : p = (1, 0, 1) := by
          have q : denL 7 = some (1, 0, 1) := by decide
          rw [q] at hp; cases hp; rfl
        subst this
        have := ed.src.2
        revert this
        decide
  have run := run_pre2 h3 h4
  have hist : ADSpec.HistOk True 3 (some 1) 2 (AD.init (envL stx) false 1 2 1 1 false)
      [.setGoal 1, .setStart 0, .replan [99, 99], .costsChanged (envL stx2) [] (stx2.changedPreds [(1, 1)]).2 1000] := by
    exact pre _ ⟨step, fun _ _ => trivial⟩
  refine ⟨⟨stx, stx2, a2, a3, r2, hx, h1, hist, run, h5, e6, e7, e8⟩, fun n w => ?_⟩
  have := (ad_xyt_bound ad1 hE hist run rfl rfl (by simp) h5 e8 hx2 numbering_L rfl (p := (0, 0, 0)) (q := (2, 0, 0)) (by decide) (by decide) w).2.2 1 (by decide) (by decide)
  rw [e7] at this
  omega

end Sbpl.XYTARAProps
