import Verif.Spec.Agree
import Verif.Props.ARA
import Verif.Props.AD
import Verif.Props.ANA
import Verif.Props.MHA
import Verif.Props.LazyARA
/-!
# Planners agree (C173, C174)

A planner that reports the suboptimality bound 1 reports the least cost of a path.  So any two planners, searching
in any direction, with any histories of calls and any consistent heuristics, that are asked for a path between the
same states of the same graph, report the same cost; in particular a search repaired after cost changes reports the
cost that a search from scratch reports.
-/

namespace Sbpl.AgreeProps
open GraphSpec PlannerSpec

section
variable {succ : Nat → List (Nat × Nat)} {a b c c' : Nat}

theorem walk_of_path {p : List Nat} {n : Nat} (h : PathCost succ p n) : ∀ {x y}, FromTo p x y → Walk succ x y n := by
  induction h with
  | single s =>
    rintro x y ⟨hx, hy⟩
    simp at hx hy; subst hx hy; exact .nil
  | @cons s t c n p h1 h2 ih =>
    rintro x y ⟨hx, hy⟩
    simp at hx; subst hx
    rw [List.getLast?_cons_cons] at hy
    exact ARA.walk_cons h1 (ih ⟨rfl, hy⟩)

theorem least_unique (h : Least succ a b c) (h' : Least succ a b c') : c = c' := by
  obtain ⟨⟨p, f, w⟩, m⟩ := h
  obtain ⟨⟨p', f', w'⟩, m'⟩ := h'
  exact Nat.le_antisymm (m _ (walk_of_path w' f')) (m' _ (walk_of_path w f))

/-- a path that is at most as expensive as reported, when the report is a lower bound of all paths -/
theorem least_of {p : List Nat} {n : Nat} (f : FromTo p a b) (h : PathCost succ p n) (hn : n ≤ c)
    (m : ∀ n, Walk succ a b n → c ≤ n) : PathCost succ p c ∧ Least succ a b c := by
  have : c = n := Nat.le_antisymm (m n (walk_of_path h f)) hn
  subst this
  exact ⟨h, ⟨p, f, h⟩, m⟩

end

/-- **C173, ARA*** -/
theorem ara_least {env0 : PEnv} {fwd : Bool} {D ie fe de : Nat} {fs : Bool} {ops : List ARA.Op} {st st' : ARA} {bs : List Nat}
    {res : ARA.Result} {a b e : Nat} (he : EnvOk env0) (hok : ∀ op ∈ ops, OpOk op)
    (hrun : (ARA.init env0 fwd D ie fe de fs).run ops = some st)
    (ha : lastStart ops = some a) (hb : lastGoal ops = some b) (hbs : bs ≠ [])
    (hr : st.replan bs = .ok (st', res)) (hh : HeurOk (lastEnv env0 ops) fwd)
    (hp : fwd = false → PredsOk (lastEnv env0 ops) a)
    (hfe : res.finalEps = some e) (h1 : e ≤ D) (hf : res.found = true) :
    PathCost ((lastEnv env0 ops).succs b) res.path res.cost ∧ Least ((lastEnv env0 ops).succs b) a b res.cost := by
  obtain ⟨f, _, n, p, hn, _⟩ := ARAProps.replan_path_sound he hok hrun ha hb hbs hr hf
  refine least_of f p hn ?_
  intro n w
  have := (ARAProps.replan_bound he hok hrun ha hb hbs hr hh hfe (E := 1) (Nat.le_refl 1) (by omega) hp w).2
  omega

/-- **C173, AD*** (a solution of more than 100000 cost units may come back without its path) -/
theorem ad_least {m E : Nat} {ab : Option Nat} {env0 : PEnv} {fwd : Bool} {D ie fe de : Nat} {fs : Bool} {ops : List AD.Op}
    {st st' : ARA} {bs : List Nat} {res : ARA.Result} {a b e : Nat} (he : ADSpec.EnvAD env0 fwd m ab) (hE : ADProps.EpsOk E D ie fe)
    (hok : ADSpec.HistOk True m ab E (AD.init env0 fwd D ie fe de fs) ops)
    (hrun : AD.run (AD.init env0 fwd D ie fe de fs) ops = some st)
    (ha : ADSpec.lastStart ops = some a) (hb : ADSpec.lastGoal ops = some b) (hbs : bs ≠ [])
    (hd : fwd = false → ADSpec.DualAt (ADSpec.lastEnv env0 ops) b a)
    (hr : AD.replan st bs = .ok (st', res)) (hp : PredsOk (ADSpec.lastEnv env0 ops) a)
    (hfe : res.finalEps = some e) (h1 : e ≤ D) (hf : res.found = true) (hne : res.path ≠ []) :
    PathCost ((ADSpec.lastEnv env0 ops).succs b) res.path res.cost ∧ Least ((ADSpec.lastEnv env0 ops).succs b) a b res.cost := by
  obtain ⟨_, h⟩ := ADProps.replan_path_sound he hE hok hrun ha hb hbs hd hr hf
  rcases h with ⟨h, _⟩ | ⟨f, _, n, p, hn⟩
  · exact absurd h hne
  refine least_of f p hn ?_
  intro n w
  have := (ADProps.replan_bound he hE hok hrun ha hb hbs hd hr hfe (E' := 1) (Nat.le_refl 1) (by omega) hp w).2
  omega

/-- **C173, ANA*** -/
theorem ana_least {env0 : PEnv} {fwd : Bool} {ops : List ANA.Op} {st st' : ANA} {bs : List Nat} {res : ANA.Result} {a b : Nat}
    (he : EnvOk env0) (hok : ∀ op ∈ ops, ANASpec.OpOk op) (hrd : ANASpec.Ready fwd bs .new ops)
    (hrun : (ANA.init env0 fwd).run ops = some st) (ha : ANASpec.lastStart ops = some a) (hb : ANASpec.lastGoal ops = some b)
    (hr : st.replan bs = .ok (st', res)) (hh : ANASpec.AdmOk (ANASpec.lastEnv env0 ops) fwd)
    (hp : fwd = false → PredsOk (ANASpec.lastEnv env0 ops) a)
    (h1 : res.eps.1 ≤ res.eps.2) (hf : res.found = true) :
    PathCost ((ANASpec.lastEnv env0 ops).succs b) res.path res.cost ∧ Least ((ANASpec.lastEnv env0 ops).succs b) a b res.cost := by
  obtain ⟨f, _, n, p, hn, _⟩ := (ANAProps.replan_path_sound he hok hrd hrun ha hb hr).1 hf
  refine least_of f p hn ?_
  intro n w
  obtain ⟨q1, q2, q3⟩ := ANAProps.replan_bound he hok hrd hrun ha hb hr hh hp
  have := q3 n w
  have e : res.eps.1 = res.eps.2 := Nat.le_antisymm h1 q2
  rw [e, Nat.mul_comm] at this
  exact Nat.le_of_mul_le_mul_left this (by omega)

/-- **C173, MHA*** both eps values are 1; the additional heuristics are arbitrary -/
theorem mha_least {env0 : PEnv} {hs0 : Nat → Nat → Nat → Nat} {hcount D : Nat} {ops : List MHA.Op} {st st' : MHA} {par : MHA.Params}
    {budget : Nat} {res : MHA.Result} {a b : Nat} (cl : MHAProps.Called env0 hs0 hcount D ops st par a b)
    (hr : st.replan par budget = .ok (st', res)) (hD : 1 ≤ D) (h1 : par.initEps ≤ D) (h2 : MHASpec.lastMhaEps D ops ≤ D)
    (hc : Consistent ((MHASpec.lastEnv env0 hs0 ops).1.succs b) b ((MHASpec.lastEnv env0 hs0 ops).2 0 b))
    (hf : res.found = true) (hne : res.path ≠ [b] ∨ a = b) :
    ∃ k : Nat, res.cost = k ∧ PathCost ((MHASpec.lastEnv env0 hs0 ops).1.succs b) res.path k ∧
      Least ((MHASpec.lastEnv env0 hs0 ops).1.succs b) a b k := by
  have triv : a = b → ∃ k : Nat, res.cost = k ∧ PathCost ((MHASpec.lastEnv env0 hs0 ops).1.succs b) res.path k ∧
      Least ((MHASpec.lastEnv env0 hs0 ops).1.succs b) a b k := by
    intro ab
    subst ab
    obtain ⟨e1, e2⟩ := MHAProps.replan_start_is_goal cl hr hf
    exact ⟨0, e2, by rw [e1]; exact .single a, ⟨[a], ⟨rfl, rfl⟩, .single a⟩, fun n _ => Nat.zero_le n⟩
  rcases hne with hne | ab
  · obtain ⟨f, _, _, n, p, hn, _⟩ := MHAProps.replan_path_sound cl hr hf hne
    have lb : ∀ w, Walk ((MHASpec.lastEnv env0 hs0 ops).1.succs b) a b w → res.cost ≤ w := by
      intro w hw
      have := (MHAProps.replan_bound cl hr hf (E := 1) (Nat.le_refl 1) (by omega) hc hw).1
      have e : MHASpec.lastMhaEps D ops = D := Nat.le_antisymm h2 cl.mhaEps
      rw [e] at this
      simp only [Nat.cast_one, one_mul] at this
      exact le_of_mul_le_mul_left this (by exact_mod_cast hD)
    have e : res.cost = n := Int.le_antisymm (lb n (walk_of_path p f)) hn
    refine ⟨n, e, p, ⟨_, f, p⟩, ?_⟩
    intro w hw
    have := lb w hw
    rw [e] at this
    exact_mod_cast this
  · exact triv ab

theorem rpath_path {succ : Nat → List (Nat × Nat)} {env : LEnv} (hE : ∀ s t c, LazySpec.Edge env s t c → (t, c) ∈ succ s)
    {p : List Nat} {n : Nat} (h : LazySpec.RPath (LazySpec.Edge env) p n) : PathCost succ p n := by
  induction h with
  | single s => exact .single s
  | cons h _ ih => exact .cons (hE _ _ _ h) ih

theorem walk_rwalk {succ : Nat → List (Nat × Nat)} {env : LEnv} (hE : ∀ s t c, (t, c) ∈ succ s → LazySpec.Edge env s t c)
    {a x n : Nat} (h : Walk succ a x n) : LazySpec.RWalk (LazySpec.Edge env) a x n := by
  induction h with
  | nil => exact .nil
  | snoc _ h ih => exact .snoc ih (hE _ _ _ h)

theorem cheap_le {env : LEnv} (hall : ∀ p s c f, (s, c, f) ∈ env.succs p → f = true) {p : List Nat} {n : Nat}
    (h : LazySpec.RPath (LazySpec.CheapListed env) p n) : ∀ {k}, LazySpec.RPath (LazySpec.Edge env) p k → n ≤ k := by
  induction h with
  | single s => intro k _; exact Nat.zero_le _
  | @cons s t c n p h _ ih =>
    intro k hk
    cases hk with
    | cons h1 h2 =>
      have := ih h2
      rcases h1 with h1 | ⟨lc, h1, _⟩
      · have := h.1 _ _ h1; omega
      · exact absurd (hall _ _ _ _ h1) (by simp)

theorem cheap_edge {env : LEnv} (hall : ∀ p s c f, (s, c, f) ∈ env.succs p → f = true) {p : List Nat} {n : Nat}
    (h : LazySpec.RPath (LazySpec.CheapListed env) p n) (hn : n < INFINITECOST) : LazySpec.RPath (LazySpec.Edge env) p n := by
  induction h with
  | single s => exact .single s
  | @cons s t c n p h _ ih =>
    refine .cons ?_ (ih (by omega))
    rcases h.2 with h2 | ⟨f, h2⟩
    · omega
    · have := hall _ _ _ _ h2
      subst this
      exact .inl h2

/-- **C173, Lazy ARA*** on an environment whose listed costs are the true ones -/
theorem lazy_least {wf : (LazyElem → Nat) → List LazyElem → Prop} {Q : LQueue} {env0 : LEnv} {D ie fe de : Nat} {fs : Bool}
    {ops : List LazyARA.Op} {st st' : LazyARA} {bs : List Nat} {res : LazyARA.Result} {a b e : Nat}
    {succ : Nat → List (Nat × Nat)} (hQ : LazySpec.QueueOk Q wf) (hok : LazyProps.HistOk true env0 (ops ++ [.replan bs]))
    (hrun : (LazyARA.init env0 Q true D ie fe de fs).run ops = some st) (hid : LazySpec.ids ops (none, none) = (some a, some b))
    (hr : st.replan bs = .ok (st', res)) (hf : res.found = true)
    (hall : ∀ p s c f, (s, c, f) ∈ (LazySpec.lastEnv env0 ops).succs p → f = true)
    (hS : ∀ s t c, LazySpec.Edge (LazySpec.lastEnv env0 ops) s t c ↔ (t, c) ∈ succ s)
    (hfe : res.finalEps = some e) (hD : 0 < D) (h1 : e ≤ D) (hh : LazySpec.Consistent (LazySpec.lastEnv env0 ops) b)
    (hs1 : (LazySpec.lastParams (ie, fe, de, fs) ops).1 * (LazySpec.lastEnv env0 ops).hGoalPre a / D < INFINITECOST)
    (hs2 : (LazySpec.lastParams (ie, fe, de, fs) ops).2.1 * (LazySpec.lastEnv env0 ops).hGoalPre a / D < INFINITECOST)
    (hlt : res.cost < INFINITECOST) :
    PathCost succ res.path res.cost ∧ Least succ a b res.cost := by
  obtain ⟨f1, f2, f3, _⟩ := LazyProps.path_sound hQ hok hrun hid hr hf
  have pc := rpath_path (fun s t c => (hS s t c).mp) (cheap_edge hall f3 hlt)
  refine ⟨pc, ⟨_, ⟨f1, f2⟩, pc⟩, ?_⟩
  intro n w
  obtain ⟨k, p, hk⟩ := LazyProps.true_costs_bound hQ hok hrun hid hr hf hall hfe hD (E := 1) (Nat.le_refl 1) (by omega) hh hs1 hs2
    (walk_rwalk (fun s t c => (hS s t c).mpr) w)
  have := cheap_le hall f3 p
  omega

/-- A cost that some planner reports together with the suboptimality bound 1 for the graph `succ`, start `a` and
goal `b`: after an arbitrary history of calls that leaves it with an environment whose successors (with goal `b`)
are `succ`, searching forward or backward. -/
inductive Reports (succ : Nat → List (Nat × Nat)) (a b : Nat) : Nat → Prop
  | ara (env0 : PEnv) (fwd : Bool) (D ie fe de : Nat) (fs : Bool) (ops : List ARA.Op) (st st' : ARA) (bs : List Nat) (res : ARA.Result)
      (e : Nat) (henv : EnvOk env0) (hok : ∀ op ∈ ops, OpOk op) (hrun : (ARA.init env0 fwd D ie fe de fs).run ops = some st)
      (ha : lastStart ops = some a) (hb : lastGoal ops = some b) (hbs : bs ≠ []) (hr : st.replan bs = .ok (st', res))
      (hh : HeurOk (lastEnv env0 ops) fwd) (hp : fwd = false → PredsOk (lastEnv env0 ops) a)
      (hfe : res.finalEps = some e) (h1 : e ≤ D) (hf : res.found = true) (hS : (lastEnv env0 ops).succs b = succ) :
      Reports succ a b res.cost
  | ad (m E : Nat) (ab : Option Nat) (env0 : PEnv) (fwd : Bool) (D ie fe de : Nat) (fs : Bool) (ops : List AD.Op) (st st' : ARA)
      (bs : List Nat) (res : ARA.Result) (e : Nat) (henv : ADSpec.EnvAD env0 fwd m ab) (hE : ADProps.EpsOk E D ie fe)
      (hok : ADSpec.HistOk True m ab E (AD.init env0 fwd D ie fe de fs) ops)
      (hrun : AD.run (AD.init env0 fwd D ie fe de fs) ops = some st)
      (ha : ADSpec.lastStart ops = some a) (hb : ADSpec.lastGoal ops = some b) (hbs : bs ≠ [])
      (hd : fwd = false → ADSpec.DualAt (ADSpec.lastEnv env0 ops) b a) (hr : AD.replan st bs = .ok (st', res))
      (hp : PredsOk (ADSpec.lastEnv env0 ops) a) (hfe : res.finalEps = some e) (h1 : e ≤ D) (hf : res.found = true)
      (hne : res.path ≠ []) (hS : (ADSpec.lastEnv env0 ops).succs b = succ) : Reports succ a b res.cost
  | ana (env0 : PEnv) (fwd : Bool) (ops : List ANA.Op) (st st' : ANA) (bs : List Nat) (res : ANA.Result)
      (henv : EnvOk env0) (hok : ∀ op ∈ ops, ANASpec.OpOk op) (hrd : ANASpec.Ready fwd bs .new ops)
      (hrun : (ANA.init env0 fwd).run ops = some st) (ha : ANASpec.lastStart ops = some a) (hb : ANASpec.lastGoal ops = some b)
      (hr : st.replan bs = .ok (st', res)) (hh : ANASpec.AdmOk (ANASpec.lastEnv env0 ops) fwd)
      (hp : fwd = false → PredsOk (ANASpec.lastEnv env0 ops) a) (h1 : res.eps.1 ≤ res.eps.2) (hf : res.found = true)
      (hS : (ANASpec.lastEnv env0 ops).succs b = succ) : Reports succ a b res.cost
  | mha (env0 : PEnv) (hs0 : Nat → Nat → Nat → Nat) (hcount D : Nat) (ops : List MHA.Op) (st st' : MHA) (par : MHA.Params)
      (budget : Nat) (res : MHA.Result) (k : Nat) (cl : MHAProps.Called env0 hs0 hcount D ops st par a b)
      (hr : st.replan par budget = .ok (st', res)) (hD : 1 ≤ D) (h1 : par.initEps ≤ D) (h2 : MHASpec.lastMhaEps D ops ≤ D)
      (hc : Consistent ((MHASpec.lastEnv env0 hs0 ops).1.succs b) b ((MHASpec.lastEnv env0 hs0 ops).2 0 b))
      (hf : res.found = true) (hne : res.path ≠ [b] ∨ a = b) (hk : res.cost = k)
      (hS : (MHASpec.lastEnv env0 hs0 ops).1.succs b = succ) : Reports succ a b k
  | lazy (wf : (LazyElem → Nat) → List LazyElem → Prop) (Q : LQueue) (env0 : LEnv) (D ie fe de : Nat) (fs : Bool)
      (ops : List LazyARA.Op) (st st' : LazyARA) (bs : List Nat) (res : LazyARA.Result) (e : Nat) (hQ : LazySpec.QueueOk Q wf)
      (hok : LazyProps.HistOk true env0 (ops ++ [.replan bs])) (hrun : (LazyARA.init env0 Q true D ie fe de fs).run ops = some st)
      (hid : LazySpec.ids ops (none, none) = (some a, some b)) (hr : st.replan bs = .ok (st', res)) (hf : res.found = true)
      (hall : ∀ p s c f, (s, c, f) ∈ (LazySpec.lastEnv env0 ops).succs p → f = true)
      (hS : ∀ s t c, LazySpec.Edge (LazySpec.lastEnv env0 ops) s t c ↔ (t, c) ∈ succ s)
      (hfe : res.finalEps = some e) (hD : 0 < D) (h1 : e ≤ D) (hh : LazySpec.Consistent (LazySpec.lastEnv env0 ops) b)
      (hs1 : (LazySpec.lastParams (ie, fe, de, fs) ops).1 * (LazySpec.lastEnv env0 ops).hGoalPre a / D < INFINITECOST)
      (hs2 : (LazySpec.lastParams (ie, fe, de, fs) ops).2.1 * (LazySpec.lastEnv env0 ops).hGoalPre a / D < INFINITECOST)
      (hlt : res.cost < INFINITECOST) : Reports succ a b res.cost

/-- **C173** Whatever a planner reports with bound 1 is the least cost of a path. -/
theorem reports_least {succ : Nat → List (Nat × Nat)} {a b c : Nat} (h : Reports succ a b c) : Least succ a b c := by
  cases h with
  | ara env0 fwd D ie fe de fs ops st st' bs res e henv hok hrun ha hb hbs hr hh hp hfe h1 hf hS =>
    subst hS
    exact (ara_least henv hok hrun ha hb hbs hr hh hp hfe h1 hf).2
  | ad m E ab env0 fwd D ie fe de fs ops st st' bs res e henv hE hok hrun ha hb hbs hd hr hp hfe h1 hf hne hS =>
    subst hS
    exact (ad_least henv hE hok hrun ha hb hbs hd hr hp hfe h1 hf hne).2
  | ana env0 fwd ops st st' bs res henv hok hrd hrun ha hb hr hh hp h1 hf hS =>
    subst hS
    exact (ana_least henv hok hrd hrun ha hb hr hh hp h1 hf).2
  | mha env0 hs0 hcount D ops st st' par budget res k cl hr hD h1 h2 hc hf hne hk hS =>
    subst hS
    obtain ⟨k', e, _, l⟩ := mha_least cl hr hD h1 h2 hc hf hne
    have : c = k' := by rw [hk] at e; exact_mod_cast e
    subst this
    exact l
  | lazy wf Q env0 D ie fe de fs ops st st' bs res e hQ hok hrun hid hr hf hall hS hfe hD h1 hh hs1 hs2 hlt =>
    exact (lazy_least hQ hok hrun hid hr hf hall hS hfe hD h1 hh hs1 hs2 hlt).2

/-- **C173** Two planners that both report the bound 1 for the same graph, start and goal report the same cost. -/
theorem planners_agree {succ : Nat → List (Nat × Nat)} {a b c c' : Nat} (h : Reports succ a b c) (h' : Reports succ a b c') :
    c = c' := least_unique (reports_least h) (reports_least h')

/-- A planner that reports failure although the clock did not interrupt it, with eps at most `E`, for the graph `succ`,
start `a` and goal `b`. -/
inductive Fails (succ : Nat → List (Nat × Nat)) (a b E : Nat) : Prop
  | ara (env0 : PEnv) (fwd : Bool) (D ie fe de : Nat) (fs : Bool) (ops : List ARA.Op) (st st' : ARA) (bs : List Nat) (res : ARA.Result)
      (henv : EnvOk env0) (hok : ∀ op ∈ ops, OpOk op) (hrun : (ARA.init env0 fwd D ie fe de fs).run ops = some st)
      (ha : lastStart ops = some a) (hb : lastGoal ops = some b) (hbs : bs ≠ []) (hr : st.replan bs = .ok (st', res))
      (hh : HeurOk (lastEnv env0 ops) fwd) (hp : fwd = false → PredsOk (lastEnv env0 ops) a) (hE : 1 ≤ E)
      (hreq : EpsReq E D ops) (hie : ie ≤ E * D) (hfe : fe ≤ E * D) (hnt : NoTimeout bs res.traces) (hf : res.found = false)
      (hS : (lastEnv env0 ops).succs b = succ) : Fails succ a b E
  | ad (m : Nat) (ab : Option Nat) (env0 : PEnv) (fwd : Bool) (D ie fe de : Nat) (fs : Bool) (ops : List AD.Op) (st st' : ARA)
      (bs : List Nat) (res : ARA.Result) (henv : ADSpec.EnvAD env0 fwd m ab) (hE : ADProps.EpsOk E D ie fe)
      (hok : ADSpec.HistOk True m ab E (AD.init env0 fwd D ie fe de fs) ops)
      (hrun : AD.run (AD.init env0 fwd D ie fe de fs) ops = some st)
      (ha : ADSpec.lastStart ops = some a) (hb : ADSpec.lastGoal ops = some b) (hbs : bs ≠ [])
      (hd : fwd = false → ADSpec.DualAt (ADSpec.lastEnv env0 ops) b a) (hr : AD.replan st bs = .ok (st', res))
      (hp : PredsOk (ADSpec.lastEnv env0 ops) a) (hnt : NoTimeout bs res.traces) (hf : res.found = false)
      (hS : (ADSpec.lastEnv env0 ops).succs b = succ) : Fails succ a b E
  | mha (env0 : PEnv) (hs0 : Nat → Nat → Nat → Nat) (hcount D : Nat) (ops : List MHA.Op) (st st' : MHA) (par : MHA.Params)
      (budget : Nat) (res : MHA.Result) (cl : MHAProps.Called env0 hs0 hcount D ops st par a b)
      (hr : st.replan par budget = .ok (st', res)) (hE : 1 ≤ E) (h1 : par.initEps ≤ E * D)
      (hc : Consistent ((MHASpec.lastEnv env0 hs0 ops).1.succs b) b ((MHASpec.lastEnv env0 hs0 ops).2 0 b))
      (hf : res.found = false) (hx : res.exhausted = true)
      (hS : (MHASpec.lastEnv env0 hs0 ops).1.succs b = succ) : Fails succ a b E

/-- **C173, failures** If one planner finds no path although it was not interrupted, every cost another planner
reports (with bound 1) for the same problem is at least INFINITECOST / E; with eps = 1 no planner finds a path. -/
theorem failures_agree {succ : Nat → List (Nat × Nat)} {a b c E : Nat} (h : Fails succ a b E) (h' : Reports succ a b c) :
    INFINITECOST ≤ E * c := by
  obtain ⟨⟨p, f, q⟩, _⟩ := reports_least h'
  have w := walk_of_path q f
  cases h with
  | ara env0 fwd D ie fe de fs ops st st' bs res henv hok hrun ha hb hbs hr hh hp hE hreq hie hfe hnt hf hS =>
    subst hS
    exact ARAProps.replan_failure_complete henv hok hrun ha hb hbs hr hh hE hreq hie hfe hnt hf hp w
  | ad m ab env0 fwd D ie fe de fs ops st st' bs res henv hE hok hrun ha hb hbs hd hr hp hnt hf hS =>
    subst hS
    exact ADProps.replan_failure_complete henv hE hok hrun ha hb hbs hd hr hnt hf hp w
  | mha env0 hs0 hcount D ops st st' par budget res cl hr hE h1 hc hf hx hS =>
    subst hS
    exact MHAProps.replan_failure_complete cl hr hf hx hE h1 hc w

/-- every reported cost is below INFINITECOST -/
theorem reports_lt {succ : Nat → List (Nat × Nat)} {a b c : Nat} (h : Reports succ a b c) : c < INFINITECOST := by
  cases h with
  | ara env0 fwd D ie fe de fs ops st st' bs res e henv hok hrun ha hb hbs hr hh hp hfe h1 hf hS =>
    obtain ⟨_, _, _, _, _, h⟩ := ARAProps.replan_path_sound henv hok hrun ha hb hbs hr hf
    exact h
  | ad m E ab env0 fwd D ie fe de fs ops st st' bs res e henv hE hok hrun ha hb hbs hd hr hp hfe h1 hf hne hS =>
    exact (ADProps.replan_path_sound henv hE hok hrun ha hb hbs hd hr hf).1
  | ana env0 fwd ops st st' bs res henv hok hrd hrun ha hb hr hh hp h1 hf hS =>
    obtain ⟨_, _, _, _, _, h⟩ := (ANAProps.replan_path_sound henv hok hrd hrun ha hb hr).1 hf
    exact h
  | mha env0 hs0 hcount D ops st st' par budget res k cl hr hD h1 h2 hc hf hne hk hS =>
    rcases hne with hne | ab
    · obtain ⟨_, _, _, _, _, _, h⟩ := MHAProps.replan_path_sound cl hr hf hne
      rw [hk] at h
      exact_mod_cast h
    · subst ab
      have := (MHAProps.replan_start_is_goal cl hr hf).2
      rw [hk] at this
      have : c = 0 := by exact_mod_cast this
      subst this
      decide
  | lazy wf Q env0 D ie fe de fs ops st st' bs res e hQ hok hrun hid hr hf hall hS hfe hD h1 hh hs1 hs2 hlt => exact hlt

/-- **C173, failures, eps = 1** A planner running with eps = 1 that is not interrupted fails only if no planner can
report a cost with bound 1. -/
theorem fail_or_report {succ : Nat → List (Nat × Nat)} {a b c : Nat} (h : Fails succ a b 1) : ¬ Reports succ a b c := by
  intro h'
  have h1 := failures_agree h h'
  have h2 := reports_lt h'
  omega

/-- **C174** Repair is as good as planning anew: an AD* planner whose costs were changed any number of times, with any
`replan` calls in between, and an AD* planner constructed just now on the environment as it is, report the same cost
once both report the bound 1. -/
theorem repair_eq_scratch {m E m2 E2 : Nat} {ab ab2 : Option Nat} {env0 : PEnv} {fwd fwd2 : Bool} {D ie fe de D2 ie2 fe2 de2 : Nat}
    {fs fs2 : Bool} {ops : List AD.Op} {st st' st2 st2' : ARA} {bs bs2 : List Nat} {res res2 : ARA.Result} {a b e e2 : Nat}
    (he : ADSpec.EnvAD env0 fwd m ab) (hE : ADProps.EpsOk E D ie fe)
    (hok : ADSpec.HistOk True m ab E (AD.init env0 fwd D ie fe de fs) ops)
    (hrun : AD.run (AD.init env0 fwd D ie fe de fs) ops = some st)
    (ha : ADSpec.lastStart ops = some a) (hb : ADSpec.lastGoal ops = some b) (hbs : bs ≠ [])
    (hd : fwd = false → ADSpec.DualAt (ADSpec.lastEnv env0 ops) b a)
    (hr : AD.replan st bs = .ok (st', res)) (hp : PredsOk (ADSpec.lastEnv env0 ops) a)
    (hfe : res.finalEps = some e) (h1 : e ≤ D) (hf : res.found = true) (hne : res.path ≠ [])
    (he2 : ADSpec.EnvAD (ADSpec.lastEnv env0 ops) fwd2 m2 ab2) (hE2 : ADProps.EpsOk E2 D2 ie2 fe2)
    (hok2 : ADSpec.HistOk True m2 ab2 E2 (AD.init (ADSpec.lastEnv env0 ops) fwd2 D2 ie2 fe2 de2 fs2) [.setGoal b, .setStart a])
    (hrun2 : AD.run (AD.init (ADSpec.lastEnv env0 ops) fwd2 D2 ie2 fe2 de2 fs2) [.setGoal b, .setStart a] = some st2) (hbs2 : bs2 ≠ [])
    (hd2 : fwd2 = false → ADSpec.DualAt (ADSpec.lastEnv env0 ops) b a)
    (hr2 : AD.replan st2 bs2 = .ok (st2', res2)) (hfe2 : res2.finalEps = some e2) (h2 : e2 ≤ D2) (hf2 : res2.found = true)
    (hne2 : res2.path ≠ []) : res.cost = res2.cost :=
  planners_agree
    (.ad m E ab env0 fwd D ie fe de fs ops st st' bs res e he hE hok hrun ha hb hbs hd hr hp hfe h1 hf hne rfl)
    (.ad m2 E2 ab2 (ADSpec.lastEnv env0 ops) fwd2 D2 ie2 fe2 de2 fs2 [.setGoal b, .setStart a] st2 st2' bs2 res2 e2 he2 hE2 hok2 hrun2
      rfl rfl hbs2 hd2 hr2 hp hfe2 h2 hf2 hne2 rfl)

end Sbpl.AgreeProps
