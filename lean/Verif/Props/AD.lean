import Verif.Proofs.ADRun
import Verif.Props.ARA
/-!
# Properties of `ADPlanner` over arbitrary histories of interface calls (C64–C70)

In all theorems: a planner is constructed on environment `env0` (searching forward or backward), an arbitrary list
`ops` of interface calls is made - including `costs_changed` with changed environments, repaired incrementally - and
then `replan` is called with an arbitrary time limit (`bs`: how many loop checks the clock allows in each pass).
`HistOk` states which calls are covered; `histOk_of_plain` gives a simple sufficient condition.
-/

namespace Sbpl.ADProps
open Sbpl GraphSpec PlannerSpec ADSpec ARA

/-- A history whose cost changes are announced completely, for an environment that is currently `env`: the changed
states are listed, the heuristic stays the same, no edge appears (`F`), or so many states changed that the planner
starts from scratch. -/
def PlainOk (F : Prop) (m : Nat) (ab : Option Nat) (E : Nat) (fwd : Bool) (D : Nat) : PEnv → List AD.Op → Prop
  | _, [] => True
  | env, .setGoal s :: ops => (fwd = true → ab = none ∨ ab = some s) ∧ PlainOk F m ab E fwd D env ops
  | env, .costsChanged env' succL predL total :: ops =>
    EnvAD env' fwd m ab ∧ (total / 10 < (if fwd then succL else predL).length ∨
      (Covers env env' fwd (if fwd then succL else predL) (fun _ => True) ∧ SameHeur env env' fwd ∧
        (F → NoNewEdges env env' fwd (fun _ => False)))) ∧ PlainOk F m ab E fwd D env' ops
  | env, .setParams a b _ _ :: ops => (D ≤ a ∧ a ≤ E * D ∧ D ≤ b ∧ b ≤ E * D) ∧ PlainOk F m ab E fwd D env ops
  | env, .replan bs :: ops => bs ≠ [] ∧ (fwd = false → ∀ a b, DualAt env b a) ∧ PlainOk F m ab E fwd D env ops
  | env, _ :: ops => PlainOk F m ab E fwd D env ops

section
variable {F : Prop} {m : Nat} {ab : Option Nat} {E : Nat}

theorem stepOk_of_plain {st : ARA} {op : AD.Op} {ops : List AD.Op} (h : PlainOk F m ab E st.fwd st.D st.env (op :: ops)) :
    StepOk F m ab E st op ∧ PlainOk F m ab E st.fwd st.D (ADSpec.lastEnv st.env [op]) ops := by
  cases op with
  | setStart s => exact ⟨trivial, h⟩
  | setGoal s => exact ⟨h.1, h.2⟩
  | costsChanged env' sl pl n =>
    refine ⟨⟨h.1, ?_⟩, h.2.2⟩
    rcases h.2.1 with q | ⟨q1, q2, q3⟩
    · exact .inr (.inl q)
    · refine .inr (.inr ⟨fun gl t hl _ => q1 gl t hl trivial, .inl q2, ?_⟩)
      intro f gl u t c hm
      rcases q3 f gl u t c hm with r | r
      · exact .inl r
      · exact r.elim
  | forceScratch => exact ⟨trivial, h⟩
  | setParams a b c d => exact ⟨h.1, h.2⟩
  | replan bs => exact ⟨⟨h.1, fun f a b _ _ => h.2.1 f a b⟩, h.2.2⟩

/-- the plain condition on a history implies the general one -/
theorem histOk_of_plain (ops : List AD.Op) : ∀ {st : ARA}, AD.Api F m ab E st →
    PlainOk F m ab E st.fwd st.D st.env ops → HistOk F m ab E st ops := by
  induction ops with
  | nil => intro st _ _; trivial
  | cons op ops ih =>
    intro st i h
    obtain ⟨s, p⟩ := stepOk_of_plain h
    refine ⟨s, ?_⟩
    intro st1 e
    obtain ⟨i1, t⟩ := AD.step_api op i s e
    exact ih i1 (by rw [t.fwd, t.D, t.env]; exact p)

variable {env0 : PEnv} {fwd : Bool} {D ie fe de : Nat} {fs : Bool} {ops : List AD.Op} {st st' : ARA} {bs : List Nat}
  {res : Result} {a b : Nat}

/-- the eps parameters given to the constructor are between 1 and `E` -/
def EpsOk (E D ie fe : Nat) : Prop := 0 < D ∧ (D ≤ ie ∧ ie ≤ E * D) ∧ (D ≤ fe ∧ fe ≤ E * D)

theorem hist (he : EnvAD env0 fwd m ab) (hE : EpsOk E D ie fe) (hok : HistOk F m ab E (AD.init env0 fwd D ie fe de fs) ops)
    (hrun : AD.run (AD.init env0 fwd D ie fe de fs) ops = some st)
    (ha : ADSpec.lastStart ops = some a) (hb : ADSpec.lastGoal ops = some b) :
    AD.Api F m ab E st ∧ st.fwd = fwd ∧ st.D = D ∧ st.env = ADSpec.lastEnv env0 ops ∧
      ∃ s0 gl, st.start = some s0 ∧ st.goal = some gl ∧ envStart fwd s0 gl = a ∧ envGoal fwd s0 gl = b := by
  obtain ⟨g, t⟩ := AD.run_api ops (AD.init_api he hE.1 hE.2.1 hE.2.2) hok hrun
  refine ⟨g, t.fwd, t.D, t.env, ?_⟩
  have h1 := t.start
  have h2 := t.goal
  have f : st.fwd = fwd := t.fwd
  rw [ha] at h1; rw [hb] at h2
  simp only [planStart, planGoal, f, Option.some_or] at h1 h2
  by_cases q : fwd = true
  · rw [if_pos q] at h1 h2
    exact ⟨a, b, h1, h2, by simp [envStart, q], by simp [envGoal, q]⟩
  · rw [if_neg q] at h1 h2
    exact ⟨b, a, h2, h1, by simp [envStart, q], by simp [envGoal, q]⟩

theorem spec (he : EnvAD env0 fwd m ab) (hE : EpsOk E D ie fe) (hok : HistOk F m ab E (AD.init env0 fwd D ie fe de fs) ops)
    (hrun : AD.run (AD.init env0 fwd D ie fe de fs) ops = some st)
    (ha : ADSpec.lastStart ops = some a) (hb : ADSpec.lastGoal ops = some b) (hbs : bs ≠ [])
    (hd : fwd = false → DualAt (ADSpec.lastEnv env0 ops) b a) :
    AD.Api F m ab E st ∧ st.fwd = fwd ∧ st.D = D ∧ st.env = ADSpec.lastEnv env0 ops ∧
      ∃ s0 gl, envStart fwd s0 gl = a ∧ envGoal fwd s0 gl = b ∧ OkOr (AD.replan st bs) (AD.RPost F m ab E st s0 gl bs) := by
  obtain ⟨g, hf', hD, hEn, s0, gl, h0, hg, e1, e2⟩ := hist he hE hok hrun ha hb
  refine ⟨g, hf', hD, hEn, s0, gl, e1, e2, AD.replan_spec bs g h0 hg hbs ?_⟩
  intro f
  rw [hf'] at f
  subst f
  have : gl = a := e1
  have : s0 = b := e2
  subst_vars
  rw [hEn]; exact hd rfl

/-- **C64** Whenever AD* `replan` reports success, the returned states form a path, without repetition, from the start
to the goal of the current environment whose cost is at most the reported cost; only a solution of more than 100000
cost units may come back with an empty path (see C68).  For every history of covered calls, with or without newly
appearing edges (`F` is arbitrary), and every time limit. -/
theorem replan_path_sound (he : EnvAD env0 fwd m ab) (hE : EpsOk E D ie fe)
    (hok : HistOk F m ab E (AD.init env0 fwd D ie fe de fs) ops)
    (hrun : AD.run (AD.init env0 fwd D ie fe de fs) ops = some st)
    (ha : ADSpec.lastStart ops = some a) (hb : ADSpec.lastGoal ops = some b) (hbs : bs ≠ [])
    (hd : fwd = false → DualAt (ADSpec.lastEnv env0 ops) b a)
    (hr : AD.replan st bs = .ok (st', res)) (hf : res.found = true) :
    res.cost < INFINITECOST ∧ ((res.path = [] ∧ 100000 < res.cost) ∨
      (FromTo res.path a b ∧ res.path.Nodup ∧
        ∃ n, PathCost ((ADSpec.lastEnv env0 ops).succs b) res.path n ∧ n ≤ res.cost)) := by
  obtain ⟨g, hf', hD, hEn, s0, gl, e1, e2, sp⟩ := spec he hE hok hrun ha hb hbs hd
  rw [hr] at sp
  have p := sp.path hf
  rw [hf', hEn, e1, e2] at p
  exact ⟨p.1, p.2.2⟩

/-- **C64, failure** A `replan` without success returns the empty path and reports no bound. -/
theorem replan_failure_empty (he : EnvAD env0 fwd m ab) (hE : EpsOk E D ie fe)
    (hok : HistOk F m ab E (AD.init env0 fwd D ie fe de fs) ops)
    (hrun : AD.run (AD.init env0 fwd D ie fe de fs) ops = some st)
    (ha : ADSpec.lastStart ops = some a) (hb : ADSpec.lastGoal ops = some b) (hbs : bs ≠ [])
    (hd : fwd = false → DualAt (ADSpec.lastEnv env0 ops) b a)
    (hr : AD.replan st bs = .ok (st', res)) (hf : res.found = false) : res.path = [] ∧ res.finalEps = none := by
  obtain ⟨g, hf', hD, hEn, s0, gl, e1, e2, sp⟩ := spec he hE hok hrun ha hb hbs hd
  rw [hr] at sp
  exact sp.nfound hf

/-- **C65** When AD* `replan` reports the bound `e / D`, the goal is found if it can be reached at all and the
reported cost is at most `E'` times the cost of every path of the current environment, for every integer
`E' ≥ e / D`: incremental repair after cost changes never leaves a stale bound. -/
theorem replan_bound (he : EnvAD env0 fwd m ab) (hE : EpsOk E D ie fe)
    (hok : HistOk True m ab E (AD.init env0 fwd D ie fe de fs) ops)
    (hrun : AD.run (AD.init env0 fwd D ie fe de fs) ops = some st)
    (ha : ADSpec.lastStart ops = some a) (hb : ADSpec.lastGoal ops = some b) (hbs : bs ≠ [])
    (hd : fwd = false → DualAt (ADSpec.lastEnv env0 ops) b a)
    (hr : AD.replan st bs = .ok (st', res)) {e E' c : Nat} (hfe : res.finalEps = some e) (hE1 : 1 ≤ E') (heE : e ≤ E' * D)
    (hp : PredsOk (ADSpec.lastEnv env0 ops) a) (w : Walk ((ADSpec.lastEnv env0 ops).succs b) a b c) :
    res.found = true ∧ res.cost ≤ E' * c := by
  obtain ⟨g, hf', hD, hEn, s0, gl, e1, e2, sp⟩ := spec he hE hok hrun ha hb hbs hd
  rw [hr] at sp
  obtain ⟨q1, q2, q3, q4⟩ := sp.sat trivial e hfe
  have envok : EnvAD (ADSpec.lastEnv env0 ops) fwd m ab := by rw [← hEn, ← hf']; exact g.env
  have w' : Walk (AD.ed (AD.grOf st.env st.fwd m ab s0 gl)) s0 gl c := by
    rw [hEn, hf']
    exact AD.walk_ed envok (by rw [e1]; exact hp) (by rw [e1, e2]; exact w)
  have := q4 ⟨E', 1⟩ (AD.epsC_int hE1 (by rw [hD]; exact heE)) c w'
  simp only at this
  exact ⟨q1, by omega⟩

/-- **C65, fractional eps** the reported cost is at most (e / D + 1 / m) times the cost of every path, where every
edge costs at least `m`. -/
theorem replan_bound_fractional (he : EnvAD env0 fwd m ab) (hE : EpsOk E D ie fe)
    (hok : HistOk True m ab E (AD.init env0 fwd D ie fe de fs) ops)
    (hrun : AD.run (AD.init env0 fwd D ie fe de fs) ops = some st)
    (ha : ADSpec.lastStart ops = some a) (hb : ADSpec.lastGoal ops = some b) (hbs : bs ≠ [])
    (hd : fwd = false → DualAt (ADSpec.lastEnv env0 ops) b a)
    (hr : AD.replan st bs = .ok (st', res)) {e c : Nat} (hfe : res.finalEps = some e)
    (hp : PredsOk (ADSpec.lastEnv env0 ops) a) (w : Walk ((ADSpec.lastEnv env0 ops).succs b) a b c) :
    res.found = true ∧ D ≤ e ∧ e ≤ E * D ∧ D * m * res.cost ≤ (e * m + D) * c := by
  obtain ⟨g, hf', hD, hEn, s0, gl, e1, e2, sp⟩ := spec he hE hok hrun ha hb hbs hd
  rw [hr] at sp
  obtain ⟨q1, q2, q3, q4⟩ := sp.sat trivial e hfe
  have envok : EnvAD (ADSpec.lastEnv env0 ops) fwd m ab := by rw [← hEn, ← hf']; exact g.env
  have w' : Walk (AD.ed (AD.grOf st.env st.fwd m ab s0 gl)) s0 gl c := by
    rw [hEn, hf']
    exact AD.walk_ed envok (by rw [e1]; exact hp) (by rw [e1, e2]; exact w)
  rw [hD] at q2 q3 q4
  exact ⟨q1, q2, q3, q4 ⟨e * m + D, D * m⟩ (AD.epsC_frac hE.1 q2) c w'⟩

/-- **C66** If AD* `replan` reports failure although the clock interrupted no pass, then every path from start to goal
costs at least INFINITECOST / E, where `E` bounds the eps values requested. -/
theorem replan_failure_complete (he : EnvAD env0 fwd m ab) (hE : EpsOk E D ie fe)
    (hok : HistOk True m ab E (AD.init env0 fwd D ie fe de fs) ops)
    (hrun : AD.run (AD.init env0 fwd D ie fe de fs) ops = some st)
    (ha : ADSpec.lastStart ops = some a) (hb : ADSpec.lastGoal ops = some b) (hbs : bs ≠ [])
    (hd : fwd = false → DualAt (ADSpec.lastEnv env0 ops) b a)
    (hr : AD.replan st bs = .ok (st', res)) (hnt : NoTimeout bs res.traces) (hf : res.found = false)
    (hp : PredsOk (ADSpec.lastEnv env0 ops) a) {c : Nat} (w : Walk ((ADSpec.lastEnv env0 ops).succs b) a b c) :
    INFINITECOST ≤ E * c := by
  obtain ⟨g, hf', hD, hEn, s0, gl, e1, e2, sp⟩ := spec he hE hok hrun ha hb hbs hd
  rw [hr] at sp
  obtain ⟨e, q2, q3, q4⟩ := sp.nopath trivial hnt hf
  have envok : EnvAD (ADSpec.lastEnv env0 ops) fwd m ab := by rw [← hEn, ← hf']; exact g.env
  have w' : Walk (AD.ed (AD.grOf st.env st.fwd m ab s0 gl)) s0 gl c := by
    rw [hEn, hf']
    exact AD.walk_ed envok (by rw [e1]; exact hp) (by rw [e1, e2]; exact w)
  have hE1 : 1 ≤ E := by
    rcases Nat.eq_zero_or_pos E with z | z
    · have := hE.1; have := hE.2.1; subst z; omega
    · exact z
  have := q4 ⟨E, 1⟩ (AD.epsC_int hE1 q3) c w'
  simp only at this
  exact le_trans (by unfold INF; omega) this

/-- **C67** No pass (ComputePath call) of AD* expands a state more than twice, also after cost changes. -/
theorem replan_expands_twice (he : EnvAD env0 fwd m ab) (hE : EpsOk E D ie fe)
    (hok : HistOk F m ab E (AD.init env0 fwd D ie fe de fs) ops)
    (hrun : AD.run (AD.init env0 fwd D ie fe de fs) ops = some st)
    (ha : ADSpec.lastStart ops = some a) (hb : ADSpec.lastGoal ops = some b) (hbs : bs ≠ [])
    (hd : fwd = false → DualAt (ADSpec.lastEnv env0 ops) b a)
    (hr : AD.replan st bs = .ok (st', res)) : ∀ tr ∈ res.traces, ∀ s, tr.count s ≤ 2 := by
  obtain ⟨g, hf', hD, hEn, s0, gl, e1, e2, sp⟩ := spec he hE hok hrun ha hb hbs hd
  rw [hr] at sp
  exact sp.two

/-- **C69** The only exceptions AD* `replan` raises are those of a full OPEN heap or INCONS list: no history of covered
calls makes it expand a consistent state, insert twice, delete an absent state, miss a back pointer or meet an
underconsistent or non-decreasing state on the path. -/
theorem replan_exceptions (he : EnvAD env0 fwd m ab) (hE : EpsOk E D ie fe)
    (hok : HistOk F m ab E (AD.init env0 fwd D ie fe de fs) ops)
    (hrun : AD.run (AD.init env0 fwd D ie fe de fs) ops = some st)
    (ha : ADSpec.lastStart ops = some a) (hb : ADSpec.lastGoal ops = some b) (hbs : bs ≠ [])
    (hd : fwd = false → DualAt (ADSpec.lastEnv env0 ops) b a) {x : PErr}
    (hr : AD.replan st bs = .error x) : x = .heap .full ∨ x = .list .full := by
  obtain ⟨g, hf', hD, hEn, s0, gl, e1, e2, sp⟩ := spec he hE hok hrun ha hb hbs hd
  rw [hr] at sp
  exact sp

/-- **C69, costs_changed** The only exceptions `costs_changed` raises are those of a full OPEN heap or INCONS list. -/
theorem costsChanged_exceptions (he : EnvAD env0 fwd m ab) (hE : EpsOk E D ie fe)
    (hok : HistOk F m ab E (AD.init env0 fwd D ie fe de fs) ops)
    (hrun : AD.run (AD.init env0 fwd D ie fe de fs) ops = some st)
    {env' : PEnv} {sl pl : List Nat} {n : Nat} (hs : StepOk F m ab E st (.costsChanged env' sl pl n)) {x : PErr}
    (hr : AD.costsChanged st env' sl pl n = .error x) : x = .heap .full ∨ x = .list .full := by
  obtain ⟨g, t⟩ := AD.run_api ops (AD.init_api he hE.1 hE.2.1 hE.2.2) hok hrun
  have sp := AD.costsChanged_spec g hs
  rw [hr] at sp
  exact sp

/-- **C70** If no pass is cut short and enough passes are allowed, AD* `replan` ends with the requested final eps
satisfied, or reports that there is no path. -/
theorem replan_reaches_final_eps (he : EnvAD env0 fwd m ab) (hE : EpsOk E D ie fe)
    (hok : HistOk F m ab E (AD.init env0 fwd D ie fe de fs) ops)
    (hrun : AD.run (AD.init env0 fwd D ie fe de fs) ops = some st)
    (ha : ADSpec.lastStart ops = some a) (hb : ADSpec.lastGoal ops = some b) (hbs : bs ≠ [])
    (hd : fwd = false → DualAt (ADSpec.lastEnv env0 ops) b a)
    (hr : AD.replan st bs = .ok (st', res)) (hnt : NoTimeout bs res.traces)
    (hfirst : st.first = false) (hdec : 1 ≤ st.decEps)
    {M : Nat} (h1 : st.eps ≤ M + st.finalEps) (h2 : st.initEps ≤ M + st.finalEps) (h3 : M + 1 ≤ bs.length) :
    (∃ e, res.finalEps = some e ∧ e ≤ st.finalEps) ∨ res.found = false := by
  obtain ⟨g, hf', hD, hEn, s0, gl, e1, e2, sp⟩ := spec he hE hok hrun ha hb hbs hd
  rw [hr] at sp
  exact sp.live hnt hfirst hdec M h1 h2 h3

theorem follow_length {gl eg : Nat} {st : ARA} : ∀ (n s : Nat) {p : List Nat} {c : Nat},
    AD.follow gl eg n st s = .ok (some (p, c)) → p.length ≤ n + 1 := by
  intro n
  induction n with
  | zero =>
    intro s p c h
    unfold AD.follow at h
    split at h
    · cases h; simp
    · cases h
  | succ n ih =>
    intro s p c h
    unfold AD.follow at h
    split at h
    · cases h; simp
    · split at h
      · cases h
      · split at h
        · cases h
        · split at h
          · cases h
          · split at h
            · cases h
            · cases h
            next p' c' e =>
              cases h
              have := ih _ e
              simp only [List.length_cons]
              omega

/-- **C68** A path returned by AD* `replan` never has more than 100000 steps (any planner state whatsoever). -/
theorem replan_path_length (st : ARA) (bs : List Nat) (hr : AD.replan st bs = .ok (st', res)) :
    res.path.length ≤ 100001 := by
  unfold AD.replan at hr
  split at hr
  · cases hr
  · cases hr
  · split at hr
    · cases hr
    · split at hr
      · cases hr
      · split at hr
        · cases hr; simp
        · split at hr
          · cases hr
          next e =>
            cases hr
            show List.length _ ≤ _
            unfold AD.getSearchPath at e
            split at e
            · split at e
              · cases e
              · cases e; simp
              · split at e
                · cases e
                · cases e; simp
                next f => cases e; exact follow_length _ _ f
            · split at e
              · cases e
              · cases e; simp
              next f => cases e; exact follow_length _ _ f

/-- **C68, refuted expectation** "Success means a path is returned": if every path from start to goal has more than
100000 steps, then a successful `replan` returns the empty path. -/
theorem long_path_is_lost (he : EnvAD env0 fwd m ab) (hE : EpsOk E D ie fe)
    (hok : HistOk F m ab E (AD.init env0 fwd D ie fe de fs) ops)
    (hrun : AD.run (AD.init env0 fwd D ie fe de fs) ops = some st)
    (ha : ADSpec.lastStart ops = some a) (hb : ADSpec.lastGoal ops = some b) (hbs : bs ≠ [])
    (hd : fwd = false → DualAt (ADSpec.lastEnv env0 ops) b a)
    (hr : AD.replan st bs = .ok (st', res)) (hf : res.found = true)
    (hl : ∀ p n, FromTo p a b → PathCost ((ADSpec.lastEnv env0 ops).succs b) p n → 100001 < p.length) : res.path = [] := by
  rcases (replan_path_sound he hE hok hrun ha hb hbs hd hr hf).2 with h | ⟨h1, _, n, h2, _⟩
  · exact h.1
  · have := replan_path_length st bs hr
    have := hl _ _ h1 h2
    omega

end
end Sbpl.ADProps
