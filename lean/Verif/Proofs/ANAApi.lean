import Verif.Proofs.ANAPath
import Verif.Proofs.ARAApi
import Mathlib.Data.List.Dedup
/-! ANA*: replan and histories of interface calls. -/

namespace Sbpl.ANA
open GraphSpec Heap ANASpec
open PlannerSpec (EnvOk PredsOk HeurOk searchGraph)
open ARA (envGoal envStart walk_mono walk_cons walk_rev)

theorem SInv.next {st : ANA} {s0 gl : Nat} (i : SInv st s0 gl) (nx : Nat → Option Nat)
    (h : st.fwd = false → nx = st.next) : SInv { st with next := nx } s0 gl := by
  have pe : ({ st with next := nx } : ANA).ptr = st.ptr := by
    funext s; simp only [ptr]
    by_cases f : st.fwd = true
    · rw [if_pos f, if_pos f]
    · rw [if_neg f, if_neg f, h (by simpa using f)]
  refine ⟨i.start, i.goal, ⟨i.data.bp, i.data.ord, i.data.callLe, i.data.staleH⟩,
    ⟨i.core.startAcc, i.core.startG, i.core.gv, i.core.vInf, ?_, i.core.opnFin, i.core.bestLe⟩,
    ⟨i.live.hok, i.live.gG, i.live.vGoal, i.live.edge, i.live.pend⟩, i.epsOk, i.sat⟩
  intro s a b c
  obtain ⟨p, k, h1, h2, h3, h4⟩ := i.core.ptrOk s a b c
  exact ⟨p, k, by rw [pe]; exact h1, h2, h3, h4⟩

/-- budget that suffices for a graph with the states `U` -/
abbrev enough (U : List Nat) : Nat := (2 * INFINITECOST + 1) * U.length

structure RPost (st : ANA) (s0 gl : Nat) (bs : List Nat) (r : ANA) (res : Result) : Prop where
  inv : SInv r s0 gl
  swept : Swept r gl
  reinit : r.bReinit = false
  env : r.env = st.env
  fwd : r.fwd = st.fwd
  start : r.start = st.start
  goal : r.goal = st.goal
  first : r.first = st.first
  cost : res.cost = r.Ge gl
  eps : res.eps = r.epsSat
  noGoal : ∀ tr ∈ res.traces, gl ∉ tr
  reach : ∀ tr ∈ res.traces, ∀ s ∈ tr, ∃ c, Walk st.base s0 s c
  path : res.found = true →
    FromTo res.path (envStart st.fwd s0 gl) (envGoal st.fwd s0 gl) ∧ res.path.Nodup ∧
    ∃ n, PathCost (st.env.succs (envGoal st.fwd s0 gl)) res.path n ∧ n ≤ res.cost ∧ res.cost < INF
  nfound : res.found = false → res.path = [] ∧ res.cost = INF
  fin : ∀ U : List Nat, U.Nodup → (∀ u k, Walk st.base s0 u k → u ∈ U) → (∀ b ∈ bs, enough U < b) →
    st.first = false → enough U < bs.length → r.heap.size = 0 ∨ r.epsSat.1 ≤ r.epsSat.2
  finF : ∀ U : List Nat, U.Nodup → (∀ u k, Walk st.base s0 u k → u ∈ U) → (∀ b ∈ bs, enough U < b) →
    bs ≠ [] → r.heap.size = 0 ∨ r.epsSat.1 ≤ r.epsSat.2 ∨ res.found = true
  mono : st.bReinit = false → res.cost ≤ st.Ge gl ∧ (Cons st gl → FracLe res.eps st.epsSat)

theorem replan_spec {st : ANA} {s0 gl : Nat} (bs : List Nat) (d : Data st) (he : EnvOk st.env)
    (h0 : st.start = some s0) (hg : st.goal = some gl)
    (hl : st.bReinit = false → SInv st s0 gl ∧ Swept st gl) (hb : st.bReinit = true → bs ≠ []) :
    OkOr (st.replan bs) (fun r => RPost st s0 gl bs r.1 r.2) := by
  unfold replan
  rw [h0, hg]
  simp only
  have pre : OkOr (if st.bReinit = true then st.reinitFrom s0 else .ok st) (fun x => SInv x s0 gl ∧ x.bReinit = false ∧
      (Swept x gl ∨ (bs ≠ [] ∧ x.heap.size ≠ 0 ∧ x.epsSat.2 < x.epsSat.1)) ∧ x.env = st.env ∧ x.fwd = st.fwd ∧
      x.first = st.first ∧ (st.bReinit = false → x = st)) := by
    by_cases q : st.bReinit = true
    · rw [if_pos q]
      refine (reinitFrom_spec d h0 hg).imp ?_
      rintro x ⟨k1, k2, k3, k4, k5, k6, k7⟩
      exact ⟨k1, k2, .inr ⟨hb q, k3, by rw [k4]; decide⟩, k5, k6, k7, fun h => by rw [q] at h; cases h⟩
    · rw [if_neg q]
      have q : st.bReinit = false := by simpa using q
      exact ⟨(hl q).1, q, .inl (hl q).2, rfl, rfl, rfl, fun _ => rfl⟩
  cases e1 : (if st.bReinit = true then st.reinitFrom s0 else .ok st) with
  | error x => rw [e1] at pre; exact pre
  | ok x =>
    rw [e1] at pre
    obtain ⟨i1, r1, w1, k1, k2, k3, k4⟩ := pre
    have hex : EnvOk x.env := by rw [k1]; exact he
    have ls := searchLoop_spec bs i1 (envOk_nbr hex i1.goal)
    simp only
    cases e2 : searchLoop gl bs x with
    | error x => rw [e2] at ls; exact ls
    | ok q =>
      obtain ⟨y, trs⟩ := q
      rw [e2] at ls
      have ls : LPost x s0 gl bs y trs := ls
      have baseE : x.base = st.base := by
        funext s; simp only [base, k1, k2, i1.start, h0]
      have pos : Pos x := envOk_base hex
      have envE : y.env = st.env := ls.frame.env.trans k1
      have fwdE : y.fwd = st.fwd := ls.frame.fwd.trans k2
      have sw := ls.swept w1
      have ag := sw.acc
      have gi : y.g gl ≤ INF := Nat.le_trans (ls.inv.core.gv gl ag) (ls.inv.core.vInf gl ag)
      have startE : y.start = st.start := ls.inv.start.trans h0.symm
      have goalE : y.goal = st.goal := ls.inv.goal.trans hg.symm
      have firstE : y.first = st.first := ls.frame.first.trans k3
      have rch : ∀ tr ∈ trs, ∀ s ∈ tr, ∃ c, Walk st.base s0 s c := by
        intro tr ht s hs
        have := ls.rch pos tr ht s hs
        rw [baseE] at this; exact this
      have hmu : ∀ U : List Nat, (∀ u k, Walk st.base s0 u k → u ∈ U) → mu U x ≤ enough U := by
        intro U hU
        exact mu_le i1 pos (by rw [baseE]; exact hU)
      have fin1 : ∀ U : List Nat, U.Nodup → (∀ u k, Walk st.base s0 u k → u ∈ U) → (∀ b ∈ bs, enough U < b) →
          st.first = false → enough U < bs.length → y.heap.size = 0 ∨ y.epsSat.1 ≤ y.epsSat.2 := by
        intro U nd hU hbs hf hlen
        have := hmu U hU
        exact ls.fin pos U nd (by rw [baseE]; exact hU) (fun b hb => Nat.lt_of_le_of_lt this (hbs b hb))
          (by rw [k3]; exact hf) (Nat.lt_of_le_of_lt this hlen)
      have fin2 : ∀ U : List Nat, U.Nodup → (∀ u k, Walk st.base s0 u k → u ∈ U) → (∀ b ∈ bs, enough U < b) →
          bs ≠ [] → y.heap.size = 0 ∨ y.epsSat.1 ≤ y.epsSat.2 ∨ y.Ge gl < INF := by
        intro U nd hU hbs hne
        have := hmu U hU
        exact ls.finF pos U nd (by rw [baseE]; exact hU) (fun b hb => Nat.lt_of_le_of_lt this (hbs b hb)) hne
      have mono1 : st.bReinit = false → y.Ge gl ≤ st.Ge gl ∧ (Cons st gl → FracLe y.epsSat st.epsSat) := by
        intro hr
        have e := k4 hr
        subst e
        exact ⟨ls.frame.gLe gl, fun c => ls.mono (hl hr).2 c⟩
      simp only
      by_cases c1 : y.g gl = INFINITECOST
      · rw [if_pos c1]
        refine ⟨ls.inv, sw, ls.frame.bReinit.trans r1, envE, fwdE, startE, goalE, firstE, (Ge_acc ag).symm, rfl, ls.noGoal, rch,
          by simp, fun _ => ⟨rfl, c1⟩, fin1, ?_, ?_⟩
        · intro U nd hU hbs hne
          rcases fin2 U nd hU hbs hne with q | q | q
          · exact .inl q
          · exact .inr (.inl q)
          · rw [Ge_acc ag, c1] at q; exact absurd q (Nat.lt_irrefl _)
        · intro hr
          rw [← Ge_acc ag]; exact mono1 hr
      · rw [if_neg c1]
        have lt : y.g gl < INF := Nat.lt_of_le_of_ne gi c1
        obtain ⟨nx, p, n, q1, q2, q3, q4, q5, q6⟩ := getSearchPath_spec ls.inv (by rw [envE]; exact he) ag lt
        rw [q1]
        simp only
        rw [fwdE] at q3
        rw [fwdE, envE] at q5
        refine ⟨ls.inv.next nx q2, ⟨sw.acc, sw.low⟩, ls.frame.bReinit.trans r1, envE, fwdE, startE, goalE, firstE, (Ge_acc ag).symm, rfl,
          ls.noGoal, rch, fun _ => ⟨q3, q4, n, q5, q6, lt⟩, by simp, fin1, ?_, ?_⟩
        · intro U nd hU hbs hne
          exact .inr (.inr rfl)
        · intro hr
          show y.g gl ≤ _ ∧ _
          rw [← Ge_acc ag]; exact mono1 hr

/-- invariant between interface calls, relative to what the caller knows -/
structure Api (st : ANA) (fwd : Bool) (d : Hist) : Prop where
  data : Data st
  env : EnvOk st.env
  start : st.start = if fwd then d.start else d.goal
  goal : st.goal = if fwd then d.goal else d.start
  fwd : st.fwd = fwd
  reinit : st.bReinit = d.restart
  live : d.restart = false → d.changed = false → ∃ s0 gl, SInv st s0 gl ∧ Swept st gl

theorem init_api {env : PEnv} (he : EnvOk env) (fwd : Bool) : Api (init env fwd) fwd .new := by
  refine ⟨⟨?_, ?_, fun _ => Nat.le_refl _, fun _ _ => rfl⟩, he, by simp [init, Hist.new], by simp [init, Hist.new], rfl, rfl, by simp [Hist.new]⟩
  · constructor
    · intro i h1 h2; simp [init, Heap.mk0] at h2; omega
    · intro s h; simp [init, Heap.mk0] at h
  · intro i h1 h2; simp [init, Heap.mk0] at h2; omega

theorem replan_start {st : ANA} {bs : List Nat} {r : ANA × Result} (h : st.replan bs = .ok r) :
    ∃ s0 gl, st.start = some s0 ∧ st.goal = some gl := by
  unfold replan at h
  split at h
  · cases h
  · cases h
  next s0 gl h0 hg => exact ⟨s0, gl, h0, hg⟩

theorem Api.live' {st : ANA} {fwd : Bool} {d : Hist} (a : Api st fwd d) {bs : List Nat} (hr : d.ready bs) {s0 gl : Nat}
    (h0 : st.start = some s0) (hg : st.goal = some gl) : (st.bReinit = false → SInv st s0 gl ∧ Swept st gl) ∧
    (st.bReinit = true → bs ≠ []) := by
  refine ⟨?_, fun h => hr.2 (by rw [← a.reinit]; exact h)⟩
  intro h
  have h' : d.restart = false := by rw [← a.reinit]; exact h
  obtain ⟨s0', gl', i, w⟩ := a.live h' (by
    cases q : d.changed
    · rfl
    · have := hr.1 q; rw [h'] at this; cases this)
  have e1 : s0' = s0 := by have := i.start; rw [h0] at this; cases this; rfl
  have e2 : gl' = gl := by have := i.goal; rw [hg] at this; cases this; rfl
  subst e1 e2
  exact ⟨i, w⟩

theorem api_setSearchStart {st : ANA} {fwd : Bool} {d : Hist} (a : Api st fwd d) (s : Nat) :
    Data (st.setSearchStart s) ∧ (st.setSearchStart s).env = st.env ∧ (st.setSearchStart s).fwd = st.fwd ∧
    (st.setSearchStart s).start = some s ∧ (st.setSearchStart s).goal = st.goal ∧
    (st.setSearchStart s).first = st.first ∧
    (st.start = some s → st.setSearchStart s = st) ∧ (st.start ≠ some s → (st.setSearchStart s).bReinit = true) := by
  unfold setSearchStart
  split
  next h => exact ⟨a.data, rfl, rfl, h, rfl, rfl, fun _ => rfl, fun q => absurd h q⟩
  next h =>
    exact ⟨⟨a.data.bp, a.data.ord, a.data.callLe, a.data.staleH⟩, rfl, rfl, rfl, rfl, rfl, fun q => absurd q h, fun _ => rfl⟩

theorem api_setSearchGoal {st : ANA} {fwd : Bool} {d : Hist} (a : Api st fwd d) (s : Nat) :
    Data (st.setSearchGoal s) ∧ (st.setSearchGoal s).env = st.env ∧ (st.setSearchGoal s).fwd = st.fwd ∧
    (st.setSearchGoal s).start = st.start ∧ (st.setSearchGoal s).goal = some s ∧
    (st.setSearchGoal s).first = st.first ∧ (st.setSearchGoal s).bReinit = st.bReinit ∧
    (st.goal = some s → st.setSearchGoal s = st) := by
  unfold setSearchGoal
  split
  next h => exact ⟨a.data, rfl, rfl, rfl, h, rfl, rfl, fun _ => rfl⟩
  next h =>
    exact ⟨⟨a.data.bp, a.data.ord, a.data.callLe, a.data.staleH⟩, rfl, rfl, rfl, rfl, rfl, rfl, fun q => absurd q h⟩

theorem step_api {st st' : ANA} {fwd : Bool} {d : Hist} (op : Op) (a : Api st fwd d) (ok : OpOk op)
    (hr : ∀ bs, op = .replan bs → d.ready bs) (h : st.step op = some st') :
    Api st' fwd (d.next fwd op) ∧ st'.first = lastMode st.first [op] ∧ st'.env = lastEnv st.env [op] := by
  cases op with
  | setStart s =>
    cases h
    refine ⟨?_, ?_⟩
    · unfold setStart
      cases fwd with
      | true =>
        rw [if_pos a.fwd]
        obtain ⟨b1, b2, b3, b4, b5, b6, b7, b8⟩ := api_setSearchStart a s
        have hs : st.start = d.start := a.start
        have hg : st.goal = d.goal := a.goal
        by_cases q : d.start = some s
        · rw [b7 (hs.trans q)]
          have : d.next true (.setStart s) = d := by simp [Hist.next, q]
          rw [this]; exact a
        · have : d.next true (.setStart s) = { d with start := some s, restart := true } := by simp [Hist.next, q]
          rw [this]
          exact ⟨b1, by rw [b2]; exact a.env, b4, b5.trans hg, b3.trans a.fwd, b8 (by rw [hs]; exact q), by simp⟩
      | false =>
        rw [if_neg (by rw [a.fwd]; simp)]
        obtain ⟨b1, b2, b3, b4, b5, b6, b7, b8⟩ := api_setSearchGoal a s
        have hs : st.start = d.goal := a.start
        have hg : st.goal = d.start := a.goal
        by_cases q : d.start = some s
        · rw [b8 (hg.trans q)]
          have : d.next false (.setStart s) = d := by simp [Hist.next, q]
          rw [this]; exact a
        · have : d.next false (.setStart s) = { d with start := some s, changed := true } := by simp [Hist.next, q]
          rw [this]
          exact ⟨b1, by rw [b2]; exact a.env, b4.trans hs, b5, b3.trans a.fwd, b7.trans a.reinit, by simp⟩
    · unfold setStart
      split
      · have b := api_setSearchStart a s; exact ⟨b.2.2.2.2.2.1, b.2.1⟩
      · have b := api_setSearchGoal a s; exact ⟨b.2.2.2.2.2.1, b.2.1⟩
  | setGoal s =>
    cases h
    refine ⟨?_, ?_⟩
    · unfold setGoal
      cases fwd with
      | true =>
        rw [if_pos a.fwd]
        obtain ⟨b1, b2, b3, b4, b5, b6, b7, b8⟩ := api_setSearchGoal a s
        have hs : st.start = d.start := a.start
        have hg : st.goal = d.goal := a.goal
        by_cases q : d.goal = some s
        · rw [b8 (hg.trans q)]
          have : d.next true (.setGoal s) = d := by simp [Hist.next, q]
          rw [this]; exact a
        · have : d.next true (.setGoal s) = { d with goal := some s, changed := true } := by simp [Hist.next, q]
          rw [this]
          exact ⟨b1, by rw [b2]; exact a.env, b4.trans hs, b5, b3.trans a.fwd, b7.trans a.reinit, by simp⟩
      | false =>
        rw [if_neg (by rw [a.fwd]; simp)]
        obtain ⟨b1, b2, b3, b4, b5, b6, b7, b8⟩ := api_setSearchStart a s
        have hs : st.start = d.goal := a.start
        have hg : st.goal = d.start := a.goal
        by_cases q : d.goal = some s
        · rw [b7 (hs.trans q)]
          have : d.next false (.setGoal s) = d := by simp [Hist.next, q]
          rw [this]; exact a
        · have : d.next false (.setGoal s) = { d with goal := some s, restart := true } := by simp [Hist.next, q]
          rw [this]
          exact ⟨b1, by rw [b2]; exact a.env, b4, b5.trans hg, b3.trans a.fwd, b8 (by rw [hs]; exact q), by simp⟩
    · unfold setGoal
      split
      · have b := api_setSearchGoal a s; exact ⟨b.2.2.2.2.2.1, b.2.1⟩
      · have b := api_setSearchStart a s; exact ⟨b.2.2.2.2.2.1, b.2.1⟩
  | costsChanged env =>
    cases h
    exact ⟨⟨⟨a.data.bp, a.data.ord, a.data.callLe, a.data.staleH⟩, ok, a.start, a.goal, a.fwd, rfl, by simp [Hist.next]⟩, rfl, rfl⟩
  | forceScratch =>
    cases h
    exact ⟨⟨⟨a.data.bp, a.data.ord, a.data.callLe, a.data.staleH⟩, a.env, a.start, a.goal, a.fwd, rfl, by simp [Hist.next]⟩, rfl, rfl⟩
  | setMode f =>
    cases h
    refine ⟨⟨⟨a.data.bp, a.data.ord, a.data.callLe, a.data.staleH⟩, a.env, a.start, a.goal, a.fwd, a.reinit, ?_⟩, rfl, rfl⟩
    intro h1 h2
    obtain ⟨s0, gl, i, w⟩ := a.live h1 h2
    exact ⟨s0, gl, ⟨i.start, i.goal, ⟨i.data.bp, i.data.ord, i.data.callLe, i.data.staleH⟩,
      ⟨i.core.startAcc, i.core.startG, i.core.gv, i.core.vInf, i.core.ptrOk, i.core.opnFin, i.core.bestLe⟩,
      ⟨i.live.hok, i.live.gG, i.live.vGoal, i.live.edge, i.live.pend⟩, i.epsOk, i.sat⟩, w.acc, w.low⟩
  | replan bs =>
    simp only [step] at h
    cases e : st.replan bs with
    | error x => rw [e] at h; cases h
    | ok r =>
      rw [e] at h
      cases h
      obtain ⟨s0, gl, h0, hg⟩ := replan_start e
      obtain ⟨l1, l2⟩ := a.live' (hr bs rfl) h0 hg
      have sp := replan_spec bs a.data a.env h0 hg l1 l2
      rw [e] at sp
      obtain ⟨r, res⟩ := r
      have sp : RPost st s0 gl bs r res := sp
      exact ⟨⟨sp.inv.data, by rw [sp.env]; exact a.env, sp.start.trans a.start, sp.goal.trans a.goal, sp.fwd.trans a.fwd,
        sp.reinit, fun _ _ => ⟨s0, gl, sp.inv, sp.swept⟩⟩, sp.first, sp.env⟩

/-- all calls of a history -/
def _root_.Sbpl.ANASpec.Hist.run (fwd : Bool) (d : Hist) : List Op → Hist
  | [] => d
  | op :: ops => (d.next fwd op).run fwd ops

theorem ready_cons {fwd : Bool} {bs : List Nat} {d : Hist} {op : Op} {ops : List Op} (h : Ready fwd bs d (op :: ops)) :
    (∀ bs', op = .replan bs' → d.ready bs') ∧ Ready fwd bs (d.next fwd op) ops := by
  cases op with
  | replan bs' => exact ⟨fun b e => by cases e; exact h.1, h.2⟩
  | _ => exact ⟨fun b e => (nomatch e), h⟩

theorem lastMode_cons (m : Bool) (op : Op) (ops : List Op) : lastMode m (op :: ops) = lastMode (lastMode m [op]) ops := by
  cases op <;> rfl
theorem lastEnv_cons (env : PEnv) (op : Op) (ops : List Op) : lastEnv env (op :: ops) = lastEnv (lastEnv env [op]) ops := by
  cases op <;> rfl

theorem run_api {fwd : Bool} {bs : List Nat} (ops : List Op) : ∀ {st st' : ANA} {d : Hist}, Api st fwd d →
    (∀ op ∈ ops, OpOk op) → Ready fwd bs d ops → st.run ops = some st' →
    Api st' fwd (d.run fwd ops) ∧ (d.run fwd ops).ready bs ∧ st'.first = lastMode st.first ops ∧
      st'.env = lastEnv st.env ops := by
  induction ops with
  | nil => intro st st' d a _ r h; cases h; exact ⟨a, r, rfl, rfl⟩
  | cons op ops ih =>
    intro st st' d a ok r h
    unfold run at h
    cases e : st.step op with
    | none => rw [e] at h; cases h
    | some st1 =>
      rw [e] at h
      obtain ⟨r1, r2⟩ := ready_cons r
      obtain ⟨a1, m1, e1⟩ := step_api op a (ok op (by simp)) r1 e
      obtain ⟨a2, r3, m2, e2⟩ := ih a1 (fun o ho => ok o (by simp [ho])) r2 h
      exact ⟨a2, r3, by rw [m2, m1, ← lastMode_cons], by rw [e2, e1, ← lastEnv_cons]⟩

theorem hist_start (fwd : Bool) (ops : List Op) : ∀ d : Hist, (d.run fwd ops).start = (lastStart ops).or d.start := by
  induction ops with
  | nil => intro d; simp [Hist.run, lastStart]
  | cons op ops ih =>
    intro d
    simp only [Hist.run]
    rw [ih]
    cases op with
    | setStart s =>
      have : (d.next fwd (.setStart s)).start = some s := by
        simp only [Hist.next]; split
        next h => exact h
        · rfl
      rw [this]
      simp only [lastStart]
      cases lastStart ops <;> rfl
    | setGoal s =>
      have : (d.next fwd (.setGoal s)).start = d.start := by simp only [Hist.next]; split <;> rfl
      rw [this]; rfl
    | _ => rfl

theorem hist_goal (fwd : Bool) (ops : List Op) : ∀ d : Hist, (d.run fwd ops).goal = (lastGoal ops).or d.goal := by
  induction ops with
  | nil => intro d; simp [Hist.run, lastGoal]
  | cons op ops ih =>
    intro d
    simp only [Hist.run]
    rw [ih]
    cases op with
    | setGoal s =>
      have : (d.next fwd (.setGoal s)).goal = some s := by
        simp only [Hist.next]; split
        next h => exact h
        · rfl
      rw [this]
      simp only [lastGoal]
      cases lastGoal ops <;> rfl
    | setStart s =>
      have : (d.next fwd (.setStart s)).goal = d.goal := by simp only [Hist.next]; split <;> rfl
      rw [this]; rfl
    | _ => rfl

/-- a walk of the environment's graph is a walk of the search graph -/
theorem walk_base {st : ANA} (he : EnvOk st.env) {s0 gl : Nat} (h0 : st.start = some s0) {c : Nat}
    (hp : st.fwd = false → PredsOk st.env (envStart st.fwd s0 gl))
    (w : Walk (st.env.succs (envGoal st.fwd s0 gl)) (envStart st.fwd s0 gl) (envGoal st.fwd s0 gl) c) :
    ∃ m, m ≤ c ∧ Walk st.base s0 gl m := by
  unfold envGoal envStart at w
  unfold envStart at hp
  by_cases f : st.fwd = true
  · simp only [if_pos f] at w
    have key : ∀ {u n}, Walk (st.env.succs gl) s0 u n → (∃ m, m ≤ n ∧ Walk st.base s0 u m) ∨ ∃ m, m ≤ n ∧ Walk st.base s0 gl m := by
      intro u n w
      induction w with
      | nil => exact .inl ⟨0, Nat.le_refl _, .nil⟩
      | @snoc b t n c w hm ih =>
        rcases ih with ⟨m, h1, h2⟩ | ⟨m, h1, h2⟩
        · by_cases q : b = gl
          · subst q; exact .inr ⟨m, by omega, h2⟩
          · refine .inl ⟨m + c, by omega, h2.snoc ?_⟩
            simp only [base, if_pos f]
            rw [he.goalIndep (b + 1) gl b (by omega) q]; exact hm
        · exact .inr ⟨m, by omega, h2⟩
    rcases key w with q | q <;> exact q
  · simp only [if_neg f] at w
    have hb : st.base = st.env.preds s0 := by
      funext s; simp only [base, if_neg f, h0, Option.getD_some]
    rw [hb]
    rw [if_neg f] at hp
    exact ⟨c, Nat.le_refl _, walk_rev (hp (by simpa using f) s0) w⟩

theorem adm_base {st : ANA} (he : EnvOk st.env) (hh : AdmOk st.env st.fwd) {s0 gl : Nat}
    (h0 : st.start = some s0) : Adm st gl := by
  unfold AdmOk at hh
  intro s n w
  by_cases f : st.fwd = true
  · simp only [if_pos f] at hh
    have key : ∀ {u n}, Walk st.base s u n → (∃ m, m ≤ n ∧ Walk (st.env.succs gl) s u m) ∨ ∃ m, m ≤ n ∧ Walk (st.env.succs gl) s gl m := by
      intro u n w
      induction w with
      | nil => exact .inl ⟨0, Nat.le_refl _, .nil⟩
      | @snoc b t n c w hm ih =>
        rcases ih with ⟨m, h1, h2⟩ | ⟨m, h1, h2⟩
        · by_cases q : b = gl
          · subst q; exact .inr ⟨m, by omega, h2⟩
          · refine .inl ⟨m + c, by omega, h2.snoc ?_⟩
            simp only [base, if_pos f] at hm
            rw [he.goalIndep (b + 1) gl b (by omega) q] at hm; exact hm
        · exact .inr ⟨m, by omega, h2⟩
    have hu : st.heur gl s = st.env.hGoal gl s := by simp only [heur, if_pos f]
    rw [hu]
    rcases key w with ⟨m, h1, h2⟩ | ⟨m, h1, h2⟩ <;> exact Nat.le_trans (hh gl s m h2) h1
  · simp only [if_neg f] at hh
    have hb : st.base = st.env.preds s0 := by
      funext s; simp only [base, if_neg f, h0, Option.getD_some]
    rw [hb] at w
    have hu : st.heur gl s = st.env.hStart gl s := by simp only [heur, if_neg f]
    rw [hu]
    exact hh s0 gl s n w

theorem cons_base {st : ANA} (he : EnvOk st.env) (hh : HeurOk st.env st.fwd) {s0 gl : Nat}
    (h0 : st.start = some s0) : Cons st gl := by
  unfold HeurOk at hh
  intro u t c hm
  by_cases f : st.fwd = true
  · simp only [if_pos f] at hh
    have hu : ∀ s, st.heur gl s = st.env.hGoal gl s := by intro s; simp only [heur, if_pos f]
    rw [hu, hu]
    by_cases q : u = gl
    · subst q; rw [(hh u).1]; omega
    · simp only [base, if_pos f] at hm
      rw [he.goalIndep (u + 1) gl u (by omega) q] at hm
      exact (hh gl).2 u t c hm
  · simp only [if_neg f] at hh
    have hu : ∀ s, st.heur gl s = st.env.hStart gl s := by intro s; simp only [heur, if_neg f]
    rw [hu, hu]
    simp only [base, if_neg f, h0, Option.getD_some] at hm
    exact (hh s0 gl).2 u t c hm

theorem walk_cons_le {succ : Nat → List (Nat × Nat)} {h : Nat → Nat} (hc : ∀ s t c, (t, c) ∈ succ s → h s ≤ h t + c)
    {a b n : Nat} (w : Walk succ a b n) : h a ≤ h b + n := by
  induction w with
  | nil => omega
  | snoc _ hm ih => have := hc _ _ _ hm; omega

theorem base_searchGraph {st : ANA} {fwd : Bool} {s0 gl b : Nat} (f : st.fwd = fwd) (h0 : st.start = some s0)
    (e2 : envGoal fwd s0 gl = b) : st.base = searchGraph st.env fwd b := by
  funext s
  unfold base searchGraph
  by_cases q : fwd = true
  · rw [f, if_pos q, if_pos q]
  · rw [f, if_neg q, if_neg q, h0]
    have : s0 = b := by rw [← e2]; simp [envGoal, q]
    rw [← this]; rfl

end Sbpl.ANA
