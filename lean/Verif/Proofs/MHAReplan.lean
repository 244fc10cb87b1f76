import Verif.Proofs.MHAApi
import Verif.Spec.MHA
/-! `replan` and histories of calls of the MHA* model. -/

namespace Sbpl.MHA
open GraphSpec Heap

/-- fields that a call of replan leaves alone -/
structure Keeps (a b : MHA) : Prop where
  env : b.env = a.env
  hs : b.hs = a.hs
  hcount : b.hcount = a.hcount
  D : b.D = a.D
  start : b.start = a.start
  goal : b.goal = a.goal
  ime : b.initEpsMha = a.initEpsMha
  me : b.maxExp = a.maxExp

/-- what a call of replan guarantees -/
structure ReplanPost (st : MHA) (p : Params) (budget s0 gl : Nat) (st' : MHA) (res : Result) : Prop where
  ok : Ok st' s0 gl 0 []
  keeps : Keeps st st'
  eps : st'.eps = p.initEps
  epsMha : st'.epsMha = st.initEpsMha
  exps : res.expansions = st'.trace.reverse
  succ : res.found = true → Found st' gl ∧ res.eps = some (p.initEps * st.initEpsMha) ∧ res.exhausted = false ∧
    ((st'.g gl < INF ∧ res.cost = st'.g gl ∧ FromTo res.path s0 gl ∧ res.path.Nodup ∧
        ∃ n, PathCost (st.env.succs gl) res.path n ∧ n ≤ st'.g gl) ∨
     (st'.g gl = INF ∧ res.cost = 0 ∧ res.path = [gl]))
  fail : res.found = false → res.path = [] ∧ res.cost = 0 ∧ res.eps = none ∧
    (res.exhausted = true → (st'.opn 0).size = 0) ∧
    (res.exhausted = false → st'.expLimit p = true ∨ budget ≤ st'.trace.length)
  num : p.first = false → 0 < st.maxExp → res.expansions.length < st.maxExp + max 1 st.hcount

theorem replan_post {st : MHA} (hb : Between st) {p : Params} (budget : Nat) {s0 gl : Nat} (h0 : st.start = some s0)
    (hg : st.goal = some gl) (hc : st.checkParams p = true) :
    OkOr (st.replan p budget) fun r => ReplanPost st p budget s0 gl r.1 r.2 := by
  unfold replan
  rw [if_neg (by simp [hc]), h0, hg]
  simp only
  have hp := prepare_ok hb p s0 gl
  cases e1 : st.prepare p s0 gl with
  | error er => rw [e1] at hp; exact hp
  | ok st1 =>
    rw [e1] at hp
    obtain ⟨o1, t1, _, s1, p1, p2, p3, p4, p5, p6, p7, p8, p9, p10⟩ := hp
    have hm := mainLoop_ok (p := p) budget o1 s1
    simp only
    cases e2 : mainLoop gl p budget st1 with
    | error er => rw [e2] at hm; exact hm
    | ok r =>
      obtain ⟨r, st2⟩ := r
      rw [e2] at hm
      obtain ⟨o2, f2, m1, m2, m3, m4⟩ := hm
      simp only at o2 f2 m1 m2 m3 m4
      have kp : Keeps st st2 := ⟨f2.env.trans p1, f2.hs.trans p2, f2.hcount.trans p3, f2.D.trans p4, f2.start.trans p7,
        f2.goal.trans p8, f2.ime.trans p9, f2.me.trans p10⟩
      have ee : st2.eps = p.initEps := f2.eps.trans p5
      have em : st2.epsMha = st.initEpsMha := f2.epsMha.trans p6
      have nm : p.first = false → 0 < st.maxExp → st2.trace.reverse.length < st.maxExp + max 1 st.hcount := by
        intro hf hm0
        have := mainLoop_numExp hf budget o1 (by rw [p10]; exact hm0) (by rw [o1.len, t1, p10]; simp [Nat.lt_add_right]) e2
        simp only [p10, p3] at this
        rw [List.length_reverse, ← o2.len]; exact this
      have bad : r ≠ .found → ReplanPost st p budget s0 gl st2
          ⟨false, [], 0, st2.epsSat, st2.trace.reverse, decide (r = .exhausted)⟩ := by
        intro hr
        refine ⟨o2, kp, ee, em, rfl, by simp, fun _ => ⟨rfl, rfl, m2 hr, fun h => m3 (by simpa using h), fun h => ?_⟩, nm⟩
        have : r = .limit := by
          cases r with
          | found => exact absurd rfl hr
          | exhausted => simp at h
          | limit => rfl
        have := m4 this
        rw [t1] at this
        simpa using this
      cases r with
      | exhausted => exact bad (by simp)
      | limit => exact bad (by simp)
      | found =>
        have fd := m1 rfl
        simp only
        have fe : st2.epsSat = some (p.initEps * st.initEpsMha) := by rw [fd.1, ee, em]
        by_cases gi : st2.g gl < INF
        · obtain ⟨l, n, d, x1, x2, x3, x4, x5, x6, x7, x8⟩ := extract_spec o2 (o2.chain gl o2.accG gi) o2.accG
          have hl : l.length < st2.numExp + 1 := by
            rw [o2.len]
            have : l.length ≤ (st2.trace.map Prod.fst).length :=
              ARA.nodup_length_le (List.nodup_cons.mp x5).2 (fun y hy => by
                obtain ⟨b, hb⟩ := x3 y hy
                exact List.mem_map.mpr ⟨_, hb, rfl⟩)
            simp at this; omega
          rw [x8 _ hl]
          refine ⟨o2, kp, ee, em, rfl, fun _ => ⟨fd, fe, rfl, .inl ⟨gi, rfl, ⟨?_, ?_⟩, ?_, n, ?_, x7⟩⟩, by simp, nm⟩
          · simp only [List.head?_reverse]; exact x2
          · simp
          · exact List.nodup_reverse.mpr x5
          · rw [← kp.env]; exact x6
        · have gi' : st2.g gl = INF := by
            have := o2.gv gl o2.accG; have := o2.vle gl o2.accG; omega
          have hn := o2.infBp gl o2.accG gi'
          simp only [extract, hn]
          exact ⟨o2, kp, ee, em, rfl, fun _ => ⟨fd, fe, rfl, .inr ⟨gi', rfl, rfl⟩⟩, by simp, nm⟩

theorem Ok.between {st : MHA} {s0 gl x : Nat} {es : List (Nat × Nat)} (o : Ok st s0 gl x es) : Between st :=
  ⟨o.heap, o.callLe⟩

theorem init_between (env : PEnv) (hs : Nat → Nat → Nat → Nat) (hcount D : Nat) : Between (init env hs hcount D) := by
  refine ⟨fun i _ => ?_, fun _ => Nat.le_refl _⟩
  refine ⟨⟨?_, ?_⟩, ?_⟩
  · intro i h1 h2; simp [init, Heap.mk0] at h2; omega
  · intro s h; simp [init, Heap.mk0] at h
  · intro i h1 h2; simp [init, Heap.mk0] at h2; omega

theorem step_between {st st' : MHA} (hb : Between st) (op : Op) (h : st.step op = some st') : Between st' := by
  cases op with
  | replan p b =>
    simp only [step] at h
    split at h
    next st1 r e =>
      cases h
      by_cases hc : st.checkParams p = true
      · cases h0 : st.start with
        | none => simp [MHA.replan, hc, h0] at e
        | some s0 =>
          cases hg : st.goal with
          | none => simp [MHA.replan, hc, h0, hg] at e
          | some gl =>
            have := replan_post hb b h0 hg hc
            rw [e] at this
            exact this.ok.between
      · have hc' : st.checkParams p = false := by simpa using hc
        simp [MHA.replan, hc'] at e
        obtain ⟨rfl, _⟩ := e
        exact hb
    next => cases h
  | setStart s => cases h; exact ⟨hb.heap, hb.callLe⟩
  | setGoal s => cases h; exact ⟨hb.heap, hb.callLe⟩
  | setEnv e hs => cases h; exact ⟨hb.heap, hb.callLe⟩
  | setMhaEps e => cases h; exact ⟨hb.heap, hb.callLe⟩
  | setMaxExp n => cases h; exact ⟨hb.heap, hb.callLe⟩

theorem run_between (ops : List Op) : ∀ {st st' : MHA}, Between st → st.run ops = some st' → Between st' := by
  induction ops with
  | nil => intro st st' hb h; cases h; exact hb
  | cons op ops ih =>
    intro st st' hb h
    unfold run at h
    split at h
    · cases h
    next st1 e => exact ih (step_between hb op e) h

/-! ## what the calls set -/

open MHASpec

structure Tracks (a b : MHA) (ops : List Op) : Prop where
  start : b.start = (lastStart ops).or a.start
  goal : b.goal = (lastGoal ops).or a.goal
  env : b.env = (lastEnv a.env a.hs ops).1
  hs : b.hs = (lastEnv a.env a.hs ops).2
  ime : b.initEpsMha = lastMhaEps a.initEpsMha ops
  me : b.maxExp = lastMaxExp a.maxExp ops
  hcount : b.hcount = a.hcount
  D : b.D = a.D

theorem replan_keeps {st st' : MHA} {p : Params} {b : Nat} {r : Result} (hb : Between st)
    (e : st.replan p b = .ok (st', r)) : Keeps st st' := by
  by_cases hc : st.checkParams p = true
  · cases h0 : st.start with
    | none => simp [MHA.replan, hc, h0] at e
    | some s0 =>
      cases hg : st.goal with
      | none => simp [MHA.replan, hc, h0, hg] at e
      | some gl =>
        have := replan_post hb b h0 hg hc
        rw [e] at this
        exact this.keeps
  · have hc' : st.checkParams p = false := by simpa using hc
    simp [MHA.replan, hc'] at e
    obtain ⟨rfl, _⟩ := e
    exact ⟨rfl, rfl, rfl, rfl, rfl, rfl, rfl, rfl⟩

theorem run_tracks (ops : List Op) : ∀ {st st' : MHA}, Between st → st.run ops = some st' → Tracks st st' ops := by
  induction ops with
  | nil => intro st st' _ h; cases h; exact ⟨rfl, rfl, rfl, rfl, rfl, rfl, rfl, rfl⟩
  | cons op ops ih =>
    intro st st' hb h
    unfold run at h
    split at h
    · cases h
    next st1 e =>
      have t := ih (step_between hb op e) h
      cases op with
      | replan p b =>
        simp only [step] at e
        split at e
        next st2 r q =>
          cases e
          have k := replan_keeps hb q
          refine ⟨?_, ?_, ?_, ?_, ?_, ?_, ?_, ?_⟩
          · rw [t.start, k.start]; rfl
          · rw [t.goal, k.goal]; rfl
          · rw [t.env, k.env, k.hs]; rfl
          · rw [t.hs, k.env, k.hs]; rfl
          · rw [t.ime, k.ime]; rfl
          · rw [t.me, k.me]; rfl
          · rw [t.hcount, k.hcount]
          · rw [t.D, k.D]
        next => cases e
      | setStart s =>
        cases e
        refine ⟨?_, t.goal, t.env, t.hs, t.ime, t.me, t.hcount, t.D⟩
        rw [t.start]; simp [lastStart, Option.or_assoc]
      | setGoal s =>
        cases e
        refine ⟨t.start, ?_, t.env, t.hs, t.ime, t.me, t.hcount, t.D⟩
        rw [t.goal]; simp [lastGoal, Option.or_assoc]
      | setEnv e1 hs1 => cases e; exact ⟨t.start, t.goal, t.env, t.hs, t.ime, t.me, t.hcount, t.D⟩
      | setMhaEps e1 => cases e; exact ⟨t.start, t.goal, t.env, t.hs, t.ime, t.me, t.hcount, t.D⟩
      | setMaxExp n => cases e; exact ⟨t.start, t.goal, t.env, t.hs, t.ime, t.me, t.hcount, t.D⟩

end Sbpl.MHA
