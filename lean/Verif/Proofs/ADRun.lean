import Verif.Proofs.ADApi
/-! AD*: histories of interface calls. -/

namespace Sbpl.AD
open GraphSpec ARA Heap PlannerSpec ADSpec

theorem init_api {F : Prop} {m : Nat} {ab : Option Nat} {E : Nat} {env : PEnv} {fwd : Bool} {D ie fe de : Nat} {fs : Bool}
    (he : EnvAD env fwd m ab) (dp : 0 < D) (hi : D ≤ ie ∧ ie ≤ E * D) (hf : D ≤ fe ∧ fe ≤ E * D) :
    Api F m ab E (init env fwd D ie fe de fs) := by
  have d := (ARA.init_api env fwd D ie fe de fs).data
  exact ⟨⟨d.bp, d.ord, d.lrel, d.callLe, d.staleH, d.staleL⟩, he, (fun _ gl h => by cases h), (fun h => by cases h), dp, hi, hf, hi,
    (fun e h => by cases h)⟩

theorem replan_start {st : ARA} {bs : List Nat} {r : ARA × Result} (h : replan st bs = .ok r) :
    ∃ s0 gl, st.start = some s0 ∧ st.goal = some gl := by
  unfold replan at h
  split at h
  · cases h
  · cases h
  next s0 gl h0 hg => exact ⟨s0, gl, h0, hg⟩

section
variable {F : Prop} {m : Nat} {ab : Option Nat} {E : Nat}

structure Tracks (a b : ARA) (ops : List Op) : Prop where
  fwd : b.fwd = a.fwd
  D : b.D = a.D
  start : b.planStart = (ADSpec.lastStart ops).or a.planStart
  goal : b.planGoal = (ADSpec.lastGoal ops).or a.planGoal
  env : b.env = ADSpec.lastEnv a.env ops

theorem setSearchGoal_fields (st : ARA) (s : Nat) : (setSearchGoal st s).fwd = st.fwd ∧ (setSearchGoal st s).D = st.D ∧
    (setSearchGoal st s).start = st.start ∧ (setSearchGoal st s).goal = some s ∧ (setSearchGoal st s).env = st.env := by
  unfold setSearchGoal
  split
  next h => exact ⟨rfl, rfl, rfl, h, rfl⟩
  · exact ⟨rfl, rfl, rfl, rfl, rfl⟩

theorem step_api {st st' : ARA} (op : Op) (i : Api F m ab E st) (ok : StepOk F m ab E st op) (h : step st op = some st') :
    Api F m ab E st' ∧ Tracks st st' [op] := by
  cases op with
  | setStart s =>
    cases h
    unfold setStart
    by_cases f : st.fwd = true
    · rw [if_pos f]
      obtain ⟨a, b, c, d, e⟩ := ARA.setSearchStart_fields st s
      exact ⟨setSearchStart_api i s, a, b, by simp [planStart, a, f, c, ADSpec.lastStart], by simp [planGoal, a, f, d, ADSpec.lastGoal], e⟩
    · rw [if_neg f]
      obtain ⟨a, b, c, d, e⟩ := setSearchGoal_fields st s
      exact ⟨setSearchGoal_api i s (fun x => absurd x f), a, b, by simp [planStart, a, f, d, ADSpec.lastStart],
        by simp [planGoal, a, f, c, ADSpec.lastGoal], e⟩
  | setGoal s =>
    cases h
    unfold setGoal
    by_cases f : st.fwd = true
    · rw [if_pos f]
      obtain ⟨a, b, c, d, e⟩ := setSearchGoal_fields st s
      exact ⟨setSearchGoal_api i s ok, a, b, by simp [planStart, a, f, c, ADSpec.lastStart], by simp [planGoal, a, f, d, ADSpec.lastGoal], e⟩
    · rw [if_neg f]
      obtain ⟨a, b, c, d, e⟩ := ARA.setSearchStart_fields st s
      exact ⟨setSearchStart_api i s, a, b, by simp [planStart, a, f, d, ADSpec.lastStart], by simp [planGoal, a, f, c, ADSpec.lastGoal], e⟩
  | costsChanged env sl pl n =>
    simp only [step] at h
    have cs := costsChanged_spec i ok
    cases e : costsChanged st env sl pl n with
    | error x => rw [e] at h; cases h
    | ok r =>
      rw [e] at h cs
      obtain ⟨st1, k⟩ := r
      cases h
      have cs : CPost F m ab E st env st' := cs
      refine ⟨cs.api, cs.fwd, cs.D, ?_, ?_, cs.env⟩
      · simp only [planStart, cs.fwd, cs.start, cs.goal]; rfl
      · simp only [planGoal, cs.fwd, cs.start, cs.goal]; rfl
  | forceScratch =>
    cases h
    exact ⟨⟨⟨i.data.bp, i.data.ord, i.data.lrel, i.data.callLe, i.data.staleH, i.data.staleL⟩, i.env, i.goalOk,
      (fun h => by cases h), i.dp, i.ini, i.fin, i.eps, i.satD⟩, rfl, rfl, rfl, rfl, rfl⟩
  | setParams a b c d =>
    cases h
    refine ⟨⟨⟨i.data.bp, i.data.ord, i.data.lrel, i.data.callLe, i.data.staleH, i.data.staleL⟩, i.env, i.goalOk, ?_, i.dp,
      ⟨ok.1, ok.2.1⟩, ⟨ok.2.2.1, ok.2.2.2⟩, i.eps, i.satD⟩, rfl, rfl, rfl, rfl, rfl⟩
    intro hr
    obtain ⟨s0, gl, l⟩ := i.live hr
    have p := l.p
    exact ⟨s0, gl, ⟨⟨⟨p.m.data.bp, p.m.data.ord, p.m.data.lrel, p.m.data.callLe, p.m.data.staleH, p.m.data.staleL⟩, p.m.mem,
      p.m.disj, p.m.it, p.m.opn, p.m.iterLe, p.m.inc, p.m.keys⟩,
      ⟨p.gr.base, p.gr.rev, p.gr.heur, p.gr.goal, p.gr.start, p.gr.nbr⟩, p.fresh, p.v, p.jn, p.cv, p.j, p.sat⟩, l.hok⟩
  | replan bs =>
    simp only [step] at h
    cases e : replan st bs with
    | error x => rw [e] at h; cases h
    | ok r =>
      rw [e] at h
      obtain ⟨st1, res⟩ := r
      cases h
      obtain ⟨s0, gl, h0, hg⟩ := replan_start e
      have sp := replan_spec bs i h0 hg ok.1 (fun f => ok.2 f gl s0 hg h0)
      rw [e] at sp
      have sp : RPost F m ab E st s0 gl bs (st', res) := sp
      have e1 := sp.fwd; have e2 := sp.start; have e3 := sp.goal
      simp only at e1 e2 e3
      refine ⟨sp.api, sp.fwd, sp.D, ?_, ?_, sp.env⟩
      · simp only [planStart, e1, e2, e3]; rfl
      · simp only [planGoal, e1, e2, e3]; rfl

theorem lastStart_cons (op : Op) (ops : List Op) :
    ADSpec.lastStart (op :: ops) = (ADSpec.lastStart ops).or (ADSpec.lastStart [op]) := by
  cases op <;> simp [ADSpec.lastStart]
theorem lastGoal_cons (op : Op) (ops : List Op) :
    ADSpec.lastGoal (op :: ops) = (ADSpec.lastGoal ops).or (ADSpec.lastGoal [op]) := by
  cases op <;> simp [ADSpec.lastGoal]
theorem lastEnv_cons (env : PEnv) (op : Op) (ops : List Op) :
    ADSpec.lastEnv env (op :: ops) = ADSpec.lastEnv (ADSpec.lastEnv env [op]) ops := by
  cases op <;> simp [ADSpec.lastEnv]

theorem run_api (ops : List Op) : ∀ {st st' : ARA}, Api F m ab E st → HistOk F m ab E st ops → run st ops = some st' →
    Api F m ab E st' ∧ Tracks st st' ops := by
  induction ops with
  | nil => intro st st' g _ h; cases h; exact ⟨g, rfl, rfl, by simp [ADSpec.lastStart], by simp [ADSpec.lastGoal], rfl⟩
  | cons op ops ih =>
    intro st st' g ok h
    unfold run at h
    cases e : step st op with
    | none => rw [e] at h; cases h
    | some st1 =>
      rw [e] at h
      obtain ⟨g1, t1⟩ := step_api op g ok.1 e
      obtain ⟨g2, t2⟩ := ih g1 (ok.2 st1 e) h
      refine ⟨g2, t2.fwd.trans t1.fwd, t2.D.trans t1.D, ?_, ?_, ?_⟩
      · rw [lastStart_cons op ops, Option.or_assoc, ← t1.start]; exact t2.start
      · rw [lastGoal_cons op ops, Option.or_assoc, ← t1.goal]; exact t2.goal
      · rw [t2.env, t1.env, ← lastEnv_cons]

/-- a walk of the environment's graph is a walk of the search graph -/
theorem walk_ed {env : PEnv} {fwd : Bool} (he : EnvAD env fwd m ab) {s0 gl c : Nat}
    (hp : PredsOk env (envStart fwd s0 gl))
    (w : Walk (env.succs (envGoal fwd s0 gl)) (envStart fwd s0 gl) (envGoal fwd s0 gl) c) :
    Walk (ed (grOf env fwd m ab s0 gl)) s0 gl c := by
  cases fwd with
  | true =>
    change PredsOk env s0 at hp
    change Walk (env.succs gl) s0 gl c at w
    have key : ∀ t n, Walk (env.succs gl) s0 t n → Walk (ed (grOf env true m ab s0 gl)) s0 t n := by
      intro t n w
      induction w with
      | nil => exact .nil
      | @snoc s t n c w hm ih =>
        refine ih.snoc (mem_ed.mpr ⟨?_, hp gl s t c n w hm⟩)
        show (t, c) ∈ env.succs (s + 1) s
        by_cases q : s = gl
        · subst q; exact he.ok.goalSub _ _ _ hm
        · rw [he.ok.goalIndep (s + 1) gl s (by omega) q]; exact hm
    exact key gl c w
  | false =>
    change PredsOk env gl at hp
    change Walk (env.succs s0) gl s0 c at w
    refine walk_rev ?_ w
    intro s t c n w hm
    exact mem_ed.mpr ⟨hp s0 s t c n w hm, hm⟩

theorem epsC_int {D e m E : Nat} (hE : 1 ≤ E) (he : e ≤ E * D) : EpsC D e m ⟨E, 1⟩ := by
  refine ⟨hE, ?_⟩
  intro h h' c _ hc
  have h1 := infl_mono (D := D) (e := e) hc
  have h2 := infl_add (D := D) (e := e) h' c he
  simp only
  omega

theorem epsC_frac {D e m : Nat} (hD : 0 < D) (he : D ≤ e) : EpsC D e m ⟨e * m + D, D * m⟩ := by
  refine ⟨Nat.le_trans (Nat.mul_le_mul_right m he) (Nat.le_add_right _ _), ?_⟩
  intro h h' c hm hc
  simp only
  have := upTo_of_consistent_min (succ := fun s => if s = 0 then [(1, c)] else []) (gl := 2)
    (h := fun s => if s = 0 then h else if s = 1 then h' else 0) (D := D) (e := e) (m := m) ?_ hD ?_ 0 1 c (by simp)
  · simpa [infl] using this
  · refine ⟨by simp, ?_⟩
    intro s t c' hmem
    by_cases q : s = 0
    · subst q; simp at hmem; obtain ⟨rfl, rfl⟩ := hmem; simpa using hc
    · simp [q] at hmem
  · intro s t c' hmem
    by_cases q : s = 0
    · subst q; simp at hmem; obtain ⟨rfl, rfl⟩ := hmem; exact hm
    · simp [q] at hmem

/-- all calls either succeed or report a full container -/
theorem step_total {st : ARA} (op : Op) (i : Api F m ab E st) (ok : StepOk F m ab E st op) (h : step st op = none) :
    (∃ bs e, op = .replan bs ∧ replan st bs = .error e ∧ (Cap e ∨ st.start = none ∨ st.goal = none)) ∨
    (∃ env sl pl n e, op = .costsChanged env sl pl n ∧ costsChanged st env sl pl n = .error e ∧ Cap e) := by
  cases op with
  | setStart s => cases h
  | setGoal s => cases h
  | forceScratch => cases h
  | setParams a b c d => cases h
  | costsChanged env sl pl n =>
    right
    have cs := costsChanged_spec i ok
    cases e : costsChanged st env sl pl n with
    | error x => rw [e] at cs; exact ⟨env, sl, pl, n, x, rfl, e, cs⟩
    | ok r => simp only [step] at h; rw [e] at h; cases h
  | replan bs =>
    left
    cases e : replan st bs with
    | ok r => simp only [step] at h; rw [e] at h; cases h
    | error x =>
      refine ⟨bs, x, rfl, e, ?_⟩
      cases h0 : st.start with
      | none => exact .inr (.inl rfl)
      | some s0 =>
        cases hg : st.goal with
        | none => exact .inr (.inr rfl)
        | some gl =>
          have sp := replan_spec bs i h0 hg ok.1 (fun f => ok.2 f gl s0 hg h0)
          rw [e] at sp
          exact .inl sp

end
end Sbpl.AD
